import Verif.Lemma.Same
import Verif.Props.Open
import Verif.Props.Accept

/-!
# Member order, and `verify_value`

C75 (`verify_value` against `verify`), C77 (the order of members and the spelling of strings, and what an
escape in a signature does).
-/

namespace Verif

open Spec

/-! ## C77 -/

theorem ofText_same {F : Str → Option Str} {s s' : Str} {j j' : Json} (h : parseJson s = some j)
    (h' : parseJson s' = some j') (hs : Same F j j') : Message.ofText F s = Message.ofText F s' := by
  simp only [Message.ofText, h, h', stable_decMessage j j' hs]

theorem messageType_same {P : Prims} {s s' : Str} {j j' : Json} (h : parseJson s = some j)
    (h' : parseJson s' = some j') (hs : Same P.f64 j j') : Message.messageType P s = Message.messageType P s' := by
  have hu : Stable P.f64 (fun _ : Json => some ()) := fun _ _ _ => rfl
  unfold Message.messageType
  rw [ofText_same h h' hs, h, h']
  rcases structEntries_rel (fs := [c!"signature", c!"signatures", c!"iv"]) 3 (by decide) hs with
    ⟨h1, h2⟩ | ⟨es, es', h1, h2, h3⟩
  · simp only [Res.ofOpt_some, Res.bind_ok, h1, h2]
  · simp only [Res.ofOpt_some, Res.bind_ok, h1, h2, Message.presence, optField_same hu h3]

theorem verify_congr {P : Prims} {s s' : Str} (h : Jws.ofText P.f64 s = Jws.ofText P.f64 s') (o : HOrd)
    (key : Bytes) : Message.verify P o (utf8 s) key = Message.verify P o (utf8 s') key := by
  unfold Message.verify
  rw [jws_ofBytes_utf8, jws_ofBytes_utf8, h]

theorem receive_same {P : Prims} {o : HOrd} {s s' : Str} {j j' : Json} (hp : parseJson s = some j)
    (hp' : parseJson s' = some j') (hs : Same P.f64 j j') (hjws : Jws.ofText P.f64 s = Jws.ofText P.f64 s')
    (sk ek vk : Option Bytes) :
    Message.receive P o s sk ek vk = Message.receive P o s' sk ek vk := by
  have hjwe : Jwe.ofText P.f64 s = Jwe.ofText P.f64 s' := by
    simp only [Jwe.ofText, hp, hp', stable_decJwe j j' hs]
  have hmsg := ofText_same hp hp' hs
  have ht := messageType_same hp hp' hs
  cases hmt : Message.messageType P s with
  | ok t =>
    by_cases hj : t = .jwe
    · subst hj
      exact receive_congr hmt (ht ▸ hmt) hjwe
    · have hv : ∀ o k, Message.verify P o (utf8 s) k = Message.verify P o (utf8 s') k := fun o k =>
        verify_congr hjws o k
      have hve : ∀ (l : List Signature) (o : HOrd), Message.verifyEach P (utf8 s) vk o l =
          Message.verifyEach P (utf8 s') vk o l := by
        intro l
        induction l with
        | nil => intro o; rfl
        | cons a l ih => intro o; simp only [Message.verifyEach, ih, hv]
      have hvo : ∀ o, Message.verifiedOf P o s vk = Message.verifiedOf P o s' vk := by
        intro o
        simp only [Message.verifiedOf, hmsg, hjws, hve]
      have hrj : ∀ o, Message.receiveJws P o s vk = Message.receiveJws P o s' vk := by
        intro o
        simp only [Message.receiveJws, hvo]
      simp only [Message.receive, Message.decryptStep, hmt, ht ▸ hmt, Res.bind_ok, if_neg hj, Message.verifyStep, hrj]
      by_cases hw : t = .jws
      · simp only [if_pos hw]
      · simp only [if_neg hw, Res.bind_ok, hmsg]
  | err e =>
    simp only [Message.receive, Message.decryptStep, hmt, ht ▸ hmt, Res.bind_err]
  | panic =>
    simp only [Message.receive, Message.decryptStep, hmt, ht ▸ hmt, Res.bind_panic]

theorem stable_sigBytes {F : Str → Option Str} : Stable F sigBytes :=
  structEntries_same 2 (by decide) fun _ _ h => dfltField_same stable_decBufferB64 h _

theorem borrowed_same {F : Str → Option Str} {jm jm' : Json} (h : Same F jm jm') (jws : Jws) :
    borrowed jm jws = borrowed jm' jws := by
  have : Stable F fun jm => borrowed jm jws := by
    refine mapEntries_same fun es es' h => ?_
    simp only [optField_same (stable_decVec stable_sigBytes) h, dfltField_same stable_decBufferB64 h]
  exact this jm jm' h

/-- C77 for texts in which the same strings are written with escapes (`jm` and `jm'` show which): the order
of the members of a document, at whatever place, does not matter to `receive`, nor do white space and the
way floats are written. -/
theorem C77_member_order (P : Prims) (o : HOrd) (s s' : Str) (j j' jm jm' : Json) (h : Document j s)
    (h' : Document j' s') (hs : Same P.f64 j j') (hm : DocumentW struck jm s) (hm' : DocumentW struck jm' s')
    (hsm : Same P.f64 jm jm') (sk ek vk : Option Bytes) :
    Message.receive P o s sk ek vk = Message.receive P o s' sk ek vk := by
  have hp := parseJson_iff.2 h
  have hp' := parseJson_iff.2 h'
  refine receive_same hp hp' hs ?_ sk ek vk
  simp only [Jws.ofText, hp, hp', parseStruck_iff.2 hm, parseStruck_iff.2 hm', Option.bind_eq_bind, Option.bind_some,
    stable_decJws j j' hs, borrowed_same hsm]

/-- C77, what holds when escapes differ: if no signature is written with escapes, the order of members,
white space, escapes in all other strings and the way floats are written do not matter to `receive`. -/
theorem C77_spelling_partial (P : Prims) (o : HOrd) (s s' : Str) (j j' : Json) (h : Document j s)
    (h' : Document j' s') (hs : Same P.f64 j j') (hq : SignaturesPlain s) (hq' : SignaturesPlain s')
    (sk ek vk : Option Bytes) :
    Message.receive P o s sk ek vk = Message.receive P o s' sk ek vk := by
  have hp := parseJson_iff.2 h
  have hp' := parseJson_iff.2 h'
  refine receive_same hp hp' hs ?_ sk ek vk
  rw [jws_ofText_plain hp hq, jws_ofText_plain hp' hq', stable_decJws j j' hs]

/-! ### A signature written with an escape -/

/-- The inside of a literal whose first character is written as an escape. -/
def escFirst : Str → Str
  | [] => []
  | c :: r => ['\\', 'u', '0', '0', hexDigit (c.toNat / 16), hexDigit (c.toNat % 16)] ++ r.flatMap escChar

theorem escFirst_body {c : Char} {r : Str} (h : c.toNat < 256) : StrBody (c :: r) (escFirst (c :: r)) := by
  refine StrBody.unicode (u := ['0', '0', hexDigit (c.toNat / 16), hexDigit (c.toNat % 16)]) ?_ (strBody_print r)
  exact ⟨'0', '0', _, _, 0, 0, c.toNat / 16, c.toNat % 16, rfl, by decide, by decide,
      hexDigit_mem _ (by omega), hexDigit_mem _ (by omega), by omega⟩

/-- Writes the string `x` with an escape, all others as usual. -/
def escOne (x s : Str) : Str := if s = x then escFirst s else s.flatMap escChar

theorem escOne_body {x : Bytes} (s : Str) : StrBody s (escOne (b64Encode x) s) := by
  unfold escOne
  split
  · rename_i h
    cases s with
    | nil => exact .nil
    | cons c r =>
      refine escFirst_body ?_
      obtain ⟨n, hn, rfl⟩ := b64Encode_chars x c (by rw [← h]; simp)
      have key : ∀ n, n < 64 → (b64Char n).toNat < 256 := by decide
      exact key n hn
  · exact strBody_print s

theorem escOne_self {x : Bytes} (h : x ≠ []) :
    (escOne (b64Encode x) (b64Encode x)).contains '\\' = true := by
  unfold escOne
  rw [if_pos rfl]
  cases hx : b64Encode x with
  | nil => 
    have := b64Encode_length x
    rw [hx] at this
    cases x with
    | nil => exact absurd rfl h
    | cons a l => simp only [List.length_nil, List.length_cons] at this; omega
  | cons c r => rfl

/-- The same JWS document, its signature written with one escape. -/
def escapedText (o : HOrd) (j : Jws) (sig : Bytes) : Str := printAs (escOne (b64Encode sig)) (encJws o j)

theorem escaped_parse (o : HOrd) (j : Jws) (sig : Bytes) :
    parseJson (escapedText o j sig) = some (encJws o j) ∧
    parseStruck (escapedText o j sig) = some (mapStr (escOne (b64Encode sig)) struck (encJws o j)) := by
  have hn : NumsOk (encJws o j) := (nice_jws (F := fun t => some t) o j).2.1
  have h := fun mk => printAs_text (mk := mk) (escOne_body (x := sig)) (encJws o j) hn
  refine ⟨?_, ?_⟩
  · have := h fun _ s => .str s
    rw [mapStr_id] at this
    exact parseJson_iff.2 ⟨[], _, [], ws_nil, this, ws_nil, by simp [escapedText]⟩
  · exact parseStruck_iff.2 ⟨[], _, [], ws_nil, h struck, ws_nil, by simp [escapedText]⟩

/-- Nothing can be made of it. -/
theorem escaped_signatures {F : Str → Option Str} (o : HOrd) (m : Message) (p : Str) {sig : Bytes} (h : sig ≠ [])
    (hto : m.didcomm.to ≠ []) {j : Jws} (hj : Jws.ofText F (escapedText o (jwsOf m p sig) sig) = some j) :
    j.signatures = none ∧ j.signature = none := by
  obtain ⟨t, jm, jws, h1, h2, h3, h4⟩ := ofText_decJws hj
  rw [(escaped_parse o _ sig).1] at h1
  rw [(escaped_parse o _ sig).2] at h2
  obtain rfl := Option.some.inj h1
  obtain rfl := Option.some.inj h2
  have he := escOne_self h
  unfold jwsOf at h3 h4
  split at h4
  · rename_i hf
    simp only [hf, if_true, encJws, flatSignature, signatureEntries, signatureOf, optE, List.nil_append,
      List.singleton_append, List.append_nil] at h3 h4
    simp only [mapStr, mapStrM, he, struck, if_true, borrowed, mapEntries, Option.bind_eq_bind, Option.bind_some,
      Option.bind_eq_some_iff, Option.pure_def, Option.some.injEq] at h4
    obtain ⟨_, -, rfl⟩ := h4
    simp only [decJws, mapEntries, Option.bind_eq_bind, Option.bind_some, Option.bind_eq_some_iff, Option.pure_def,
      Option.some.injEq] at h3
    obtain ⟨_, -, sg, hsg, -, -, rfl⟩ := h3
    refine ⟨?_, rfl⟩
    unfold optField at hsg
    rw [fieldVals_none] at hsg
    · exact (Option.some.inj hsg).symm
    · intro p hp
      simp only [List.mem_cons, List.not_mem_nil, or_false] at hp
      rcases hp with rfl | rfl | rfl <;> simp
  · exfalso
    cases ht : m.didcomm.to with
    | nil => exact hto ht
    | cons x l =>
      simp only [ht, encJws, flatSignature, List.map_cons, encList, encSignature, signatureEntries, signatureOf, optE,
        List.nil_append, List.singleton_append] at h4
      simp only [mapStr, mapStrM, mapStrL, he, struck, if_true, borrowed, mapEntries, Option.bind_eq_bind,
        Option.bind_some, Option.bind_eq_some_iff] at h4
      obtain ⟨r, hr, -⟩ := h4
      cases hr

/-- C77, as written, is false: for every signed message there is a second text of the same document, its
signature written with one escape, that `verify` and `receive` refuse under every key, although the first
text is verified and received. -/
theorem C77_escaped_signature_violated (P : Prims) (a : SignAlg) (sk pk : Bytes) (hpair : SignPair P a sk pk)
    (hne : ∀ b s, P.sign a sk b = some s → s ≠ []) (m : Message) (hm : m.WF P.f64) (hf : HeaderFixed m.jwm)
    (o : HOrd) (flat : Bool) :
    ∃ t t' j, ({ m with flatJws := flat }.asJws a).sign o (a.signer P) sk = .ok t ∧ Document j t ∧ Document j t' ∧
      (∀ o', ∃ m', Message.verify P o' (utf8 t) pk = .ok m') ∧
      (∀ o', ∃ m', Message.receive P o' t none none (some pk) = .ok m') ∧
      (∀ o' key m', Message.verify P o' (utf8 t') key ≠ .ok m') ∧
      ∀ o' dk ek vk m', Message.receive P o' t' dk ek vk ≠ .ok m' := by
  have hm' : Message.WF P.f64 { m with flatJws := flat } :=
    ⟨hm.jwm, hm.other, hm.to, hm.recipients, hm.canon, hm.nums, hm.depth⟩
  obtain ⟨t, ht, hv⟩ := C24_sign_verify P a sk pk hpair { m with flatJws := flat } hm' hf o o
  obtain ⟨-, sig, hsig, htx⟩ := sign_ok ht
  have hs : sig ≠ [] := by
    unfold SignAlg.signer at hsig
    rw [Res.ofOpt_eq_ok] at hsig
    exact hne _ _ hsig
  have hrej := fun j => escaped_signatures (F := P.f64) (o.sub 2) ({ m with flatJws := flat }.asJws a)
    (payloadText (o.sub 1) ({ m with flatJws := flat }.asJws a)) hs hm.to (j := j)
  have hpr := (escaped_parse (o.sub 2) (jwsOf ({ m with flatJws := flat }.asJws a)
    (payloadText (o.sub 1) ({ m with flatJws := flat }.asJws a)) sig) sig).1
  have hcl := jwsOf_class (P := P) (o.sub 2) ({ m with flatJws := flat }.asJws a)
    (payloadText (o.sub 1) ({ m with flatJws := flat }.asJws a)) sig
  have hp := parse_jws (o.sub 2) (jwsOf ({ m with flatJws := flat }.asJws a)
    (payloadText (o.sub 1) ({ m with flatJws := flat }.asJws a)) sig)
  rw [← htx] at hp hcl
  generalize escapedText (o.sub 2) _ sig = t' at hrej hpr
  have hof : Message.ofText P.f64 t' = none := by
    rw [← hcl.2]; simp only [Message.ofText, hp, hpr]
  have hmt : Message.messageType P t' = .ok .jws := by
    rw [← hcl.1]; simp only [Message.messageType, hp, hpr, hof, hcl.2]
  have hve : ∀ o' key m', Message.verify P o' (utf8 t') key ≠ .ok m' := by
    intro o' key m' h
    obtain ⟨j, x, l, alg, h1, h2, -⟩ := verify_ok_first h
    obtain ⟨h3, h4⟩ := hrej j h1
    simp only [Message.signaturesOf, h3, h4] at h2
    cases h2
  refine ⟨t, t', _, ht, parseJson_iff.1 hp, parseJson_iff.1 hpr, ?_, ?_, hve, ?_⟩
  · intro o'
    obtain ⟨t2, h2, h3⟩ := C24_sign_verify P a sk pk hpair { m with flatJws := flat } hm' hf o o'
    rw [ht] at h2
    rw [Res.ok.inj h2]
    exact ⟨_, h3⟩
  · intro o'
    obtain ⟨t2, h2, h3⟩ := C24_sign_receive P a sk pk hpair { m with flatJws := flat } hm' hf o o'
    rw [ht] at h2
    rw [Res.ok.inj h2]
    exact ⟨_, h3 none none (some pk) (.inl rfl)⟩
  · intro o' dk ek vk m' h
    rw [receive_eq (decryptStep_jws hmt _ dk ek)] at h
    simp only [Message.verifyStep, hmt, Res.bind_ok, if_true, Message.receiveJws, Message.verifiedOf, hof] at h
    cases hj : Jws.ofText P.f64 t' with
    | none => rw [hj] at h; cases h
    | some j =>
      obtain ⟨h3, h4⟩ := hrej j hj
      rw [hj] at h
      simp only [Message.signaturesOf, h3, h4] at h
      cases h

/-- C77: keys and a message to which this applies. -/
example : SignPair (toy fun _ => none) .edDsa (exampleKey 5) (exampleKey 5) ∧
    (∀ b s, (toy fun _ => none).sign .edDsa (exampleKey 5) b = some s → s ≠ []) ∧
    richMessage.WF (toy fun _ => none).f64 ∧ HeaderFixed richMessage.jwm := by
  refine ⟨toy_signPair _ _ _, ?_, richMessage_wf _, (by intro k h; cases h), (by intro k h; cases h)⟩
  intro b s h
  rw [← Option.some.inj (show some [toySum (exampleKey 5), toySum b] = some s from h)]
  simp

/-- Two texts of one message. -/
def orderedText : Str × Str :=
  (c!"{\"typ\":\"application/didcomm-plain+json\",\"id\":\"1\",\"type\":\"t\",\"to\":[\"did:a:b\"],\"body\":{\"x\":1,\"y\":[2.50]}}",
   c!"{ \"body\": {\"y\":[2.5e0], \"x\":1}, \"to\":[\"did:a:b\"],\"type\":\"\\u0074\",\"id\":\"1\",\"typ\":\"application/didcomm-plain+json\"}")

/-- Float code for the example. -/
def halves : Str → Option Str := fun _ => some c!"2.5"

/-- C77: the two texts have the same content, no escaped signature, and are accepted. -/
example : SignaturesPlain orderedText.1 ∧ SignaturesPlain orderedText.2 ∧
    ∃ j j', Document j orderedText.1 ∧ Document j' orderedText.2 ∧ j ≠ j' ∧ Same halves j j' ∧
    ∃ m, Message.receive { (toy fun _ => none) with f64 := halves } HOrd.id orderedText.1 none none none = .ok m := by
  have hq : ∀ s jm', parseStruck s = some (.obj jm') → (∀ p ∈ jm', p.1 ≠ c!"signature" ∧ p.1 ≠ c!"signatures") →
      SignaturesPlain s := by
    intro s jm' hs hn jm hjm v hv
    rw [← parseStruck_iff, hs] at hjm
    obtain rfl := Option.some.inj hjm
    obtain ⟨es, he, h | ⟨l, x, h, -⟩⟩ := hv
    · cases he; exact absurd rfl (hn _ h).1
    · cases he; exact absurd rfl (hn _ h).2
  refine ⟨hq _ [(c!"typ", .str c!"application/didcomm-plain+json"), (c!"id", .str c!"1"), (c!"type", .str c!"t"),
      (c!"to", .arr [.str c!"did:a:b"]), (c!"body", .obj [(c!"x", .num c!"1"), (c!"y", .arr [.num c!"2.50"])])]
      (by decide +kernel) (by decide),
    hq _ [(c!"body", .obj [(c!"y", .arr [.num c!"2.5e0"]), (c!"x", .num c!"1")]), (c!"to", .arr [.str c!"did:a:b"]),
      (c!"type", .bool false), (c!"id", .str c!"1"), (c!"typ", .str c!"application/didcomm-plain+json")]
      (by decide +kernel) (by decide), ?_⟩
  refine ⟨.obj [(c!"typ", .str c!"application/didcomm-plain+json"), (c!"id", .str c!"1"), (c!"type", .str c!"t"),
      (c!"to", .arr [.str c!"did:a:b"]), (c!"body", .obj [(c!"x", .num c!"1"), (c!"y", .arr [.num c!"2.50"])])],
    .obj [(c!"body", .obj [(c!"y", .arr [.num c!"2.5e0"]), (c!"x", .num c!"1")]), (c!"to", .arr [.str c!"did:a:b"]),
      (c!"type", .str c!"t"), (c!"id", .str c!"1"), (c!"typ", .str c!"application/didcomm-plain+json")],
    parseJson_iff.1 (by decide +kernel), parseJson_iff.1 (by decide +kernel), by decide, ?_, ?_⟩
  · have hint : ∀ t : Str, tokNat t = none → t.head? ≠ some '-' → ¬ IntTok t := by
      rintro t h1 h2 (⟨h3, h4, h5⟩ | ⟨d, rfl, -⟩)
      · unfold tokNat at h1
        rw [if_pos ⟨allDigits_iff.2 h4, h3, by rw [← digitsVal_eq]; exact h5⟩] at h1
        cases h1
      · exact h2 rfl
    have hy : Same halves (.arr [.num c!"2.50"]) (.arr [.num c!"2.5e0"]) := by
      refine .arr rfl fun i a b ha hb => ?_
      match i with
      | 0 =>
        cases ha; cases hb
        exact .float (hint _ (by decide) (by decide)) (hint _ (by decide) (by decide)) rfl
      | n + 1 => cases ha
    have hto : Same halves (.arr [.str c!"did:a:b"]) (.arr [.str c!"did:a:b"]) := by
      refine .arr rfl fun i a b ha hb => ?_
      match i with
      | 0 => cases ha; cases hb; exact .str _
      | n + 1 => cases ha
    refine .obj (by decide) (by decide) fun k v v' h h' => ?_
    simp only [List.mem_cons, Prod.mk.injEq, List.not_mem_nil, or_false] at h h'
    rcases h with ⟨rfl, rfl⟩ | ⟨rfl, rfl⟩ | ⟨rfl, rfl⟩ | ⟨rfl, rfl⟩ | ⟨rfl, rfl⟩ <;>
      simp (config := { decide := true }) only [false_and, true_and, or_false, false_or] at h' <;> subst h'
    · exact .str _
    · exact .str _
    · exact .str _
    · exact hto
    · refine .obj (by decide) (by decide) fun k v v' h h' => ?_
      simp only [List.mem_cons, Prod.mk.injEq, List.not_mem_nil, or_false] at h h'
      rcases h with ⟨rfl, rfl⟩ | ⟨rfl, rfl⟩ <;>
        simp (config := { decide := true }) only [false_and, true_and, or_false, false_or] at h' <;> subst h'
      · exact .num _
      · exact hy
  · have : (match Message.receive { (toy fun _ => none) with f64 := halves } HOrd.id orderedText.1 none none none with
        | .ok _ => true | _ => false) = true := by decide +kernel
    generalize Message.receive { (toy fun _ => none) with f64 := halves } HOrd.id orderedText.1 none none none = r at this
    cases r with
    | ok m => exact ⟨m, rfl⟩
    | err e => cases this
    | panic => cases this

/-- C77: two orders of a document with an escaped signature. -/
example : ∃ s s' j j' jm jm', Document j s ∧ Document j' s' ∧ DocumentW struck jm s ∧ DocumentW struck jm' s' ∧
    s ≠ s' ∧ Same halves j j' ∧ Same halves jm jm' := by
  refine ⟨c!"{\"signature\":\"\\u0041A\",\"payload\":\"x\"}", c!"{\"payload\":\"x\",\"signature\":\"\\u0041A\"}",
    .obj [(c!"signature", .str c!"AA"), (c!"payload", .str c!"x")],
    .obj [(c!"payload", .str c!"x"), (c!"signature", .str c!"AA")],
    .obj [(c!"signature", .bool false), (c!"payload", .str c!"x")],
    .obj [(c!"payload", .str c!"x"), (c!"signature", .bool false)],
    parseJson_iff.1 (by decide +kernel), parseJson_iff.1 (by decide +kernel),
    parseStruck_iff.1 (by decide +kernel), parseStruck_iff.1 (by decide +kernel), by decide, ?_, ?_⟩
  all_goals
    refine .obj (by decide) (by decide) fun k v v' h h' => ?_
    simp only [List.mem_cons, Prod.mk.injEq, List.not_mem_nil, or_false] at h h'
    rcases h with ⟨rfl, rfl⟩ | ⟨rfl, rfl⟩ <;>
      simp (config := { decide := true }) only [false_and, true_and, or_false, false_or] at h' <;> subst h'
  · exact .str _
  · exact .str _
  · exact .bool _
  · exact .str _

/-! ## C75 -/

/-- C75, as written, is false: for every signed message and every other payload there is a text with two
`payload` members that `verify` refuses for every key, and whose parsed `Value` is verified by
`verify_value` like the signed message. -/
theorem C75_verify_value_agrees_violated (P : Prims) (a : SignAlg) (sk : Bytes) (m : Message) (o : HOrd) (t p : Str)
    (hs : (m.asJws a).sign o (a.signer P) sk = .ok t) :
    ∃ t' v, (∀ o' key m', Message.verify P o' (utf8 t') key ≠ .ok m') ∧ Message.valueOfText P.f64 t' = some v ∧
      ∀ o' key, Message.verifyValue P o' v key = Message.verify P o' (utf8 t) key := by
  obtain ⟨-, sig, -, rfl⟩ := sign_ok hs
  generalize hp : Spec.payloadText (o.sub 1) (m.asJws a) = pt
  generalize m.asJws a = m'
  have hn := (nice_jws (F := fun t => some t) (o.sub 2) (Spec.jwsOf m' pt sig)).2.1
  have hv := valueOfText_jwsOf (F := P.f64) (o.sub 2) m' pt sig
  unfold Message.valueOfText at hv
  rw [parse_jws, Option.bind_some] at hv
  unfold Jws.text
  obtain ⟨es, hes⟩ : ∃ es, encJws (o.sub 2) (Spec.jwsOf m' pt sig) = .obj ((c!"payload", .str pt) :: es) := by
    unfold Spec.jwsOf; split <;> exact ⟨_, rfl⟩
  rw [hes] at hn hv ⊢
  have hnn : NumsOk (.obj ((c!"payload", .str p) :: (c!"payload", .str pt) :: es)) := ⟨trivial, hn⟩
  have hparse := parseJson_print hnn
  refine ⟨printJson (.obj ((c!"payload", .str p) :: (c!"payload", .str pt) :: es)), _, ?_, ?_, fun o' key => rfl⟩
  · intro o' key m' h
    unfold Message.verify at h
    rw [jws_ofBytes_print hnn] at h
    simp only [decJws, mapEntries, Option.bind_eq_bind, Option.bind_some, reqField, fieldVals_cons_self,
      Option.bind_none, Res.ofOpt_none, Res.bind_err] at h
    cases h
  · unfold Message.valueOfText
    rw [hparse, Option.bind_some]
    unfold toValue at hv ⊢
    split at hv
    · rename_i hd
      rw [if_pos (by simp only [Json.depth, Json.depth.depthM] at hd ⊢; omega), ← hv]
      simp only [normJ, normM]
      cases normM P.f64 es with
      | none => rfl
      | some es' => simp only [Option.map_some, entriesOf, List.foldl_cons, insertEntry, if_true]
    · cases hv

/-- C75, as written, is false in a second way: for every signed message there is a text that `verify` refuses
under every key (a signature written with an escape), and whose parsed `Value` `verify_value` accepts. -/
theorem C75_escaped_violated (P : Prims) (a : SignAlg) (sk pk : Bytes) (hpair : SignPair P a sk pk)
    (hne : ∀ b s, P.sign a sk b = some s → s ≠ []) (m : Message) (hm : m.WF P.f64) (hf : HeaderFixed m.jwm) :
    ∃ t' v, (∀ o' key m', Message.verify P o' (utf8 t') key ≠ .ok m') ∧ Message.valueOfText P.f64 t' = some v ∧
      ∀ o', ∃ m', Message.verifyValue P o' v pk = .ok m' := by
  obtain ⟨t, t', j, hs, hj, hj', hv, -, hr, -⟩ := C77_escaped_signature_violated P a sk pk hpair hne m hm hf HOrd.id
    m.flatJws
  obtain ⟨-, sig, -, rfl⟩ := sign_ok hs
  have hval := valueOfText_jwsOf (F := P.f64) (HOrd.id.sub 2) ({ m with flatJws := m.flatJws }.asJws a)
    (payloadText (HOrd.id.sub 1) ({ m with flatJws := m.flatJws }.asJws a)) sig
  refine ⟨t', encJws (HOrd.id.sub 2) (jwsOf ({ m with flatJws := m.flatJws }.asJws a)
    (payloadText (HOrd.id.sub 1) ({ m with flatJws := m.flatJws }.asJws a)) sig), hr, ?_, ?_⟩
  · unfold Message.valueOfText at hval ⊢
    rw [parseJson_iff.2 hj] at hval
    rw [parseJson_iff.2 hj']
    exact hval
  · intro o'
    exact hv o'

/-- C75, what holds: for every document in which member names are distinct, no signature is escaped and floats are
printed in a form that reads back as itself, `verify_value` of the parsed `Value` gives what `verify` gives for the text. -/
theorem C75_verify_value_agrees_partial (P : Prims) (hF : FloatLaw P.f64) (s : Str) (j v : Json) (h : Document j s)
    (hd : Distinct j) (hq : SignaturesPlain s) (hv : Message.valueOfText P.f64 s = some v) (hst : NumsStable P.f64 v)
    (o : HOrd) (key : Bytes) :
    Message.verifyValue P o v key = Message.verify P o (utf8 s) key := by
  have hp := parseJson_iff.2 h
  unfold Message.valueOfText at hv
  rw [hp, Option.bind_some] at hv
  unfold toValue at hv
  split at hv
  · have hn : NumsOk v := normJ_numsOk (fun t u h => (hF t u h).1) hv (parseJson_numsOk hp)
    refine (verify_congr ?_ o key).symm
    rw [jws_ofText_plain hp hq, jws_ofText_print hn, stable_decJws j v (same_normJ hF hd hv hst)]
  · cases hv

theorem mapStrM_eq (ps : Str → Str) (mk : Bool → Str → Json) (es : List (Str × Json)) :
    mapStrM ps mk es = es.map fun p => (p.1, mapStr ps mk p.2) := by
  induction es with
  | nil => rfl
  | cons p es ih => simp only [mapStrM, ih, List.map_cons]

theorem mapStrL_eq (ps : Str → Str) (mk : Bool → Str → Json) (l : List Json) :
    mapStrL ps mk l = l.map (mapStr ps mk) := by
  induction l with
  | nil => rfl
  | cons p es ih => simp only [mapStrL, ih, List.map_cons]

theorem mapStr_obj {ps : Str → Str} {j : Json} {es : List (Str × Json)} (h : mapStr ps struck j = .obj es) :
    ∃ es', j = .obj es' ∧ es = es'.map fun p => (p.1, mapStr ps struck p.2) := by
  cases j with
  | obj es' => cases h; exact ⟨es', rfl, mapStrM_eq _ _ _⟩
  | str s => simp only [mapStr, struck] at h; split at h <;> cases h
  | _ => cases h

theorem mapStr_arr {ps : Str → Str} {j : Json} {l : List Json} (h : mapStr ps struck j = .arr l) :
    ∃ l', j = .arr l' ∧ l = l'.map (mapStr ps struck) := by
  cases j with
  | arr l' => cases h; exact ⟨l', rfl, mapStrL_eq _ _ _⟩
  | str s => simp only [mapStr, struck] at h; split at h <;> cases h
  | _ => cases h

theorem signatureAt_map {ps : Str → Str} {j v : Json} (h : SignatureAt (mapStr ps struck j) v) :
    ∃ w, SignatureAt j w ∧ v = mapStr ps struck w := by
  obtain ⟨es, he, h⟩ := h
  obtain ⟨es', rfl, rfl⟩ := mapStr_obj he
  rcases h with h | ⟨l, x, h, hx, h2⟩
  · obtain ⟨p, hp, he⟩ := List.mem_map.1 h
    simp only [Prod.mk.injEq] at he
    exact ⟨p.2, ⟨_, rfl, .inl (by rw [← he.1]; exact hp)⟩, he.2.symm⟩
  · obtain ⟨p, hp, he⟩ := List.mem_map.1 h
    simp only [Prod.mk.injEq] at he
    obtain ⟨l', hl', rfl⟩ := mapStr_arr he.2
    obtain ⟨y, hy, rfl⟩ := List.mem_map.1 hx
    have hp' : (c!"signatures", Json.arr l') ∈ es' := by rw [← he.1, ← hl']; exact hp
    rcases h2 with ⟨fs, hf, h3⟩ | ⟨k, hk, h3⟩
    · obtain ⟨fs', rfl, rfl⟩ := mapStr_obj hf
      obtain ⟨q, hq, he⟩ := List.mem_map.1 h3
      simp only [Prod.mk.injEq] at he
      exact ⟨q.2, ⟨_, rfl, .inr ⟨l', _, hp', hy, .inl ⟨fs', rfl, by rw [← he.1]; exact hq⟩⟩⟩, he.2.symm⟩
    · obtain ⟨k', rfl, rfl⟩ := mapStr_arr hk
      rw [List.getElem?_map, Option.map_eq_some_iff] at h3
      obtain ⟨w, h3, rfl⟩ := h3
      exact ⟨w, ⟨_, rfl, .inr ⟨l', _, hp', hy, .inr ⟨k', rfl, h3⟩⟩⟩, rfl⟩

/-- Texts of signed messages write their signatures without escapes. -/
theorem signaturesPlain_jwsOf (o : HOrd) (m : Message) (p : Str) (sig : Bytes) :
    SignaturesPlain ((jwsOf m p sig).text o) := by
  intro jm hjm v hv
  have hn : NumsOk (encJws o (jwsOf m p sig)) := (nice_jws (F := fun t => some t) o _).2.1
  rw [← parseStruck_iff, Jws.text, parseStruck_print hn] at hjm
  obtain rfl := Option.some.inj hjm
  obtain ⟨w, hw, rfl⟩ := signatureAt_map hv
  have hs : w = .str (b64Encode sig) := by
    obtain ⟨es, he, hw⟩ := hw
    unfold jwsOf at he
    split at he
    · simp only [encJws, flatSignature, signatureEntries, signatureOf, optE, List.nil_append,
        List.singleton_append, List.append_nil, Json.obj.injEq] at he
      subst he
      simp only [List.mem_cons, Prod.mk.injEq, List.not_mem_nil, or_false] at hw
      rcases hw with (⟨h, -⟩ | ⟨h, -⟩ | ⟨-, h⟩) | ⟨l, x, (⟨h, -⟩ | ⟨h, -⟩ | ⟨h, -⟩), -⟩ <;> first | exact h | cases h
    · simp only [encJws, flatSignature, optE, List.nil_append, Json.obj.injEq] at he
      subst he
      simp only [List.mem_cons, Prod.mk.injEq, List.not_mem_nil, or_false] at hw
      rcases hw with (⟨h, -⟩ | ⟨h, -⟩) | ⟨l, x, (⟨h, -⟩ | ⟨-, h⟩), hx, hy⟩
      · cases h
      · cases h
      · cases h
      · cases h
        have key : ∀ (r : List Str) (o : HOrd), x ∈ encList encSignature o (r.map fun _ => signatureOf m sig) →
            ∃ o, x = encSignature o (signatureOf m sig) := by
          intro r
          induction r with
          | nil => intro o h; cases h
          | cons a r ih =>
            intro o h
            simp only [List.map_cons, encList, List.mem_cons] at h
            rcases h with h | h
            · exact ⟨_, h⟩
            · exact ih _ h
        obtain ⟨o', rfl⟩ := key _ _ hx
        rcases hy with ⟨es', he, hm⟩ | ⟨_, he, -⟩
        · simp only [encSignature, signatureEntries, signatureOf, optE, List.nil_append,
            List.singleton_append, Json.obj.injEq] at he
          subst he
          simp only [List.mem_cons, Prod.mk.injEq, List.not_mem_nil, or_false] at hm
          rcases hm with ⟨h, -⟩ | ⟨-, h⟩
          · cases h
          · exact h
        · cases he
  subst hs
  simp only [mapStr, esc_b64 (b64Decode_encode sig), struck]
  intro h
  cases h

/-- C75: every signed text is such a document, and the float code of the example is lawful. -/
example : FloatLaw halves ∧ ∃ t j v, (richMessage.asJws .edDsa).sign HOrd.id (SignAlg.edDsa.signer (toy fun _ => none))
      (exampleKey 5) = .ok t ∧ Document j t ∧ Distinct j ∧ SignaturesPlain t ∧ Message.valueOfText halves t = some v ∧
      NumsStable halves v := by
  refine ⟨?_, ?_⟩
  · rintro t u h
    obtain rfl : c!"2.5" = u := Option.some.inj h
    refine ⟨⟨[], c!"2", c!".5", [], rfl, .inl rfl, .inr (by unfold Digits; decide), .inr ⟨c!"5", by unfold Digits; decide, rfl⟩, .inl rfl⟩, ?_⟩
    rintro (⟨-, h, -⟩ | ⟨d, h, -⟩)
    · have := h '.' (by decide)
      revert this; decide
    · cases h
  · obtain ⟨t, ht, -⟩ := C24_sign_receive _ .edDsa _ _ (toy_signPair (fun _ => none) _ (exampleKey 5)) richMessage
      (richMessage_wf _) ⟨(by intro k h; cases h), (by intro k h; cases h)⟩ HOrd.id HOrd.rev
    obtain ⟨-, sig, -, rfl⟩ := sign_ok ht
    exact ⟨_, _, _, ht, parseJson_iff.1 (parse_jws _ _), canon_distinct (canon_jwsOf (F := halves) _ _ _ _),
      signaturesPlain_jwsOf _ _ _ _, valueOfText_jwsOf _ _ _ _, canon_stable (canon_jwsOf (F := halves) _ _ _ _)⟩

end Verif
