import Verif.Props.External
import Verif.Lemma.Sign

/-!
# Signing and verifying

C22 (signatures), C24, C25, C26, C27, C53.
-/

namespace Verif

open Spec

/-! ## C24 -/

/-- C24.  A message signed after `as_jws` verifies under the matching public key, for every iteration
order on both sides, and gives the same message with a fresh plain header. -/
theorem C24_sign_verify (P : Prims) (a : SignAlg) (sk pk : Bytes) (hpair : SignPair P a sk pk)
    (m : Message) (hm : m.WF P.f64) (hf : HeaderFixed m.jwm) (o o' : HOrd) :
    ∃ t, (m.asJws a).sign o (a.signer P) sk = .ok t ∧
      Message.verify P o' (utf8 t) pk =
        .ok { m with jwm := JwmHeader.dflt, flatJwe := false, flatJws := false } := by
  obtain ⟨hal, alg, ha, hofs⟩ := signName (a := a) (h := m.jwm)
  have hjw : (m.jwm.asSigned a).WF := by cases a <;> exact hm.jwm
  have hjf : HeaderFixed (m.jwm.asSigned a) := by cases a <;> exact hf
  have hw : (m.asJws a).WF P.f64 := ⟨hjw, hm.other, hm.to, hm.recipients, hm.canon, hm.nums, hm.depth⟩
  obtain ⟨sig, hs, -⟩ := hpair (Message.signingInput (headerB64 (o.sub 0) (Spec.signedHeader (m.asJws a)))
        (Spec.payloadText (o.sub 1) (m.asJws a)))
  have hsign := sign_of (o := o) (m := m.asJws a) (signer := a.signer P) (key := sk) (sig := sig) hal
    (by unfold SignAlg.signer; rw [hs]; rfl)
  exact ⟨_, hsign, verify_sign hpair hw hjf ha hofs hsign o'⟩

/-- C24 for the flat form (`as_flat_jws`). -/
theorem C24_sign_verify_flat (P : Prims) (a : SignAlg) (sk pk : Bytes) (hpair : SignPair P a sk pk)
    (m : Message) (hm : m.WF P.f64) (hf : HeaderFixed m.jwm) (o o' : HOrd) :
    ∃ t, (m.asFlatJws a).sign o (a.signer P) sk = .ok t ∧
      Message.verify P o' (utf8 t) pk =
        .ok { m with jwm := JwmHeader.dflt, flatJwe := false, flatJws := false } :=
  C24_sign_verify P a sk pk hpair { m with flatJws := true }
    ⟨hm.jwm, hm.other, hm.to, hm.recipients, hm.canon, hm.nums, hm.depth⟩ hf o o'

example : ∃ t, (richMessage.asJws .es256k).sign HOrd.id (SignAlg.es256k.signer (toy fun _ => none))
      (exampleKey 5) = .ok t ∧
    Message.verify (toy fun _ => none) HOrd.rev (utf8 t) (exampleKey 5) = .ok richMessage :=
  C24_sign_verify _ _ _ _ (toy_signPair _ _ _) richMessage (richMessage_wf _)
    ⟨(by intro k h; cases h), (by intro k h; cases h)⟩ _ _

/-! ## C53 -/

/-- C53.  The shape of every JWS: the payload is the text of a plain message with an empty JOSE header
and otherwise the given content, the protected header is the message's with the signed type, and there
is one and the same signature per recipient, or exactly one in the flat form. -/
theorem C53_jws_shape (P : Prims) (o : HOrd) (m : Message) (signer : Bytes → Bytes → Res Bytes)
    (key : Bytes) (t : Str) (hm : m.WF P.f64) (h : m.sign o signer key = .ok t) :
    ∃ j pt sig s, Jws.ofText P.f64 t = some j ∧ b64Decode j.payload = some pt ∧
      Message.ofBytes P.f64 pt = some { m with jwm := JwmHeader.dflt, flatJwe := false, flatJws := false } ∧
      JwmHeader.dflt.typ = .raw ∧ s.protected_ = some { m.jwm with typ := .jws } ∧ s.header = none ∧
      s.signature = sig ∧
      (m.flatJws = true → j.signature = some s ∧ j.signatures = none) ∧
      (m.flatJws = false → ∃ l, j.signatures = some l ∧ l.length = m.didcomm.to.length ∧ ∀ x ∈ l, x = s) := by
  obtain ⟨-, sig, -, rfl⟩ := sign_ok h
  have hj := jws_ofText_text (F := P.f64) (o.sub 2)
    (jwsOf_wf (m := m) (p := Spec.payloadText (o.sub 1) m) (sig := sig) hm.jwm)
  obtain ⟨b, hb, hof⟩ := payload_decodes (o.sub 1) hm
  refine ⟨_, b, sig, Spec.signatureOf m sig, hj, ?_, hof, rfl, rfl, rfl, rfl, ?_, ?_⟩
  · rw [← hb]; unfold Spec.jwsOf; split <;> rfl
  · intro hf
    simp [Spec.jwsOf, hf]
  · intro hf
    simp only [Spec.jwsOf, hf]
    refine ⟨_, rfl, by simp, ?_⟩
    intro x hx
    obtain ⟨_, -, rfl⟩ := List.mem_map.1 hx
    rfl

example : ∃ t, (richMessage.asJws .edDsa).sign HOrd.id (SignAlg.edDsa.signer (toy fun _ => none))
    (exampleKey 5) = .ok t ∧ richMessage.flatJws = false ∧ richMessage.didcomm.to.length = 2 :=
  ⟨_, rfl, rfl, rfl⟩

/-- C53.  Which of the two forms is written: the flat form after `as_flat_jws`, whatever was chosen
before, and the general form, with one signature per recipient, for a message from `new` on which only
`as_jws` was called. -/
theorem C53_setup (P : Prims) (o : HOrd) (signer : Bytes → Bytes → Res Bytes) (key : Bytes) (t : Str)
    (a : SignAlg) (m : Message) (hm : m.WF P.f64) :
    ((m.asFlatJws a).sign o signer key = .ok t →
      ∃ j, Jws.ofText P.f64 t = some j ∧ j.signature.isSome ∧ j.signatures = none) ∧
    (∀ uuid h b, m = { (Message.new uuid).setDidcomm h with body := b } →
      (m.asJws a).sign o signer key = .ok t →
      ∃ j l, Jws.ofText P.f64 t = some j ∧ j.signatures = some l ∧ l.length = h.to.length) := by
  constructor
  · intro hs
    have hw : (m.asFlatJws a).WF P.f64 :=
      ⟨by cases a <;> exact hm.jwm, hm.other, hm.to, hm.recipients, hm.canon, hm.nums, hm.depth⟩
    obtain ⟨j, pt, sig, s, hj, -, -, -, -, -, -, h1, -⟩ := C53_jws_shape P o _ signer key t hw hs
    obtain ⟨h2, h3⟩ := h1 rfl
    exact ⟨j, hj, by rw [h2]; rfl, h3⟩
  · rintro uuid h b rfl hs
    generalize hM : { (Message.new uuid).setDidcomm h with body := b } = M at *
    have hfl : (M.asJws a).flatJws = false := by subst hM; rfl
    have hto : (M.asJws a).didcomm.to = h.to := by subst hM; rfl
    have hw : (M.asJws a).jwm.WF := by cases a <;> exact hm.jwm
    obtain ⟨-, sig, -, rfl⟩ := sign_ok hs
    refine ⟨_, (M.asJws a).didcomm.to.map fun _ => Spec.signatureOf (M.asJws a) sig,
      jws_ofText_text (F := P.f64) (o.sub 2)
        (jwsOf_wf (m := M.asJws a) (p := Spec.payloadText (o.sub 1) (M.asJws a)) (sig := sig) hw), ?_, ?_⟩
    · simp [Spec.jwsOf, hfl]
    · simp [hto]

example : ∃ t, ({ (Message.new c!"id").setDidcomm richMessage.didcomm with body := richMessage.body }.asJws
      .edDsa).sign HOrd.id (SignAlg.edDsa.signer (toy fun _ => none)) (exampleKey 5) = .ok t ∧
    ∃ t', (richMessage.asFlatJws .edDsa).sign HOrd.id (SignAlg.edDsa.signer (toy fun _ => none))
      (exampleKey 5) = .ok t' :=
  ⟨_, rfl, _, rfl⟩

/-! ## C25, C26 -/

/-- The names of the signature algorithms (RFC 7518, RFC 8037, RFC 8812). -/
def Spec.signAlgName : SignAlg → Str
  | .edDsa => c!"EdDSA"
  | .es256 => c!"ES256"
  | .es256k => c!"ES256K"

/-- Checking the signature `s` over `payload` with `key` gives `r`: the algorithm is the one named in
the unprotected header or else in the protected one, and what is signed is the base64url text of the
protected header, a dot and the payload.  (`o`: iteration orders while writing the header.) -/
def Spec.SigCheck (P : Prims) (o : HOrd) (payload : Str) (key : Bytes) (s : Signature) (r : Bool) : Prop :=
  ∃ a hdr, (s.header.bind (·.alg) = some (Spec.signAlgName a) ∨
      s.header.bind (·.alg) = none ∧ hdr.alg = some (Spec.signAlgName a)) ∧
    s.protected_ = some hdr ∧
    P.verify a key (utf8 (headerB64 o hdr ++ ['.'] ++ payload)) s.signature = some r

/-- The orders used for the signatures of a JWS, by position. -/
def Spec.ordAt : HOrd → Nat → HOrd
  | o, 0 => o.sub 0
  | o, n + 1 => Spec.ordAt (o.sub 1) n

theorem signOfStr_iff {s : Str} {a : SignAlg} : SignAlg.ofStr s = .ok a ↔ s = Spec.signAlgName a := by
  unfold SignAlg.ofStr
  constructor
  · intro h
    split at h
    · rename_i hs; cases h; exact hs
    · split at h
      · rename_i hs; cases h; exact hs
      · split at h
        · rename_i hs; cases h; exact hs
        · cases h
  · rintro rfl
    cases a <;> decide

theorem verifyOne_iff {P : Prims} {o : HOrd} {p : Str} {key : Bytes} {s : Signature} {r : Bool} :
    Message.verifyOne P o p key s = .ok r ↔ Spec.SigCheck P o p key s r := by
  have hga : ∀ alg, s.getAlg = some alg ↔ (s.header.bind (·.alg) = some alg ∨
      s.header.bind (·.alg) = none ∧ s.protected_.bind (·.alg) = some alg) := by
    intro alg
    unfold Signature.getAlg Signature.getter fallback
    cases s.header.bind (·.alg) <;> simp
  unfold Message.verifyOne Spec.SigCheck
  simp only [Res.bind_eq_ok, Res.ofOpt_eq_ok, SignAlg.validator, signOfStr_iff, hga]
  constructor
  · rintro ⟨alg, h1, a, rfl, hdr, h2, h3⟩
    refine ⟨a, hdr, ?_, h2, by simpa [Message.signingInput] using h3⟩
    rcases h1 with h1 | ⟨h1, h1'⟩
    · exact .inl h1
    · rw [h2] at h1'; exact .inr ⟨h1, h1'⟩
  · rintro ⟨a, hdr, h1, h2, h3⟩
    refine ⟨_, ?_, a, rfl, hdr, h2, by simpa [Message.signingInput] using h3⟩
    rcases h1 with h1 | ⟨h1, h1'⟩
    · exact .inl h1
    · exact .inr ⟨h1, by rw [h2]; exact h1'⟩

theorem verifyLoop_iff {P : Prims} {p : Str} {key : Bytes} {l : List Signature} {o : HOrd} :
    Message.verifyLoop P p key o l = .ok true ↔ ∃ i s, l[i]? = some s ∧
      Spec.SigCheck P (Spec.ordAt o i) p key s true ∧
      ∀ n s', n < i → l[n]? = some s' → Spec.SigCheck P (Spec.ordAt o n) p key s' false := by
  induction l generalizing o with
  | nil => simp [Message.verifyLoop]
  | cons x l ih =>
    unfold Message.verifyLoop
    rw [Res.bind_eq_ok]
    constructor
    · rintro ⟨b, hb, h⟩
      rw [verifyOne_iff] at hb
      cases b with
      | true => exact ⟨0, x, rfl, hb, by intro n s' hn; omega⟩
      | false =>
        rw [if_neg (by simp), ih] at h
        obtain ⟨i, s, h1, h2, h3⟩ := h
        refine ⟨i + 1, s, h1, h2, ?_⟩
        intro n s' hn hs'
        cases n with
        | zero =>
          obtain rfl := Option.some.inj hs'
          exact hb
        | succ n => exact h3 n s' (by omega) hs'
    · rintro ⟨i, s, h1, h2, h3⟩
      cases i with
      | zero =>
        obtain rfl := Option.some.inj h1
        exact ⟨true, verifyOne_iff.2 h2, by simp⟩
      | succ i =>
        refine ⟨false, verifyOne_iff.2 (h3 0 x (by omega) rfl), ?_⟩
        rw [if_neg (by simp), ih]
        exact ⟨i, s, h1, h2, fun n s' hn hs' => h3 (n + 1) s' (by omega) hs'⟩

/-- The signatures of a JWS document: the list, or without one the one at the top level. -/
def Spec.signatures (j : Jws) : List Signature :=
  match j.signatures with
  | some l => l
  | none => j.signature.toList

/-- C26.  `verify` succeeds exactly if the bytes are a JWS document in which some signature is valid
under the key and every signature before it is well formed but invalid, and the payload is the base64url
text of a message; then the result is that message. -/
theorem C26_verify_iff (P : Prims) (o : HOrd) (b key : Bytes) (m : Message) :
    Message.verify P o b key = .ok m ↔
      ∃ j i s pt, Jws.ofBytes P.f64 b = some j ∧
        (Spec.signatures j)[i]? = some s ∧
        Spec.SigCheck P (Spec.ordAt o i) j.payload key s true ∧
        (∀ n s', n < i → (Spec.signatures j)[n]? = some s' →
          Spec.SigCheck P (Spec.ordAt o n) j.payload key s' false) ∧
        b64Decode j.payload = some pt ∧ Message.ofBytes P.f64 pt = some m := by
  have hsig : ∀ j : Jws, (∃ l, Message.signaturesOf j = .ok l ∧ Spec.signatures j = l) ∨
      (Message.signaturesOf j = .err .jwsParseError ∧ Spec.signatures j = []) := by
    intro j
    unfold Message.signaturesOf Spec.signatures
    cases j.signatures with
    | some l => exact .inl ⟨l, rfl, rfl⟩
    | none =>
      cases j.signature with
      | some s => exact .inl ⟨[s], rfl, rfl⟩
      | none => exact .inr ⟨rfl, rfl⟩
  unfold Message.verify
  simp only [Res.bind_eq_ok, Res.ofOpt_eq_ok]
  constructor
  · rintro ⟨j, h1, l, hl, ok, hok, h⟩
    cases ok with
    | false => rw [if_neg (by simp)] at h; cases h
    | true =>
      rw [if_pos rfl, Res.bind_eq_ok] at h
      obtain ⟨pt, h3, h4⟩ := h
      rw [Res.ofOpt_eq_ok] at h3 h4
      obtain ⟨i, s, h5, h6, h7⟩ := verifyLoop_iff.1 hok
      rcases hsig j with ⟨l', hl', rfl⟩ | ⟨he, -⟩
      · rw [hl] at hl'
        obtain rfl := Res.ok.inj hl'
        exact ⟨j, i, s, pt, h1, h5, h6, h7, h3, h4⟩
      · rw [hl] at he; cases he
  · rintro ⟨j, i, s, pt, h1, h5, h6, h7, h3, h4⟩
    rcases hsig j with ⟨l', hl', rfl⟩ | ⟨-, he⟩
    · refine ⟨j, h1, _, hl', true, verifyLoop_iff.2 ⟨i, s, h5, h6, h7⟩, ?_⟩
      rw [if_pos rfl, Res.bind_eq_ok]
      exact ⟨pt, by simp [h3], by simp [h4]⟩
    · rw [he] at h5; cases h5

/-- C26, in particular: a malformed signature that comes before every valid one makes the whole JWS fail,
although a valid signature may follow. -/
theorem C26_malformed_blocks (P : Prims) (o : HOrd) (b key : Bytes) (j : Jws) (n : Nat)
    (s : Signature) (h1 : Jws.ofBytes P.f64 b = some j)
    (hs : (Spec.signatures j)[n]? = some s)
    (hbad : ∀ r, ¬Spec.SigCheck P (Spec.ordAt o n) j.payload key s r)
    (hbefore : ∀ k s', k < n → (Spec.signatures j)[k]? = some s' →
      ¬Spec.SigCheck P (Spec.ordAt o k) j.payload key s' true) (m : Message) :
    Message.verify P o b key ≠ .ok m := by
  rw [Ne, C26_verify_iff]
  rintro ⟨j', i, s', pt, h1', h3, h4, h5, -⟩
  rw [h1] at h1'
  obtain rfl := Option.some.inj h1'
  rcases Nat.lt_trichotomy i n with h | rfl | h
  · exact hbefore i s' h h3 h4
  · rw [hs] at h3
    obtain rfl := Option.some.inj h3
    exact hbad true h4
  · exact hbad false (h5 n s h hs)

/-- C25.  If `verify` returns a message, the JWS carries a signature that its algorithm accepts under the
given key over base64url(protected header) '.' payload, and the message is what the payload says. -/
theorem C25_verified_is_signed (P : Prims) (o : HOrd) (b key : Bytes) (m : Message)
    (h : Message.verify P o b key = .ok m) :
    ∃ j s pt o', Jws.ofBytes P.f64 b = some j ∧
      ((∃ l, j.signatures = some l ∧ s ∈ l) ∨ j.signatures = none ∧ j.signature = some s) ∧
      Spec.SigCheck P o' j.payload key s true ∧
      b64Decode j.payload = some pt ∧ Message.ofBytes P.f64 pt = some m := by
  obtain ⟨j, i, s, pt, h1, h3, h4, -, h5, h6⟩ := (C26_verify_iff P o b key m).1 h
  refine ⟨j, s, pt, _, h1, ?_, h4, h5, h6⟩
  have hmem := List.mem_of_getElem? h3
  unfold Spec.signatures at hmem
  split at hmem
  · rename_i l hl; exact .inl ⟨l, hl, hmem⟩
  · rename_i hl; exact .inr ⟨hl, by simpa using hmem⟩

theorem verifyLoop_const {P : Prims} {p : Str} {key : Bytes} {R : Res Bool} {l : List Signature}
    {o : HOrd} (h : ∀ s ∈ l, ∀ o, Message.verifyOne P o p key s = R) (hl : l ≠ []) :
    Message.verifyLoop P p key o l = .ok true ↔ R = .ok true := by
  rw [verifyLoop_iff]
  constructor
  · rintro ⟨i, s, h1, h2, -⟩
    rw [← h s (List.mem_of_getElem? h1) (Spec.ordAt o i)]
    exact verifyOne_iff.2 h2
  · intro hR
    cases l with
    | nil => exact absurd rfl hl
    | cons x l =>
      exact ⟨0, x, rfl, verifyOne_iff.1 ((h x (by simp) _).trans hR), by intro n s' hn; omega⟩

/-- A message signed with any function in place of a built-in signer: `verify` accepts exactly under the
keys under which the built-in algorithm named in the header accepts the signature. -/
theorem signed_accepting (P : Prims) (a : SignAlg) (f : Bytes → Bytes → Res Bytes) (sk : Bytes) (m : Message)
    (hm : m.WF P.f64) (hf : HeaderFixed m.jwm) (o : HOrd) (t : Str) (hs : (m.asJws a).sign o f sk = .ok t) :
    ∃ input sig, f sk input = .ok sig ∧ ∀ o' key m',
      Message.verify P o' (utf8 t) key = .ok m' ↔ P.verify a key input sig = some true ∧
        m' = { m with jwm := JwmHeader.dflt, flatJwe := false, flatJws := false } := by
  obtain ⟨-, alg, ha, hofs⟩ := signName (a := a) (h := m.jwm)
  have ha' : (m.asJws a).jwm.alg = some alg := ha
  have hjw : (m.asJws a).jwm.WF := by cases a <;> exact hm.jwm
  have hjf : HeaderFixed (Spec.signedHeader (m.asJws a)) := by cases a <;> exact hf
  have hw : (m.asJws a).WF P.f64 := ⟨hjw, hm.other, hm.to, hm.recipients, hm.canon, hm.nums, hm.depth⟩
  obtain ⟨-, sig, hsig, rfl⟩ := sign_ok hs
  obtain ⟨j, hj, hp, hsigs⟩ := jwsOf_signatures (F := P.f64) (m := m.asJws a)
    (p := Spec.payloadText (o.sub 1) (m.asJws a)) (sig := sig) (o.sub 2) hjw
  obtain ⟨b, hb, hof⟩ := payload_decodes (o.sub 1) hw
  refine ⟨_, sig, hsig, ?_⟩
  intro o' key m'
  have hall : ∀ s ∈ (if (m.asJws a).flatJws then [Spec.signatureOf (m.asJws a) sig]
        else (m.asJws a).didcomm.to.map fun _ => Spec.signatureOf (m.asJws a) sig), ∀ o'',
      Message.verifyOne P o'' j.payload key s = a.validator P key (Message.signingInput
        (headerB64 (o.sub 0) (Spec.signedHeader (m.asJws a))) (Spec.payloadText (o.sub 1) (m.asJws a)))
        sig := by
    intro s hmem o''
    obtain rfl : s = Spec.signatureOf (m.asJws a) sig := by
      split at hmem
      · simpa using hmem
      · obtain ⟨_, -, rfl⟩ := List.mem_map.1 hmem; rfl
    rw [verifyOne_signatureOf ha' hofs, headerB64_fixed hjf o'' (o.sub 0), hp]
  have hne : (if (m.asJws a).flatJws then [Spec.signatureOf (m.asJws a) sig]
        else (m.asJws a).didcomm.to.map fun _ => Spec.signatureOf (m.asJws a) sig) ≠ [] := by
    split
    · simp
    · simpa using hw.to
  have hloop := verifyLoop_const (o := o') hall hne
  unfold Message.verify
  rw [ofBytes_jws, hj, Res.ofOpt_some, Res.bind_ok, hsigs, Res.bind_ok]
  unfold SignAlg.validator at hloop
  rw [Res.ofOpt_eq_ok] at hloop
  rw [← hloop]
  generalize Message.verifyLoop P j.payload key o' _ = v
  rw [Res.bind_eq_ok]
  constructor
  · rintro ⟨ok, rfl, h⟩
    cases ok with
    | false => rw [if_neg (by simp)] at h; cases h
    | true =>
      rw [if_pos rfl, hp, hb, Res.ofOpt_some, Res.bind_ok, hof, Res.ofOpt_some] at h
      exact ⟨rfl, (Res.ok.inj h).symm⟩
  · rintro ⟨rfl, rfl⟩
    exact ⟨true, rfl, by rw [if_pos rfl, hp, hb, Res.ofOpt_some, Res.bind_ok, hof, Res.ofOpt_some]; rfl⟩

/-- C25 for messages signed by this crate: there is one input and one signature, and the keys under which
`verify` accepts are exactly those under which the primitive accepts that signature. -/
theorem C25_accepting_keys (P : Prims) (a : SignAlg) (sk : Bytes) (m : Message) (hm : m.WF P.f64)
    (hf : HeaderFixed m.jwm) (o : HOrd) (t : Str) (hs : (m.asJws a).sign o (a.signer P) sk = .ok t) :
    ∃ input sig, P.sign a sk input = some sig ∧ ∀ o' key m',
      Message.verify P o' (utf8 t) key = .ok m' ↔ P.verify a key input sig = some true ∧
        m' = { m with jwm := JwmHeader.dflt, flatJwe := false, flatJws := false } := by
  obtain ⟨input, sig, h1, h2⟩ := signed_accepting P a _ sk m hm hf o t hs
  exact ⟨input, sig, (by unfold SignAlg.signer at h1; exact Res.ofOpt_eq_ok.1 h1), h2⟩

/-- C25, C26: a JWS that is accepted under one key and rejected under another one. -/
example : ∃ t m, Message.verify (toy fun _ => none) HOrd.id (utf8 t) (exampleKey 5) = .ok m ∧
    ∀ m', Message.verify (toy fun _ => none) HOrd.id (utf8 t) (exampleKey 6) ≠ .ok m' := by
  obtain ⟨t, h1, h2⟩ := C24_sign_verify _ .edDsa (exampleKey 5) (exampleKey 5)
    (toy_signPair (fun _ => none) _ _) richMessage (richMessage_wf _)
    ⟨(by intro k h; cases h), (by intro k h; cases h)⟩ HOrd.id HOrd.id
  obtain ⟨input, sig, h3, h4⟩ := C25_accepting_keys _ .edDsa (exampleKey 5) richMessage (richMessage_wf _)
    ⟨(by intro k h; cases h), (by intro k h; cases h)⟩ HOrd.id t h1
  refine ⟨t, _, h2, ?_⟩
  intro m' h
  have h5 := ((h4 _ _ _).1 h).1
  obtain rfl : [toySum (exampleKey 5), toySum input] = sig := Option.some.inj h3
  have h6 : ([toySum (exampleKey 5), toySum input] == [toySum (exampleKey 6), toySum input]) = true :=
    Option.some.inj h5
  have h7 : toySum (exampleKey 5) = toySum (exampleKey 6) := by simpa using h6
  revert h7
  decide

/-! ## C27 -/

/-- C27 fails for the general form without recipients: whatever the content and the keys, signing gives
a JWS that no key verifies. -/
theorem C27_no_recipients_violated (P : Prims) (a : SignAlg) (sk pk : Bytes)
    (hpair : SignPair P a sk pk) (m : Message) (hw : m.jwm.WF) (hto : m.didcomm.to = [])
    (hfl : m.flatJws = false) (o : HOrd) :
    ∃ t, (m.asJws a).sign o (a.signer P) sk = .ok t ∧
      ∀ o' key m', Message.verify P o' (utf8 t) key ≠ .ok m' := by
  obtain ⟨hal, alg, ha, hofs⟩ := signName (a := a) (h := m.jwm)
  have hjw : (m.asJws a).jwm.WF := by cases a <;> exact hw
  obtain ⟨sig, hs, -⟩ := hpair (Message.signingInput (headerB64 (o.sub 0) (Spec.signedHeader (m.asJws a)))
        (Spec.payloadText (o.sub 1) (m.asJws a)))
  have hsign := sign_of (o := o) (m := m.asJws a) (signer := a.signer P) (key := sk) (sig := sig) hal
    (by unfold SignAlg.signer; rw [hs]; rfl)
  refine ⟨_, hsign, ?_⟩
  intro o' key m' h
  obtain ⟨j, i, s, pt, h2, h3, -⟩ := (C26_verify_iff P o' _ key m').1 h
  rw [ofBytes_jws, decJws_enc _ (jwsOf_wf hjw)] at h2
  obtain rfl := Option.some.inj h2
  have hto' : (m.asJws a).didcomm.to = [] := hto
  have hfl' : (m.asJws a).flatJws = false := hfl
  simp [Spec.jwsOf, hfl', hto', Spec.signatures] at h3

example : { richMessage with didcomm := { richMessage.didcomm with to := [] } }.jwm.WF :=
  (richMessage_wf fun _ => none).jwm

/-- A signature scheme whose signature is the signed text. -/
def plainSign (P : Prims) : Prims :=
  { P with sign := fun _ _ m => some m, verify := fun _ _ m s => some (m == s) }

/-- A message whose header has a key with two custom members. -/
def twoMembers : Message :=
  { richMessage with jwm := { JwmHeader.dflt with
      jwk := some { Jwk.new with other := HMap.ofList [(c!"x", c!"1"), (c!"z", c!"2")] } } }

theorem ordAt_id (i : Nat) : Spec.ordAt HOrd.id i = HOrd.id := by
  induction i with
  | zero => rfl
  | succ i ih => exact ih

theorem ordAt_rev (i : Nat) : Spec.ordAt HOrd.rev i = HOrd.rev := by
  induction i with
  | zero => rfl
  | succ i ih => exact ih

theorem twoMembers_wf (F : Str → Option Str) : twoMembers.WF F := by
  have h := richMessage_wf F
  refine ⟨⟨?_, (by intro k hk; cases hk)⟩, h.other, h.to, h.recipients, h.canon, h.nums, h.depth⟩
  intro k hk
  obtain rfl := Option.some.inj hk
  unfold Jwk.WF
  decide

/-- C27 fails for a well-formed message with recipients too: with two custom members in the header's key,
the result depends on the iteration order of a hash map when verifying. -/
theorem C27_map_order_violated : ∃ (P : Prims) (k : Bytes) (m : Message) (t : Str),
    Laws P ∧ SignPair P .edDsa k k ∧ m.WF P.f64 ∧
    (m.asJws .edDsa).sign HOrd.id (SignAlg.edDsa.signer P) k = .ok t ∧
    (∃ m', Message.verify P HOrd.id (utf8 t) k = .ok m') ∧
    ∀ key m', Message.verify P HOrd.rev (utf8 t) key ≠ .ok m' := by
  have hpair : SignPair (plainSign (toy fun _ => none)) .edDsa [] [] := by
    intro m; exact ⟨m, rfl, by simp [plainSign]⟩
  have hw := twoMembers_wf (plainSign (toy fun _ => none)).f64
  have hlaws : Laws (plainSign (toy fun _ => none)) := by
    obtain ⟨h1, h2, h3, h4, h5, h6, h7, h8, h9⟩ := toy_laws fun _ => none
    exact ⟨h1, h2, h3, h4, h5, h6, h7, h8, h9⟩
  generalize hP : plainSign (toy fun _ => none) = P at *
  have hjw : (twoMembers.asJws .edDsa).jwm.WF := hw.jwm
  have hww : (twoMembers.asJws .edDsa).WF P.f64 :=
    ⟨hjw, hw.other, hw.to, hw.recipients, hw.canon, hw.nums, hw.depth⟩
  obtain ⟨hal, alg, ha, hofs⟩ := signName (a := .edDsa) (h := twoMembers.jwm)
  generalize hinp : Message.signingInput (headerB64 HOrd.id (Spec.signedHeader (twoMembers.asJws .edDsa)))
      (Spec.payloadText HOrd.id (twoMembers.asJws .edDsa)) = inp
  have hsign := sign_of (o := HOrd.id) (m := twoMembers.asJws .edDsa) (signer := SignAlg.edDsa.signer P)
    (key := []) (sig := inp) hal (by
      rw [← hinp, ← hP]
      simp only [SignAlg.signer, plainSign]
      rfl)
  refine ⟨P, [], twoMembers, _, hlaws, hpair, hw, hsign, ?_, ?_⟩
  · obtain ⟨j, hj, hp, hsigs⟩ := jwsOf_signatures (F := P.f64) (m := twoMembers.asJws .edDsa)
      (p := Spec.payloadText (HOrd.id.sub 1) (twoMembers.asJws .edDsa)) (sig := inp) (HOrd.id.sub 2) hjw
    obtain ⟨b, hb, hof⟩ := payload_decodes (HOrd.id.sub 1) hww
    have hto : (twoMembers.asJws .edDsa).didcomm.to = [c!"did:a:b", c!"did:c:d"] := rfl
    rw [show (twoMembers.asJws .edDsa).flatJws = false from rfl, hto] at hsigs
    simp only [Bool.false_eq_true, if_false, List.map_cons] at hsigs
    have hdoc := (ofBytes_jws (F := P.f64) (HOrd.id.sub 2)
      (Spec.jwsOf (twoMembers.asJws .edDsa) (Spec.payloadText (HOrd.id.sub 1) (twoMembers.asJws .edDsa)) inp))
    refine ⟨_, verify_first (by rw [hdoc, hj]) hsigs ?_
      (by rw [hp]; exact hb) hof⟩
    rw [verifyOne_signatureOf ha hofs, hp, ← hinp, ← hP]
    simp [SignAlg.validator, plainSign]
    rfl
  · intro key m' h
    obtain ⟨j, i, s, pt, h2, h3, h4, -⟩ := (C26_verify_iff P _ _ key m').1 h
    rw [ofBytes_jws, decJws_enc _ (jwsOf_wf hjw)] at h2
    obtain rfl := Option.some.inj h2
    have h5 := List.mem_of_getElem? h3
    obtain rfl : s = Spec.signatureOf (twoMembers.asJws .edDsa) inp := by
      obtain ⟨_, -, rfl⟩ := List.mem_map.1
        (show s ∈ twoMembers.didcomm.to.map fun _ => Spec.signatureOf (twoMembers.asJws .edDsa) inp from h5)
      rfl
    obtain ⟨a, hdr, -, h6, h7⟩ := h4
    obtain rfl : Spec.signedHeader (twoMembers.asJws .edDsa) = hdr := Option.some.inj h6
    rw [ordAt_rev, ← hP] at h7
    have h8 : Message.signingInput (headerB64 HOrd.rev (Spec.signedHeader (twoMembers.asJws .edDsa))) 
        (Spec.payloadText HOrd.id (twoMembers.asJws .edDsa)) = inp := by
      have h9 := Option.some.inj h7
      rw [beq_iff_eq] at h9
      rw [Message.signingInput, List.append_cons]
      exact h9
    rw [← hinp] at h8
    have h9 := (signingInput_inj (b64Encode_no_dot _) (b64Encode_no_dot _) h8).1
    have h10 := congrArg b64Decode h9
    simp only [b64Decode_encode, Option.some.injEq] at h10
    have h11 := utf8_injective h10
    revert h11
    decide +kernel

/-- C27, what holds: with a recipient (or in the flat form, see `C24_sign_verify_flat`) and at most one
custom member per key in the header, a signed message always verifies. -/
theorem C27_signed_verifies_partial (P : Prims) (a : SignAlg) (sk pk : Bytes)
    (hpair : SignPair P a sk pk) (m : Message) (hm : m.WF P.f64) (hf : HeaderFixed m.jwm) (o o' : HOrd)
    (t : Str) (h : (m.asJws a).sign o (a.signer P) sk = .ok t) :
    ∃ m', Message.verify P o' (utf8 t) pk = .ok m' := by
  obtain ⟨t', h1, h2⟩ := C24_sign_verify P a sk pk hpair m hm hf o o'
  rw [h] at h1
  obtain rfl := Res.ok.inj h1
  exact ⟨_, h2⟩

/-- C27, what holds: a signed message for two recipients. -/
example : ∃ t m', (richMessage.asJws .es256).sign HOrd.rev (SignAlg.es256.signer (toy fun _ => none)) (exampleKey 5) =
      .ok t ∧ Message.verify (toy fun _ => none) HOrd.id (utf8 t) (exampleKey 5) = .ok m' := by
  obtain ⟨m', h⟩ := C27_signed_verifies_partial (toy fun _ => none) .es256 (exampleKey 5) (exampleKey 5)
    (toy_signPair _ _ _) richMessage (richMessage_wf _) ⟨(by intro k h; cases h), (by intro k h; cases h)⟩ HOrd.rev
    HOrd.id _ rfl
  exact ⟨_, m', rfl, h⟩

/-! ## C22 for signatures -/

/-- The decoded JWS depends on the transmitted protected header only through the values in it. -/
theorem decJws_protected_congr {F : Str → Option Str} {p p' : Str} {v : Json} (es : List (Str × Json))
    (h : decHeaderB64 (.str p) = decHeaderB64 (.str p')) :
    decJws F (.obj ((c!"payload", v) :: (c!"protected", .str p) :: es)) =
      decJws F (.obj ((c!"payload", v) :: (c!"protected", .str p') :: es)) := by
  have hne : ∀ k, k ≠ c!"protected" → ∀ q : Str, fieldVals k ((c!"payload", v) :: (c!"protected", .str q) :: es)
      = fieldVals k ((c!"payload", v) :: es) := by
    intro k hk q
    by_cases hp : k = c!"payload"
    · subst hp
      rw [fieldVals_cons_self, fieldVals_cons_self, fieldVals_cons_ne (Ne.symm hk)]
    · rw [fieldVals_cons_ne (Ne.symm hp), fieldVals_cons_ne (Ne.symm hp), fieldVals_cons_ne (Ne.symm hk)]
  have hf : ∀ q : Str, (((c!"payload", v) :: (c!"protected", Json.str q) :: es).filter
      fun p => !jwsKeys.contains p.1) =
      (c!"protected", Json.str q) :: es.filter fun p => !jwsKeys.contains p.1 := by
    intro q
    rw [List.filter_cons_of_neg (by show ¬(!jwsKeys.contains c!"payload") = true; decide),
      List.filter_cons_of_pos (by show (!jwsKeys.contains c!"protected") = true; decide)]
  have hb : ∀ q : Str, buffered F ((c!"protected", Json.str q) :: es.filter fun p => !jwsKeys.contains p.1)
      = buffered F (es.filter fun p => !jwsKeys.contains p.1) := by
    intro q
    unfold buffered
    rw [List.all_cons]
    rfl
  have hd : decSignatureE ((c!"protected", Json.str p) :: es.filter fun p => !jwsKeys.contains p.1) =
      decSignatureE ((c!"protected", Json.str p') :: es.filter fun p => !jwsKeys.contains p.1) := by
    have h1 : ∀ l : List (Str × Json), dfltField none decHeaderB64 c!"protected" ((c!"protected", .str p) :: l) =
        dfltField none decHeaderB64 c!"protected" ((c!"protected", .str p') :: l) := by
      intro l
      unfold dfltField
      rw [fieldVals_cons_self, fieldVals_cons_self]
      cases fieldVals c!"protected" l with
      | nil => exact h
      | cons a l => rfl
    have h2 : ∀ k, k ≠ c!"protected" → ∀ (q : Str) (l : List (Str × Json)),
        fieldVals k ((c!"protected", .str q) :: l) = fieldVals k l :=
      fun k hk q l => fieldVals_cons_ne (Ne.symm hk) _ _
    unfold decSignatureE
    rw [h1]
    simp only [optField, dfltField, h2 c!"header" (by decide), h2 c!"signature" (by decide)]
  simp only [decJws, mapEntries, Option.bind_eq_bind, Option.bind_some, optField, reqField, hf, hb, hd,
    hne c!"payload" (by decide), hne c!"signatures" (by decide)]

/-- C22 fails for signatures too: for every message signed in the flat form there is a JWS whose
transmitted protected header has different bytes and which is verified exactly alike under every key. -/
theorem C22_signed_header_bytes_violated (P : Prims) (o : HOrd) (m : Message)
    (signer : Bytes → Bytes → Res Bytes) (key : Bytes) (t : Str) (hw : m.jwm.WF) (hfl : m.flatJws = true)
    (hs : m.sign o signer key = .ok t) :
    ∃ t' p p' v es, parseJson t = some (.obj ((c!"payload", v) :: (c!"protected", .str p) :: es)) ∧
      parseJson t' = some (.obj ((c!"payload", v) :: (c!"protected", .str p') :: es)) ∧
      b64Decode p ≠ b64Decode p' ∧
      ∀ o' pk, Message.verify P o' (utf8 t') pk = Message.verify P o' (utf8 t) pk := by
  obtain ⟨-, sig, -, rfl⟩ := sign_ok hs
  generalize Spec.payloadText (o.sub 1) m = payload
  generalize o.sub 2 = o
  obtain ⟨es, hes⟩ : ∃ es, encJws o (Spec.jwsOf m payload sig) = .obj ((c!"payload", .str payload) ::
      (c!"protected", .str (headerB64 ((o.sub 0).sub 0) (Spec.signedHeader m))) :: es) :=
    ⟨_, by simp only [Spec.jwsOf, hfl, if_true]; rfl⟩
  have hdec := decHeaderB64_enc ((o.sub 0).sub 0) (h := Spec.signedHeader m) hw
  have hparse := parse_jws o (Spec.jwsOf m payload sig)
  have htext := ofBytes_jws (F := P.f64) o (Spec.jwsOf m payload sig)
  have hnums : NumsOk (encJws o (Spec.jwsOf m payload sig)) :=
    (nice_jws (F := fun t => some t) o (Spec.jwsOf m payload sig)).2.1
  generalize (Spec.jwsOf m payload sig).text o = t at *
  rw [hes] at hparse hnums htext
  generalize (o.sub 0).sub 0 = o1 at *
  generalize Spec.signedHeader m = h at *
  have hd1 : b64Decode (headerB64 o1 h) = some (utf8 (printJson (encJwm o1 h))) := b64Decode_encode _
  have hd2 : b64Decode (b64Encode (utf8 (' ' :: printJson (encJwm o1 h)))) =
      some (utf8 (' ' :: printJson (encJwm o1 h))) := b64Decode_encode _
  have hdd : b64Decode (headerB64 o1 h) ≠ b64Decode (b64Encode (utf8 (' ' :: printJson (encJwm o1 h)))) := by
    rw [hd1, hd2]
    intro he
    have := congrArg List.length (utf8_injective (Option.some.inj he))
    simp at this
  have hhd : decHeaderB64 (.str (headerB64 o1 h)) =
      decHeaderB64 (.str (b64Encode (utf8 (' ' :: printJson (encJwm o1 h))))) := by
    simp only [decHeaderB64, hd1, hd2, Option.bind_some, decHeaderBytes, parseBytes_utf8,
      parseJson_print (nums_jwm o1 h), document_ws (nums_jwm o1 h)]
  generalize headerB64 o1 h = p at *
  generalize b64Encode (utf8 (' ' :: printJson (encJwm o1 h))) = p' at *
  have hn' : NumsOk (.obj ((c!"payload", .str payload) :: (c!"protected", .str p') :: es)) := by
    simpa [NumsOk, NumsOkM] using hnums
  have hp' := parseJson_print hn'
  refine ⟨_, p, p', .str payload, es, hparse, hp', hdd, ?_⟩
  intro o' pk
  unfold Message.verify
  rw [jws_ofBytes_print hn', htext, decJws_protected_congr es hhd]

example : ∃ t, (richMessage.asFlatJws .edDsa).sign HOrd.id (SignAlg.edDsa.signer (toy fun _ => none))
    (exampleKey 5) = .ok t ∧ (richMessage.asFlatJws .edDsa).flatJws = true := ⟨_, rfl, rfl⟩

end Verif
