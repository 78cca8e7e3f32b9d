import Verif.Model.Cost
import Verif.Props.Verify
import Verif.Props.EdDsa

/-!
# How much work an incoming text causes

C138.
-/

namespace Verif

open Spec

/-! ## The counters change nothing -/

theorem verifyLoopC_snd (P : Prims) (p : Str) (key : Bytes) (o : HOrd) (l : List Signature) :
    (Message.verifyLoopC P p key o l).2 = Message.verifyLoop P p key o l := by
  induction l generalizing o with
  | nil => rfl
  | cons s l ih =>
    unfold Message.verifyLoopC Message.verifyLoop
    cases Message.verifyOne P (o.sub 0) p key s with
    | ok b => cases b <;> simp [ih]
    | err e => rfl
    | panic => rfl

theorem verifyC_snd (P : Prims) (o : HOrd) (b key : Bytes) :
    (Message.verifyC P o b key).2 = Message.verify P o b key := by
  unfold Message.verifyC Message.verify
  cases Jws.ofBytes P.f64 b with
  | none => rfl
  | some j =>
    simp only [Res.ofOpt, Res.bind_ok]
    cases Message.signaturesOf j with
    | ok l => simp only [Res.bind_ok, verifyLoopC_snd]
    | err e => rfl
    | panic => rfl

theorem verifyEachC_snd (P : Prims) (b : Bytes) (key : Option Bytes) (o : HOrd) (l : List Signature) :
    (Message.verifyEachC P b key o l).2 = Message.verifyEach P b key o l := by
  induction l generalizing o with
  | nil => rfl
  | cons s l ih =>
    unfold Message.verifyEachC Message.verifyEach
    cases s.getAlg with
    | none => exact ih _
    | some a =>
      simp only
      cases signingKey key s.getKid with
      | ok k =>
        simp only [Res.bind_ok, verifyC_snd]
        cases Message.verify P (o.sub 0) b k with
        | ok m => rfl
        | err e => exact ih _
        | panic => rfl
      | err e => rfl
      | panic => rfl

theorem verifiedOfC_snd (P : Prims) (o : HOrd) (t : Str) (key : Option Bytes) :
    (Message.verifiedOfC P o t key).2 = Message.verifiedOf P o t key := by
  unfold Message.verifiedOfC Message.verifiedOf
  cases Message.ofText P.f64 t with
  | some m =>
    simp only
    split
    · rfl
    · cases m.getBody with
      | ok body =>
        cases signingKey key m.jwm.kid with
        | ok k =>
          show ((Message.verifyC P o (utf8 body) k).2 >>= fun x => pure (some x)) = _
          rw [verifyC_snd]
          rfl
        | err e => rfl
        | panic => rfl
      | err e => rfl
      | panic => rfl
  | none =>
    simp only
    cases Jws.ofText P.f64 t with
    | some j =>
      simp only
      cases Message.signaturesOf j with
      | ok l => exact verifyEachC_snd P _ _ _ _
      | err e => rfl
      | panic => rfl
    | none => rfl

/-- C138.  `receiveC` is `receive` with a counter. -/
theorem C138_same (P : Prims) (o : HOrd) (t : Str) (sk ek vk : Option Bytes) :
    (Message.receiveC P o t sk ek vk).2 = Message.receive P o t sk ek vk := by
  unfold Message.receiveC Message.receive Message.verifyStep Message.receiveJws
  cases Message.decryptStep P (o.sub 0) t sk ek with
  | ok cur =>
    simp only [Res.bind_ok]
    cases Message.messageType P cur with
    | ok ty =>
      show (if ty = .jws then _ else _ : Nat × Res Message).2 = _
      by_cases h : ty = .jws
      · simp only [h, if_true, Res.bind_ok, verifiedOfC_snd]
        cases Message.verifiedOf P ((o.sub 1).sub 0) cur vk with
        | ok v => cases v <;> rfl
        | err e => rfl
        | panic => rfl
      · simp only [h, if_false, Res.bind_ok]
    | err e => rfl
    | panic => rfl
  | err e => rfl
  | panic => rfl

/-! ## Bounds -/

theorem reaches_le (s : Signature) : Message.reaches s ≤ 1 := by
  unfold Message.reaches
  split
  · split <;> simp
  · simp

theorem verifyLoopC_le (P : Prims) (p : Str) (key : Bytes) (o : HOrd) (l : List Signature) :
    (Message.verifyLoopC P p key o l).1 ≤ l.length := by
  induction l generalizing o with
  | nil => simp [Message.verifyLoopC]
  | cons s l ih =>
    have h1 := reaches_le s
    have h2 := ih (o.sub 1)
    unfold Message.verifyLoopC
    rw [List.length_cons]
    split <;> simp only <;> omega

theorem signatures_of {j : Jws} {l : List Signature} (h : Message.signaturesOf j = .ok l) : Spec.signatures j = l := by
  obtain ⟨p, s, ss⟩ := j
  cases ss with
  | some l' => exact Res.ok.inj h
  | none =>
    cases s with
    | some s => exact Res.ok.inj h
    | none => cases h

theorem verifyC_le {P : Prims} {o : HOrd} {b key : Bytes} {j : Jws} (hj : Jws.ofBytes P.f64 b = some j) :
    (Message.verifyC P o b key).1 ≤ (Spec.signatures j).length := by
  unfold Message.verifyC
  rw [hj]
  simp only
  cases h : Message.signaturesOf j with
  | ok l =>
    rw [signatures_of h]
    exact verifyLoopC_le P _ _ _ _
  | err e => simp
  | panic => simp

theorem verifyEachC_le {P : Prims} {b : Bytes} {vk : Option Bytes} {j : Jws} (hj : Jws.ofBytes P.f64 b = some j)
    (o : HOrd) (l : List Signature) :
    (Message.verifyEachC P b vk o l).1 ≤ l.length * (Spec.signatures j).length := by
  induction l generalizing o with
  | nil => simp [Message.verifyEachC]
  | cons s l ih =>
    have h2 := ih (o.sub 1)
    unfold Message.verifyEachC
    rw [List.length_cons, Nat.add_mul, Nat.one_mul]
    split
    · omega
    · split
      · rename_i k _
        have h1 := verifyC_le (P := P) (o := o.sub 0) (key := k) hj
        simp only
        split <;> simp only <;> omega
      · simp
      · simp

/-- C138, what holds: the number of signatures checked is at most the square of the number of signatures of the
document, and at most the number of signatures if the document is the body of a message. -/
theorem C138_bound_partial (P : Prims) (o : HOrd) (t cur : Str) (sk ek vk : Option Bytes)
    (hd : Message.decryptStep P (o.sub 0) t sk ek = .ok cur) :
    (∀ j, Message.ofText P.f64 cur = none → Jws.ofText P.f64 cur = some j →
      (Message.receiveC P o t sk ek vk).1 ≤ (Spec.signatures j).length ^ 2) ∧
    ∀ m b j, Message.ofText P.f64 cur = some m → m.getBody = .ok b → Jws.ofText P.f64 b = some j →
      (Message.receiveC P o t sk ek vk).1 ≤ (Spec.signatures j).length := by
  have hle : (Message.receiveC P o t sk ek vk).1 ≤ (Message.verifiedOfC P ((o.sub 1).sub 0) cur vk).1 := by
    unfold Message.receiveC
    rw [hd, Res.bind_ok]
    cases Message.messageType P cur with
    | ok ty =>
      show (if ty = .jws then _ else _ : Nat × Res Message).1 ≤ _
      split
      · exact le_rfl
      · exact Nat.zero_le _
    | err e => exact Nat.zero_le _
    | panic => exact Nat.zero_le _
  constructor
  · intro j hn hj
    refine hle.trans ?_
    unfold Message.verifiedOfC
    rw [hn, hj]
    simp only
    cases h : Message.signaturesOf j with
    | ok l =>
      have := verifyEachC_le (vk := vk) (jws_ofBytes_utf8 (F := P.f64) cur ▸ hj) ((o.sub 1).sub 0) l
      rw [signatures_of h, ← pow_two] at this
      rw [signatures_of h]
      exact this
    | err e => simp
    | panic => simp
  · intro m b j hm hb hj
    refine hle.trans ?_
    unfold Message.verifiedOfC
    rw [hm]
    simp only
    split
    · simp
    · rw [hb, Res.bind_ok]
      cases signingKey vk m.jwm.kid with
      | ok k => exact verifyC_le (jws_ofBytes_utf8 (F := P.f64) b ▸ hj)
      | err e => exact Nat.zero_le _
      | panic => exact Nat.zero_le _

/-- A message whose body is a signed document with two entries. -/
def Spec.pairCarrier : Str :=
  c!"{\"typ\":\"application/didcomm-signed+json\",\"id\":\"1\",\"type\":\"t\",\"to\":[\"a\"],\"alg\":\"EdDSA\",\"body\":{\"payload\":\"\",\"signatures\":[{\"signature\":\"\"},{\"signature\":\"\"}]}}"

/-- C138: the bound for this message. -/
example (vk : Option Bytes) : (Message.receiveC (toy fun _ => none) HOrd.id Spec.pairCarrier none none vk).1 ≤ 2 := by
  obtain ⟨m, hm, b, hb, j, hj, hs⟩ : ∃ m, Message.ofText (toy fun _ => none).f64 Spec.pairCarrier = some m ∧
      ∃ b, m.getBody = .ok b ∧ ∃ j, Jws.ofText (toy fun _ => none).f64 b = some j ∧ (Spec.signatures j).length = 2 := by
    have h : (match Message.ofText (toy fun _ => none).f64 Spec.pairCarrier with
      | some m =>
        match m.getBody with
        | .ok b => (Jws.ofText (toy fun _ => none).f64 b).map fun j => (Spec.signatures j).length
        | _ => none
      | none => none) = some 2 := by decide +kernel
    split at h
    · rename_i m hm
      split at h
      · rename_i b hb
        obtain ⟨j, hj, hs⟩ := Option.map_eq_some_iff.1 h
        exact ⟨m, hm, b, hb, j, hj, hs⟩
      · cases h
    · cases h
  exact hs ▸ (C138_bound_partial (toy fun _ => none) HOrd.id Spec.pairCarrier Spec.pairCarrier none none vk (by decide +kernel)).2 m b j hm hb hj

/-- C138, what holds: the entries of an envelope are tried once each at most, and the result is that of the loop without
the counter. -/
theorem C138_entries (P : Prims) (j : Jwe) (sk : Bytes) (key : Option Bytes) (l : List Recipient) :
    (Message.firstKeyC P j sk key l).2 = Message.firstKey P j sk key l ∧
      (Message.firstKeyC P j sk key l).1 ≤ l.length := by
  induction l with
  | nil => exact ⟨rfl, le_rfl⟩
  | cons r l ih =>
    unfold Message.firstKeyC Message.firstKey
    rw [List.length_cons]
    cases decryptCek P j sk r key with
    | ok k => exact ⟨rfl, by simp⟩
    | err e => exact ⟨ih.1, by have := ih.2; simp only; omega⟩
    | panic => exact ⟨rfl, by simp⟩

/-! ## Many signatures -/

/-- A well formed EdDSA signature that no key accepts: its second half is the order of the group. -/
def Spec.badSig : Bytes := List.replicate 32 0 ++ Algo.leBytes 32 Algo.edL

/-- An entry with this signature. -/
def Spec.badEntry : Signature :=
  { protected_ := some { JwmHeader.dflt with alg := some c!"EdDSA" }, header := none, signature := Spec.badSig }

/-- A signed document with `n` such entries. -/
def Spec.badDoc (n : Nat) : Jws := { payload := [], signature := none, signatures := some (List.replicate n Spec.badEntry) }

theorem badSig_false {pk : Bytes} (h : Algo.edDecompress pk ≠ none) (b : Bytes) :
    Algo.edVerify pk b Spec.badSig = some false := by
  unfold Algo.edVerify
  cases hd : Algo.edDecompress pk with
  | none => exact absurd hd h
  | some a =>
    have h1 : Spec.badSig.length = 64 := by decide +kernel
    have h2 : Algo.leNat (Spec.badSig.drop 32) = Algo.edL := by decide +kernel
    simp only [h1, h2]
    rw [if_neg (by decide), if_pos le_rfl]

theorem badEntry_one {P : Prims} {nonce : Bytes → Bytes → Nat} {pk : Bytes} (h : Algo.edDecompress pk ≠ none)
    (o : HOrd) (p : Str) : Message.verifyOne (P.signed nonce) o p pk Spec.badEntry = .ok false := by
  rw [verifyOne_iff]
  exact ⟨.edDsa, _, .inr ⟨rfl, rfl⟩, rfl, badSig_false h _⟩

theorem badEntry_loop {P : Prims} {nonce : Bytes → Bytes → Nat} {pk : Bytes} (h : Algo.edDecompress pk ≠ none)
    (p : Str) (n : Nat) (o : HOrd) :
    Message.verifyLoopC (P.signed nonce) p pk o (List.replicate n Spec.badEntry) = (n, .ok false) := by
  induction n generalizing o with
  | zero => rfl
  | succ n ih =>
    rw [List.replicate_succ]
    unfold Message.verifyLoopC
    rw [badEntry_one h, ih]
    have : Message.reaches Spec.badEntry = 1 := by decide
    simp only [this, Nat.add_comm]

theorem badDoc_wf (n : Nat) : (Spec.badDoc n).WF := by
  constructor
  · intro s h; cases h
  · intro l h s hs
    obtain rfl := Option.some.inj h
    obtain rfl := List.eq_of_mem_replicate hs
    constructor
    · intro x hx; obtain rfl := Option.some.inj hx
      exact ⟨(by intro k h; cases h), (by intro k h; cases h)⟩
    · intro x hx; cases hx

theorem badDoc_read (F : Str → Option Str) (n : Nat) : ∃ j, Jws.ofText F ((Spec.badDoc n).text HOrd.id) = some j ∧
    j.payload = [] ∧ Message.signaturesOf j = .ok (List.replicate n Spec.badEntry) :=
  ⟨_, jws_ofText_text HOrd.id (badDoc_wf n), rfl, rfl⟩

theorem badDoc_class (P : Prims) (n : Nat) :
    Message.messageType P ((Spec.badDoc n).text HOrd.id) = .ok .jws ∧
      Message.ofText P.f64 ((Spec.badDoc n).text HOrd.id) = none := by
  have hp := parse_jws HOrd.id (Spec.badDoc n)
  generalize (Spec.badDoc n).text HOrd.id = t at hp
  constructor
  · rw [messageType_obj P hp (a := false) (b := true) (c := false)]
    · rfl
    · exact presence_absent rfl
    · exact presence_some rfl (by simp)
    · exact presence_absent rfl
  · unfold Message.ofText
    rw [hp]
    exact decMessage_none (k := c!"id") (by decide) (by show 0 ≠ 1; decide)

theorem badDoc_each {P : Prims} {nonce : Bytes → Bytes → Nat} {pk : Bytes} (h : Algo.edDecompress pk ≠ none)
    (n m : Nat) (o : HOrd) :
    Message.verifyEachC (P.signed nonce) (utf8 ((Spec.badDoc n).text HOrd.id)) (some pk) o
      (List.replicate m Spec.badEntry) = (m * n, .ok none) := by
  induction m generalizing o with
  | zero => rw [Nat.zero_mul]; rfl
  | succ m ih =>
    have hv : Message.verifyC (P.signed nonce) (o.sub 0) (utf8 ((Spec.badDoc n).text HOrd.id)) pk =
        (n, .err .jwsParseError) := by
      obtain ⟨j, hj, hp, hs⟩ := badDoc_read (P.signed nonce).f64 n
      unfold Message.verifyC
      rw [jws_ofBytes_utf8, hj]
      simp only [hs, hp, badEntry_loop h]
      rfl
    rw [List.replicate_succ]
    unfold Message.verifyEachC
    have ha : Spec.badEntry.getAlg = some c!"EdDSA" := by decide
    have hk : signingKey (some pk) Spec.badEntry.getKid = .ok pk := rfl
    simp only [ha, hk, hv, ih]
    rw [Nat.add_mul, Nat.one_mul, Nat.add_comm]

theorem printElems_replicate (e : Json) (n : Nat) :
    (printElems (List.replicate n e)).length ≤ n * ((printJson e).length + 1) + 1 := by
  induction n with
  | zero => simp [printElems]
  | succ n ih =>
    cases n with
    | zero => simp [printElems]
    | succ n =>
      rw [List.replicate_succ, List.replicate_succ, printElems, ← List.replicate_succ, List.length_append,
        List.length_cons, Nat.add_mul (n + 1)]
      · omega
      · simp

theorem encList_fixed {α : Type} {e : HOrd → α → Json} {a : α} (h : ∀ o o', e o a = e o' a) (n : Nat) (o : HOrd) :
    encList e o (List.replicate n a) = List.replicate n (e HOrd.id a) := by
  induction n generalizing o with
  | zero => rfl
  | succ n ih => rw [List.replicate_succ, List.replicate_succ, encList, ih, h]

theorem badDoc_length (n : Nat) : ((Spec.badDoc n).text HOrd.id).length ≤ 200 * (n + 1) := by
  have he : ∀ o o', encSignature o Spec.badEntry = encSignature o' Spec.badEntry := fun _ _ => rfl
  have h1 : (printJson (encSignature HOrd.id Spec.badEntry)).length ≤ 199 := by decide +kernel
  have h2 := printElems_replicate (encSignature HOrd.id Spec.badEntry) n
  have h3 : (Spec.badDoc n).text HOrd.id = c!"{\"payload\":\"\",\"signatures\":[" ++
      (printElems (List.replicate n (encSignature HOrd.id Spec.badEntry)) ++ c!"}") := by
    rw [← encList_fixed he n (HOrd.id.sub 1)]
    rfl
  rw [h3, List.length_append, List.length_append]
  have h4 : n * ((printJson (encSignature HOrd.id Spec.badEntry)).length + 1) ≤ n * 200 :=
    Nat.mul_le_mul_left _ (by omega)
  have h5 : c!"{\"payload\":\"\",\"signatures\":[".length = 28 := rfl
  have h6 : c!"}".length = 1 := rfl
  omega

/-- C138 is false: for every `n` there is a text of length at most `200 * (n + 1)`, made without any secret, for which
`receive` checks `n * n` signatures before it refuses the text, whatever the public key of the sender, as long as
the key is one that EdDSA takes.  (`receive_jws` calls `verify` for the whole document once per signature, and `verify`
goes through all of them.) -/
theorem C138_square_violated (n : Nat) : ∃ t : Str, t.length ≤ 200 * (n + 1) ∧
    (∀ F, ∃ j, Jws.ofText F t = some j ∧ (Spec.signatures j).length = n) ∧
    ∀ (P : Prims) (nonce : Bytes → Bytes → Nat) (o : HOrd) (sk ek : Option Bytes) (pk : Bytes),
      (∃ b s r, SignAlg.edDsa.validator (P.signed nonce) pk b s = .ok r) →
      Message.receiveC (P.signed nonce) o t sk ek (some pk) = (n * n, .err .jwsParseError) := by
  refine ⟨(Spec.badDoc n).text HOrd.id, badDoc_length n, ?_, ?_⟩
  · intro F
    obtain ⟨j, hj, -, hs⟩ := badDoc_read F n
    exact ⟨j, hj, by rw [signatures_of hs, List.length_replicate]⟩
  · intro P nonce o sk ek pk ⟨b, s, r, hr⟩
    have hpk : Algo.edDecompress pk ≠ none := by
      unfold SignAlg.validator at hr
      rw [Res.ofOpt_eq_ok, signed_verify_ed] at hr
      intro h
      unfold Algo.edVerify at hr
      rw [h] at hr
      cases hr
    obtain ⟨hc, hn⟩ := badDoc_class (P.signed nonce) n
    obtain ⟨j, hj, -, hs⟩ := badDoc_read (P.signed nonce).f64 n
    have hd : Message.decryptStep (P.signed nonce) (o.sub 0) ((Spec.badDoc n).text HOrd.id) sk ek =
        .ok ((Spec.badDoc n).text HOrd.id) := by
      unfold Message.decryptStep
      rw [hc]
      rfl
    have hv : Message.verifiedOfC (P.signed nonce) ((o.sub 1).sub 0) ((Spec.badDoc n).text HOrd.id) (some pk) =
        (n * n, .ok none) := by
      unfold Message.verifiedOfC
      rw [hn, hj]
      simp only [hs]
      exact badDoc_each hpk n n _
    unfold Message.receiveC
    rw [hd, Res.bind_ok, hc]
    show (Message.verifiedOfC _ _ _ _ |>.1, _) = _
    rw [hv]
    rfl

/-- C138: two hundred signatures, forty thousand checks. -/
example : ∃ t : Str, t.length ≤ 40200 ∧
    Message.receiveC ((toy fun _ => none).signed fun _ _ => 1) HOrd.id t none none (some (edPublic rfcSecret)) =
      (40000, .err .jwsParseError) := by
  obtain ⟨t, h1, -, h2⟩ := C138_square_violated 200
  obtain ⟨sig, -, h⟩ := C104_pair (toy fun _ => none) (fun _ _ => 1) rfcSecret (by decide) []
  exact ⟨t, h1, h2 _ _ _ _ _ _ ⟨[], sig, true, by unfold SignAlg.validator; rw [h]; rfl⟩⟩

/-! ## One signature -/

/-- C138, what holds: a document whose first signature is valid under the key used for it is accepted after one
check, however many signatures follow. -/
theorem C138_first_partial (P : Prims) (o : HOrd) (t : Str) (sk ek vk : Option Bytes) (j : Jws) (s : Signature)
    (l : List Signature) (k pt : Bytes) (m : Message)
    (hc : Message.messageType P t = .ok .jws) (hn : Message.ofText P.f64 t = none)
    (hj : Jws.ofText P.f64 t = some j) (hs : Spec.signatures j = s :: l)
    (hk : signingKey vk s.getKid = .ok k) (hv : ∀ o', Spec.SigCheck P o' j.payload k s true)
    (hp : b64Decode j.payload = some pt) (hm : Message.ofBytes P.f64 pt = some m) :
    (Message.receiveC P o t sk ek vk).1 = 1 := by
  have hss : Message.signaturesOf j = .ok (s :: l) := by
    obtain ⟨p, x, xs⟩ := j
    cases xs with
    | some l' => exact congrArg Res.ok hs
    | none =>
      cases x with
      | some s' => exact congrArg Res.ok hs
      | none => cases hs
  have hone : ∀ o', Message.verifyOne P o' j.payload k s = .ok true := fun o' => verifyOne_iff.2 (hv o')
  obtain ⟨alg, hal, hr⟩ : ∃ alg, s.getAlg = some alg ∧ Message.reaches s = 1 := by
    have h := hone HOrd.id
    unfold Message.verifyOne at h
    simp only [Res.bind_eq_ok, Res.ofOpt_eq_ok] at h
    obtain ⟨alg, h1, a, h2, hd, h3, -⟩ := h
    refine ⟨alg, h1, ?_⟩
    unfold Message.reaches
    rw [h1, h3]
    simp only [h2]
  have hver : ∀ o', Message.verifyC P o' (utf8 t) k = (1, .ok m) := by
    intro o'
    unfold Message.verifyC
    rw [jws_ofBytes_utf8, hj]
    simp only [hss]
    unfold Message.verifyLoopC
    simp only [hone, hr, Res.bind_ok, if_true, hp, hm, Res.ofOpt_some]
  have hd : Message.decryptStep P (o.sub 0) t sk ek = .ok t := by
    unfold Message.decryptStep
    rw [hc]
    rfl
  have hvo : Message.verifiedOfC P ((o.sub 1).sub 0) t vk = (1, .ok (some m)) := by
    unfold Message.verifiedOfC
    rw [hn, hj]
    simp only [hss]
    unfold Message.verifyEachC
    simp only [hal, hk, hver]
  unfold Message.receiveC
  rw [hd, Res.bind_ok, hc]
  show (Message.verifiedOfC P _ _ _).1 = 1
  rw [hvo]

/-- C138, what holds: what the crate signs is accepted after one check. -/
theorem C138_signed_partial (P : Prims) (a : SignAlg) (sk pk : Bytes) (hpair : SignPair P a sk pk)
    (m : Message) (hm : m.WF P.f64) (hf : HeaderFixed m.jwm) (o o' : HOrd) (t : Str)
    (h : (m.asJws a).sign o (a.signer P) sk = .ok t) (dk ek vk : Option Bytes)
    (hvk : vk = some pk ∨ vk = none ∧ m.jwm.kid = some (hexEncode pk)) :
    Message.receiveC P o' t dk ek vk =
      (1, .ok { m with jwm := JwmHeader.dflt, flatJwe := false, flatJws := false }) := by
  have hres : (Message.receiveC P o' t dk ek vk).2 =
      .ok { m with jwm := JwmHeader.dflt, flatJwe := false, flatJws := false } := by
    rw [C138_same]
    obtain ⟨t', h1, h2⟩ := C24_sign_receive P a sk pk hpair m hm hf o o'
    rw [h] at h1
    obtain rfl := Res.ok.inj h1
    exact h2 dk ek vk hvk
  refine Prod.ext ?_ hres
  obtain ⟨-, alg, ha, hofs⟩ := signName (a := a) (h := m.jwm)
  have ha' : (m.asJws a).jwm.alg = some alg := ha
  have hjw : (m.asJws a).jwm.WF := by cases a <;> exact hm.jwm
  have hjf : HeaderFixed (Spec.signedHeader (m.asJws a)) := by cases a <;> exact hf
  have hw : (m.asJws a).WF P.f64 := ⟨hjw, hm.other, hm.to, hm.recipients, hm.canon, hm.nums, hm.depth⟩
  obtain ⟨-, sig, hsig, rfl⟩ := sign_ok h
  obtain ⟨hc, hn⟩ := jwsOf_class (P := P) (o.sub 2) (m.asJws a) (Spec.payloadText (o.sub 1) (m.asJws a)) sig
  obtain ⟨j, hj, hp, hsigs⟩ := jwsOf_signatures (F := P.f64) (m := m.asJws a)
    (p := Spec.payloadText (o.sub 1) (m.asJws a)) (sig := sig) (o.sub 2) hjw
  obtain ⟨b, hb, hof⟩ := payload_decodes (o.sub 1) hw
  obtain ⟨l, hl⟩ : ∃ l, Message.signaturesOf j = .ok (Spec.signatureOf (m.asJws a) sig :: l) := by
    rw [hsigs]
    by_cases hfl : (m.asJws a).flatJws = true
    · rw [if_pos hfl]; exact ⟨[], rfl⟩
    · rw [if_neg hfl]
      obtain ⟨x, l, hx⟩ := List.exists_cons_of_ne_nil (show (m.asJws a).didcomm.to ≠ [] from hm.to)
      rw [hx]
      exact ⟨_, rfl⟩
  have hkey : signingKey vk (Spec.signatureOf (m.asJws a) sig).getKid = .ok pk := by
    rw [show (Spec.signatureOf (m.asJws a) sig).getKid = m.jwm.kid by cases a <;> rfl, signingKey_ok]
    rcases hvk with rfl | ⟨rfl, hk⟩
    · exact .inl rfl
    · exact .inr ⟨rfl, _, hk, hexDecode_encode pk⟩
  refine C138_first_partial P o' _ dk ek vk j _ l pk b _ hc hn ((ofText_jws _ _).trans hj) (signatures_of hl) hkey ?_
    (hp ▸ hb) hof
  intro o''
  rw [← verifyOne_iff, verifyOne_signatureOf ha' hofs, headerB64_fixed hjf o'' (o.sub 0), hp]
  obtain ⟨sig', h1, h2⟩ := hpair (Message.signingInput (headerB64 (o.sub 0) (Spec.signedHeader (m.asJws a)))
        (Spec.payloadText (o.sub 1) (m.asJws a)))
  unfold SignAlg.signer at hsig
  rw [Res.ofOpt_eq_ok, h1] at hsig
  obtain rfl := Option.some.inj hsig
  unfold SignAlg.validator
  rw [h2]
  rfl

/-- C138: a message for two recipients, so with two signatures. -/
example : ∃ t, (richMessage.asJws .es256).sign HOrd.rev (SignAlg.es256.signer (toy fun _ => none)) (exampleKey 5) =
      .ok t ∧ Message.receiveC (toy fun _ => none) HOrd.id t none none (some (exampleKey 5)) = (1, .ok richMessage) := by
  have hf : HeaderFixed richMessage.jwm := ⟨(by intro k h; cases h), (by intro k h; cases h)⟩
  obtain ⟨t, h, -⟩ := C24_sign_verify (toy fun _ => none) .es256 (exampleKey 5) (exampleKey 5) (toy_signPair _ _ _) richMessage
    (richMessage_wf _) hf HOrd.rev HOrd.id
  exact ⟨t, h, C138_signed_partial _ _ _ _ (toy_signPair _ _ _) richMessage (richMessage_wf _) hf _ _ t h _ _ _ (.inl rfl)⟩

end Verif
