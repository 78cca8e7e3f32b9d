import Verif.Lemma.Algo.EcdsaKeys
import Verif.Props.Ecdsa

/-!
# C121, C122: which messages and which keys an ECDSA signature is for

As in C102, ES256 and ES256K are those of SEC 1.
-/

namespace Verif

open Spec

theorem signed_validator {P : Prims} {nonce : Bytes → Bytes → Nat} {a : SignAlg} {c : Algo.Curve} (hc : curveOf a = some c) :
    ∃ low, Algo.Good c ∧ Nonempty (Algo.Two c) ∧
      ∀ pk b s, (P.signed nonce).verify a pk b s = c.verify low pk b s := by
  cases a with
  | edDsa => cases hc
  | es256 => obtain rfl := Option.some.inj hc; exact ⟨false, Algo.good_p256, ⟨Algo.two_p256⟩, fun _ _ _ => rfl⟩
  | es256k => obtain rfl := Option.some.inj hc; exact ⟨true, Algo.good_k256, ⟨Algo.two_k256⟩, fun _ _ _ => rfl⟩

theorem validator_iff {P : Prims} {a : SignAlg} {pk b s : Bytes} :
    a.validator P pk b s = .ok true ↔ P.verify a pk b s = some true := by
  unfold SignAlg.validator
  rw [Res.ofOpt_eq_ok]

/-- A signer that has one signature, for the inputs of a list. -/
def onlyFor (l : List Bytes) (sig : Bytes) (_ b : Bytes) : Res Bytes := if b ∈ l then .ok sig else .err .edDsa

/-- C121 fails: for two inputs, of which neither the hashes are equal modulo the order nor their sum is zero, a secret can
be chosen that has one signature for both. -/
theorem C121_violated (P : Prims) (nonce : Bytes → Bytes → Nat) (a : SignAlg) (c : Algo.Curve) (hc : curveOf a = some c)
    (short : Bool) (b b' : Bytes) (hne : Algo.beNat (Algo.sha256 b) % c.n ≠ Algo.beNat (Algo.sha256 b') % c.n)
    (hz : (Algo.beNat (Algo.sha256 b) + Algo.beNat (Algo.sha256 b')) % c.n ≠ 0) :
    ∃ sk pk sig, ecPublic c short sk = some pk ∧ a.validator (P.signed nonce) pk b sig = .ok true ∧
      a.validator (P.signed nonce) pk b' sig = .ok true := by
  obtain ⟨low, hg, ⟨t⟩, hv⟩ := signed_validator (P := P) (nonce := nonce) hc
  obtain ⟨sk, pk, sig, hk, h1, h2⟩ := hg.one_signature t low short hne hz
  exact ⟨sk, pk, sig, hk, validator_iff.2 (by rw [hv, h1]), validator_iff.2 (by rw [hv, h2])⟩

/-- What is signed of a message. -/
abbrev inputOf (o : HOrd) (m : Message) : Bytes :=
  Message.signingInput (headerB64 (o.sub 0) (Spec.signedHeader m)) (Spec.payloadText (o.sub 1) m)

theorem asJws_wf {F : Str → Option Str} {a : SignAlg} {m : Message} (hm : m.WF F) : (m.asJws a).WF F :=
  ⟨by cases a <;> exact hm.jwm, hm.other, hm.to, hm.recipients, hm.canon, hm.nums, hm.depth⟩

/-- C121 fails for messages: to any two of them, with the exceptions above, a signer can choose a secret with which both
have the same signature.  Both texts verify under the public key and are received with it. -/
theorem C121_messages_violated (P : Prims) (nonce : Bytes → Bytes → Nat) (a : SignAlg) (c : Algo.Curve)
    (hc : curveOf a = some c) (short : Bool) (m m' : Message) (hm : m.WF P.f64) (hm' : m'.WF P.f64)
    (hf : HeaderFixed m.jwm) (hf' : HeaderFixed m'.jwm) (o o' : HOrd)
    (hne : Algo.beNat (Algo.sha256 (inputOf o (m.asJws a))) % c.n ≠
      Algo.beNat (Algo.sha256 (inputOf o' (m'.asJws a))) % c.n)
    (hz : (Algo.beNat (Algo.sha256 (inputOf o (m.asJws a))) +
      Algo.beNat (Algo.sha256 (inputOf o' (m'.asJws a)))) % c.n ≠ 0) :
    ∃ sk pk sig t t', ecPublic c short sk = some pk ∧
      (m.asJws a).sign o (onlyFor [inputOf o (m.asJws a), inputOf o' (m'.asJws a)] sig) sk = .ok t ∧
      (m'.asJws a).sign o' (onlyFor [inputOf o (m.asJws a), inputOf o' (m'.asJws a)] sig) sk = .ok t' ∧
      (∀ o'', Message.verify (P.signed nonce) o'' (utf8 t) pk =
        .ok { m with jwm := JwmHeader.dflt, flatJwe := false, flatJws := false }) ∧
      (∀ o'', Message.verify (P.signed nonce) o'' (utf8 t') pk =
        .ok { m' with jwm := JwmHeader.dflt, flatJwe := false, flatJws := false }) ∧
      ∀ o'' dk ek, Message.receive (P.signed nonce) o'' t dk ek (some pk) =
          .ok { m with jwm := JwmHeader.dflt, flatJwe := false, flatJws := false } ∧
        Message.receive (P.signed nonce) o'' t' dk ek (some pk) =
          .ok { m' with jwm := JwmHeader.dflt, flatJwe := false, flatJws := false } := by
  obtain ⟨sk, pk, sig, hk, h1, h2⟩ := C121_violated P nonce a c hc short _ _ hne hz
  rw [validator_iff] at h1 h2
  have hv : ∀ {b s}, onlyFor [inputOf o (m.asJws a), inputOf o' (m'.asJws a)] sig sk b = .ok s →
      (P.signed nonce).verify a pk b s = some true := by
    intro b s h
    unfold onlyFor at h
    split at h
    · rename_i hb
      obtain rfl := Res.ok.inj h
      simp only [List.mem_cons, List.not_mem_nil, or_false] at hb
      rcases hb with rfl | rfl <;> assumption
    · cases h
  have key : ∀ (x : Message) (q : HOrd), x.WF P.f64 → HeaderFixed x.jwm →
      inputOf q (x.asJws a) ∈ [inputOf o (m.asJws a), inputOf o' (m'.asJws a)] →
      ∃ t, (x.asJws a).sign q (onlyFor [inputOf o (m.asJws a), inputOf o' (m'.asJws a)] sig) sk = .ok t ∧
        ∀ o'', Message.verify (P.signed nonce) o'' (utf8 t) pk =
          .ok { x with jwm := JwmHeader.dflt, flatJwe := false, flatJws := false } := by
    intro x q hx hxf hin
    have hs := sign_of (o := q) (m := x.asJws a) (key := sk) (sig := sig)
      (signer := onlyFor [inputOf o (m.asJws a), inputOf o' (m'.asJws a)] sig) signName.1 (if_pos hin)
    obtain ⟨-, alg, ha, hofs⟩ := signName (a := a) (h := x.jwm)
    exact ⟨_, hs, fun o'' => verify_signed (P := P.signed nonce) hv (asJws_wf hx)
      (by cases a <;> exact hxf) ha hofs hs o''⟩
  obtain ⟨t, ht, hvt⟩ := key m o hm hf (List.mem_cons_self ..)
  obtain ⟨t', ht', hvt'⟩ := key m' o' hm' hf' (List.mem_cons_of_mem _ (List.mem_cons_self ..))
  exact ⟨sk, pk, sig, t, t', hk, ht, ht', hvt, hvt', fun o'' dk ek =>
    ⟨receive_signed (P := P.signed nonce) hm ht hvt (.inl rfl), receive_signed (P := P.signed nonce) hm' ht' hvt' (.inl rfl)⟩⟩

/-- C121 holds against others: under the public key of a secret, a signature that is accepted for two inputs is of inputs
whose hashes agree modulo the order, or gives away the secret by a linear equation in public data — unless its first half
is less than the difference of the prime and the order, which is about one in 2 ^ 128. -/
theorem C121_bound_partial (P : Prims) (nonce : Bytes → Bytes → Nat) (a : SignAlg) (c : Algo.Curve) (hc : curveOf a = some c)
    (short : Bool) (sk pk : Bytes) (hk : ecPublic c short sk = some pk) (b b' sig : Bytes)
    (h : a.validator (P.signed nonce) pk b sig = .ok true) (h' : a.validator (P.signed nonce) pk b' sig = .ok true)
    (hr : c.p ≤ Algo.beNat (sig.take 32) + c.n) :
    Algo.beNat (Algo.sha256 b) % c.n = Algo.beNat (Algo.sha256 b') % c.n ∨
      (Algo.beNat (Algo.sha256 b) + Algo.beNat (Algo.sha256 b') +
        2 * Algo.beNat (sig.take 32) * Algo.beNat sk) % c.n = 0 := by
  obtain ⟨low, hg, -, hv⟩ := signed_validator (P := P) (nonce := nonce) hc
  rw [validator_iff, hv] at h h'
  exact hg.two_messages hk h h' hr

/-! ## C122 -/

/-- C122 fails: a signature that is accepted under the public key of a secret is accepted for the same input under another
public key, which is computed from public data.  The exception is one input hash per first half of the signature. -/
theorem C122_violated (P : Prims) (nonce : Bytes → Bytes → Nat) (a : SignAlg) (c : Algo.Curve) (hc : curveOf a = some c)
    (short : Bool) (sk pk : Bytes) (hk : ecPublic c short sk = some pk) (b sig : Bytes)
    (h : a.validator (P.signed nonce) pk b sig = .ok true) :
    (∀ pk', otherKey c pk b sig = some pk' → c.ofSec1 pk' ≠ c.ofSec1 pk ∧ pk' ≠ pk ∧
      a.validator (P.signed nonce) pk' b sig = .ok true) ∧
    (otherKey c pk b sig = none ↔
      (2 * Algo.beNat (Algo.sha256 b) + Algo.beNat (sig.take 32) * Algo.beNat sk) % c.n = 0) := by
  obtain ⟨low, hg, -, hv⟩ := signed_validator (P := P) (nonce := nonce) hc
  rw [validator_iff, hv] at h
  obtain ⟨r, s, hs, -, -⟩ := (hg.verify_iff hk).1 h
  obtain ⟨-, hr0, hrn, -, -, rfl, -⟩ := Algo.ofSignature_parts hs
  refine ⟨fun pk' ho => ?_, hg.otherKey_none hk b sig hr0 hrn⟩
  obtain ⟨h1, h2, -⟩ := hg.otherKey_verify hk h ho
  exact ⟨h2, (by rintro rfl; exact h2 rfl), validator_iff.2 (by rw [hv, h1])⟩

/-- C122 fails for messages: whoever has a message signed with ES256 or ES256K can compute a public key that is not that of
the signer and under which the unchanged text verifies and is received. -/
theorem C122_messages_violated (P : Prims) (nonce : Bytes → Bytes → Nat) (a : SignAlg) (c : Algo.Curve)
    (hc : curveOf a = some c) (short : Bool) (sk pk : Bytes) (hk : ecPublic c short sk = some pk) (m : Message)
    (hm : m.WF P.f64) (hf : HeaderFixed m.jwm) (o : HOrd) (t : Str)
    (ht : (m.asJws a).sign o (a.signer (P.signed nonce)) sk = .ok t) :
    ∃ sig, a.signer (P.signed nonce) sk (inputOf o (m.asJws a)) = .ok sig ∧
      ∀ pk', otherKey c pk (inputOf o (m.asJws a)) sig = some pk' → c.ofSec1 pk' ≠ c.ofSec1 pk ∧
        (∀ o', Message.verify (P.signed nonce) o' (utf8 t) pk' =
          .ok { m with jwm := JwmHeader.dflt, flatJwe := false, flatJws := false }) ∧
        ∀ o' dk ek, Message.receive (P.signed nonce) o' t dk ek (some pk') =
          .ok { m with jwm := JwmHeader.dflt, flatJwe := false, flatJws := false } := by
  obtain ⟨hal, sig, hsig, -⟩ := sign_ok ht
  refine ⟨sig, hsig, fun pk' ho => ?_⟩
  have hacc := validator_iff.2 (signed_verify hc hk hsig)
  obtain ⟨hne, -, hv⟩ := (C122_violated P nonce a c hc short sk pk hk _ sig hacc).1 pk' ho
  rw [validator_iff] at hv
  have hs := sign_of (o := o) (m := m.asJws a) (key := sk) (sig := sig)
    (signer := onlyFor [inputOf o (m.asJws a)] sig) hal (if_pos (List.mem_cons_self ..))
  have hs' := sign_of (o := o) (m := m.asJws a) (key := sk) (sig := sig) hal hsig
  have htt : (m.asJws a).sign o (onlyFor [inputOf o (m.asJws a)] sig) sk = .ok t := by rw [hs, ← hs', ht]
  obtain ⟨-, alg, ha, hofs⟩ := signName (a := a) (h := m.jwm)
  have hver : ∀ o', Message.verify (P.signed nonce) o' (utf8 t) pk' =
      .ok { m with jwm := JwmHeader.dflt, flatJwe := false, flatJws := false } := by
    intro o'
    refine verify_signed (P := P.signed nonce) (fun {b s} h => ?_) (asJws_wf hm) (by cases a <;> exact hf) ha hofs htt o'
    unfold onlyFor at h
    split at h
    · rename_i hb
      obtain rfl := Res.ok.inj h
      simp only [List.mem_cons, List.not_mem_nil, or_false] at hb
      rw [hb]; exact hv
    · cases h
  exact ⟨hne, hver, fun o' dk ek => receive_signed (P := P.signed nonce) hm ht hver (.inl rfl)⟩

/-- C122, what holds: of the public keys of secrets at most two accept a signature for an input, again unless the first
half is small. -/
theorem C122_two_partial (P : Prims) (nonce : Bytes → Bytes → Nat) (a : SignAlg) (c : Algo.Curve) (hc : curveOf a = some c)
    (short short' : Bool) (sk sk' pk pk' : Bytes) (hk : ecPublic c short sk = some pk)
    (hk' : ecPublic c short' sk' = some pk') (b sig : Bytes)
    (h : a.validator (P.signed nonce) pk b sig = .ok true) (h' : a.validator (P.signed nonce) pk' b sig = .ok true)
    (hr : c.p ≤ Algo.beNat (sig.take 32) + c.n) :
    Algo.beNat sk = Algo.beNat sk' ∨
      (2 * Algo.beNat (Algo.sha256 b) + Algo.beNat (sig.take 32) * (Algo.beNat sk + Algo.beNat sk')) % c.n = 0 := by
  obtain ⟨low, hg, -, hv⟩ := signed_validator (P := P) (nonce := nonce) hc
  rw [validator_iff, hv] at h h'
  exact hg.two_keys hk hk' h h' hr

/-! ## Examples -/

/-- C121 applies to the inputs "yes" and "no". -/
example (P : Prims) (nonce : Bytes → Bytes → Nat) : ∃ sk pk sig, ecPublic Algo.k256 true sk = some pk ∧
    SignAlg.es256k.validator (P.signed nonce) pk (utf8 c!"yes") sig = .ok true ∧
    SignAlg.es256k.validator (P.signed nonce) pk (utf8 c!"no") sig = .ok true :=
  C121_violated P nonce .es256k _ rfl true _ _ (by decide +kernel) (by decide +kernel)

/-- The signature of RFC 6979, appendix A.2.5. -/
def rfcSig : Bytes := Algo.beBytes 32 0xEFD48B2AACB6A8FD1140DD9CD45E81D69D2C877B56AAF991C34D0EA84EAF3716 ++
  Algo.beBytes 32 0xF7CB1C942D657C41D436C7A1B6E29F65F3E900DBB9AFF4064DC4AB2F843ACDA8

/-- The public key of RFC 6979, appendix A.2.5. -/
def rfcPublic : Bytes := 3 :: Algo.beBytes 32 0x60FED4BA255A9D31C961EB74C6356D68C049B8923B61FA6CE669622E60F29FB6

/-- The other key of `rfcSig`. -/
def rfcOther : Bytes := 2 :: Algo.beBytes 32 0x7f57fdb5eca3f088decb4937710c709185bd17ff938fc41cfd424249db4a2c3e

theorem rfcSig_sign : Algo.p256.sign false rfcNonce rfcKey (utf8 c!"sample") = some rfcSig := by decide +kernel

theorem rfcSig_public : ecPublic Algo.p256 true rfcKey = some rfcPublic := by decide +kernel

theorem rfcSig_other : otherKey Algo.p256 rfcPublic (utf8 c!"sample") rfcSig = some rfcOther := by decide +kernel

theorem rfcSig_wrong : Algo.p256.verify false rfcOther (utf8 c!"simple") rfcSig = some false := by decide +kernel

/-- The other key of the signature of RFC 6979, appendix A.2.5, and the first half of that signature is not small. -/
example : ∃ sig pk pk', Algo.p256.sign false rfcNonce rfcKey (utf8 c!"sample") = some sig ∧
    ecPublic Algo.p256 true rfcKey = some pk ∧ otherKey Algo.p256 pk (utf8 c!"sample") sig = some pk' ∧
    Algo.p256.verify false pk' (utf8 c!"sample") sig = some true ∧
    Algo.p256.verify false pk' (utf8 c!"simple") sig = some false ∧
    Algo.p256.p ≤ Algo.beNat (sig.take 32) + Algo.p256.n := by
  refine ⟨rfcSig, rfcPublic, rfcOther, rfcSig_sign, rfcSig_public, rfcSig_other, ?_, rfcSig_wrong, by decide +kernel⟩
  exact (Algo.good_p256.otherKey_verify rfcSig_public
    (Algo.good_p256.sign_verify_bytes rfcSig_public rfcSig_sign) rfcSig_other).1

end Verif
