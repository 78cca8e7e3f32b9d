import Verif.Lemma.Algo.EcdsaNonce
import Verif.Props.EcdsaOwner
import Verif.Spec.Nonce

/-!
# C127, C128: the nonces of ECDSA

`P.signedDet` are primitives whose ES256 and ES256K are those of the crates, the nonces of RFC 6979 included.
-/

namespace Verif

open Spec

theorem nonceState_eq (x h : Bytes) (i : Nat) : nonceState x h i = Algo.drbgNext^[i] (Algo.drbgInit x h) := by
  induction i with
  | zero =>
    simp only [nonceState, Function.iterate_zero, id, Algo.drbgInit, Algo.drbgStep, List.append_assoc, List.cons_append,
      List.nil_append]
  | succ i ih =>
    rw [Function.iterate_succ_apply', ← ih]
    rfl

theorem isNonce_iff {c : Algo.Curve} {sk b : Bytes} {k : Nat} :
    IsNonce c sk b k ↔ c.nonceOf (Algo.beNat sk) b = some k := by
  unfold IsNonce nonceValue
  simp only [nonceState_eq]
  constructor
  · rintro ⟨i, rfl, h0, hn, hj⟩
    exact Algo.drbgNonce_of i ⟨h0, hn⟩ hj
  · exact Algo.drbgNonce_some

theorem signedDet_sign {P : Prims} {a : SignAlg} {c : Algo.Curve} (hc : curveOf a = some c) :
    Algo.Good c ∧ (∀ sk b, P.signedDet.sign a sk b = c.signDet (a == .es256k) sk b) ∧
      ∀ nonce sk b, (P.signed nonce).sign a sk b = c.sign (a == .es256k) nonce sk b := by
  cases a with
  | edDsa => cases hc
  | es256 => obtain rfl := Option.some.inj hc; exact ⟨Algo.good_p256, fun _ _ => rfl, fun _ _ _ => rfl⟩
  | es256k => obtain rfl := Option.some.inj hc; exact ⟨Algo.good_k256, fun _ _ => rfl, fun _ _ _ => rfl⟩

theorem signer_iff {P : Prims} {a : SignAlg} {sk b s : Bytes} : a.signer P sk b = .ok s ↔ P.sign a sk b = some s := by
  unfold SignAlg.signer
  rw [Res.ofOpt_eq_ok]

theorem verifyLoop_prims {P Q : Prims} (hv : P.verify = Q.verify) {p : Str} {k : Bytes} : ∀ {o : HOrd} (l : List Signature),
    Message.verifyLoop P p k o l = Message.verifyLoop Q p k o l
  | _, [] => rfl
  | o, s :: l => by
    unfold Message.verifyLoop Message.verifyOne SignAlg.validator
    rw [hv]
    simp only [verifyLoop_prims hv l]

theorem verify_prims {P Q : Prims} (hv : P.verify = Q.verify) (hf : P.f64 = Q.f64) {o : HOrd} {bs k : Bytes} :
    Message.verify P o bs k = Message.verify Q o bs k := by
  unfold Message.verify
  rw [hf]
  simp only [verifyLoop_prims hv]

/-- C127.  Which bytes ES256 and ES256K give: those of SEC 1, section 4.1.3, with the nonce of RFC 6979, section 3.2.  There
are such bytes exactly if the secret is a number in range, the generator gives a nonce and neither half is zero. -/
theorem C127_sign (P : Prims) (a : SignAlg) (c : Algo.Curve) (hc : curveOf a = some c) (sk b sig : Bytes) :
    a.signer P.signedDet sk b = .ok sig ↔
      sk.length = 32 ∧ 0 < Algo.beNat sk ∧ Algo.beNat sk < c.n ∧ ∃ k x y s, IsNonce c sk b k ∧
        c.mul k c.base = some (x, y) ∧ x % c.n ≠ 0 ∧ 0 < s ∧ s < c.n ∧
        s * k % c.n = (Algo.beNat (Algo.sha256 b) + x % c.n * Algo.beNat sk) % c.n ∧
        sig = Algo.beBytes 32 (x % c.n) ++ Algo.beBytes 32 (if a = .es256k ∧ c.n / 2 < s then c.n - s else s) := by
  obtain ⟨hg, h1, -⟩ := signedDet_sign (P := P) hc
  have := hg.fact_n
  rw [signer_iff, h1]
  have hlow : ∀ s, (if (a == .es256k) && decide (c.n / 2 < s) then c.n - s else s) =
      if a = .es256k ∧ c.n / 2 < s then c.n - s else s := by
    intro s
    simp only [Bool.and_eq_true, beq_iff_eq, decide_eq_true_eq]
  unfold Algo.Curve.signDet
  cases hd : c.ofSecret sk with
  | none =>
    constructor
    · intro h; cases h
    · rintro ⟨h1, h2, h3, -⟩
      rw [Algo.ofSecret_iff.2 ⟨h1, h2, h3, rfl⟩] at hd
      cases hd
  | some d =>
    obtain ⟨hl, h0, hn, rfl⟩ := Algo.ofSecret_iff.1 hd
    simp only [hl, h0, hn, true_and, isNonce_iff]
    cases hk : c.nonceOf (Algo.beNat sk) b with
    | none =>
      constructor
      · intro h; cases h
      · rintro ⟨_, _, _, _, h, -⟩; cases h
    | some k =>
      obtain ⟨-, -, hk0, hkn, -⟩ := Algo.drbgNonce_some hk
      have hkz := Algo.natCast_ne_zero_of_lt hk0 hkn
      simp only [Algo.Curve.sign, hd]
      rw [Nat.mod_eq_of_lt (show k - 1 < c.n - 1 by omega), show 1 + (k - 1) = k by omega]
      constructor
      · intro h
        cases hw : c.signWith (Algo.beNat sk) k (Algo.Curve.hash b) with
        | none => rw [hw] at h; cases h
        | some rs =>
          obtain ⟨r, s⟩ := rs
          rw [hw] at h
          obtain ⟨⟨x, y, hm, rfl⟩, hr0, -, hs0, hsn, hse, -⟩ := hg.signWith_parts hw
          refine ⟨k, x, y, s, rfl, hm, by omega, hs0, hsn, ?_, ?_⟩
          · rw [← ZMod.natCast_eq_natCast_iff']
            push_cast
            rw [hse]
            unfold Algo.Curve.hash
            field_simp
          · rw [← hlow]
            exact (Option.some.inj h).symm
      · rintro ⟨k', x, y, s, hkk, hm, hx, hs0, hsn, hse, rfl⟩
        obtain rfl := Option.some.inj hkk
        rw [← ZMod.natCast_eq_natCast_iff'] at hse
        push_cast at hse
        have hsi : Algo.invMod c.n k * (Algo.Curve.hash b + x % c.n * Algo.beNat sk) % c.n = s := by
          refine Algo.cast_inj (Nat.mod_lt _ hg.prime_n.pos) hsn ?_
          rw [ZMod.natCast_mod, Nat.cast_mul, Algo.cast_invMod hg.n_gt hg.n_lt.le]
          push_cast
          unfold Algo.Curve.hash
          rw [← hse]
          field_simp
        simp only [Algo.Curve.signWith, hm, hsi]
        rw [if_neg (by omega)]
        simp only [hlow]

/-- C127.  Signing has no other input than the number of the secret and the hash modulo the order: bytes with the same hash
get the same signature or the same failure, whatever the order of calls and whatever was signed before. -/
theorem C127_hash (P : Prims) (a : SignAlg) (c : Algo.Curve) (hc : curveOf a = some c) (sk b b' : Bytes)
    (hh : Algo.beNat (Algo.sha256 b) % c.n = Algo.beNat (Algo.sha256 b') % c.n) :
    a.signer P.signedDet sk b = a.signer P.signedDet sk b' := by
  obtain ⟨hg, h1, -⟩ := signedDet_sign (P := P) hc
  have key : ∀ {b b' sig}, Algo.beNat (Algo.sha256 b) % c.n = Algo.beNat (Algo.sha256 b') % c.n →
      a.signer P.signedDet sk b = .ok sig → a.signer P.signedDet sk b' = .ok sig := by
    intro b b' sig hh h
    rw [C127_sign P a c hc] at h ⊢
    obtain ⟨h1, h2, h3, k, x, y, s, hk, hm, hx, hs0, hsn, hse, rfl⟩ := h
    refine ⟨h1, h2, h3, k, x, y, s, ?_, hm, hx, hs0, hsn, ?_, rfl⟩
    · unfold IsNonce nonceValue at hk ⊢
      rwa [← hh]
    · rw [hse, Nat.add_mod, hh, ← Nat.add_mod]
  have hs : P.signedDet.sign a sk b = P.signedDet.sign a sk b' := by
    cases h : P.signedDet.sign a sk b with
    | some s => exact (signer_iff.1 (key hh (signer_iff.2 h))).symm
    | none =>
      cases h' : P.signedDet.sign a sk b' with
      | none => rfl
      | some s => rw [signer_iff.1 (key hh.symm (signer_iff.2 h'))] at h; cases h
  unfold SignAlg.signer
  rw [hs]

/-- C127.  What holds with any source of nonces holds of the code: what it signs is signed with some source, and it accepts
what it accepts with any. -/
theorem C127_source (P : Prims) (a : SignAlg) :
    (∀ sk b sig, a.signer P.signedDet sk b = .ok sig → ∃ nonce, a.signer (P.signed nonce) sk b = .ok sig) ∧
    (∀ nonce pk b sig, a.validator P.signedDet pk b sig = a.validator (P.signed nonce) pk b sig) ∧
    (∀ o m sk t, (Message.asJws m a).sign o (a.signer P.signedDet) sk = .ok t →
      ∃ nonce, (m.asJws a).sign o (a.signer (P.signed nonce)) sk = .ok t) ∧
    ∀ nonce o bs pk, Message.verify P.signedDet o bs pk = Message.verify (P.signed nonce) o bs pk := by
  have h1 : ∀ sk b sig, a.signer P.signedDet sk b = .ok sig → ∃ nonce, a.signer (P.signed nonce) sk b = .ok sig := by
    intro sk b sig h
    cases hc : curveOf a with
    | none => cases a <;> first | exact ⟨fun _ _ => 0, h⟩ | cases hc
    | some c =>
      obtain ⟨hg, h1, h2⟩ := signedDet_sign (P := P) hc
      rw [signer_iff, h1] at h
      obtain ⟨k, -, -, -, hk⟩ := Algo.signDet_sign.1 h
      exact ⟨fun _ _ => k - 1, signer_iff.2 ((h2 _ _ _).trans (hk _ rfl))⟩
  refine ⟨h1, fun _ _ _ _ => rfl, fun o m sk t ht => ?_, fun _ _ _ _ => verify_prims (P := P.signedDet) (Q := P.signed _) rfl rfl⟩
  obtain ⟨hal, sig, hsig, htx⟩ := sign_ok ht
  obtain ⟨nonce, hn⟩ := h1 _ _ _ hsig
  exact ⟨nonce, by rw [sign_of hal hn, htx]⟩

/-- C127.  A message that the code signs with ES256 or ES256K verifies under the public key of the secret, in the long or the
short form, and is received with it. -/
theorem C127_verify (P : Prims) (a : SignAlg) (c : Algo.Curve) (hc : curveOf a = some c) (short : Bool) (sk pk : Bytes)
    (hk : ecPublic c short sk = some pk) (m : Message) (hm : m.WF P.f64) (hf : HeaderFixed m.jwm) (o : HOrd) (t : Str)
    (ht : (m.asJws a).sign o (a.signer P.signedDet) sk = .ok t) :
    (∀ o', Message.verify P.signedDet o' (utf8 t) pk =
      .ok { m with jwm := JwmHeader.dflt, flatJwe := false, flatJws := false }) ∧
    ∀ o' dk ek vk, (vk = some pk ∨ vk = none ∧ m.jwm.kid = some (hexEncode pk)) →
      Message.receive P.signedDet o' t dk ek vk =
        .ok { m with jwm := JwmHeader.dflt, flatJwe := false, flatJws := false } := by
  have hv : ∀ o', Message.verify P.signedDet o' (utf8 t) pk =
      .ok { m with jwm := JwmHeader.dflt, flatJwe := false, flatJws := false } := by
    intro o'
    obtain ⟨nonce, hn⟩ := (C127_source P a).2.2.1 o m sk t ht
    rw [(C127_source P a).2.2.2 nonce]
    exact (C102_sign_verify P nonce a c hc short sk pk hk m hm hf o t hn).1 o'
  exact ⟨hv, fun o' dk ek vk hvk => receive_signed (P := P.signedDet) hm ht hv hvk⟩

/-! ## C128 -/

/-- C128.  Whoever uses a nonce twice gives the secret away: with any source of nonces, two signatures of one secret for
different hashes with the same nonce have the same first half, and the secret is one of two numbers computed from them. -/
theorem C128_nonce (P : Prims) (nonce : Bytes → Bytes → Nat) (a : SignAlg) (c : Algo.Curve) (hc : curveOf a = some c)
    (sk b b' sig sig' : Bytes) (h : a.signer (P.signed nonce) sk b = .ok sig)
    (h' : a.signer (P.signed nonce) sk b' = .ok sig') (hn : nonce sk b % (c.n - 1) = nonce sk b' % (c.n - 1))
    (hz : Algo.beNat (Algo.sha256 b) % c.n ≠ Algo.beNat (Algo.sha256 b') % c.n) :
    sig.take 32 = sig'.take 32 ∧ Algo.beNat sk ∈ sharedSecrets c b b' sig sig' := by
  obtain ⟨hg, -, h2⟩ := signedDet_sign (P := P) hc
  rw [signer_iff, h2] at h h'
  exact hg.shared_nonce h h' hn hz

/-- C128.  The same from the outside: two signatures that are accepted under the public key of a secret and have the same
first half, not smaller than the difference of the two moduli, give the secret away unless the second halves are equal up to
sign. -/
theorem C128_accepted (P : Prims) (nonce : Bytes → Bytes → Nat) (a : SignAlg) (c : Algo.Curve) (hc : curveOf a = some c)
    (short : Bool) (sk pk : Bytes) (hk : ecPublic c short sk = some pk) (b b' sig sig' : Bytes)
    (h : a.validator (P.signed nonce) pk b sig = .ok true) (h' : a.validator (P.signed nonce) pk b' sig' = .ok true)
    (ht : sig.take 32 = sig'.take 32) (hr : c.p ≤ Algo.beNat (sig.take 32) + c.n)
    (hne : Algo.beNat (sig.drop 32) ≠ Algo.beNat (sig'.drop 32))
    (hnm : Algo.beNat (sig.drop 32) + Algo.beNat (sig'.drop 32) ≠ c.n) :
    Algo.beNat sk ∈ sharedSecrets c b b' sig sig' := by
  obtain ⟨low, hg, -, hv⟩ := signed_validator (P := P) (nonce := nonce) hc
  rw [validator_iff, hv] at h h'
  exact hg.shared_accepted hk h h' ht hr hne hnm

/-! ## Examples -/

/-- The nonce of RFC 6979, appendix A.2.5, for the message "sample". -/
theorem rfcKey_nonce : IsNonce Algo.p256 rfcKey (utf8 c!"sample")
    0xA6E3C57DD01ABE90086538398355DD4C3B17AA873382B0F24D6129493D8AAD60 :=
  ⟨0, by decide +kernel, by decide, by decide, fun j hj => absurd hj (Nat.not_lt_zero j)⟩

/-- The nonce of RFC 6979, appendix A.2.5, for the message "test". -/
example : IsNonce Algo.p256 rfcKey (utf8 c!"test")
    0xD16B6AE827F17175E040871A1C7EC3500192C4C92677336EC2537ACAEE0008E0 :=
  ⟨0, by decide +kernel, by decide, by decide, fun j hj => absurd hj (Nat.not_lt_zero j)⟩

/-- A nonce on secp256k1 in common use as a test: the secret 1 and the message "Satoshi Nakamoto". -/
example : IsNonce Algo.k256 (Algo.beBytes 32 1) (utf8 c!"Satoshi Nakamoto")
    0x8F8A276C19F4149656B280621E358CCE24F5F52542772691EE69063B74F15D15 :=
  ⟨0, by decide +kernel, by decide, by decide, fun j hj => absurd hj (Nat.not_lt_zero j)⟩

/-- The signature of RFC 6979, appendix A.2.5. -/
theorem rfcSig_det (P : Prims) : SignAlg.es256.signer P.signedDet rfcKey (utf8 c!"sample") = .ok rfcSig := by
  refine signer_iff.2 (Algo.signDet_sign.2 ⟨_, isNonce_iff.1 rfcKey_nonce, by decide, by decide, fun nonce hn => ?_⟩)
  have he : nonce rfcKey (utf8 c!"sample") = rfcNonce rfcKey (utf8 c!"sample") := by rw [hn, rfcNonce]
  rw [← rfcSig_sign]
  unfold Algo.Curve.sign
  rw [he]

/-- The second signature with the nonce of `rfcSig`, for the message "test". -/
def rfcTwice : Bytes := Algo.beBytes 32 0xEFD48B2AACB6A8FD1140DD9CD45E81D69D2C877B56AAF991C34D0EA84EAF3716 ++
  Algo.beBytes 32 0xA6B900CD975A9E705A1DDFA2A16CC492B91D24F2DA0AEE17D1573CD2D3EB85BB

theorem rfcTwice_sign : Algo.p256.sign false rfcNonce rfcKey (utf8 c!"test") = some rfcTwice := by decide +kernel

theorem es256_validator {P : Prims} {nonce : Bytes → Bytes → Nat} {pk b s : Bytes}
    (h : Algo.p256.verify false pk b s = some true) : SignAlg.es256.validator (P.signed nonce) pk b s = .ok true :=
  validator_iff.2 h

theorem es256_signer {P : Prims} {nonce : Bytes → Bytes → Nat} {sk b s : Bytes}
    (h : Algo.p256.sign false nonce sk b = some s) : SignAlg.es256.signer (P.signed nonce) sk b = .ok s :=
  signer_iff.2 h

/-- The secret of RFC 6979 from the two signatures, computed and by both theorems. -/
example (P : Prims) : sharedSecrets Algo.p256 (utf8 c!"sample") (utf8 c!"test") rfcSig rfcTwice =
      [0xC9AFA9D845BA75166B5C215767B1D6934E50C3DB36E89B127B8A622B120F6721,
        (sharedSecrets Algo.p256 (utf8 c!"sample") (utf8 c!"test") rfcSig rfcTwice)[1]!] ∧
    Algo.beNat rfcKey ∈ sharedSecrets Algo.p256 (utf8 c!"sample") (utf8 c!"test") rfcSig rfcTwice ∧
    (rfcSig.take 32 = rfcTwice.take 32 ∧
      Algo.beNat rfcKey ∈ sharedSecrets Algo.p256 (utf8 c!"sample") (utf8 c!"test") rfcSig rfcTwice) := by
  have h1 := Algo.good_p256.sign_verify_bytes rfcSig_public rfcSig_sign
  have h2 := Algo.good_p256.sign_verify_bytes rfcSig_public rfcTwice_sign
  refine ⟨by decide +kernel, ?_, ?_⟩
  · exact C128_accepted P rfcNonce .es256 Algo.p256 rfl true rfcKey rfcPublic rfcSig_public (utf8 c!"sample")
      (utf8 c!"test") rfcSig rfcTwice (es256_validator h1) (es256_validator h2) (by decide +kernel) (by decide +kernel) (by decide +kernel)
      (by decide +kernel)
  · exact C128_nonce P rfcNonce .es256 Algo.p256 rfl rfcKey (utf8 c!"sample") (utf8 c!"test") rfcSig rfcTwice
      (es256_signer rfcSig_sign)
      (es256_signer rfcTwice_sign) rfl (by decide +kernel)

/-- A message that the code signs, with the nonce that RFC 6979 has for it, if there is one with a signature. -/
example (P : Prims) (a : SignAlg) (c : Algo.Curve) (hc : curveOf a = some c) (b : Bytes) (k : Nat)
    (hk : IsNonce c rfcKey b k) (sig : Bytes) (hs : a.signer (P.signed fun _ _ => k - 1) rfcKey b = .ok sig) :
    a.signer P.signedDet rfcKey b = .ok sig := by
  obtain ⟨-, h1, h2⟩ := signedDet_sign (P := P) hc
  obtain ⟨-, -, h0, hn, -⟩ := id hk
  refine signer_iff.2 ((h1 _ _).trans (Algo.signDet_sign.2 ⟨k, isNonce_iff.1 hk, h0, hn, fun nonce he => ?_⟩))
  rw [signer_iff, h2] at hs
  rw [← hs]
  unfold Algo.Curve.sign
  rw [he]

/-- What is signed of `exampleMessage`, and its nonce. -/
theorem exampleInput_nonce : IsNonce Algo.p256 rfcKey (inputOf HOrd.id (exampleMessage.asJws .es256))
    31982966509212918307835412699263668281429337243312014977917159273355043377442 :=
  ⟨0, by decide +kernel, by decide, by decide, fun j hj => absurd hj (Nat.not_lt_zero j)⟩

theorem exampleInput_sign : (Algo.p256.sign false
    (fun _ _ => 31982966509212918307835412699263668281429337243312014977917159273355043377442 - 1) rfcKey
    (inputOf HOrd.id (exampleMessage.asJws .es256))).isSome = true := by decide +kernel

/-- A message that the code signs and takes back. -/
example (P : Prims) (hm : exampleMessage.WF P.f64) : ∃ t,
    (exampleMessage.asJws .es256).sign HOrd.id (SignAlg.es256.signer P.signedDet) rfcKey = .ok t ∧
    Message.receive P.signedDet HOrd.rev t none none (some rfcPublic) =
      .ok { exampleMessage with jwm := JwmHeader.dflt, flatJwe := false, flatJws := false } := by
  obtain ⟨sig, hs⟩ := Option.isSome_iff_exists.1 exampleInput_sign
  have hd : SignAlg.es256.signer P.signedDet rfcKey (inputOf HOrd.id (exampleMessage.asJws .es256)) = .ok sig := by
    refine signer_iff.2 (Algo.signDet_sign.2 ⟨_, isNonce_iff.1 exampleInput_nonce, by decide, by decide, fun nonce hn => ?_⟩)
    rw [← hs]
    unfold Algo.Curve.sign
    rw [hn]
  have ht := sign_of (o := HOrd.id) (m := exampleMessage.asJws .es256) (key := rfcKey) (sig := sig)
    (signer := SignAlg.es256.signer P.signedDet) signName.1 hd
  exact ⟨_, ht, (C127_verify P .es256 Algo.p256 rfl true rfcKey rfcPublic rfcSig_public exampleMessage hm
    ⟨(by intro k h; cases h), (by intro k h; cases h)⟩ HOrd.id _ ht).2 _ _ _ _ (.inl rfl)⟩

end Verif
