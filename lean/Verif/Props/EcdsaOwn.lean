import Verif.Lemma.Algo.EcdsaOwn
import Verif.Props.EcdsaOwner
import Verif.Props.EdDsa

/-!
# C133: every key and every signature for ES256 and ES256K that is accepted comes from a secret

As in C102, ES256 and ES256K are those of SEC 1.
-/

namespace Verif

open Spec

theorem signed_counted {P : Prims} {a : SignAlg} {c : Algo.Curve} (hc : curveOf a = some c) :
    ∃ low, Algo.Counted c ∧ (∀ nonce pk b s, (P.signed nonce).verify a pk b s = c.verify low pk b s) ∧
      ∀ nonce sk b, (P.signed nonce).sign a sk b = c.sign low nonce sk b := by
  cases a with
  | edDsa => cases hc
  | es256 => obtain rfl := Option.some.inj hc; exact ⟨false, Algo.counted_p256, fun _ _ _ _ => rfl, fun _ _ _ => rfl⟩
  | es256k => obtain rfl := Option.some.inj hc; exact ⟨true, Algo.counted_k256, fun _ _ _ _ => rfl, fun _ _ _ => rfl⟩

theorem validator_ok {P : Prims} {a : SignAlg} {pk b s : Bytes} {r : Bool} :
    a.validator P pk b s = .ok r ↔ P.verify a pk b s = some r := by
  unfold SignAlg.validator
  rw [Res.ofOpt_eq_ok]

theorem verify_key {c : Algo.Curve} {low : Bool} {pk b s : Bytes} {r : Bool} (h : c.verify low pk b s = some r) :
    ∃ q, c.ofSec1 pk = some q := by
  unfold Algo.Curve.verify at h
  split at h
  · cases h
  · rename_i q hq; exact ⟨q, hq⟩

/-- C133.  The keys with which the validator decides anything are exactly the public keys of secrets, in either form.
There is no key on the curve, or beside it, that belongs to nobody. -/
theorem C133_keys (P : Prims) (nonce : Bytes → Bytes → Nat) (a : SignAlg) (c : Algo.Curve) (hc : curveOf a = some c)
    (pk : Bytes) : (∃ b sig r, a.validator (P.signed nonce) pk b sig = .ok r) ↔
      ∃ short sk, ecPublic c short sk = some pk := by
  obtain ⟨low, hg, hv, -⟩ := signed_counted (P := P) hc
  constructor
  · rintro ⟨b, sig, r, h⟩
    rw [validator_ok, hv] at h
    obtain ⟨q, hq⟩ := verify_key h
    exact hg.public_of_ofSec1 hq
  · rintro ⟨short, sk, hk⟩
    obtain ⟨d, q, -, -, -, hq⟩ := hg.ofSec1_public hk
    have hn := hg.n_gt
    have hs := hg.ofSignature_bytes (r := 1) (s := 1) (by omega) (by omega) (by omega) (by omega)
    obtain ⟨r, hr⟩ : ∃ r, c.verify low pk [] (Algo.beBytes 32 1 ++ Algo.beBytes 32 1) = some r := by
      unfold Algo.Curve.verify
      rw [hq, hs]
      exact ⟨_, rfl⟩
    exact ⟨_, _, r, by rw [validator_ok, hv, hr]⟩

/-- C133.  The secret is one, and so is the form. -/
theorem C133_one (a : SignAlg) (c : Algo.Curve) (hc : curveOf a = some c) (short short' : Bool) (sk sk' pk : Bytes)
    (hk : ecPublic c short sk = some pk) (hk' : ecPublic c short' sk' = some pk) : short = short' ∧ sk = sk' := by
  obtain ⟨low, hg, -⟩ := signed_counted (P := toy fun _ => none) hc
  exact hg.public_inj hk hk'

/-- C133.  So there are as many keys as numbers less than the order and not zero, twice. -/
theorem C133_count (P : Prims) (nonce : Bytes → Bytes → Nat) (a : SignAlg) (c : Algo.Curve) (hc : curveOf a = some c) :
    {pk : Bytes | ∃ b sig r, a.validator (P.signed nonce) pk b sig = .ok r}.ncard = 2 * (c.n - 1) := by
  obtain ⟨low, hg, -⟩ := signed_counted (P := P) hc
  have key : ∀ short d, d ∈ Finset.Ico 1 c.n → ∃ pk, ecPublic c short (Algo.beBytes 32 d) = some pk := by
    intro short d hd
    rw [Finset.mem_Ico] at hd
    refine hg.public_exists (d := d) ?_ short
    rw [Algo.ofSecret_iff, Algo.beNat_beBytes (hd.2.trans hg.n_lt)]
    exact ⟨Algo.beBytes_length .., hd.1, hd.2, rfl⟩
  let f : Bool × Nat → Bytes := fun x => (ecPublic c x.1 (Algo.beBytes 32 x.2)).getD []
  have hf : ∀ x ∈ (Finset.univ : Finset Bool) ×ˢ Finset.Ico 1 c.n,
      ecPublic c x.1 (Algo.beBytes 32 x.2) = some (f x) := by
    intro x hx
    obtain ⟨pk, hpk⟩ := key x.1 x.2 (Finset.mem_product.1 hx).2
    simp only [f, hpk, Option.getD_some]
  have hset : {pk : Bytes | ∃ b sig r, a.validator (P.signed nonce) pk b sig = .ok r} =
      ↑(((Finset.univ : Finset Bool) ×ˢ Finset.Ico 1 c.n).image f) := by
    ext pk
    simp only [Set.mem_ofPred_eq, C133_keys P nonce a c hc, Finset.coe_image, Set.mem_image, Finset.mem_coe]
    constructor
    · rintro ⟨short, sk, hk⟩
      obtain ⟨d, q, hd, -, -, -⟩ := hg.ofSec1_public hk
      obtain ⟨hl, h0, hn, rfl⟩ := Algo.ofSecret_iff.1 hd
      have hm : (short, Algo.beNat sk) ∈ (Finset.univ : Finset Bool) ×ˢ Finset.Ico 1 c.n :=
        Finset.mem_product.2 ⟨Finset.mem_univ _, Finset.mem_Ico.2 ⟨h0, hn⟩⟩
      refine ⟨_, hm, ?_⟩
      have := hf _ hm
      rw [Algo.beBytes_beNat hl, hk] at this
      exact (Option.some.inj this).symm
    · rintro ⟨x, hx, rfl⟩
      exact ⟨_, _, hf x hx⟩
  rw [hset, Set.ncard_coe_finset, Finset.card_image_of_injOn, Finset.card_product, Nat.card_Ico]
  · rfl
  · intro x hx y hy hxy
    have h1 := hf x hx
    have h2 := hf y hy
    have hxy : f x = f y := hxy
    rw [← hxy] at h2
    obtain ⟨h3, h4⟩ := hg.public_inj h1 h2
    have h5 := congrArg Algo.beNat h4
    have hx2 := (Finset.mem_Ico.1 (Finset.mem_product.1 hx).2).2
    have hy2 := (Finset.mem_Ico.1 (Finset.mem_product.1 hy).2).2
    rw [Algo.beNat_beBytes (hx2.trans hg.n_lt), Algo.beNat_beBytes (hy2.trans hg.n_lt)] at h5
    exact Prod.ext h3 h5

/-- C133.  The signatures that are accepted under a public key are exactly those that its secret makes, with some nonce.
Nothing is accepted that the signer could not have made. -/
theorem C133_signatures (P : Prims) (nonce : Bytes → Bytes → Nat) (a : SignAlg) (c : Algo.Curve) (hc : curveOf a = some c)
    (short : Bool) (sk pk : Bytes) (hk : ecPublic c short sk = some pk) (b sig : Bytes) :
    a.validator (P.signed nonce) pk b sig = .ok true ↔ ∃ nonce', a.signer (P.signed nonce') sk b = .ok sig := by
  obtain ⟨low, hg, hv, hs⟩ := signed_counted (P := P) hc
  constructor
  · intro h
    rw [validator_ok, hv] at h
    obtain ⟨k, hn⟩ := hg.verify_iff_sign hk h
    refine ⟨fun _ _ => k, ?_⟩
    unfold SignAlg.signer
    rw [hs, hn _ rfl]
    rfl
  · rintro ⟨nonce', h⟩
    have := signed_verify hc hk h
    rw [hv] at this
    rw [validator_ok, hv, this]

/-- C133 for documents: whatever verifies under a key that is not one for EdDSA was signed with ES256 or ES256K, by the one
secret whose public key it is: one of the signatures of the document is one that this secret makes, with some nonce, of
the header and the payload, and the message is what the payload says. -/
theorem C133_verified (P : Prims) (nonce : Bytes → Bytes → Nat) (o : HOrd) (t pk : Bytes) (hl : pk.length ≠ 32)
    (m : Message) (h : Message.verify (P.signed nonce) o t pk = .ok m) :
    ∃ a c short sk nonce' j x hdr o' pt, curveOf a = some c ∧ ecPublic c short sk = some pk ∧
      Jws.ofBytes P.f64 t = some j ∧ x ∈ Spec.signatures j ∧ x.protected_ = some hdr ∧
      a.signer (P.signed nonce') sk (utf8 (headerB64 o' hdr ++ ['.'] ++ j.payload)) = .ok x.signature ∧
      b64Decode j.payload = some pt ∧ Message.ofBytes P.f64 pt = some m := by
  obtain ⟨j, i, x, pt, h1, h3, ⟨a, hdr, h4, h5, h6⟩, -, h7, h8⟩ := (C26_verify_iff (P.signed nonce) o t pk m).1 h
  have hc : ∃ c, curveOf a = some c := by
    cases a with
    | es256 => exact ⟨_, rfl⟩
    | es256k => exact ⟨_, rfl⟩
    | edDsa =>
      exfalso
      rw [signed_verify_ed] at h6
      unfold Algo.edVerify at h6
      split at h6
      · cases h6
      · rename_i q hq
        exact hl (Algo.edDecompress_len hq)
  obtain ⟨c, hc⟩ := hc
  have hval := validator_ok.2 h6
  obtain ⟨short, sk, hk⟩ := (C133_keys P nonce a c hc pk).1 ⟨_, _, _, hval⟩
  obtain ⟨nonce', hs⟩ := (C133_signatures P nonce a c hc short sk pk hk _ _).1 hval
  exact ⟨a, c, short, sk, nonce', j, x, hdr, _, pt, hc, hk, h1, List.mem_of_getElem? h3, h5, hs, h7, h8⟩

/-- C122, what holds, for all keys: of three keys that accept a signature for an input two are the same point, unless the
first half of the signature is small. -/
theorem C122_three_partial (P : Prims) (nonce : Bytes → Bytes → Nat) (a : SignAlg) (c : Algo.Curve) (hc : curveOf a = some c)
    (pk pk' pk'' b sig : Bytes) (h : a.validator (P.signed nonce) pk b sig = .ok true)
    (h' : a.validator (P.signed nonce) pk' b sig = .ok true) (h'' : a.validator (P.signed nonce) pk'' b sig = .ok true)
    (hr : c.p ≤ Algo.beNat (sig.take 32) + c.n) :
    c.ofSec1 pk = c.ofSec1 pk' ∨ c.ofSec1 pk = c.ofSec1 pk'' ∨ c.ofSec1 pk' = c.ofSec1 pk'' := by
  obtain ⟨low, hg, hv, -⟩ := signed_counted (P := P) hc
  obtain ⟨s1, sk1, k1⟩ := (C133_keys P nonce a c hc pk).1 ⟨_, _, _, h⟩
  obtain ⟨s2, sk2, k2⟩ := (C133_keys P nonce a c hc pk').1 ⟨_, _, _, h'⟩
  obtain ⟨s3, sk3, k3⟩ := (C133_keys P nonce a c hc pk'').1 ⟨_, _, _, h''⟩
  have e12 := C122_two_partial P nonce a c hc s1 s2 sk1 sk2 pk pk' k1 k2 b sig h h' hr
  have e13 := C122_two_partial P nonce a c hc s1 s3 sk1 sk3 pk pk'' k1 k3 b sig h h'' hr
  obtain ⟨d1, q1, u1, l1, m1, o1⟩ := hg.ofSec1_public k1
  obtain ⟨d2, q2, u2, l2, m2, o2⟩ := hg.ofSec1_public k2
  obtain ⟨d3, q3, u3, l3, m3, o3⟩ := hg.ofSec1_public k3
  obtain ⟨-, -, -, rfl⟩ := Algo.ofSecret_iff.1 u1
  obtain ⟨-, -, -, rfl⟩ := Algo.ofSecret_iff.1 u2
  obtain ⟨-, -, -, rfl⟩ := Algo.ofSecret_iff.1 u3
  rw [o1, o2, o3, ← m1, ← m2, ← m3]
  rcases e12 with e12 | e12
  · rw [e12]; exact .inl rfl
  rcases e13 with e13 | e13
  · rw [e13]; exact .inr (.inl rfl)
  right; right
  have := hg.fact_n
  have hr0 : ((Algo.beNat (sig.take 32) : ℕ) : ZMod c.n) ≠ 0 := by
    rw [validator_ok, hv] at h
    obtain ⟨r, s, hs, -, -⟩ := (hg.verify_iff k1).1 h
    obtain ⟨-, h0, hn, -, -, rfl, -⟩ := Algo.ofSignature_parts hs
    exact Algo.natCast_ne_zero_of_lt h0 hn
  rw [Algo.mod_eq_zero_iff_cast] at e12 e13
  push_cast at e12 e13
  have e : ((Algo.beNat (sig.take 32) : ℕ) : ZMod c.n) * Algo.beNat sk2 = Algo.beNat (sig.take 32) * Algo.beNat sk3 := by
    linear_combination e12 - e13
  rw [Algo.cast_inj l2 l3 (mul_left_cancel₀ hr0 e)]

/-! ## Examples -/

theorem es256_sign (P : Prims) (nonce : Bytes → Bytes → Nat) (sk b : Bytes) :
    (P.signed nonce).sign .es256 sk b = Algo.p256.sign false nonce sk b := rfl

/-- C133 applies: a signature of RFC 6979 is accepted under its key, and is one that the secret makes. -/
example (P : Prims) (nonce : Bytes → Bytes → Nat) :
    ∃ sk pk sig nonce', ecPublic Algo.p256 true sk = some pk ∧ pk.length ≠ 32 ∧
      SignAlg.es256.validator (P.signed nonce) pk (utf8 c!"sample") sig = .ok true ∧
      SignAlg.es256.signer (P.signed nonce') sk (utf8 c!"sample") = .ok sig := by
  have h : SignAlg.es256.signer (P.signed rfcNonce) rfcKey (utf8 c!"sample") = .ok rfcSig := by
    unfold SignAlg.signer
    rw [es256_sign, rfcSig_sign]
    rfl
  exact ⟨rfcKey, rfcPublic, rfcSig, rfcNonce, rfcSig_public, (by decide),
    (C133_signatures P nonce .es256 _ rfl true rfcKey rfcPublic rfcSig_public _ _).2 ⟨_, h⟩, h⟩

/-- Two of the three keys of C122 are different points. -/
example : Algo.p256.ofSec1 rfcPublic ≠ Algo.p256.ofSec1 rfcOther ∧
    Algo.p256.p ≤ Algo.beNat (rfcSig.take 32) + Algo.p256.n := by
  constructor <;> decide +kernel

end Verif
