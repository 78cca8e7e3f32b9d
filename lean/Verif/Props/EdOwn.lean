import Verif.Props.EdWeak
import Verif.Props.EcdsaOwn

/-!
# C135: every EdDSA signature that is accepted under the public key of a secret is one that the secret makes

As in C104, EdDSA is that of RFC 8032.
-/

namespace Verif

open Spec

namespace Algo

theorem forge_sub {M : Type*} [AddCommGroup M] {T G : M} {k x r s : Nat} (h : s • G = (r + k * x) • G) :
    x • -(k • G + T) + s • G = r • G + -(x • T) := by
  have h1 : x • (k • G) = (k * x) • G := (mul_nsmul ..).symm
  rw [h, neg_nsmul, nsmul_add, h1, add_nsmul]
  abel

/-- What the number `k` makes under the key `k • G + T`. -/
theorem edVerify_forge {pk : Bytes} {a : Nat × Nat} {G T : (mont ed.A).Point} {k : Nat} (ha : edDecompress pk = some a)
    (hA : EStands a (k • G + T)) (hG : EStands edBase G) (hL : addOrderOf G = edL) {r : Nat} (hr : r < edL) (m : Bytes) :
    edVerify pk m (edForge k pk r m) = some true ↔
      edHash (edCompress (edMul r edBase) ++ pk ++ m) % addOrderOf T = 0 := by
  have hL0 : edL • G = 0 := by rw [← hL]; exact addOrderOf_nsmul_eq_zero G
  have hR := estands_mul hG ((hr.trans edL_lt).trans (show 2 ^ 253 < 2 ^ 256 by decide))
  have hrb : (edCompress (edMul r edBase)).length = 32 := edCompress_len _
  unfold edForge
  simp only
  rw [edVerify_iff ha hA hG m _ hrb (Nat.mod_lt _ edL_pos)]
  generalize edHash (edCompress (edMul r edBase) ++ pk ++ m) = x
  have e : x • -(k • G + T) + ((r + x * k) % edL) • G = r • G + -(x • T) :=
    forge_sub (by rw [mod_edL hL0, mul_comm])
  rw [e, ← Nat.dvd_iff_mod_eq_zero, addOrderOf_dvd_iff_nsmul_eq_zero]
  constructor
  · rintro ⟨q, hq, h1⟩
    obtain rfl := estands_compress hq hR h1
    have := estands_inj hq hR
    rwa [add_eq_left, neg_eq_zero] at this
  · intro h0
    refine ⟨_, ?_, rfl⟩
    rw [h0, neg_zero, add_zero]
    exact hR

/-- Under a multiple of the base point nothing else is accepted. -/
theorem edVerify_forged {pk m sig : Bytes} {a : Nat × Nat} {G : (mont ed.A).Point} {k : Nat} (ha : edDecompress pk = some a)
    (hA : EStands a (k • G)) (hG : EStands edBase G) (hL : addOrderOf G = edL) (h : edVerify pk m sig = some true) :
    ∃ r, r < edL ∧ sig = edForge k pk r m := by
  have hL0 : edL • G = 0 := by rw [← hL]; exact addOrderOf_nsmul_eq_zero G
  have : NeZero edL := ⟨edL_pos.ne'⟩
  obtain ⟨-, s, rb, -, hrb, hs, rfl⟩ := edVerify_shape h
  obtain ⟨q, hq, h1⟩ := (edVerify_iff ha hA hG m rb hrb hs).1 h
  let r : ZMod edL := s - (edHash (rb ++ pk ++ m) : ℕ) * k
  have hr : ((r.val : ℕ) : ZMod edL) = s - (edHash (rb ++ pk ++ m) : ℕ) * k := ZMod.natCast_rightInverse r
  have hlt : r.val < edL := ZMod.val_lt r
  have hR := estands_mul hG ((hlt.trans edL_lt).trans (show 2 ^ 253 < 2 ^ 256 by decide))
  have e : edHash (rb ++ pk ++ m) • -(k • G) + s • G = r.val • G := by
    have := forge_sub (M := (mont ed.A).Point) (T := 0) (G := G) (k := k) (x := edHash (rb ++ pk ++ m)) (r := r.val) (s := s)
      (nsmul_edL hL0 (by push_cast; rw [hr]; ring))
    rwa [add_zero, nsmul_zero, neg_zero, add_zero] at this
  rw [e] at hq
  obtain rfl := estands_unique hq hR
  refine ⟨r.val, hlt, ?_⟩
  unfold edForge
  simp only
  rw [h1]
  have e2 : s = (r.val + edHash (rb ++ pk ++ m) * k) % edL := by
    refine cast_inj hs (Nat.mod_lt _ edL_pos) ?_
    rw [ZMod.natCast_mod]
    push_cast
    rw [hr]
    ring
  rw [← e2]

theorem edForge_inj {k : Nat} {pk m : Bytes} {r r' : Nat} (hr : r < edL) (hr' : r' < edL)
    (h : edForge k pk r m = edForge k pk r' m) : r = r' := by
  obtain ⟨G, hG, hL⟩ := exists_edOrder
  have h1 : edCompress (edMul r edBase) = edCompress (edMul r' edBase) := by
    have := congrArg (List.take 32) h
    unfold edForge at this
    simp only at this
    rwa [List.take_left' (edCompress_len _), List.take_left' (edCompress_len _)] at this
  have hR := estands_mul hG ((hr.trans edL_lt).trans (show 2 ^ 253 < 2 ^ 256 by decide))
  have hR' := estands_mul hG ((hr'.trans edL_lt).trans (show 2 ^ 253 < 2 ^ 256 by decide))
  have h2 := estands_compress hR hR' h1
  rw [h2] at hR
  have h3 := estands_inj hR hR'
  rw [nsmul_eq_nsmul_iff_modEq, hL] at h3
  rwa [Nat.ModEq, Nat.mod_eq_of_lt hr, Nat.mod_eq_of_lt hr'] at h3

theorem edPublic_eq_iff {sk sk' : Bytes} : edPublic sk = edPublic sk' ↔ edScalar sk = edScalar sk' := by
  constructor
  · intro h
    obtain ⟨G, hG, hL⟩ := exists_edOrder
    have h1 := edPublic_stands hG sk
    have h2 := edPublic_stands hG sk'
    rw [estands_compress h1 h2 h] at h1
    have h3 := estands_inj h1 h2
    rw [nsmul_eq_nsmul_iff_modEq, hL] at h3
    unfold edScalar at h3 ⊢
    obtain ⟨j, hj, h4, h5⟩ := clamp_form ((sha512 sk).take 32)
    obtain ⟨j', hj', h6, h7⟩ := clamp_form ((sha512 sk').take 32)
    rw [hj, hj'] at h3 ⊢
    have h8 : j ≡ j' [MOD edL] := Nat.ModEq.cancel_left_of_coprime (by decide) h3
    have hl : edL = 7237005577332262213973186563042994240857116359379907606001950938285454250989 := by decide
    rw [Nat.ModEq, hl] at h8
    omega
  · intro h
    unfold edPublic
    rw [h]

end Algo

/-- C135.  The signatures that are accepted under the public key of a secret for an input are exactly those that the
secret scalar makes with some nonce less than the order. -/
theorem C135_signatures (P : Prims) (nonce : Bytes → Bytes → Nat) (sk b sig : Bytes) :
    SignAlg.edDsa.validator (P.signed nonce) (edPublic sk) b sig = .ok true ↔
      ∃ r, r < Algo.edL ∧ sig = edForge (Algo.edScalar sk) (edPublic sk) r b := by
  rw [validator_ed]
  constructor
  · intro h
    obtain ⟨G, hG, hL⟩ := Algo.exists_edOrder
    have hA := Algo.edPublic_stands hG sk
    exact Algo.edVerify_forged (Algo.estands_read hA) hA hG hL h
  · rintro ⟨r, hr, rfl⟩
    exact Algo.ed_forge rfl hr b

/-- C135.  So there are as many accepted signatures for an input as numbers less than the order: no more, and no fewer. -/
theorem C135_count (P : Prims) (nonce : Bytes → Bytes → Nat) (sk b : Bytes) :
    {sig | SignAlg.edDsa.validator (P.signed nonce) (edPublic sk) b sig = .ok true}.ncard = Algo.edL := by
  have hset : {sig | SignAlg.edDsa.validator (P.signed nonce) (edPublic sk) b sig = .ok true} =
      (fun r => edForge (Algo.edScalar sk) (edPublic sk) r b) '' ↑(Finset.range Algo.edL) := by
    ext sig
    rw [Set.mem_ofPred_eq, C135_signatures]
    simp only [Set.mem_image, Finset.coe_range, Set.mem_Iio]
    constructor
    · rintro ⟨r, hr, rfl⟩; exact ⟨r, hr, rfl⟩
    · rintro ⟨r, hr, rfl⟩; exact ⟨r, hr, rfl⟩
  rw [hset, Set.InjOn.ncard_image, Set.ncard_coe_finset, Finset.card_range]
  intro r hr r' hr' h
  rw [Finset.coe_range, Set.mem_Iio] at hr hr'
  exact Algo.edForge_inj hr hr' h

/-- C135.  Two secrets have the same public key if and only if they have the same scalar, and then every signature of the
one is accepted as one of the other. -/
theorem C135_secrets (sk sk' : Bytes) : edPublic sk = edPublic sk' ↔ Algo.edScalar sk = Algo.edScalar sk' :=
  Algo.edPublic_eq_iff

/-- C135 for all keys that are taken.  To each belong a number less than the order and a divisor of eight, and what the
number makes with a nonce is accepted if and only if the divisor divides the hash.  The divisor is one if and only if the
key is a multiple of the base point; then nothing else is accepted.  Otherwise the key is the public key of no secret. -/
theorem C135_keys (P : Prims) (nonce : Bytes → Bytes → Nat) (pk : Bytes) (hp : EdPoint pk) :
    ∃ a k n, Algo.edDecompress pk = some a ∧ k < Algo.edL ∧ n ∣ 8 ∧ (n = 1 ↔ a = Algo.edMul k Algo.edBase) ∧
      (∀ r < Algo.edL, ∀ b, SignAlg.edDsa.validator (P.signed nonce) pk b (edForge k pk r b) = .ok true ↔
        Algo.leNat (Algo.sha512 (Algo.edCompress (Algo.edMul r Algo.edBase) ++ pk ++ b)) % Algo.edL % n = 0) ∧
      (n = 1 → ∀ b sig, SignAlg.edDsa.validator (P.signed nonce) pk b sig = .ok true →
        ∃ r, r < Algo.edL ∧ sig = edForge k pk r b) ∧
      (n ≠ 1 → ∀ sk, pk ≠ edPublic sk) := by
  obtain ⟨a, ha⟩ := Algo.edDecompress_some.2 hp
  obtain ⟨A, hA⟩ := Algo.edDecompress_stands ha
  obtain ⟨G, hG, hL⟩ := Algo.exists_edOrder
  obtain ⟨k, hk, h8⟩ := Algo.ed_multiple (A := A) hL
  have hL0 : Algo.edL • G = 0 := by rw [← hL]; exact addOrderOf_nsmul_eq_zero G
  have lt {x : Nat} (hx : x < Algo.edL) : x < 2 ^ 256 := (hx.trans Algo.edL_lt).trans (by decide)
  obtain ⟨T, rfl⟩ : ∃ T, A = k • G + T := ⟨A - k • G, by abel⟩
  have hT : 8 • T = 0 := by
    rw [nsmul_add, ← mul_nsmul, mul_comm k 8] at h8
    rwa [add_eq_left] at h8
  have h1 : addOrderOf T = 1 ↔ a = Algo.edMul k Algo.edBase := by
    have hR := Algo.estands_mul hG (lt hk)
    rw [AddMonoid.addOrderOf_eq_one_iff]
    constructor
    · rintro rfl
      rw [add_zero] at hA
      exact Algo.estands_unique hA hR
    · rintro rfl
      have := Algo.estands_inj hA hR
      rwa [add_eq_left] at this
  refine ⟨a, k, addOrderOf T, ha, hk, addOrderOf_dvd_iff_nsmul_eq_zero.2 hT, h1, fun r hr b => ?_, fun hn b sig h => ?_,
    fun hn sk hpk => ?_⟩
  · rw [validator_ed, Algo.edVerify_forge ha hA hG hL hr, edHash_eq]
  · rw [validator_ed] at h
    rw [AddMonoid.addOrderOf_eq_one_iff.1 hn, add_zero] at hA
    exact Algo.edVerify_forged ha hA hG hL h
  · subst hpk
    have hS := Algo.edPublic_stands hG sk
    obtain rfl := Option.some.inj ((Algo.estands_read hS).symm.trans ha)
    have e := Algo.estands_inj hS hA
    apply hn
    rw [AddMonoid.addOrderOf_eq_one_iff]
    have h0 : Algo.edL • T = 0 := by
      have := congrArg (fun X => Algo.edL • X) e
      rw [nsmul_add, ← mul_nsmul, mul_comm, mul_nsmul, hL0, nsmul_zero, ← mul_nsmul, mul_comm, mul_nsmul, hL0, nsmul_zero,
        zero_add] at this
      exact this.symm
    have hd : addOrderOf T ∣ 1 :=
      (show Nat.gcd 8 Algo.edL = 1 by decide) ▸ Nat.dvd_gcd (addOrderOf_dvd_iff_nsmul_eq_zero.2 hT)
        (addOrderOf_dvd_iff_nsmul_eq_zero.2 h0)
    exact AddMonoid.addOrderOf_eq_one_iff.1 (Nat.dvd_one.1 hd)

/-- The point of order two. -/
theorem exists_two : ∃ T, Algo.EStands (0, Algo.p25519 - 1) T ∧ addOrderOf T = 2 := by
  obtain ⟨T, hT⟩ := Algo.exists_estands (p := (0, Algo.p25519 - 1)) ⟨by decide, by decide⟩ (by
    unfold Algo.Ed.On Algo.pc
    rw [Algo.cast_p_sub_one, Nat.cast_zero]
    ring)
  refine ⟨T, hT, addOrderOf_eq_prime ?_ ?_⟩
  · rw [two_nsmul]
    exact Algo.estands_zero_eq (Algo.estands_add hT hT) (by decide +kernel)
  · rintro rfl
    exact absurd (Algo.estands_unique hT Algo.estands_zero) (by decide)

/-- C135.  There are keys that are neither weak nor the public key of a secret: to the public key of every secret the point
of order two may be added.  The key is taken, and the owner of the secret signs for it whatever has an even hash. -/
theorem C135_mixed (P : Prims) (nonce : Bytes → Bytes → Nat) (sk : Bytes) :
    let pk := Algo.edCompress (Algo.edAdd (Algo.edMul (Algo.edScalar sk) Algo.edBase) (0, Algo.p25519 - 1))
    EdPoint pk ∧ pk ∉ edWeakKeys ∧ (∀ sk', pk ≠ edPublic sk') ∧
      ∀ r < Algo.edL, ∀ b,
        SignAlg.edDsa.validator (P.signed nonce) pk b (edForge (Algo.edScalar sk) pk r b) = .ok true ↔
          Algo.leNat (Algo.sha512 (Algo.edCompress (Algo.edMul r Algo.edBase) ++ pk ++ b)) % Algo.edL % 2 = 0 := by
  intro pk
  obtain ⟨G, hG, hL⟩ := Algo.exists_edOrder
  obtain ⟨T, hT, h2⟩ := exists_two
  have hL0 : Algo.edL • G = 0 := by rw [← hL]; exact addOrderOf_nsmul_eq_zero G
  have hA := Algo.estands_add (Algo.edPublic_stands hG sk) hT
  have ha := Algo.estands_read hA
  refine ⟨Algo.edDecompress_some.1 ⟨_, ha⟩, fun hw => ?_, fun sk' he => ?_, fun r hr b => ?_⟩
  · have h8 := (Algo.edWeak_iff_eight ha hA).1 (Algo.edWeak_iff.2 hw)
    have h8' : (8 * Algo.edScalar sk) • G = 0 := by
      have : 8 • T = 0 := addOrderOf_dvd_iff_nsmul_eq_zero.1 (by rw [h2]; decide)
      rw [nsmul_add, this, add_zero, ← mul_nsmul, mul_comm] at h8
      exact h8
    rw [← addOrderOf_dvd_iff_nsmul_eq_zero, hL] at h8'
    rcases (Nat.Prime.dvd_mul (show Nat.Prime Algo.edL from Algo.prime_ell)).1 h8' with h | h
    · exact absurd (Nat.le_of_dvd (by decide) h) (by decide)
    · exact absurd h (Algo.ell_not_dvd_clamp _)
  · have hS := Algo.edPublic_stands hG sk'
    have := Algo.estands_compress hA hS he
    rw [this] at hA
    have e := congrArg (fun X => Algo.edL • X) (Algo.estands_inj hS hA)
    have h0 : Algo.edL • T = 0 := by
      rw [nsmul_add, ← mul_nsmul, mul_comm, mul_nsmul, hL0, nsmul_zero, ← mul_nsmul, mul_comm, mul_nsmul, hL0, nsmul_zero,
        zero_add] at e
      exact e.symm
    rw [← addOrderOf_dvd_iff_nsmul_eq_zero, h2] at h0
    exact absurd h0 (by decide)
  · rw [validator_ed, Algo.edVerify_forge ha hA hG hL hr, edHash_eq, h2]

theorem curve_key_length {c : Algo.Curve} {pk : Bytes} {q : Nat × Nat} (h : c.ofSec1 pk = some q) : pk.length ≠ 32 := by
  unfold Algo.Curve.ofSec1 at h
  split at h
  · cases h
  · rename_i t b
    simp only at h
    rw [List.length_cons]
    split at h
    · rename_i h'; omega
    · split at h
      · rename_i h'; omega
      · cases h

/-- C135 for documents: whatever verifies under the public key of a secret was signed with EdDSA by this secret: one of the
signatures of the document is what its scalar makes, with some nonce, of the header and the payload, and the message is
what the payload says. -/
theorem C135_verified (P : Prims) (nonce : Bytes → Bytes → Nat) (o : HOrd) (t sk : Bytes) (m : Message)
    (h : Message.verify (P.signed nonce) o t (edPublic sk) = .ok m) :
    ∃ r j x hdr o' pt, r < Algo.edL ∧ Jws.ofBytes P.f64 t = some j ∧ x ∈ Spec.signatures j ∧ x.protected_ = some hdr ∧
      x.signature = edForge (Algo.edScalar sk) (edPublic sk) r (utf8 (headerB64 o' hdr ++ ['.'] ++ j.payload)) ∧
      b64Decode j.payload = some pt ∧ Message.ofBytes P.f64 pt = some m := by
  obtain ⟨j, i, x, pt, h1, h3, ⟨a, hdr, h4, h5, h6⟩, -, h7, h8⟩ := (C26_verify_iff (P.signed nonce) o t _ m).1 h
  have hl : (edPublic sk).length = 32 := Algo.edCompress_len _
  have hc : a = .edDsa := by
    cases ha : curveOf a with
    | none => cases a with
      | edDsa => rfl
      | es256 => cases ha
      | es256k => cases ha
    | some c =>
      obtain ⟨low, -, hv, -⟩ := signed_counted (P := P) ha
      rw [hv] at h6
      obtain ⟨q, hq⟩ := verify_key h6
      exact absurd hl (curve_key_length hq)
  subst hc
  obtain ⟨r, hr, hx⟩ := (C135_signatures P nonce sk _ _).1 (validator_ok.2 h6)
  exact ⟨r, j, x, hdr, _, pt, hr, h1, List.mem_of_getElem? h3, h5, hx, h7, h8⟩

theorem eight_cancel {M : Type*} [AddCommGroup M] {A G : M} {k x x' s s' : Nat} (h8 : 8 • A = (8 * k) • G)
    (e : x • -A + s • G = x' • -A + s' • G) : (8 * (s + k * x')) • G = (8 * (s' + k * x)) • G := by
  have h1 : ∀ x : Nat, 8 • (x • -A) = -((8 * (k * x)) • G) := fun x => by
    rw [neg_nsmul, smul_neg, ← mul_nsmul', mul_comm 8 x, mul_nsmul', h8, ← mul_nsmul', mul_comm x (8 * k), mul_assoc]
  have h2 := congrArg (fun X => (8 : ℕ) • X) e
  simp only [nsmul_add, h1] at h2
  rw [← mul_nsmul', ← mul_nsmul'] at h2
  rw [mul_add, mul_add, add_nsmul, add_nsmul, ← sub_eq_zero]
  rw [← sub_eq_zero] at h2
  rw [← h2]
  abel

/-- C131 for all keys that are taken: two accepted signatures with the same first half, for inputs of different hash, give
away the number of C135 that belongs to the key, and with it the power to sign whatever has a hash divisible by the
divisor that belongs to the key. -/
theorem C131_keys (P : Prims) (nonce : Bytes → Bytes → Nat) (pk b b' sig sig' : Bytes)
    (h : SignAlg.edDsa.validator (P.signed nonce) pk b sig = .ok true)
    (h' : SignAlg.edDsa.validator (P.signed nonce) pk b' sig' = .ok true) (ht : sig.take 32 = sig'.take 32)
    (hne : Algo.edHash (sig.take 32 ++ pk ++ b) ≠ Algo.edHash (sig'.take 32 ++ pk ++ b')) :
    ∃ n, n ∣ 8 ∧ ∀ r < Algo.edL, ∀ m,
      SignAlg.edDsa.validator (P.signed nonce) pk m (edForge (edExtract pk b b' sig sig') pk r m) = .ok true ↔
        Algo.leNat (Algo.sha512 (Algo.edCompress (Algo.edMul r Algo.edBase) ++ pk ++ m)) % Algo.edL % n = 0 := by
  rw [validator_ed] at h h'
  obtain ⟨a, s, rb, ha, hrb, hs, rfl⟩ := Algo.edVerify_shape h
  obtain ⟨a', s', rb', -, hrb', hs', rfl⟩ := Algo.edVerify_shape h'
  rw [List.take_left' hrb, List.take_left' hrb'] at ht
  subst ht
  obtain ⟨A, hA⟩ := Algo.edDecompress_stands ha
  obtain ⟨G, hG, hL⟩ := Algo.exists_edOrder
  obtain ⟨k, hk, h8⟩ := Algo.ed_multiple (A := A) hL
  obtain ⟨q, hq, h1⟩ := (Algo.edVerify_iff ha hA hG b rb hrb hs).1 h
  obtain ⟨q', hq', h2⟩ := (Algo.edVerify_iff ha hA hG b' rb hrb hs').1 h'
  obtain rfl := Algo.estands_compress hq hq' (h1.trans h2.symm)
  have he := eight_cancel h8 (Algo.estands_inj hq hq')
  have hx : edExtract pk b b' (rb ++ Algo.leBytes 32 s) (rb ++ Algo.leBytes 32 s') = k := by
    unfold edExtract
    rw [List.take_left' hrb, List.take_left' hrb] at hne
    rw [List.take_left' hrb, List.take_left' hrb, List.drop_left' hrb, List.drop_left' hrb, Algo.leNat_s hs, Algo.leNat_s hs']
    have hk1 := Algo.edHash_lt (rb ++ pk ++ b)
    have hk2 := Algo.edHash_lt (rb ++ pk ++ b')
    generalize Algo.edHash (rb ++ pk ++ b) = x at *
    generalize Algo.edHash (rb ++ pk ++ b') = x' at *
    rw [nsmul_eq_nsmul_iff_modEq, hL] at he
    have he := Nat.ModEq.cancel_left_of_coprime (by decide) he
    rw [← ZMod.natCast_eq_natCast_iff] at he
    push_cast at he
    have : NeZero Algo.edL := ⟨Algo.edL_pos.ne'⟩
    have : Fact Algo.edL.Prime := ⟨Algo.prime_ell⟩
    have hkk : (x : ZMod Algo.edL) - x' ≠ 0 := by
      intro h
      apply hne
      rw [sub_eq_zero, ZMod.natCast_eq_natCast_iff'] at h
      rwa [Nat.mod_eq_of_lt hk1, Nat.mod_eq_of_lt hk2] at h
    have hv : ((s : ZMod Algo.edL) - s') * ((x : ZMod Algo.edL) - x')⁻¹ = (k : ℕ) := by
      rw [← div_eq_mul_inv, div_eq_iff hkk]
      linear_combination he
    rw [hv, ZMod.val_natCast, Nat.mod_eq_of_lt hk]
  rw [hx]
  obtain ⟨T, rfl⟩ : ∃ T, A = k • G + T := ⟨A - k • G, by abel⟩
  have hT : 8 • T = 0 := by
    rw [nsmul_add, ← mul_nsmul, mul_comm k 8] at h8
    rwa [add_eq_left] at h8
  refine ⟨addOrderOf T, addOrderOf_dvd_iff_nsmul_eq_zero.2 hT, fun r hr m => ?_⟩
  rw [validator_ed, Algo.edVerify_forge ha hA hG hL hr, edHash_eq]

theorem eight_two {M : Type*} [AddCommGroup M] {A A' G : M} {k k' x x' s : Nat} (h8 : 8 • A = (8 * k) • G)
    (h8' : 8 • A' = (8 * k') • G) (e : x • -A + s • G = x' • -A' + s • G) : (8 * (x * k)) • G = (8 * (x' * k')) • G := by
  have h1 : ∀ (x k : Nat) (A : M), 8 • A = (8 * k) • G → 8 • (x • -A) = -((8 * (x * k)) • G) := fun x k A h => by
    rw [neg_nsmul, smul_neg, ← mul_nsmul', mul_comm 8 x, mul_nsmul', h, ← mul_nsmul', mul_left_comm]
  have h2 := congrArg (fun X => (8 : ℕ) • X) (add_right_cancel e)
  simp only [h1 x k A h8, h1 x' k' A' h8'] at h2
  exact neg_inj.1 h2

/-- C124, what holds for all keys that are taken: with the numbers that belong to two keys (C134), a signature that is
accepted under both makes the products of hash and number agree modulo the order.  Both hashes are taken over the key. -/
theorem C124_keys_partial (P : Prims) (nonce : Bytes → Bytes → Nat) (pk pk' b b' sig : Bytes)
    (h : SignAlg.edDsa.validator (P.signed nonce) pk b sig = .ok true)
    (h' : SignAlg.edDsa.validator (P.signed nonce) pk' b' sig = .ok true) (a a' : Nat × Nat) (k k' : Nat)
    (ha : Algo.edDecompress pk = some a) (ha' : Algo.edDecompress pk' = some a') (hk : k < Algo.edL) (hk' : k' < Algo.edL)
    (h8 : Algo.edMul 8 a = Algo.edMul 8 (Algo.edMul k Algo.edBase))
    (h8' : Algo.edMul 8 a' = Algo.edMul 8 (Algo.edMul k' Algo.edBase)) :
    Algo.leNat (Algo.sha512 (sig.take 32 ++ pk ++ b)) * k % Algo.edL =
      Algo.leNat (Algo.sha512 (sig.take 32 ++ pk' ++ b')) * k' % Algo.edL := by
  rw [validator_ed] at h h'
  obtain ⟨-, s, rb, -, hrb, hs, rfl⟩ := Algo.edVerify_shape h
  obtain ⟨A, hA⟩ := Algo.edDecompress_stands ha
  obtain ⟨A', hA'⟩ := Algo.edDecompress_stands ha'
  obtain ⟨G, hG, hL⟩ := Algo.exists_edOrder
  have eight : ∀ {a : Nat × Nat} {A k}, Algo.EStands a A → k < Algo.edL →
      Algo.edMul 8 a = Algo.edMul 8 (Algo.edMul k Algo.edBase) → 8 • A = (8 * k) • G := by
    intro a A k hA hk h8
    have h1 := Algo.estands_mul hA (show 8 < 2 ^ 256 by decide)
    have h2 := Algo.estands_mul (Algo.estands_mul hG ((hk.trans Algo.edL_lt).trans (show 2 ^ 253 < 2 ^ 256 by decide)))
      (show 8 < 2 ^ 256 by decide)
    rw [h8] at h1
    have h3 := Algo.estands_inj h1 h2
    rwa [← mul_nsmul'] at h3
  obtain ⟨q, hq, h1⟩ := (Algo.edVerify_iff ha hA hG b rb hrb hs).1 h
  obtain ⟨q', hq', h2⟩ := (Algo.edVerify_iff ha' hA' hG b' rb hrb hs).1 h'
  obtain rfl := Algo.estands_compress hq hq' (h1.trans h2.symm)
  have he := eight_two (eight hA hk h8) (eight hA' hk' h8') (Algo.estands_inj hq hq')
  rw [nsmul_eq_nsmul_iff_modEq, hL] at he
  have he := Nat.ModEq.cancel_left_of_coprime (by decide) he
  rw [List.take_left' hrb]
  unfold Algo.edHash at he
  rwa [Nat.ModEq, Nat.mod_mul_mod, Nat.mod_mul_mod] at he

/-! ## Examples -/

/-- C135 applies: the signature of RFC 8032, section 7.1, test 2, is accepted, and is one that the secret makes. -/
example (P : Prims) (nonce : Bytes → Bytes → Nat) :
    SignAlg.edDsa.validator (P.signed nonce) (edPublic rfcSecret) [0x72] rfcEdSig = .ok true ∧
    (∃ r, r < Algo.edL ∧ rfcEdSig = edForge (Algo.edScalar rfcSecret) (edPublic rfcSecret) r [0x72]) := by
  have h : SignAlg.edDsa.validator (P.signed nonce) (edPublic rfcSecret) [0x72] rfcEdSig = .ok true := by
    obtain ⟨sig, -, h1, h2⟩ := Algo.ed_sign_verify rfcSecret [0x72] rfl
    have h3 := rfcEdSig_eq
    rw [← rfcPoint_eq] at h3
    obtain rfl := Option.some.inj (h1.symm.trans h3)
    exact validator_iff.2 (by rw [signed_verify_ed]; exact h2)
  exact ⟨h, (C135_signatures P nonce _ _ _).1 h⟩

/-- A document that verifies under the public key of a secret. -/
example (P : Prims) (nonce : Bytes → Bytes → Nat) (hm : richMessage.WF P.f64) : ∃ t o,
    Message.verify (P.signed nonce) o t (edPublic rfcSecret) = .ok richMessage := by
  obtain ⟨hal, alg, hal', hofs⟩ := signName (a := .edDsa) (h := richMessage.jwm)
  have hs := sign_of (o := HOrd.id) (m := richMessage.asJws .edDsa) (key := []) (signer := fun _ x =>
    .ok (edForge (Algo.edScalar rfcSecret) (edPublic rfcSecret) 7 x)) hal rfl
  exact ⟨_, HOrd.rev, verify_signed (P := P.signed nonce) (a := .edDsa) (pk := edPublic rfcSecret) (fun {b s'} h => by
    obtain rfl := Res.ok.inj h
    rw [signed_verify_ed]
    exact Algo.ed_forge rfl (by decide) b) (asJws_wf (a := .edDsa) hm)
      ⟨(by intro k h; cases h), (by intro k h; cases h)⟩ hal' hofs hs _⟩

end Verif
