import Verif.Lemma.Algo.EdSign

/-!
# Which public keys accept an EdDSA signature
-/

namespace Verif.Algo

open Spec

/-- Of the public keys of two secrets, of which one accepts a signature for a message, the other accepts it for another
message if and only if the products of hash and secret agree. -/
theorem edVerify_keys {sk sk' m m' sig : Bytes} (h : edVerify (edPublic sk) m sig = some true) :
    edVerify (edPublic sk') m' sig = some true ↔
      edHash (sig.take 32 ++ edPublic sk ++ m) * edScalar sk % edL =
        edHash (sig.take 32 ++ edPublic sk' ++ m') * edScalar sk' % edL := by
  obtain ⟨G, hG, hL⟩ := exists_edOrder
  obtain ⟨a, s, rb, ha, hrb, hs, rfl⟩ := edVerify_shape h
  rw [List.take_append_of_le_length hrb.ge, List.take_of_length_le hrb.le]
  have hA := edPublic_stands hG sk
  have hA' := edPublic_stands hG sk'
  have hpk : edDecompress (edPublic sk) = some _ := estands_read hA
  have hpk' : edDecompress (edPublic sk') = some _ := estands_read hA'
  obtain ⟨q, hq, h1⟩ := (edVerify_iff hpk hA hG m rb hrb hs).1 h
  rw [edVerify_iff hpk' hA' hG m' rb hrb hs]
  have key : edHash (rb ++ edPublic sk ++ m) • -(edScalar sk • G) = edHash (rb ++ edPublic sk' ++ m') • -(edScalar sk' • G) ↔
      edHash (rb ++ edPublic sk ++ m) * edScalar sk % edL = edHash (rb ++ edPublic sk' ++ m') * edScalar sk' % edL := by
    rw [neg_nsmul, neg_nsmul, neg_inj, ← mul_nsmul, ← mul_nsmul, nsmul_eq_nsmul_iff_modEq, hL, mul_comm (edScalar sk),
      mul_comm (edScalar sk')]
    rfl
  rw [← key]
  constructor
  · rintro ⟨q', hq', h2⟩
    obtain rfl := estands_compress hq hq' (h1.trans h2.symm)
    exact add_right_cancel (estands_inj hq hq')
  · intro he
    exact ⟨q, by rw [← he]; exact hq, h1⟩

theorem eight_zero {M : Type*} [AddCommGroup M] {A G : M} {a n n' : Nat} (h8 : 8 • A = 0)
    (he : n • -(a • G) = n' • -A) : (8 * (a * n)) • G = 0 := by
  rw [neg_nsmul, neg_nsmul, neg_inj, ← mul_nsmul] at he
  rw [mul_comm, mul_nsmul, he, ← mul_nsmul, mul_comm, mul_nsmul, h8, nsmul_zero]

/-- A key of small order does not accept what the public key of a secret accepts, unless the hash is zero. -/
theorem edVerify_weak {sk pk m m' sig : Bytes} (hw : EdWeak pk) (h : edVerify (edPublic sk) m sig = some true)
    (h' : edVerify pk m' sig = some true) : edHash (sig.take 32 ++ edPublic sk ++ m) = 0 := by
  obtain ⟨G, hG, hL⟩ := exists_edOrder
  obtain ⟨a, ha, h8⟩ := hw
  obtain ⟨A, hA⟩ := edDecompress_stands ha
  have h8 : 8 • A = 0 := estands_zero_eq (estands_mul hA (show 8 < 2 ^ 256 by decide)) h8
  obtain ⟨-, s, rb, -, hrb, hs, rfl⟩ := edVerify_shape h
  rw [List.take_append_of_le_length hrb.ge, List.take_of_length_le hrb.le]
  have hB := edPublic_stands hG sk
  have hpk : edDecompress (edPublic sk) = some _ := estands_read hB
  obtain ⟨q, hq, h1⟩ := (edVerify_iff hpk hB hG m rb hrb hs).1 h
  obtain ⟨q', hq', h2⟩ := (edVerify_iff ha hA hG m' rb hrb hs).1 h'
  obtain rfl := estands_compress hq hq' (h1.trans h2.symm)
  have he := add_right_cancel (estands_inj hq hq')
  have : (8 * (edScalar sk * edHash (rb ++ edPublic sk ++ m))) • G = 0 := by
    exact eight_zero h8 he
  rw [← addOrderOf_dvd_iff_nsmul_eq_zero, hL] at this
  have hp : Nat.Prime edL := prime_ell
  rcases (Nat.Prime.dvd_mul hp).1 this with h | h
  · exact absurd (Nat.le_of_dvd (by decide) h) (by decide)
  · rcases (Nat.Prime.dvd_mul hp).1 h with h | h
    · exact absurd h (ell_not_dvd_clamp _)
    · exact Nat.eq_zero_of_dvd_of_lt h (edHash_lt _)

/-- The public key of a secret is not of small order. -/
theorem edPublic_not_weak (sk : Bytes) : ¬EdWeak (edPublic sk) := by
  rintro ⟨a, ha, h8⟩
  obtain ⟨G, hG, hL⟩ := exists_edOrder
  have hA := edPublic_stands hG sk
  have hpk : edDecompress (edPublic sk) = some _ := estands_read hA
  obtain rfl := Option.some.inj (hpk.symm.trans ha)
  have : 8 • edScalar sk • G = 0 := estands_zero_eq (estands_mul hA (show 8 < 2 ^ 256 by decide)) h8
  rw [← mul_nsmul, ← addOrderOf_dvd_iff_nsmul_eq_zero, hL] at this
  have hp : Nat.Prime edL := prime_ell
  rcases (Nat.Prime.dvd_mul hp).1 this with h | h
  · exact absurd h (ell_not_dvd_clamp _)
  · exact absurd (Nat.le_of_dvd (by decide) h) (by decide)

end Verif.Algo
