import Verif.Lemma.Algo.X25519
import Verif.Lemma.Algo.PrimeOrder
import Mathlib.GroupTheory.OrderOfElement

/-!
# The order of the base point, and what follows for keys and secrets
-/

namespace Verif.Algo

open WeierstrassCurve WeierstrassCurve.Affine

theorem double_of_xc_zero {D : (mont curveA).Point} (h : xc D = 0) : 2 • D = 0 := by
  rw [two_nsmul]
  match D, h with
  | .zero, _ => rw [← Point.zero_def, add_zero]
  | .some x y hp, h =>
    have hx : x = 0 := h
    have e := mont_eq hp
    have hy : y = 0 := by
      have : y ^ 2 = 0 := by rw [e, hx]; ring
      exact pow_eq_zero_iff (by decide) |>.1 this
    exact Point.add_self_of_Y_eq (by rw [mont_negY, hy, neg_zero])

theorem xc_zero : xc (0 : (mont curveA).Point) = 0 := rfl

theorem xc_neg (D : (mont curveA).Point) : xc (-D) = xc D := by
  match D with
  | .zero => rfl
  | .some x y h => rfl

theorem eq_or_neg_of_xc {D E : (mont curveA).Point} (h : xc D = xc E) (h0 : xc D ≠ 0) : D = E ∨ D = -E := by
  match D, E, h, h0 with
  | .zero, _, _, h0 => exact absurd rfl h0
  | .some x y hp, .zero, h, h0 => exact absurd (show xc _ = 0 from h) h0
  | .some x y hp, .some x' y' hp', h, h0 =>
    obtain rfl : x = x' := h
    have e1 := mont_eq hp
    have e2 := mont_eq hp'
    have : y = y' ∨ y = -y' := sq_eq_sq_iff_eq_or_eq_neg.1 (e1.trans e2.symm)
    rcases this with rfl | rfl
    · left; rfl
    · right
      rw [Point.neg_some]
      congr 1
      exact mont_negY.symm

theorem cast_ne_zero {n : Nat} (h : n % p25519 ≠ 0) : ((n : ℕ) : Fp) ≠ 0 := by
  intro h'
  have : ((n : ℕ) : Fp) = ((0 : ℕ) : Fp) := by simpa using h'
  rw [ZMod.natCast_eq_natCast_iff'] at this
  exact h (by simpa using this)

theorem base_two_ell {G : (mont curveA).Point} (hG : ((9 : ℕ) : Fp) = xc G) : (2 * ell) • G = 0 := by
  have h := cast_montMul hG (k := ell) (by decide)
  rw [show montMul ell 9 = 0 by decide +kernel, Nat.cast_zero] at h
  rw [mul_nsmul', double_of_xc_zero h.symm]

theorem base_two {G : (mont curveA).Point} (hG : ((9 : ℕ) : Fp) = xc G) : 2 • G ≠ 0 := by
  intro h0
  have h := cast_montMul hG (k := 2) (by decide)
  rw [h0, xc_zero] at h
  exact cast_ne_zero (by decide +kernel) h

/-- Twice a multiple of the base point vanishes only if the order divides the factor. -/
theorem ell_dvd {G : (mont curveA).Point} (hG : ((9 : ℕ) : Fp) = xc G) {n : Nat} (h : (2 * n) • G = 0) : ell ∣ n := by
  by_contra hn
  have h1 := addOrderOf_dvd_iff_nsmul_eq_zero.2 h
  have h2 := addOrderOf_dvd_iff_nsmul_eq_zero.2 (base_two_ell hG)
  have h3 := Nat.dvd_gcd h2 h1
  rw [Nat.gcd_mul_left, (Nat.Prime.coprime_iff_not_dvd prime_ell).2 hn] at h3
  exact base_two hG (addOrderOf_dvd_iff_nsmul_eq_zero.1 (by simpa using h3))

theorem ell_dvd_of_xc {G : (mont curveA).Point} (hG : ((9 : ℕ) : Fp) = xc G) {n : Nat} (h : xc (n • G) = 0) : ell ∣ n :=
  ell_dvd hG (by rw [mul_nsmul']; exact double_of_xc_zero h)

/-- Private keys are multiples of eight in the upper half. -/
theorem clamp_form (b : Bytes) : ∃ j, clamp b = 8 * j ∧ 2 ^ 251 ≤ j ∧ j < 2 ^ 252 := by
  have := Nat.mod_lt (leNat b) (show 2 ^ 254 > 0 by decide)
  refine ⟨leNat b % 2 ^ 254 / 8 + 2 ^ 251, ?_, by omega, by omega⟩
  simp only [clamp]
  omega

theorem ell_val : ell = 7237005577332262213973186563042994240857116359379907606001950938285454250989 := by decide

theorem ell_dvd_eight {j : Nat} (h : ell ∣ 8 * j) : ell ∣ j :=
  (Nat.Coprime.dvd_mul_left (by decide +kernel : Nat.Coprime ell 8)).1 h

theorem ell_not_dvd_clamp (b : Bytes) : ¬ell ∣ clamp b := by
  obtain ⟨j, hj, h1, h2⟩ := clamp_form b
  rw [hj]
  intro h
  have := Nat.le_of_dvd (by omega) (ell_dvd_eight h)
  rw [ell_val] at this
  omega

theorem leBytes_inj {x y : Nat} (hx : x < p25519) (hy : y < p25519) (h : leBytes 32 x = leBytes 32 y) : x = y := by
  rw [← uCoord_leBytes hx, h, uCoord_leBytes hy]

/-- Two honest parties never share the zero secret. -/
theorem x25519_ne_zero (a b : Bytes) : x25519 a (x25519Pub b) ≠ List.replicate 32 0 := by
  obtain ⟨G, hG⟩ := base_point
  intro h
  simp only [x25519, x25519Pub, uCoord_leBytes (montMul_lt ..)] at h
  rw [show List.replicate 32 (0 : UInt8) = leBytes 32 0 by decide +kernel] at h
  have h0 := leBytes_inj (montMul_lt ..) p_pos h
  have h1 := cast_montMul (cast_montMul hG (clamp_lt b)) (clamp_lt a)
  rw [h0, Nat.cast_zero, ← mul_nsmul'] at h1
  rcases (Nat.Prime.dvd_mul prime_ell).1 (ell_dvd_of_xc hG h1.symm) with h | h
  · exact ell_not_dvd_clamp a h
  · exact ell_not_dvd_clamp b h

/-- Which private keys have the same public key. -/
theorem x25519Pub_eq_iff (a b : Bytes) :
    x25519Pub a = x25519Pub b ↔ clamp a = clamp b ∨ clamp a + clamp b = 8 * ell := by
  obtain ⟨G, hG⟩ := base_point
  obtain ⟨i, hi, i1, i2⟩ := clamp_form a
  obtain ⟨j, hj, j1, j2⟩ := clamp_form b
  have ha := cast_montMul hG (clamp_lt a)
  have hb := cast_montMul hG (clamp_lt b)
  have key : ∀ {n : Nat}, n • G = 0 → ell ∣ n := fun h => ell_dvd_of_xc hG (by rw [h]; rfl)
  have small : ∀ {m n : Nat}, n ≤ m → m < 2 ^ 252 → (8 * m) • G = (8 * n) • G → m = n := by
    intro m n hnm hm h
    have h0 : (8 * (m - n)) • G = 0 := by
      have : (8 * (m - n)) • G + (8 * n) • G = 0 + (8 * n) • G := by
        rw [← add_nsmul, zero_add, ← Nat.mul_add, Nat.sub_add_cancel hnm, h]
      exact add_right_cancel this
    obtain ⟨c, hc⟩ := ell_dvd_eight (key h0)
    rw [ell_val] at hc
    omega
  constructor
  · intro h
    have h0 := leBytes_inj (montMul_lt ..) (montMul_lt ..) h
    rw [h0, hb] at ha
    have hne : xc (clamp a • G) ≠ 0 := fun h => ell_not_dvd_clamp a (ell_dvd_of_xc hG h)
    rcases eq_or_neg_of_xc ha.symm hne with h' | h'
    · left
      rw [hi, hj] at h' ⊢
      rcases Nat.le_total j i with hl | hl
      · rw [small hl i2 h']
      · rw [small hl j2 h'.symm]
    · right
      have h2 : (clamp a + clamp b) • G = 0 := by rw [add_nsmul, h', neg_add_cancel]
      obtain ⟨c, hc⟩ := ell_dvd_eight (j := i + j) (by
        have := key h2
        rwa [hi, hj, ← Nat.mul_add] at this)
      rw [hi, hj, ell_val]
      rw [ell_val] at hc
      omega
  · rintro (h | h)
    · simp only [x25519Pub, h]
    · have h2 : (clamp a + clamp b) • G = 0 := by
        rw [h, show 8 * ell = 4 * (2 * ell) by ring, mul_nsmul', base_two_ell hG, nsmul_zero]
      have h3 : clamp a • G = -(clamp b • G) := by
        rw [add_nsmul] at h2
        exact eq_neg_of_add_eq_zero_left h2
      rw [h3, xc_neg, ← hb, ZMod.natCast_eq_natCast_iff', Nat.mod_eq_of_lt (montMul_lt ..),
        Nat.mod_eq_of_lt (montMul_lt ..)] at ha
      simp only [x25519Pub, ha]

end Verif.Algo
