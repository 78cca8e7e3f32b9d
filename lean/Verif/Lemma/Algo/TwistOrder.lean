import Verif.Lemma.Algo.TwistCount
import Verif.Lemma.Algo.PrimeTwist
import Verif.Lemma.Algo.X25519Order
import Mathlib.GroupTheory.OrderOfElement

/-!
# The orders of Curve25519 and of its twist, and the points of small order
-/

namespace Verif.Algo

open WeierstrassCurve.Affine

theorem xcT_of_double {d : Fp} (hd : d ≠ 0) {D : (montT d curveA).Point} (h : 2 • D = 0) : xcT D = 0 := by
  match D, h with
  | .zero, _ => rfl
  | .some x y hp, h =>
    by_cases hy : y = 0
    · show x / d = 0
      rw [montT_y_zero hd nonsquare hp hy, zero_div]
    · obtain ⟨x', y', h', he, -⟩ := montT_double two_ne (h := hp) hy
      rw [two_nsmul, he] at h
      exact absurd h (Point.some_ne_zero _)

theorem xcT_zero_iff {d : Fp} (hd : d ≠ 0) {D : (montT d curveA).Point} : xcT D = 0 ↔ 2 • D = 0 :=
  ⟨doubleT_of_xc_zero hd, xcT_of_double hd⟩

theorem xcT_neg {d : Fp} (D : (montT d curveA).Point) : xcT (-D) = xcT D := by
  match D with
  | .zero => rfl
  | .some x y h => rfl

theorem eq_or_neg_of_xcT {d : Fp} (hd : d ≠ 0) {D E : (montT d curveA).Point} (h : xcT D = xcT E) (h0 : xcT D ≠ 0) :
    D = E ∨ D = -E := by
  match D, E, h, h0 with
  | .zero, _, _, h0 => exact absurd rfl h0
  | .some x y hp, .zero, h, h0 => exact absurd (show xcT _ = 0 from h) h0
  | .some x y hp, .some x' y' hp', h, h0 =>
    obtain rfl : x = x' := by
      have : x / d = x' / d := h
      exact (div_left_inj' hd).1 this
    have e1 := montT_eq hp
    have e2 := montT_eq hp'
    have : y = y' ∨ y = -y' := sq_eq_sq_iff_eq_or_eq_neg.1 (e1.trans e2.symm)
    rcases this with rfl | rfl
    · left; rfl
    · right
      rw [Point.neg_some]
      congr 1
      exact montT_negY.symm

/-! ## Orders -/

theorem dvd_order {d : Fp} (hd : d ≠ 0) {D : (montT d curveA).Point} {u q : Nat} (hu : (u : Fp) = xcT D)
    (hq : q.Prime) (hk : 2 * q < 2 ^ 255) (h1 : montMul (2 * q) u = 0) (h2 : montMul 2 u % p25519 ≠ 0) :
    q ∣ Nat.card (montT d curveA).Point := by
  have a1 := cast_montMulT hd hu hk
  rw [h1, Nat.cast_zero] at a1
  have a2 := cast_montMulT hd hu (k := 2) (by decide)
  have h4 : (4 * q) • D = 0 := by
    have := doubleT_of_xc_zero hd a1.symm
    rwa [← mul_nsmul', ← mul_assoc] at this
  have h4' : 4 • D ≠ 0 := by
    intro h
    rw [show 4 = 2 * 2 from rfl, mul_nsmul'] at h
    rw [xcT_of_double hd h] at a2
    exact cast_ne_zero h2 a2
  have o1 := addOrderOf_dvd_iff_nsmul_eq_zero.2 h4
  refine dvd_trans ?_ (addOrderOf_dvd_natCard D)
  by_contra hn
  have hc : (addOrderOf D).Coprime q := ((Nat.Prime.coprime_iff_not_dvd hq).2 hn).symm
  exact h4' (addOrderOf_dvd_iff_nsmul_eq_zero.1 (hc.dvd_of_dvd_mul_right o1))

/-- The number that is the coordinate of the points of order eight, and its inverse. -/
def lowA : Nat := 325606250916557431795983626356110631294008115727848805560023387167927233504
/-- The inverse of `lowA`. -/
def lowB : Nat := 39382357235489614581723060781553021112529911719440698176882885853963445705823

theorem rhs_cast (u : Nat) : rhs ((u : ℕ) : Fp) = ((u ^ 3 + 486662 * u ^ 2 + u : ℕ) : Fp) := by
  rw [rhs]; push_cast; rfl

theorem rhs_square {u : Nat} (h0 : (u ^ 3 + 486662 * u ^ 2 + u) % p25519 ≠ 0)
    (h : powMod p25519 (u ^ 3 + 486662 * u ^ 2 + u) (p25519 / 2) 255 = 1) :
    ∃ D : (montT (1 : Fp) curveA).Point, ((u : ℕ) : Fp) = xcT D := by
  rcases exists_point ((u : ℕ) : Fp) with ⟨_, h⟩ | ⟨hn, _⟩
  · exact h
  · rw [rhs_cast] at hn
    exact absurd ((isSquare_iff (cast_ne_zero h0) rfl).2 h) hn

theorem rhs_nonsquare {u : Nat} (h0 : (u ^ 3 + 486662 * u ^ 2 + u) % p25519 ≠ 0)
    (h : powMod p25519 (u ^ 3 + 486662 * u ^ 2 + u) (p25519 / 2) 255 ≠ 1) :
    ∃ D : (montT (2 : Fp) curveA).Point, ((u : ℕ) : Fp) = xcT D := by
  rcases exists_point ((u : ℕ) : Fp) with ⟨hn, _⟩ | ⟨_, h⟩
  · rw [rhs_cast] at hn
    exact absurd ((isSquare_iff (cast_ne_zero h0) rfl).1 hn) h
  · exact h

theorem ell_dvd_card : ell ∣ Nat.card (montT (1 : Fp) curveA).Point := by
  obtain ⟨D, hD⟩ := rhs_square (u := 9) (by decide +kernel) (by decide +kernel)
  exact dvd_order one_ne_zero hD prime_ell (by decide +kernel) (by decide +kernel) (by decide +kernel)

theorem ellT_dvd_card : ellT ∣ Nat.card (montT (2 : Fp) curveA).Point := by
  obtain ⟨D, hD⟩ := rhs_nonsquare (u := 2) (by decide +kernel) (by decide +kernel)
  exact dvd_order two_ne hD prime_ellT (by decide +kernel) (by decide +kernel) (by decide +kernel)

theorem eight_dvd_card : 8 ∣ Nat.card (montT (1 : Fp) curveA).Point := by
  obtain ⟨D, hD⟩ := rhs_square (u := lowA) (by decide +kernel) (by decide +kernel)
  have a4 := cast_montMulT one_ne_zero hD (k := 4) (by decide)
  have a2 := cast_montMulT one_ne_zero hD (k := 2) (by decide)
  rw [show montMul 4 lowA = 0 by decide +kernel, Nat.cast_zero] at a4
  rw [show montMul 2 lowA = 1 by decide +kernel, Nat.cast_one] at a2
  have h8 : 8 • D = 0 := by
    have := doubleT_of_xc_zero one_ne_zero a4.symm
    rwa [← mul_nsmul'] at this
  have h4 : 4 • D ≠ 0 := by
    intro h
    rw [show 4 = 2 * 2 from rfl, mul_nsmul'] at h
    rw [xcT_of_double one_ne_zero h] at a2
    exact one_ne_zero a2
  have o8 : addOrderOf D = 2 ^ (2 + 1) := addOrderOf_eq_prime_pow (by simpa using h4) (by simpa using h8)
  have := addOrderOf_dvd_natCard D
  rwa [o8] at this

theorem four_dvd_card : 4 ∣ Nat.card (montT (2 : Fp) curveA).Point := by
  obtain ⟨D, hD⟩ := rhs_nonsquare (u := p25519 - 1) (by decide +kernel) (by decide +kernel)
  have a2 := cast_montMulT two_ne hD (k := 2) (by decide)
  rw [show montMul 2 (p25519 - 1) = 0 by decide +kernel, Nat.cast_zero] at a2
  have h4 : 4 • D = 0 := by
    have := doubleT_of_xc_zero two_ne a2.symm
    rwa [← mul_nsmul'] at this
  have h2 : 2 • D ≠ 0 := by
    intro h
    rw [xcT_of_double two_ne h] at hD
    exact cast_ne_zero (by decide +kernel) hD
  have o4 : addOrderOf D = 2 ^ (1 + 1) := addOrderOf_eq_prime_pow (by simpa using h2) (by simpa using h4)
  have := addOrderOf_dvd_natCard D
  rwa [o4] at this

/-- The numbers of points of both curves. -/
theorem card_curves : Nat.card (montT (1 : Fp) curveA).Point = 8 * ell ∧
    Nat.card (montT (2 : Fp) curveA).Point = 4 * ellT := by
  have h := card_both
  have h1 : 8 * ell ∣ Nat.card (montT (1 : Fp) curveA).Point :=
    Nat.Coprime.mul_dvd_of_dvd_of_dvd (by decide +kernel) eight_dvd_card ell_dvd_card
  have h2 : 4 * ellT ∣ Nat.card (montT (2 : Fp) curveA).Point :=
    Nat.Coprime.mul_dvd_of_dvd_of_dvd (by decide +kernel) four_dvd_card ellT_dvd_card
  have l1 := Nat.le_of_dvd Nat.card_pos h1
  have l2 := Nat.le_of_dvd Nat.card_pos h2
  have e : 2 * p25519 + 2 = 8 * ell + 4 * ellT := by decide +kernel
  omega

theorem curve_order (D : (montT (1 : Fp) curveA).Point) : (8 * ell) • D = 0 := by
  rw [← card_curves.1]; exact card_nsmul_eq_zero'

theorem twist_order (D : (montT (2 : Fp) curveA).Point) : (4 * ellT) • D = 0 := by
  rw [← card_curves.2]; exact card_nsmul_eq_zero'

/-! ## Points of small order -/

theorem xcT_half {d : Fp} (hd : d ≠ 0) {D : (montT d curveA).Point} (h : xcT (2 • D) = 0) :
    xcT D = 0 ∨ xcT D = 1 ∨ xcT D = -1 := by
  match D, h with
  | .zero, _ => left; rfl
  | .some x y hp, h =>
    by_cases hy : y = 0
    · left
      show x / d = 0
      rw [montT_y_zero hd nonsquare hp hy, zero_div]
    · right
      obtain ⟨x', y', h', he, hm⟩ := montT_double two_ne (h := hp) hy
      rw [two_nsmul, he] at h
      have hx' : x' = 0 := (div_eq_zero_iff.1 (show x' / d = 0 from h)).resolve_right hd
      rw [hx', zero_mul] at hm
      have h1 : x ^ 2 = d ^ 2 := sub_eq_zero.1 (pow_eq_zero_iff (by decide) |>.1 hm.symm)
      rcases sq_eq_sq_iff_eq_or_eq_neg.1 h1 with h | h
      · left; show x / d = 1; rw [h, div_self hd]
      · right; show x / d = -1; rw [h, neg_div, div_self hd]

theorem xcT_rhs {d : Fp} (hd : d ≠ 0) {D : (montT d curveA).Point} (h : D ≠ 0) : IsSquare (d * rhs (xcT D)) := by
  match D, h with
  | .zero, h => exact absurd rfl h
  | .some x y hp, _ =>
    refine ⟨y / d, ?_⟩
    have := montT_eq hp
    show d * ((x / d) ^ 3 + curveA * (x / d) ^ 2 + x / d) = _
    field_simp
    linear_combination -this

theorem curve_four {D : (montT (1 : Fp) curveA).Point} (h : 4 • D = 0) : xcT D = 0 ∨ xcT D = 1 := by
  rw [show 4 = 2 * 2 from rfl, mul_nsmul'] at h
  rcases xcT_half one_ne_zero (xcT_of_double one_ne_zero h) with h | h | h
  · exact .inl h
  · exact .inr h
  · exfalso
    have h0 : D ≠ 0 := by
      rintro rfl
      exact neg_ne_zero.2 one_ne_zero (h.symm.trans xcT_zero)
    have hs := xcT_rhs one_ne_zero h0
    rw [h, one_mul, show rhs (-1) = ((486660 : ℕ) : Fp) by rw [rhs]; push_cast; ring,
      isSquare_iff (cast_ne_zero (by decide +kernel)) rfl] at hs
    revert hs
    decide +kernel

theorem twist_four {D : (montT (2 : Fp) curveA).Point} (h : 4 • D = 0) : xcT D = 0 ∨ xcT D = -1 := by
  rw [show 4 = 2 * 2 from rfl, mul_nsmul'] at h
  rcases xcT_half two_ne (xcT_of_double two_ne h) with h | h | h
  · exact .inl h
  · exfalso
    have h0 : D ≠ 0 := by
      rintro rfl
      exact one_ne_zero (h.symm.trans xcT_zero)
    have hs := xcT_rhs two_ne h0
    rw [h, show 2 * rhs 1 = ((973328 : ℕ) : Fp) by rw [rhs]; push_cast; ring,
      isSquare_iff (cast_ne_zero (by decide +kernel)) rfl] at hs
    revert hs
    decide +kernel
  · exact .inr h

/-- The sum of the two numbers that are no coordinates of points of order eight. -/
def lowS : Nat := 18188081132251925698266448096434822182811072497651735037285882762825191880626

theorem curve_eight {D : (montT (1 : Fp) curveA).Point} (h : 8 • D = 0) :
    xcT D = 0 ∨ xcT D = 1 ∨ xcT D = ((lowA : ℕ) : Fp) ∨ xcT D = ((lowB : ℕ) : Fp) := by
  rw [show 8 = 4 * 2 from rfl, mul_nsmul'] at h
  rcases curve_four h with h' | h'
  · rcases curve_four (D := D) (by
      have := doubleT_of_xc_zero one_ne_zero h'
      rwa [← mul_nsmul'] at this) with h | h
    · exact .inl h
    · exact .inr (.inl h)
  · match D, h' with
    | .zero, h' => exact absurd h' (by rw [← Point.zero_def, nsmul_zero, xcT_zero]; exact zero_ne_one)
    | .some x y hp, h' =>
      have hy : y ≠ 0 := by
        intro hy
        have hx := montT_y_zero one_ne_zero nonsquare hp hy
        have : 2 • (Point.some x y hp : (montT (1 : Fp) curveA).Point) = 0 :=
          doubleT_of_xc_zero one_ne_zero (by show x / 1 = 0; rw [hx, zero_div])
        rw [this, xcT_zero] at h'
        exact zero_ne_one h'
      obtain ⟨x', y', hp', he, hm⟩ := montT_double two_ne (h := hp) hy
      rw [two_nsmul, he] at h'
      have hx' : x' = 1 := by
        have : x' / 1 = 1 := h'
        rwa [div_one] at this
      subst hx'
      have e := montT_eq hp
      have s1 : ((lowA : ℕ) : Fp) + lowB + lowS = 4 := by
        have : ((lowA + lowB + lowS : ℕ) : Fp) = ((4 : ℕ) : Fp) := by
          rw [ZMod.natCast_eq_natCast_iff']; decide +kernel
        push_cast at this; exact this
      have s2 : ((lowA : ℕ) : Fp) * lowB = 1 := by
        have : ((lowA * lowB : ℕ) : Fp) = ((1 : ℕ) : Fp) := by
          rw [ZMod.natCast_eq_natCast_iff']; decide +kernel
        push_cast at this; exact this
      have s3 : ((lowA : ℕ) + lowB : Fp) * lowS + 4 + 4 * curveA = 0 := by
        have : (((lowA + lowB) * lowS + 4 + 4 * 486662 : ℕ) : Fp) = ((0 : ℕ) : Fp) := by
          rw [ZMod.natCast_eq_natCast_iff']; decide +kernel
        push_cast at this
        rw [show curveA = (486662 : Fp) by norm_cast]
        linear_combination this
      have q : (x - lowA) * (x - lowB) * (x ^ 2 - lowS * x + 1) = 0 := by
        linear_combination (-1) * hm + 4 * e + (-x ^ 3 - x) * s1 +
          (x ^ 2 - lowS * x + 1) * s2 + x ^ 2 * s3
      show x / 1 = 0 ∨ x / 1 = 1 ∨ x / 1 = _ ∨ x / 1 = _
      rw [div_one]
      right; right
      rcases mul_eq_zero.1 q with q | q
      · rcases mul_eq_zero.1 q with q | q
        · exact .inl (sub_eq_zero.1 q)
        · exact .inr (sub_eq_zero.1 q)
      · exfalso
        have hs : IsSquare ((lowS ^ 2 - 4 : ℕ) : Fp) := by
          refine ⟨2 * x - lowS, ?_⟩
          rw [Nat.cast_sub (by decide +kernel)]
          push_cast
          linear_combination -4 * q
        rw [isSquare_iff (cast_ne_zero (by decide +kernel)) rfl] at hs
        revert hs
        decide +kernel

end Verif.Algo
