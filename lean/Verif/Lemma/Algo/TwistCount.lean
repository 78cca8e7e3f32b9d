import Verif.Lemma.Algo.Twist
import Mathlib.NumberTheory.LegendreSymbol.QuadraticChar.Basic

/-!
# Points of Curve25519 and points of its twist

Every number is a coordinate of two points, counted over both curves.
-/

namespace Verif.Algo

open WeierstrassCurve.Affine

theorem isSquare_iff {a e : Nat} (ha : ((a : ℕ) : Fp) ≠ 0) (he : e = p25519 / 2) :
    IsSquare ((a : ℕ) : Fp) ↔ powMod p25519 a e 255 = 1 := by
  rw [ZMod.euler_criterion p25519 ha, ← he]
  exact cast_pow_one (by rw [he]; decide)

theorem cast_ne {a b : Nat} (h : a % p25519 ≠ b % p25519) : ((a : ℕ) : Fp) ≠ ((b : ℕ) : Fp) :=
  fun h' => h ((ZMod.natCast_eq_natCast_iff' ..).1 h')

theorem two_nonsquare : ¬ IsSquare (2 : Fp) := by
  have h := isSquare_iff (a := 2) (e := p25519 / 2) (by exact_mod_cast two_ne) rfl
  rw [show ((2 : ℕ) : Fp) = 2 by norm_cast] at h
  rw [h]
  decide +kernel

/-- The right hand side of the equation of Curve25519. -/
def rhs (u : Fp) : Fp := u ^ 3 + curveA * u ^ 2 + u

/-- An equation suffices for a point. -/
theorem montT_nonsingular {d x y : Fp} (hd : d ≠ 0) (h : y ^ 2 = x ^ 3 + d * curveA * x ^ 2 + d ^ 2 * x) :
    (montT d curveA).Nonsingular x y := by
  rw [nonsingular_iff, equation_iff]
  refine ⟨by simp only [montT]; linear_combination h, ?_⟩
  simp only [montT]
  by_cases hy : y = 0
  · left
    subst hy
    by_cases hx : x = 0
    · subst hx
      intro h0
      exact pow_ne_zero 2 hd (by linear_combination -h0)
    · exfalso
      have h2 : x ^ 2 + d * curveA * x + d ^ 2 = 0 := by
        have : x * (x ^ 2 + d * curveA * x + d ^ 2) = 0 := by linear_combination -h
        exact (mul_eq_zero.1 this).resolve_left hx
      refine nonsquare ((2 * x + d * curveA) / d) ?_
      rw [div_pow, div_eq_iff (pow_ne_zero 2 hd)]
      linear_combination 4 * h2
  · right
    intro h0
    exact hy ((mul_eq_zero.1 (show 2 * y = 0 by linear_combination h0)).resolve_left two_ne)

/-- The points but the neutral one are the solutions of the equation. -/
def pointsT {d : Fp} (hd : d ≠ 0) : (montT d curveA).Point ≃ Option {p : Fp × Fp // p.2 ^ 2 = d ^ 3 * rhs p.1} where
  toFun
    | .zero => none
    | .some x y h => some ⟨(x / d, y), by
        have := montT_eq h
        show y ^ 2 = d ^ 3 * ((x / d) ^ 3 + curveA * (x / d) ^ 2 + x / d)
        rw [this]; field_simp⟩
  invFun
    | none => .zero
    | some p => .some (d * p.1.1) p.1.2 (montT_nonsingular hd (by
        have := p.2
        rw [this, rhs]; ring))
  left_inv D := by
    match D with
    | .zero => rfl
    | .some x y h => simp [mul_div_cancel₀ x hd]
  right_inv o := by
    match o with
    | none => rfl
    | some ⟨(x, y), h⟩ => simp [mul_div_cancel_left₀ x hd]

instance {d : Fp} : Finite (montT d curveA).Point := by
  by_cases hd : d = 0
  · subst hd
    let f : (montT (0 : Fp) curveA).Point → Option (Fp × Fp)
      | .zero => none
      | .some x y _ => some (x, y)
    refine Finite.of_injective f ?_
    intro a b h
    match a, b, h with
    | .zero, .zero, _ => rfl
    | .some x y hx, .some x' y' hx', h =>
      have : (x, y) = (x', y') := Option.some.inj h
      obtain ⟨rfl, rfl⟩ := Prod.mk.inj this
      rfl
  · exact Finite.of_equiv _ (pointsT hd).symm

theorem card_points {d : Fp} (hd : d ≠ 0) :
    (Nat.card (montT d curveA).Point : ℤ) = 1 + ∑ u : Fp, (quadraticChar Fp (d ^ 3 * rhs u) + 1) := by
  have h1 : Nat.card (montT d curveA).Point = Nat.card {p : Fp × Fp // p.2 ^ 2 = d ^ 3 * rhs p.1} + 1 := by
    rw [Nat.card_congr (pointsT hd), Finite.card_option]
  have e : {p : Fp × Fp // p.2 ^ 2 = d ^ 3 * rhs p.1} ≃ Σ u : Fp, {y : Fp // y ^ 2 = d ^ 3 * rhs u} :=
    { toFun := fun p => ⟨p.1.1, p.1.2, p.2⟩
      invFun := fun q => ⟨(q.1, q.2.1), q.2.2⟩
      left_inv := fun _ => rfl
      right_inv := fun _ => rfl }
  have hF : ringChar Fp ≠ 2 := by
    rw [ZMod.ringChar_zmod_n]; decide
  have h2 : ∀ u : Fp, (Nat.card {y : Fp // y ^ 2 = d ^ 3 * rhs u} : ℤ) = quadraticChar Fp (d ^ 3 * rhs u) + 1 := by
    intro u
    rw [← quadraticChar_card_sqrts hF, Nat.card_eq_fintype_card, Set.toFinset_card]
    rfl
  rw [h1, Nat.card_congr e, Nat.card_sigma]
  push_cast
  rw [add_comm, Finset.sum_congr rfl fun u _ => h2 u]

/-- Both curves together have twice as many points as there are numbers, and the two neutral ones. -/
theorem card_both : Nat.card (montT (1 : Fp) curveA).Point + Nat.card (montT (2 : Fp) curveA).Point =
    2 * p25519 + 2 := by
  have h1 := card_points (d := 1) one_ne_zero
  have h2 := card_points (d := 2) two_ne
  have hF : ringChar Fp ≠ 2 := by
    rw [ZMod.ringChar_zmod_n]; decide
  have hx : quadraticChar Fp 2 = -1 := quadraticChar_neg_one_iff_not_isSquare.2 two_nonsquare
  have hs : ∀ u : Fp, quadraticChar Fp ((2 : Fp) ^ 3 * rhs u) + 1 = 1 - quadraticChar Fp (1 ^ 3 * rhs u) := by
    intro u
    rw [map_mul, map_pow, hx, one_pow, one_mul]
    ring
  rw [Finset.sum_congr rfl fun u _ => hs u] at h2
  have h3 : (∑ u : Fp, (quadraticChar Fp (1 ^ 3 * rhs u) + 1)) + ∑ u : Fp, (1 - quadraticChar Fp (1 ^ 3 * rhs u)) =
      2 * p25519 := by
    rw [← Finset.sum_add_distrib, Finset.sum_congr rfl fun u _ => (by ring : _ = (2 : ℤ)), Finset.sum_const,
      Finset.card_univ, ZMod.card]
    simp; ring
  have : (Nat.card (montT (1 : Fp) curveA).Point : ℤ) + Nat.card (montT (2 : Fp) curveA).Point = 2 * p25519 + 2 := by
    rw [h1, h2]; linarith
  exact_mod_cast this

/-- Every number is the coordinate of a point of one of the curves. -/
theorem exists_point (u : Fp) :
    (IsSquare (rhs u) ∧ ∃ D : (montT (1 : Fp) curveA).Point, u = xcT D) ∨
    (¬ IsSquare (rhs u) ∧ ∃ D : (montT (2 : Fp) curveA).Point, u = xcT D) := by
  by_cases h : IsSquare (rhs u)
  · left
    refine ⟨h, ?_⟩
    obtain ⟨y, hy⟩ := h
    refine ⟨.some (1 * u) y (montT_nonsingular one_ne_zero (by rw [pow_two, ← hy, rhs]; ring)), ?_⟩
    show u = 1 * u / 1
    ring
  · right
    refine ⟨h, ?_⟩
    have hn : quadraticChar Fp (rhs u) = -1 := quadraticChar_neg_one_iff_not_isSquare.2 h
    have hx : quadraticChar Fp 2 = -1 := quadraticChar_neg_one_iff_not_isSquare.2 two_nonsquare
    have h1 : quadraticChar Fp (2 ^ 3 * rhs u) = 1 := by
      rw [map_mul, map_pow, hx, hn]; norm_num
    have h0 : (2 : Fp) ^ 3 * rhs u ≠ 0 := by
      intro h0
      rw [h0] at h1
      simp at h1
    obtain ⟨y, hy⟩ := (quadraticChar_one_iff_isSquare h0).1 h1
    refine ⟨.some (2 * u) y (montT_nonsingular two_ne (by rw [pow_two, ← hy, rhs]; ring)), ?_⟩
    show u = 2 * u / 2
    rw [mul_div_cancel_left₀ u two_ne]

end Verif.Algo
