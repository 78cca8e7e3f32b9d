import Mathlib.AlgebraicGeometry.EllipticCurve.Affine.Point
import Mathlib.Tactic.LinearCombination

/-!
# Coordinates on a Montgomery curve

The formulas of the Montgomery ladder compute the first coordinates of the double of a point and of the sum of
two points of known difference, at infinity as well.  The group is Mathlib's.
-/

namespace Verif.Algo

open WeierstrassCurve.Affine

variable {F : Type} [Field F]

/-- The curve `y² = x³ + A x² + x`. -/
def mont (A : F) : WeierstrassCurve.Affine F := ⟨0, A, 0, 1, 0⟩

/-- `X : Z` is the first coordinate of a point. -/
def Rep {A : F} : (mont A).Point → F → F → Prop
  | .zero, X, Z => X ≠ 0 ∧ Z = 0
  | .some x _ _, X, Z => Z ≠ 0 ∧ X = x * Z

theorem mont_eq {A x y : F} (h : (mont A).Nonsingular x y) : y ^ 2 = x ^ 3 + A * x ^ 2 + x := by
  have := ((mont A).equation_iff x y).1 h.1
  simpa [mont] using this

theorem mont_negY {A x y : F} : (mont A).negY x y = -y := by simp [WeierstrassCurve.Affine.negY, mont]

/-- Every point of order two is the origin. -/
theorem mont_y_zero {A x y : F} (hA : ∀ r : F, r ^ 2 ≠ A ^ 2 - 4) (h : (mont A).Nonsingular x y) (hy : y = 0) : x = 0 := by
  have h1 := mont_eq h
  subst hy
  by_contra hx
  have h2 : x ^ 2 + A * x + 1 = 0 := by
    have : x * (x ^ 2 + A * x + 1) = 0 := by linear_combination -h1
    rcases mul_eq_zero.1 this with h | h
    · exact absurd h hx
    · exact h
  exact hA (2 * x + A) (by linear_combination 4 * h2)

variable [DecidableEq F]

theorem mont_double {A x y : F} (h2 : (2 : F) ≠ 0) {h : (mont A).Nonsingular x y} (hy : y ≠ 0) :
    ∃ x' y' h', (Point.some x y h + Point.some x y h : (mont A).Point) = .some x' y' h' ∧
      x' * (4 * y ^ 2) = (x ^ 2 - 1) ^ 2 := by
  have hne : y ≠ (mont A).negY x y := by
    rw [mont_negY]
    intro h'
    apply hy
    have : 2 * y = 0 := by linear_combination h'
    rcases mul_eq_zero.1 this with h | h
    · exact absurd h h2
    · exact h
  refine ⟨_, _, _, Point.add_self_of_Y_ne hne, ?_⟩
  rw [slope_of_Y_ne rfl hne, mont_negY]
  simp only [addX, mont]
  have h3 := mont_eq h
  have h4 : y - -y ≠ 0 := by
    intro h'
    exact hne (by rw [mont_negY]; linear_combination h')
  have h5 : (y - -y) ^ 2 = 4 * y ^ 2 := by ring
  have h6 : ((3 * x ^ 2 + 2 * A * x + 1 - 0 * y) / (y - -y)) ^ 2 * (4 * y ^ 2) = (3 * x ^ 2 + 2 * A * x + 1) ^ 2 := by
    rw [div_pow, ← h5, div_mul_cancel₀ _ (pow_ne_zero 2 h4)]; ring
  linear_combination h6 - 4 * (A + 2 * x) * h3

theorem rep_double {A : F} (h2 : (2 : F) ≠ 0) (hA : ∀ r : F, r ^ 2 ≠ A ^ 2 - 4) {P : (mont A).Point} {X Z : F}
    (h : Rep P X Z) : Rep (P + P) ((X ^ 2 - Z ^ 2) ^ 2) (4 * X * Z * (X ^ 2 + A * X * Z + Z ^ 2)) := by
  match P, h with
  | .zero, ⟨hx, hz⟩ =>
    rw [← Point.zero_def, add_zero, Point.zero_def]
    subst hz
    exact ⟨by simpa using pow_ne_zero 2 (pow_ne_zero 2 hx), by ring⟩
  | .some x y hp, ⟨hz, hx⟩ =>
    subst hx
    by_cases hy : y = 0
    · have hx := mont_y_zero hA hp hy
      subst hx
      rw [Point.add_self_of_Y_eq (by rw [mont_negY, hy, neg_zero]), Point.zero_def]
      refine ⟨?_, by ring⟩
      rw [show ((0 * Z) ^ 2 - Z ^ 2) ^ 2 = Z ^ 4 by ring]
      exact pow_ne_zero 4 hz
    · obtain ⟨x', y', h', he, hm⟩ := mont_double h2 (h := hp) hy
      rw [he]
      have h3 := mont_eq hp
      have h4 : 4 * (x * Z) * Z * ((x * Z) ^ 2 + A * (x * Z) * Z + Z ^ 2) = Z ^ 4 * (4 * y ^ 2) := by
        linear_combination (-4 * Z ^ 4) * h3
      refine ⟨?_, ?_⟩
      · rw [h4]
        refine mul_ne_zero (pow_ne_zero 4 hz) (mul_ne_zero ?_ (pow_ne_zero 2 hy))
        rw [show (4 : F) = 2 * 2 by ring]
        exact mul_ne_zero h2 h2
      · rw [h4]
        linear_combination (-Z ^ 4) * hm

theorem rep_add {A : F} (h2 : (2 : F) ≠ 0) (hA : ∀ r : F, r ^ 2 ≠ A ^ 2 - 4) {P Q : (mont A).Point} {x1 y1 : F}
    {hD : (mont A).Nonsingular x1 y1} (hx1 : x1 ≠ 0) (hQ : Q = P + .some x1 y1 hD) {X2 Z2 X3 Z3 : F}
    (hP : Rep P X2 Z2) (hR : Rep Q X3 Z3) :
    Rep (P + Q) (4 * (X2 * X3 - Z2 * Z3) ^ 2) (4 * x1 * (X3 * Z2 - Z3 * X2) ^ 2) := by
  have h4 : (4 : F) ≠ 0 := by
    rw [show (4 : F) = 2 * 2 by ring]
    exact mul_ne_zero h2 h2
  match P, hP with
  | .zero, ⟨hX2, hZ2⟩ =>
    rw [← Point.zero_def, zero_add] at hQ
    subst hQ
    obtain ⟨hZ3, rfl⟩ := hR
    rw [← Point.zero_def, zero_add]
    subst hZ2
    refine ⟨mul_ne_zero (mul_ne_zero h4 hx1) (pow_ne_zero 2 ?_), by ring⟩
    rw [mul_zero, zero_sub]
    exact neg_ne_zero.2 (mul_ne_zero hZ3 hX2)
  | .some x2 y2 hp, ⟨hZ2, hX2⟩ =>
    subst hX2
    match Q, hR with
    | .zero, ⟨hX3, hZ3⟩ =>
      have hpd : (Point.some x2 y2 hp : (mont A).Point) = -.some x1 y1 hD := by
        rw [← Point.zero_def] at hQ
        exact eq_neg_of_add_eq_zero_left hQ.symm
      rw [Point.neg_some] at hpd
      simp only [Point.some.injEq] at hpd
      obtain ⟨rfl, -⟩ := hpd
      rw [← Point.zero_def, add_zero]
      subst hZ3
      refine ⟨mul_ne_zero (mul_ne_zero h4 hx1) (pow_ne_zero 2 ?_), by ring⟩
      rw [zero_mul, sub_zero]
      exact mul_ne_zero hX3 hZ2
    | .some x3 y3 hq, ⟨hZ3, hX3⟩ =>
      subst hX3
      have e2 := mont_eq hp
      have e3 := mont_eq hq
      have hdiff : (Point.some x3 y3 hq : (mont A).Point) + -.some x2 y2 hp = .some x1 y1 hD := by
        rw [hQ]; abel
      by_cases hx : x2 = x3
      · -- the points are opposite
        have hy : y3 = -y2 := by
          have : (y3 - y2) * (y3 + y2) = 0 := by
            subst hx; linear_combination e3 - e2
          rcases mul_eq_zero.1 this with h | h
          · exfalso
            have hy : y3 = y2 := by linear_combination h
            subst hx; subst hy
            rw [add_neg_cancel] at hdiff
            exact Point.some_ne_zero _ hdiff.symm
          · linear_combination h
        subst hx; subst hy
        have hPQ : (Point.some x2 y2 hp : (mont A).Point) + .some x2 (-y2) hq = 0 :=
          Point.add_of_Y_eq rfl (by rw [mont_negY, neg_neg])
        rw [hPQ, Point.zero_def]
        refine ⟨?_, by ring⟩
        refine mul_ne_zero h4 (pow_ne_zero 2 ?_)
        intro h0
        have h1 : x2 ^ 2 - 1 = 0 := by
          have : (Z2 * Z3) * (x2 ^ 2 - 1) = 0 := by linear_combination h0
          rcases mul_eq_zero.1 this with h | h
          · exact absurd h (mul_ne_zero hZ2 hZ3)
          · exact h
        have hQn : (Point.some x2 (-y2) hq : (mont A).Point) = -.some x2 y2 hp :=
          eq_neg_of_add_eq_zero_right hPQ
        rw [hQn] at hdiff
        by_cases hy0 : y2 = 0
        · have hx0 := mont_y_zero hA hp hy0
          subst hx0
          exact one_ne_zero (α := F) (by linear_combination -h1)
        · obtain ⟨x', y', h', he, hm⟩ := mont_double h2 (h := hp) hy0
          rw [← neg_add, he, Point.neg_some] at hdiff
          simp only [Point.some.injEq] at hdiff
          obtain ⟨rfl, -⟩ := hdiff
          rw [h1] at hm
          have : x' * (4 * y2 ^ 2) = 0 := by rw [hm]; ring
          rcases mul_eq_zero.1 this with h | h
          · exact hx1 h
          · exact mul_ne_zero h4 (pow_ne_zero 2 hy0) h
      · -- the points have different first coordinates
        have hx' : x3 ≠ x2 := fun h => hx h.symm
        have hd : x2 - x3 ≠ 0 := sub_ne_zero.2 hx
        rw [Point.neg_some, Point.add_of_X_ne hx'] at hdiff
        simp only [Point.some.injEq] at hdiff
        obtain ⟨hx1e, -⟩ := hdiff
        rw [slope_of_X_ne hx', mont_negY] at hx1e
        rw [Point.add_of_X_ne hx]
        show _ ≠ (0 : F) ∧ _ = (mont A).addX x2 x3 ((mont A).slope x2 x3 y2 y3) * _
        rw [slope_of_X_ne hx]
        have f1 : x1 * (x2 - x3) ^ 2 = (y2 + y3) ^ 2 - (A + x2 + x3) * (x2 - x3) ^ 2 := by
          rw [← hx1e]
          simp only [addX, mont]
          have hd' : x3 - x2 ≠ 0 := sub_ne_zero.2 hx'
          have : ((y3 - -y2) / (x3 - x2)) ^ 2 * (x2 - x3) ^ 2 = (y2 + y3) ^ 2 := by
            rw [show (x2 - x3) ^ 2 = (x3 - x2) ^ 2 by ring, div_pow, div_mul_cancel₀ _ (pow_ne_zero 2 hd')]
            ring
          linear_combination this
        have f5 : (mont A).addX x2 x3 ((y2 - y3) / (x2 - x3)) * (x2 - x3) ^ 2 =
            (y2 - y3) ^ 2 - (A + x2 + x3) * (x2 - x3) ^ 2 := by
          simp only [addX, mont]
          have : ((y2 - y3) / (x2 - x3)) ^ 2 * (x2 - x3) ^ 2 = (y2 - y3) ^ 2 := by
            rw [div_pow, div_mul_cancel₀ _ (pow_ne_zero 2 hd)]
          linear_combination this
        generalize (mont A).addX x2 x3 ((y2 - y3) / (x2 - x3)) = x5 at f5
        have key : x5 * x1 * (x2 - x3) ^ 2 = (x2 * x3 - 1) ^ 2 := by
          apply mul_right_cancel₀ (pow_ne_zero 2 hd)
          have : x5 * x1 * (x2 - x3) ^ 2 * (x2 - x3) ^ 2 = (x5 * (x2 - x3) ^ 2) * (x1 * (x2 - x3) ^ 2) := by ring
          rw [this, f5, f1]
          linear_combination
            (y2 ^ 2 + (x2 ^ 3 + A * x2 ^ 2 + x2) - 2 * y3 ^ 2 - 2 * ((A + x2 + x3) * (x2 - x3) ^ 2)) * e2 +
            (y3 ^ 2 + (x3 ^ 3 + A * x3 ^ 2 + x3) - 2 * (x2 ^ 3 + A * x2 ^ 2 + x2) -
              2 * ((A + x2 + x3) * (x2 - x3) ^ 2)) * e3
        have hz : x3 * Z3 * Z2 - Z3 * (x2 * Z2) = (Z2 * Z3) * (x3 - x2) := by ring
        refine ⟨mul_ne_zero (mul_ne_zero h4 hx1) (pow_ne_zero 2 ?_), ?_⟩
        · rw [hz]
          exact mul_ne_zero (mul_ne_zero hZ2 hZ3) (sub_ne_zero.2 hx')
        · linear_combination (-4 * (Z2 * Z3) ^ 2) * key

end Verif.Algo
