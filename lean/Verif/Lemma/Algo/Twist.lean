import Verif.Lemma.Algo.X25519

/-!
# Coordinates on a Montgomery curve and on its twist

The ladder of X25519 computes with every number, also with those that are no coordinate of a point of
Curve25519.  These are coordinates of points of its twist.  Both curves are covered here: `d = 1` is the curve, a
number `d` that is no square gives the twist.
-/

namespace Verif.Algo

open WeierstrassCurve.Affine

section field
variable {F : Type} [Field F]

/-- The curve `y² = x³ + d A x² + d² x`, whose points `(d u, y)` satisfy `y² = d³ (u³ + A u² + u)`. -/
def montT (d A : F) : WeierstrassCurve.Affine F := ⟨0, d * A, 0, d ^ 2, 0⟩

/-- `X : Z` is the first coordinate of a point divided by `d`. -/
def RepT {d A : F} : (montT d A).Point → F → F → Prop
  | .zero, X, Z => X ≠ 0 ∧ Z = 0
  | .some x _ _, X, Z => Z ≠ 0 ∧ d * X = x * Z

theorem montT_eq {d A x y : F} (h : (montT d A).Nonsingular x y) : y ^ 2 = x ^ 3 + d * A * x ^ 2 + d ^ 2 * x := by
  have := ((montT d A).equation_iff x y).1 h.1
  simpa [montT] using this

theorem montT_negY {d A x y : F} : (montT d A).negY x y = -y := by simp [WeierstrassCurve.Affine.negY, montT]

theorem montT_y_zero {d A x y : F} (hd : d ≠ 0) (hA : ∀ r : F, r ^ 2 ≠ A ^ 2 - 4)
    (h : (montT d A).Nonsingular x y) (hy : y = 0) : x = 0 := by
  have h1 := montT_eq h
  subst hy
  by_contra hx
  have h2 : x ^ 2 + d * A * x + d ^ 2 = 0 := by
    have : x * (x ^ 2 + d * A * x + d ^ 2) = 0 := by linear_combination -h1
    rcases mul_eq_zero.1 this with h | h
    · exact absurd h hx
    · exact h
  refine hA ((2 * x + d * A) / d) ?_
  rw [div_pow, div_eq_iff (pow_ne_zero 2 hd)]
  linear_combination 4 * h2

variable [DecidableEq F]

theorem montT_double {d A x y : F} (h2 : (2 : F) ≠ 0) {h : (montT d A).Nonsingular x y} (hy : y ≠ 0) :
    ∃ x' y' h', (Point.some x y h + Point.some x y h : (montT d A).Point) = .some x' y' h' ∧
      x' * (4 * y ^ 2) = (x ^ 2 - d ^ 2) ^ 2 := by
  have hne : y ≠ (montT d A).negY x y := by
    rw [montT_negY]
    intro h'
    apply hy
    have : 2 * y = 0 := by linear_combination h'
    rcases mul_eq_zero.1 this with h | h
    · exact absurd h h2
    · exact h
  refine ⟨_, _, _, Point.add_self_of_Y_ne hne, ?_⟩
  rw [slope_of_Y_ne rfl hne, montT_negY]
  simp only [addX, montT]
  have h3 := montT_eq h
  have h4 : y - -y ≠ 0 := by
    intro h'
    exact hne (by rw [montT_negY]; linear_combination h')
  have h5 : (y - -y) ^ 2 = 4 * y ^ 2 := by ring
  have h6 : ((3 * x ^ 2 + 2 * (d * A) * x + d ^ 2 - 0 * y) / (y - -y)) ^ 2 * (4 * y ^ 2) =
      (3 * x ^ 2 + 2 * (d * A) * x + d ^ 2) ^ 2 := by
    rw [div_pow, ← h5, div_mul_cancel₀ _ (pow_ne_zero 2 h4)]; ring
  linear_combination h6 - 4 * (d * A + 2 * x) * h3

theorem repT_double {d A : F} (hd : d ≠ 0) (h2 : (2 : F) ≠ 0) (hA : ∀ r : F, r ^ 2 ≠ A ^ 2 - 4)
    {P : (montT d A).Point} {X Z : F}
    (h : RepT P X Z) : RepT (P + P) ((X ^ 2 - Z ^ 2) ^ 2) (4 * X * Z * (X ^ 2 + A * X * Z + Z ^ 2)) := by
  match P, h with
  | .zero, ⟨hx, hz⟩ =>
    rw [← Point.zero_def, add_zero, Point.zero_def]
    subst hz
    exact ⟨by simpa using pow_ne_zero 2 (pow_ne_zero 2 hx), by ring⟩
  | .some x y hp, ⟨hz, hx⟩ =>
    by_cases hy : y = 0
    · have hx0 := montT_y_zero hd hA hp hy
      subst hx0
      have hX : X = 0 := by
        rw [zero_mul] at hx
        exact (mul_eq_zero.1 hx).resolve_left hd
      subst hX
      rw [Point.add_self_of_Y_eq (by rw [montT_negY, hy, neg_zero]), Point.zero_def]
      refine ⟨?_, by ring⟩
      rw [show ((0 : F) ^ 2 - Z ^ 2) ^ 2 = Z ^ 4 by ring]
      exact pow_ne_zero 4 hz
    · obtain ⟨x', y', h', he, hm⟩ := montT_double h2 (h := hp) hy
      rw [he]
      have h3 := montT_eq hp
      obtain ⟨u, rfl⟩ : ∃ u, x = d * u := ⟨x / d, (mul_div_cancel₀ x hd).symm⟩
      obtain rfl : X = u * Z := mul_left_cancel₀ hd (by rw [hx]; ring)
      have h4 : d ^ 3 * (4 * (u * Z) * Z * ((u * Z) ^ 2 + A * (u * Z) * Z + Z ^ 2)) = Z ^ 4 * (4 * y ^ 2) := by
        linear_combination (-4 * Z ^ 4) * h3
      have h44 : (4 : F) ≠ 0 := by
        rw [show (4 : F) = 2 * 2 by ring]
        exact mul_ne_zero h2 h2
      refine ⟨?_, ?_⟩
      · intro h0
        rw [h0, mul_zero] at h4
        exact mul_ne_zero (pow_ne_zero 4 hz) (mul_ne_zero h44 (pow_ne_zero 2 hy)) h4.symm
      · apply mul_left_cancel₀ (pow_ne_zero 3 hd)
        linear_combination (-Z ^ 4) * hm - x' * h4

theorem repT_add {d A : F} (hd : d ≠ 0) (h2 : (2 : F) ≠ 0) (hA : ∀ r : F, r ^ 2 ≠ A ^ 2 - 4)
    {P Q : (montT d A).Point} {u1 x1 y1 : F} (hu1 : d * u1 = x1)
    {hD : (montT d A).Nonsingular x1 y1} (hx1 : x1 ≠ 0) (hQ : Q = P + .some x1 y1 hD) {X2 Z2 X3 Z3 : F}
    (hP : RepT P X2 Z2) (hR : RepT Q X3 Z3) :
    RepT (P + Q) (4 * (X2 * X3 - Z2 * Z3) ^ 2) (4 * u1 * (X3 * Z2 - Z3 * X2) ^ 2) := by
  have h4 : (4 : F) ≠ 0 := by
    rw [show (4 : F) = 2 * 2 by ring]
    exact mul_ne_zero h2 h2
  subst hu1
  have hu : u1 ≠ 0 := fun h => hx1 (by rw [h, mul_zero])
  match P, hP with
  | .zero, ⟨hX2, hZ2⟩ =>
    rw [← Point.zero_def, zero_add] at hQ
    subst hQ
    obtain ⟨hZ3, hX3⟩ := hR
    obtain rfl : X3 = u1 * Z3 := mul_left_cancel₀ hd (by rw [hX3]; ring)
    rw [← Point.zero_def, zero_add]
    subst hZ2
    refine ⟨mul_ne_zero (mul_ne_zero h4 hu) (pow_ne_zero 2 ?_), by ring⟩
    rw [mul_zero, zero_sub]
    exact neg_ne_zero.2 (mul_ne_zero hZ3 hX2)
  | .some x2 y2 hp, ⟨hZ2, hX2⟩ =>
    obtain ⟨u2, rfl⟩ : ∃ u, x2 = d * u := ⟨x2 / d, (mul_div_cancel₀ x2 hd).symm⟩
    obtain rfl : X2 = u2 * Z2 := mul_left_cancel₀ hd (by rw [hX2]; ring)
    match Q, hR with
    | .zero, ⟨hX3, hZ3⟩ =>
      have hpd : (Point.some (d * u2) y2 hp : (montT d A).Point) = -.some (d * u1) y1 hD := by
        rw [← Point.zero_def] at hQ
        exact eq_neg_of_add_eq_zero_left hQ.symm
      rw [Point.neg_some] at hpd
      simp only [Point.some.injEq] at hpd
      obtain rfl : u2 = u1 := mul_left_cancel₀ hd hpd.1
      rw [← Point.zero_def, add_zero]
      subst hZ3
      refine ⟨mul_ne_zero (mul_ne_zero h4 hu) (pow_ne_zero 2 ?_), by ring⟩
      rw [zero_mul, sub_zero]
      exact mul_ne_zero hX3 hZ2
    | .some x3 y3 hq, ⟨hZ3, hX3⟩ =>
      obtain ⟨u3, rfl⟩ : ∃ u, x3 = d * u := ⟨x3 / d, (mul_div_cancel₀ x3 hd).symm⟩
      obtain rfl : X3 = u3 * Z3 := mul_left_cancel₀ hd (by rw [hX3]; ring)
      have e2 := montT_eq hp
      have e3 := montT_eq hq
      have hdiff : (Point.some (d * u3) y3 hq : (montT d A).Point) + -.some (d * u2) y2 hp = .some (d * u1) y1 hD := by
        rw [hQ]; abel
      by_cases hx : u2 = u3
      · -- the points are opposite
        have hy : y3 = -y2 := by
          have : (y3 - y2) * (y3 + y2) = 0 := by
            subst hx; linear_combination e3 - e2
          rcases mul_eq_zero.1 this with h | h
          · exfalso
            have hy : y3 = y2 := by linear_combination h
            subst hx; subst hy
            rw [add_neg_cancel] at hdiff
            exact Point.some_ne_zero _ hdiff.symm
          · linear_combination h
        subst hx; subst hy
        have hPQ : (Point.some (d * u2) y2 hp : (montT d A).Point) + .some (d * u2) (-y2) hq = 0 :=
          Point.add_of_Y_eq rfl (by rw [montT_negY, neg_neg])
        rw [hPQ, Point.zero_def]
        refine ⟨?_, by ring⟩
        refine mul_ne_zero h4 (pow_ne_zero 2 ?_)
        intro h0
        have h1 : u2 ^ 2 - 1 = 0 := by
          have : (Z2 * Z3) * (u2 ^ 2 - 1) = 0 := by linear_combination h0
          rcases mul_eq_zero.1 this with h | h
          · exact absurd h (mul_ne_zero hZ2 hZ3)
          · exact h
        have hQn : (Point.some (d * u2) (-y2) hq : (montT d A).Point) = -.some (d * u2) y2 hp :=
          eq_neg_of_add_eq_zero_right hPQ
        rw [hQn] at hdiff
        by_cases hy0 : y2 = 0
        · have hx0 := montT_y_zero hd hA hp hy0
          have hu0 : u2 = 0 := (mul_eq_zero.1 hx0).resolve_left hd
          subst hu0
          exact one_ne_zero (α := F) (by linear_combination -h1)
        · obtain ⟨x', y', h', he, hm⟩ := montT_double h2 (h := hp) hy0
          rw [← neg_add, he, Point.neg_some] at hdiff
          simp only [Point.some.injEq] at hdiff
          obtain ⟨rfl, -⟩ := hdiff
          have : d * u1 * (4 * y2 ^ 2) = 0 := by
            rw [hm, show (d * u2) ^ 2 - d ^ 2 = d ^ 2 * (u2 ^ 2 - 1) by ring, h1]; ring
          rcases mul_eq_zero.1 this with h | h
          · exact hx1 h
          · exact mul_ne_zero h4 (pow_ne_zero 2 hy0) h
      · -- the points have different first coordinates
        have hxx : d * u2 ≠ d * u3 := fun h => hx (mul_left_cancel₀ hd h)
        have hx' : d * u3 ≠ d * u2 := fun h => hxx h.symm
        have hdd : d * u2 - d * u3 ≠ 0 := sub_ne_zero.2 hxx
        rw [Point.neg_some, Point.add_of_X_ne hx'] at hdiff
        simp only [Point.some.injEq] at hdiff
        obtain ⟨hx1e, -⟩ := hdiff
        rw [slope_of_X_ne hx', montT_negY] at hx1e
        rw [Point.add_of_X_ne hxx]
        show _ ≠ (0 : F) ∧ _ = (montT d A).addX (d * u2) (d * u3) ((montT d A).slope (d * u2) (d * u3) y2 y3) * _
        rw [slope_of_X_ne hxx]
        have f1 : (d * u1) * (d * u2 - d * u3) ^ 2 =
            (y2 + y3) ^ 2 - (d * A + d * u2 + d * u3) * (d * u2 - d * u3) ^ 2 := by
          rw [← hx1e]
          simp only [addX, montT]
          have hd' : d * u3 - d * u2 ≠ 0 := sub_ne_zero.2 hx'
          have : ((y3 - -y2) / (d * u3 - d * u2)) ^ 2 * (d * u2 - d * u3) ^ 2 = (y2 + y3) ^ 2 := by
            rw [show (d * u2 - d * u3) ^ 2 = (d * u3 - d * u2) ^ 2 by ring, div_pow,
              div_mul_cancel₀ _ (pow_ne_zero 2 hd')]
            ring
          linear_combination this
        have f5 : (montT d A).addX (d * u2) (d * u3) ((y2 - y3) / (d * u2 - d * u3)) * (d * u2 - d * u3) ^ 2 =
            (y2 - y3) ^ 2 - (d * A + d * u2 + d * u3) * (d * u2 - d * u3) ^ 2 := by
          simp only [addX, montT]
          have : ((y2 - y3) / (d * u2 - d * u3)) ^ 2 * (d * u2 - d * u3) ^ 2 = (y2 - y3) ^ 2 := by
            rw [div_pow, div_mul_cancel₀ _ (pow_ne_zero 2 hdd)]
          linear_combination this
        generalize (montT d A).addX (d * u2) (d * u3) ((y2 - y3) / (d * u2 - d * u3)) = x5 at f5
        have key : x5 * (d * u1) * (d * u2 - d * u3) ^ 2 = (d * u2 * (d * u3) - d ^ 2) ^ 2 := by
          apply mul_right_cancel₀ (pow_ne_zero 2 hdd)
          have : x5 * (d * u1) * (d * u2 - d * u3) ^ 2 * (d * u2 - d * u3) ^ 2 =
            (x5 * (d * u2 - d * u3) ^ 2) * ((d * u1) * (d * u2 - d * u3) ^ 2) := by ring
          rw [this, f5, f1]
          generalize d * u2 = x2 at *
          generalize d * u3 = x3 at *
          linear_combination
            (y2 ^ 2 + (x2 ^ 3 + d * A * x2 ^ 2 + d ^ 2 * x2) - 2 * y3 ^ 2 - 2 * ((d * A + x2 + x3) * (x2 - x3) ^ 2)) * e2 +
            (y3 ^ 2 + (x3 ^ 3 + d * A * x3 ^ 2 + d ^ 2 * x3) - 2 * (x2 ^ 3 + d * A * x2 ^ 2 + d ^ 2 * x2) -
              2 * ((d * A + x2 + x3) * (x2 - x3) ^ 2)) * e3
        have hz : u3 * Z3 * Z2 - Z3 * (u2 * Z2) = (Z2 * Z3) * (u3 - u2) := by ring
        refine ⟨mul_ne_zero (mul_ne_zero h4 hu) (pow_ne_zero 2 ?_), ?_⟩
        · rw [hz]
          exact mul_ne_zero (mul_ne_zero hZ2 hZ3) (sub_ne_zero.2 fun h => hx h.symm)
        · apply mul_left_cancel₀ (pow_ne_zero 3 hd)
          linear_combination (-4 * (Z2 * Z3) ^ 2) * key

end field

/-! ## The ladder -/

/-- The coordinate of a point that the ladder computes with, zero at infinity. -/
def xcT {d : Fp} : (montT d curveA).Point → Fp
  | .zero => 0
  | .some x _ _ => x / d

theorem repT_value {d : Fp} (hd : d ≠ 0) {P : (montT d curveA).Point} {X Z : Fp} (h : RepT P X Z) :
    X * Z ^ (p25519 - 2) = xcT P := by
  match P, h with
  | .zero, ⟨_, hz⟩ => rw [hz, zero_pow (by decide), mul_zero]; rfl
  | .some x y hp, ⟨hz, hx⟩ =>
    have h1 : Z ^ (p25519 - 2) * Z = 1 := by
      rw [← pow_succ, show p25519 - 2 + 1 = p25519 - 1 by decide]
      exact ZMod.pow_card_sub_one_eq_one hz
    show _ = x / d
    rw [eq_div_iff hd]
    linear_combination x * h1 + Z ^ (p25519 - 2) * hx

theorem stepT_rep {d : Fp} (hd : d ≠ 0) {P : (montT d curveA).Point} {x1 y1 : Fp}
    {hD : (montT d curveA).Nonsingular x1 y1} (hx1 : x1 ≠ 0)
    {u : Nat} (hu : d * (u : Fp) = x1) {s : Ladder} (h2 : RepT P (s.x2 : Fp) s.z2)
    (h3 : RepT (P + .some x1 y1 hD) (s.x3 : Fp) s.z3) :
    RepT (P + P) ((s.step u).x2 : Fp) (s.step u).z2 ∧
    RepT (P + (P + .some x1 y1 hD)) ((s.step u).x3 : Fp) (s.step u).z3 := by
  have hdb := repT_double hd two_ne nonsquare h2
  have ha := repT_add hd two_ne nonsquare hu hx1 rfl h2 h3
  constructor
  · convert hdb using 1
    · simp only [Ladder.step, cast_mul, cast_add, cast_sub]; ring
    · simp only [Ladder.step, cast_mul, cast_add, cast_sub]; push_cast; ring
  · convert ha using 1
    · simp only [Ladder.step, cast_mul, cast_add, cast_sub]; ring
    · simp only [Ladder.step, cast_mul, cast_add, cast_sub]; ring

theorem stepT_rep' {d : Fp} (hd : d ≠ 0) {P : (montT d curveA).Point} {x1 y1 : Fp}
    {hD : (montT d curveA).Nonsingular x1 y1} (hx1 : x1 ≠ 0)
    {u : Nat} (hu : d * (u : Fp) = x1) {s : Ladder} (h2 : RepT P (s.x2 : Fp) s.z2)
    (h3 : RepT (P + .some x1 y1 hD) (s.x3 : Fp) s.z3) :
    RepT (P + (P + .some x1 y1 hD)) ((s.swap.step u).swap.x2 : Fp) (s.swap.step u).swap.z2 ∧
    RepT (P + .some x1 y1 hD + (P + .some x1 y1 hD)) ((s.swap.step u).swap.x3 : Fp) (s.swap.step u).swap.z3 := by
  have hdb := repT_double hd two_ne nonsquare h3
  have ha := repT_add hd two_ne nonsquare hu hx1 rfl h2 h3
  constructor
  · convert ha using 1
    · simp only [Ladder.swap, Ladder.step, cast_mul, cast_add, cast_sub]; ring
    · simp only [Ladder.swap, Ladder.step, cast_mul, cast_add, cast_sub]; ring
  · convert hdb using 1
    · simp only [Ladder.swap, Ladder.step, cast_mul, cast_add, cast_sub]; ring
    · simp only [Ladder.swap, Ladder.step, cast_mul, cast_add, cast_sub]; push_cast; ring

theorem ladderT_rep {d : Fp} (hd : d ≠ 0) {x1 y1 : Fp} {hD : (montT d curveA).Nonsingular x1 y1} (hx1 : x1 ≠ 0)
    {u : Nat} (hu : d * (u : Fp) = x1)
    (k : Nat) {n m : Nat} {s : Ladder} (h2 : RepT (m • (.some x1 y1 hD : (montT d curveA).Point)) (s.x2 : Fp) s.z2)
    (h3 : RepT (m • (.some x1 y1 hD : (montT d curveA).Point) + .some x1 y1 hD) (s.x3 : Fp) s.z3) :
    RepT ((m * 2 ^ n + k % 2 ^ n) • (.some x1 y1 hD : (montT d curveA).Point))
      ((ladder u k n s).x2 : Fp) (ladder u k n s).z2 := by
  induction n generalizing m s with
  | zero => simpa [ladder, Nat.mod_one] using h2
  | succ n ih =>
    rw [bits_succ]
    simp only [ladder]
    split
    · rename_i hb
      obtain ⟨g2, g3⟩ := stepT_rep' hd hx1 hu h2 h3
      rw [hb]
      refine ih (m := 2 * m + 1) ?_ ?_
      · convert g2 using 1
        rw [add_nsmul, one_nsmul, two_mul, add_nsmul]; abel
      · convert g3 using 1
        rw [add_nsmul, one_nsmul, two_mul, add_nsmul]; abel
    · rename_i hb
      have hb : k >>> n % 2 = 0 := by omega
      obtain ⟨g2, g3⟩ := stepT_rep hd hx1 hu h2 h3
      rw [hb]
      refine ih (m := 2 * m + 0) ?_ ?_
      · convert g2 using 1
        rw [add_zero, two_mul, add_nsmul]
      · convert g3 using 1
        rw [add_zero, two_mul, add_nsmul]; abel

theorem xcT_zero {d : Fp} : xcT (0 : (montT d curveA).Point) = 0 := rfl

theorem doubleT_of_xc_zero {d : Fp} (hd : d ≠ 0) {D : (montT d curveA).Point} (h : xcT D = 0) : 2 • D = 0 := by
  rw [two_nsmul]
  match D, h with
  | .zero, _ => rw [← Point.zero_def, add_zero]
  | .some x y hp, h =>
    have hx : x = 0 := (div_eq_zero_iff.1 (show x / d = 0 from h)).resolve_right hd
    have e := montT_eq hp
    have hy : y = 0 := by
      have : y ^ 2 = 0 := by rw [e, hx]; ring
      exact pow_eq_zero_iff (by decide) |>.1 this
    exact Point.add_self_of_Y_eq (by rw [montT_negY, hy, neg_zero])

theorem xcT_zero_mul {d : Fp} (hd : d ≠ 0) {D : (montT d curveA).Point} (h : xcT D = 0) (k : Nat) : xcT (k • D) = 0 := by
  have : ∀ k : Nat, k • D = 0 ∨ k • D = D := by
    have hdd : D + D = 0 := by rw [← two_nsmul]; exact doubleT_of_xc_zero hd h
    intro k
    induction k with
    | zero => left; exact zero_nsmul D
    | succ k ih =>
      rw [succ_nsmul]
      rcases ih with ih | ih
      · right; rw [ih, zero_add]
      · left; rw [ih, hdd]
  rcases this k with h' | h'
  · rw [h']; rfl
  · rw [h']; exact h

/-- The function on numbers is multiplication of points, also on the twist. -/
theorem cast_montMulT {d : Fp} (hd : d ≠ 0) {D : (montT d curveA).Point} {u : Nat} (hu : (u : Fp) = xcT D) {k : Nat}
    (hk : k < 2 ^ 255) : ((montMul k u : Nat) : Fp) = xcT (k • D) := by
  have hp : p25519 - 2 < 2 ^ 255 := lt_of_le_of_lt (Nat.sub_le ..) p_lt
  simp only [montMul]
  rw [cast_mul, cast_pow _ hp]
  by_cases h0 : xcT D = 0
  · rw [xcT_zero_mul hd h0]
    have := ladder_zero (u := u) (by rw [hu, h0]) k (n := 255) (s := ⟨1, 0, u, 1⟩) (by simp)
      (by push_cast; rw [hu, h0]; ring)
    rcases mul_eq_zero.1 this with h | h
    · rw [h, zero_mul]
    · rw [h, zero_pow (by decide), mul_zero]
  · match D, hu, h0 with
    | .zero, _, h0 => exact absurd rfl h0
    | .some x y hD, hu, h0 =>
      have hu : (u : Fp) = x / d := hu
      have hu : d * (u : Fp) = x := by rw [hu]; exact mul_div_cancel₀ x hd
      have h0 : x ≠ 0 := fun h => h0 (by show x / d = 0; rw [h, zero_div])
      have := ladderT_rep hd (hD := hD) h0 hu k (n := 255) (m := 0) (s := ⟨1, 0, u, 1⟩)
        (by rw [zero_nsmul, Point.zero_def]; exact ⟨by simp, by simp⟩)
        (by rw [zero_nsmul, zero_add]; exact ⟨by simp, by simp [hu]⟩)
      rw [Nat.zero_mul, Nat.zero_add, Nat.mod_eq_of_lt hk] at this
      exact repT_value hd this

end Verif.Algo
