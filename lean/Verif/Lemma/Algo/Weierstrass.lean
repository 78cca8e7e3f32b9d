import Verif.Lemma.Algo.Prime
import Verif.Model.Algo.Ecdsa
import Mathlib.AlgebraicGeometry.EllipticCurve.Affine.Point
import Mathlib.Tactic.LinearCombination
import Mathlib.FieldTheory.Finite.Basic

/-!
# Affine arithmetic on a curve in short form

The functions on pairs of numbers compute the sum and multiples in Mathlib's group of points.
-/

namespace Verif.Algo

open WeierstrassCurve.Affine

theorem expMod_eq {m : Nat} (hm : 1 < m) (a e n : Nat) : expMod m a e n = powMod m a e n := by
  induction n generalizing e with
  | zero => simp [expMod, powMod, Nat.mod_eq_of_lt hm]
  | succ n ih => simp only [expMod, powMod, ih]

theorem cast_expMod {m : Nat} (hm : 1 < m) (a : Nat) {e n : Nat} (h : e < 2 ^ n) :
    ((expMod m a e n : Nat) : ZMod m) = (a : ZMod m) ^ e := by
  rw [expMod_eq hm, powMod_eq _ _ h]; simp

theorem cast_subMod {m : Nat} (hm : 0 < m) (a b : Nat) : ((subMod m a b : Nat) : ZMod m) = a - b := by
  have h : b % m ≤ m := (Nat.mod_lt _ hm).le
  simp [subMod, Nat.cast_sub h, sub_eq_add_neg]

theorem cast_invMod {m : Nat} [hf : Fact m.Prime] (h3 : 3 < m) (hs : m ≤ 2 ^ 256) (a : Nat) :
    ((invMod m a : Nat) : ZMod m) = (a : ZMod m)⁻¹ := by
  have hp := hf.out
  unfold invMod
  rw [cast_expMod hp.one_lt a (by omega)]
  by_cases ha : (a : ZMod m) = 0
  · rw [ha, inv_zero]
    exact zero_pow (by omega)
  · refine eq_inv_of_mul_eq_one_left ?_
    rw [← pow_succ, show m - 2 + 1 = m - 1 by omega]
    exact ZMod.pow_card_sub_one_eq_one ha

/-- What is needed of a curve: its modulus and order are prime, it has no singular point, and the base
point lies on it and has the order. -/
structure Good (c : Curve) : Prop where
  prime_p : c.p.Prime
  prime_n : c.n.Prime
  p_lt : c.p < 2 ^ 256
  n_lt : c.n < 2 ^ 256
  p_gt : 3 < c.p
  n_gt : 3 < c.n
  mod4 : c.p % 4 = 3
  disc : (4 * c.a ^ 3 + 27 * c.b ^ 2) % c.p ≠ 0
  gx_lt : c.gx < c.p
  gy_lt : c.gy < c.p
  base : c.gy * c.gy % c.p = c.rhs c.gx
  order : c.mul c.n c.base = none

/-- The curve in Mathlib's form. -/
def wei (c : Curve) : WeierstrassCurve.Affine (ZMod c.p) := ⟨0, 0, 0, c.a, c.b⟩

/-- A pair of numbers stands for a point. -/
def Stands (c : Curve) : Pt → (wei c).Point → Prop
  | none, D => D = 0
  | some (x, y), D => x < c.p ∧ y < c.p ∧ ∃ h, D = .some (x : ZMod c.p) (y : ZMod c.p) h

section

variable {c : Curve} [hp : Fact c.p.Prime]

theorem wei_negY {x y : ZMod c.p} : (wei c).negY x y = -y := by simp [WeierstrassCurve.Affine.negY, wei]

theorem wei_eq {x y : ZMod c.p} (h : (wei c).Nonsingular x y) : y ^ 2 = x ^ 3 + c.a * x + c.b := by
  have := ((wei c).equation_iff x y).1 h.1
  simpa [wei] using this

theorem cast_inj {m a b : Nat} (ha : a < m) (hb : b < m) (h : (a : ZMod m) = b) : a = b := by
  rw [ZMod.natCast_eq_natCast_iff', Nat.mod_eq_of_lt ha, Nat.mod_eq_of_lt hb] at h
  exact h

theorem subMod_lt {m : Nat} (hm : 0 < m) (a b : Nat) : subMod m a b < m := Nat.mod_lt _ hm

omit hp in
theorem some_of_eq {D : (wei c).Point} {X Y X' Y' : ZMod c.p} {h : (wei c).Nonsingular X Y} (hD : D = .some X Y h)
    (hX : X = X') (hY : Y = Y') : ∃ h', D = .some X' Y' h' := by
  subst hX hY; exact ⟨h, hD⟩

theorem two_ne' (h3 : 3 < c.p) : (2 : ZMod c.p) ≠ 0 := by
  intro h
  have h1 : ((2 : ℕ) : ZMod c.p) = ((0 : ℕ) : ZMod c.p) := by push_cast; exact h
  have := cast_inj (by omega) (by omega) h1
  omega

theorem stands_add (h3 : 3 < c.p) (hs : c.p ≤ 2 ^ 256) {p q : Pt} {D E : (wei c).Point}
    (hD : Stands c p D) (hE : Stands c q E) : Stands c (c.add p q) (D + E) := by
  have hpos := hp.out.pos
  match p, q, hD, hE with
  | none, q, hD, hE =>
    have : D = 0 := hD
    subst this
    rw [zero_add]; cases q <;> exact hE
  | some p, none, hD, hE =>
    have : E = 0 := hE
    subst this
    rw [add_zero]; exact hD
  | some (x1, y1), some (x2, y2), ⟨hx1, hy1, h1, hD⟩, ⟨hx2, hy2, h2', hE⟩ =>
    subst hD hE
    have e1 := wei_eq h1
    have e2 := wei_eq h2'
    have hzero : (y1 + y2) % c.p = 0 ↔ (y1 : ZMod c.p) = -(y2 : ZMod c.p) := by
      rw [← Nat.dvd_iff_mod_eq_zero, ← ZMod.natCast_eq_zero_iff, Nat.cast_add, eq_neg_iff_add_eq_zero]
    have hxx : x1 = x2 ↔ (x1 : ZMod c.p) = x2 := ⟨fun h => by rw [h], cast_inj hx1 hx2⟩
    simp only [Curve.add]
    split
    · rename_i h
      exact Point.add_of_Y_eq (hxx.1 h.1) (by rw [wei_negY]; exact hzero.1 h.2)
    · rename_i h
      refine ⟨subMod_lt hpos _ _, subMod_lt hpos _ _, ?_⟩
      by_cases hx : x1 = x2
      · subst hx
        have hy : ¬ (y1 : ZMod c.p) = -(y2 : ZMod c.p) := fun h' => h ⟨rfl, hzero.2 h'⟩
        have hyy : (y1 : ZMod c.p) = y2 := by
          have : ((y1 : ZMod c.p) - y2) * (y1 + y2) = 0 := by linear_combination e1 - e2
          rcases mul_eq_zero.1 this with h | h
          · exact sub_eq_zero.1 h
          · exact absurd (eq_neg_of_add_eq_zero_left h) hy
        have hyn := cast_inj hy1 hy2 hyy
        subst hyn
        have hY : (y1 : ZMod c.p) ≠ (wei c).negY x1 y1 := by rw [wei_negY]; exact hy
        have hl : (wei c).slope x1 x1 y1 y1 =
            (((if x1 = x1 then (3 * x1 * x1 + c.a) * invMod c.p (2 * y1 % c.p) % c.p
              else subMod c.p y1 y1 * invMod c.p (subMod c.p x1 x1) % c.p) : Nat) : ZMod c.p) := by
          rw [slope_of_Y_ne rfl hY, wei_negY, if_pos rfl, ZMod.natCast_mod, Nat.cast_mul, cast_invMod h3 hs, ZMod.natCast_mod]
          simp only [wei]
          push_cast
          rw [div_eq_mul_inv]
          congr 1
          · ring
          · congr 1; ring
        refine some_of_eq (Point.add_self_of_Y_ne hY) ?_ ?_
        · rw [cast_subMod hpos, cast_subMod hpos, Nat.cast_mul, ← hl]
          simp only [addX, wei]; ring
        · rw [cast_subMod hpos, Nat.cast_mul, cast_subMod hpos, cast_subMod hpos, cast_subMod hpos, Nat.cast_mul, ← hl]
          simp only [addY, negAddY, negY, addX, wei]; ring
      · have hX : (x1 : ZMod c.p) ≠ x2 := fun h' => hx (hxx.2 h')
        have hl : (wei c).slope x1 x2 y1 y2 =
            (((if x1 = x2 then (3 * x1 * x1 + c.a) * invMod c.p (2 * y1 % c.p) % c.p
              else subMod c.p y1 y2 * invMod c.p (subMod c.p x1 x2) % c.p) : Nat) : ZMod c.p) := by
          rw [slope_of_X_ne hX, if_neg hx, ZMod.natCast_mod, Nat.cast_mul, cast_invMod h3 hs, cast_subMod hpos,
            cast_subMod hpos, div_eq_mul_inv]
        refine some_of_eq (Point.add_of_X_ne hX) ?_ ?_
        · rw [cast_subMod hpos, cast_subMod hpos, Nat.cast_mul, ← hl]
          simp only [addX, wei]; ring
        · rw [cast_subMod hpos, Nat.cast_mul, cast_subMod hpos, cast_subMod hpos, cast_subMod hpos, Nat.cast_mul, ← hl]
          simp only [addY, negAddY, negY, addX, wei]; ring

theorem stands_mulFrom (h3 : 3 < c.p) (hs : c.p ≤ 2 ^ 256) {q acc : Pt} {D : (wei c).Point} (hD : Stands c q D) (k : Nat)
    (n a : Nat) (ha : Stands c acc (a • D)) : Stands c (c.mulFrom k q n acc) ((a * 2 ^ n + k % 2 ^ n) • D) := by
  induction n generalizing acc a with
  | zero => simpa [Curve.mulFrom, Nat.mod_one] using ha
  | succ n ih =>
    simp only [Curve.mulFrom]
    have hd : Stands c (c.add acc acc) ((2 * a) • D) := by
      have := stands_add h3 hs ha ha
      rwa [← add_nsmul, ← Nat.two_mul] at this
    have hk : k % 2 ^ (n + 1) = (k >>> n % 2) * 2 ^ n + k % 2 ^ n := by
      rw [Nat.shiftRight_eq_div_pow, Nat.pow_succ, Nat.mod_mul]; ring
    split
    · rename_i h
      have := ih (2 * a + 1) (by
        have := stands_add h3 hs hd hD
        rwa [← succ_nsmul] at this)
      rw [hk, h]
      convert this using 2
      rw [Nat.pow_succ]; ring
    · rename_i h
      have := ih (2 * a) hd
      rw [hk, show k >>> n % 2 = 0 by omega]
      convert this using 2
      rw [Nat.pow_succ]; ring

theorem stands_mul (h3 : 3 < c.p) (hs : c.p ≤ 2 ^ 256) {q : Pt} {D : (wei c).Point} (hD : Stands c q D) {k : Nat}
    (hk : k < 2 ^ 256) : Stands c (c.mul k q) (k • D) := by
  have := stands_mulFrom h3 hs (acc := none) hD k 256 0 (by rw [zero_nsmul]; rfl)
  rwa [Nat.zero_mul, Nat.zero_add, Nat.mod_eq_of_lt hk] at this

omit hp in
theorem stands_unique {p q : Pt} {D : (wei c).Point} (h : Stands c p D) (h' : Stands c q D) : p = q := by
  match p, q, h, h' with
  | none, none, _, _ => rfl
  | none, some (x, y), h, ⟨_, _, h1, h'⟩ =>
    rw [show D = 0 from h] at h'
    exact absurd h'.symm (Point.some_ne_zero _)
  | some (x, y), none, ⟨_, _, h1, h⟩, h' =>
    rw [show D = 0 from h'] at h
    exact absurd h.symm (Point.some_ne_zero _)
  | some (x, y), some (x', y'), ⟨hx, hy, h1, h⟩, ⟨hx', hy', h1', h'⟩ =>
    rw [h] at h'
    simp only [Point.some.injEq] at h'
    rw [cast_inj hx hx' h'.1, cast_inj hy hy' h'.2]

theorem stands_of_eq (h3 : 3 < c.p) (hd : (4 * c.a ^ 3 + 27 * c.b ^ 2) % c.p ≠ 0) {x y : Nat} (hx : x < c.p) (hy : y < c.p)
    (he : y * y % c.p = c.rhs x) : ∃ D, Stands c (some (x, y)) D := by
  have hΔ : (wei c).Δ ≠ 0 := by
    have h0 : ((4 * c.a ^ 3 + 27 * c.b ^ 2 : ℕ) : ZMod c.p) ≠ 0 := by
      rw [Ne, ZMod.natCast_eq_zero_iff, Nat.dvd_iff_mod_eq_zero]; exact hd
    push_cast at h0
    have : (wei c).Δ = -(2 ^ 4 * (4 * (c.a : ZMod c.p) ^ 3 + 27 * (c.b : ZMod c.p) ^ 2)) := by
      simp only [WeierstrassCurve.Δ, WeierstrassCurve.b₂, WeierstrassCurve.b₄, WeierstrassCurve.b₆, WeierstrassCurve.b₈, wei]
      ring
    rw [this]
    exact neg_ne_zero.2 (mul_ne_zero (pow_ne_zero 4 (two_ne' h3)) h0)
  have heq : (wei c).Equation (x : ZMod c.p) (y : ZMod c.p) := by
    rw [equation_iff]
    have : ((y * y : ℕ) : ZMod c.p) = ((x * x * x + c.a * x + c.b : ℕ) : ZMod c.p) := by
      rw [ZMod.natCast_eq_natCast_iff', he]; rfl
    push_cast at this
    simp only [wei]
    linear_combination this
  exact ⟨.some _ _ ((equation_iff_nonsingular_of_Δ_ne_zero hΔ).1 heq), hx, hy, _, rfl⟩

end

end Verif.Algo
