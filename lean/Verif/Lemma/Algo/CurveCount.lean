import Verif.Lemma.Algo.Curves
import Verif.Lemma.Algo.EcdsaKeys
import Mathlib.NumberTheory.LegendreSymbol.QuadraticChar.Basic
import Mathlib.GroupTheory.SpecificGroups.Cyclic

/-!
# P-256 and secp256k1 have a prime number of points

A curve and its twist together have twice as many points as there are numbers, and the two neutral ones.  The order of the
base point divides the number of the points of the curve, which leaves two possibilities; one point of the twist excludes
one of them.
-/

namespace Verif.Algo

open WeierstrassCurve.Affine

section

variable {c : Curve} [hp : Fact c.p.Prime]

theorem wei_nonsingular (h3 : 3 < c.p) (hd : (4 * c.a ^ 3 + 27 * c.b ^ 2) % c.p ≠ 0) {x y : ZMod c.p}
    (h : y ^ 2 = x ^ 3 + c.a * x + c.b) : (wei c).Nonsingular x y := by
  have hy := ZMod.natCast_rightInverse y
  have hx := ZMod.natCast_rightInverse x
  obtain ⟨D, -, -, hns, -⟩ := stands_of_eq (x := x.val) (y := y.val) h3 hd (ZMod.val_lt _) (ZMod.val_lt _) (by
    have : ((y.val * y.val : ℕ) : ZMod c.p) = ((x.val * x.val * x.val + c.a * x.val + c.b : ℕ) : ZMod c.p) := by
      push_cast
      rw [hy, hx]
      linear_combination h
    exact (ZMod.natCast_eq_natCast_iff' ..).1 this)
  rwa [hx, hy] at hns

/-- The points but the neutral one are the solutions of the equation. -/
def weiPoints (h3 : 3 < c.p) (hd : (4 * c.a ^ 3 + 27 * c.b ^ 2) % c.p ≠ 0) :
    (wei c).Point ≃ Option {p : ZMod c.p × ZMod c.p // p.2 ^ 2 = p.1 ^ 3 + c.a * p.1 + c.b} where
  toFun
    | .zero => none
    | .some x y h => some ⟨(x, y), wei_eq h⟩
  invFun
    | none => .zero
    | some p => .some p.1.1 p.1.2 (wei_nonsingular h3 hd p.2)
  left_inv D := by
    match D with
    | .zero => rfl
    | .some x y h => rfl
  right_inv o := by
    match o with
    | none => rfl
    | some ⟨(x, y), h⟩ => rfl

theorem wei_finite (h3 : 3 < c.p) (hd : (4 * c.a ^ 3 + 27 * c.b ^ 2) % c.p ≠ 0) : Finite (wei c).Point :=
  Finite.of_equiv _ (weiPoints h3 hd).symm

theorem card_wei (h3 : 3 < c.p) (hd : (4 * c.a ^ 3 + 27 * c.b ^ 2) % c.p ≠ 0) :
    (Nat.card (wei c).Point : ℤ) = 1 + ∑ u : ZMod c.p, (quadraticChar (ZMod c.p) (u ^ 3 + c.a * u + c.b) + 1) := by
  have h1 : Nat.card (wei c).Point =
      Nat.card {p : ZMod c.p × ZMod c.p // p.2 ^ 2 = p.1 ^ 3 + c.a * p.1 + c.b} + 1 := by
    rw [Nat.card_congr (weiPoints h3 hd), Finite.card_option]
  have e : {p : ZMod c.p × ZMod c.p // p.2 ^ 2 = p.1 ^ 3 + c.a * p.1 + c.b} ≃
      Σ u : ZMod c.p, {y : ZMod c.p // y ^ 2 = u ^ 3 + c.a * u + c.b} :=
    { toFun := fun p => ⟨p.1.1, p.1.2, p.2⟩
      invFun := fun q => ⟨(q.1, q.2.1), q.2.2⟩
      left_inv := fun _ => rfl
      right_inv := fun _ => rfl }
  have hF : ringChar (ZMod c.p) ≠ 2 := by
    rw [ZMod.ringChar_zmod_n]; omega
  have h2 : ∀ u : ZMod c.p, (Nat.card {y : ZMod c.p // y ^ 2 = u ^ 3 + c.a * u + c.b} : ℤ) =
      quadraticChar (ZMod c.p) (u ^ 3 + c.a * u + c.b) + 1 := by
    intro u
    rw [← quadraticChar_card_sqrts hF, Nat.card_eq_fintype_card, Set.toFinset_card]
    rfl
  rw [h1, Nat.card_congr e, Nat.card_sigma]
  push_cast
  rw [add_comm, Finset.sum_congr rfl fun u _ => h2 u]

end

/-- The curve with the other sign of `b`. -/
def Curve.twist (c : Curve) : Curve := { c with b := c.p - c.b }

theorem card_wei_both {c : Curve} [hp : Fact c.p.Prime] (h3 : 3 < c.p) (h4 : c.p % 4 = 3) (hb : c.b ≤ c.p)
    (hd : (4 * c.a ^ 3 + 27 * c.b ^ 2) % c.p ≠ 0) (hd' : (4 * c.twist.a ^ 3 + 27 * c.twist.b ^ 2) % c.p ≠ 0) :
    Nat.card (wei c).Point + Nat.card (wei c.twist).Point = 2 * c.p + 2 := by
  have : Fact c.twist.p.Prime := hp
  have h1 := card_wei h3 hd
  have h2 := card_wei (c := c.twist) h3 hd'
  have hx : quadraticChar (ZMod c.p) (-1) = -1 := by
    rw [quadraticChar_neg_one_iff_not_isSquare, ZMod.exists_sq_eq_neg_one_iff]
    omega
  have key : ∀ u : ZMod c.p, quadraticChar (ZMod c.p) (u ^ 3 + c.a * u + ((c.p - c.b : ℕ) : ZMod c.p)) + 1 =
      1 - quadraticChar (ZMod c.p) ((-u) ^ 3 + c.a * (-u) + c.b) := by
    intro u
    rw [Nat.cast_sub hb, ZMod.natCast_self, show (u ^ 3 + (c.a : ZMod c.p) * u + (0 - (c.b : ZMod c.p))) =
      (-1) * ((-u) ^ 3 + c.a * (-u) + c.b) by ring, map_mul, hx]
    ring
  have h2' : (∑ u : ZMod c.twist.p, (quadraticChar (ZMod c.twist.p) (u ^ 3 + c.twist.a * u + c.twist.b) + 1)) =
      ∑ u : ZMod c.p, (1 - quadraticChar (ZMod c.p) (u ^ 3 + c.a * u + c.b)) := by
    exact Fintype.sum_equiv (Equiv.neg (ZMod c.p)) _ _ key
  rw [h2'] at h2
  have h5 : (∑ u : ZMod c.p, (quadraticChar (ZMod c.p) (u ^ 3 + c.a * u + c.b) + 1)) +
      ∑ u : ZMod c.p, (1 - quadraticChar (ZMod c.p) (u ^ 3 + c.a * u + c.b)) = 2 * c.p := by
    rw [← Finset.sum_add_distrib, Finset.sum_congr rfl fun u _ => (by ring : _ = (2 : ℤ)), Finset.sum_const,
      Finset.card_univ, ZMod.card]
    simp; ring
  have : (Nat.card (wei c).Point : ℤ) + Nat.card (wei c.twist).Point = 2 * c.p + 2 := by
    rw [h1, h2]; linarith
  exact_mod_cast this

/-- What is needed to count the points: a point of the twist that twice the difference does not take to the neutral one. -/
structure Counted (c : Curve) : Prop extends Good c where
  b_le : c.b ≤ c.p
  disc' : (4 * c.twist.a ^ 3 + 27 * c.twist.b ^ 2) % c.p ≠ 0
  near : 2 * c.p + 2 < 3 * c.n
  diff : 2 * c.p + 2 - 2 * c.n < 2 ^ 256
  other : ∃ x y, x < c.p ∧ y < c.p ∧ y * y % c.p = c.twist.rhs x ∧
    c.twist.mul (2 * c.p + 2 - 2 * c.n) (some (x, y)) ≠ none

theorem Counted.card {c : Curve} (h : Counted c) : Nat.card (wei c).Point = c.n := by
  have hp := h.fact_p
  have hn := h.fact_n
  have hpt : Fact c.twist.p.Prime := hp
  have f1 := wei_finite h.p_gt h.disc
  have f2 := wei_finite (c := c.twist) h.p_gt h.disc'
  have both := card_wei_both h.p_gt h.mod4 h.b_le h.disc h.disc'
  obtain ⟨G, hG, hnG⟩ := h.exists_base
  have hG0 : G ≠ 0 := by
    rintro rfl
    have := h.nsmul_zero hG hnG (a := 1) (by simp)
    rw [Nat.cast_one] at this
    exact one_ne_zero this
  have hd : c.n ∣ Nat.card (wei c).Point := by
    have := addOrderOf_dvd_natCard G
    rwa [addOrderOf_eq_prime hnG hG0] at this
  obtain ⟨k, hk⟩ := hd
  have pos1 : 0 < Nat.card (wei c).Point := Nat.card_pos
  have pos2 : 0 < Nat.card (wei c.twist).Point := Nat.card_pos
  have hn3 := h.near
  have k0 : k ≠ 0 := by
    rintro rfl
    omega
  have k3 : k < 3 := by
    by_contra hk3
    have : c.n * 3 ≤ c.n * k := Nat.mul_le_mul_left _ (by omega)
    omega
  have k2 : k ≠ 2 := by
    rintro rfl
    obtain ⟨x, y, hx, hy, he, hm⟩ := h.other
    obtain ⟨D, hD⟩ := stands_of_eq (c := c.twist) h.p_gt h.disc' hx hy he
    have hs := stands_mul (c := c.twist) h.p_gt (le_of_lt h.p_lt) hD h.diff
    have hc : 2 * c.p + 2 - 2 * c.n = Nat.card (wei c.twist).Point := by omega
    rw [hc, card_nsmul_eq_zero', ← hc] at hs
    exact hm (stands_unique (q := none) hs rfl)
  have : k = 1 := by omega
  rw [hk, this, mul_one]

/-- Every point is a multiple of the base point. -/
theorem Counted.multiple {c : Curve} (h : Counted c) {q : Nat × Nat} {D : (wei c).Point} (hD : Stands c (some q) D) :
    ∃ d, 0 < d ∧ d < c.n ∧ c.mul d c.base = some q := by
  have hp := h.fact_p
  have hn := h.fact_n
  obtain ⟨G, hG, hnG⟩ := h.exists_base
  have f1 := wei_finite h.p_gt h.disc
  have hG0 : G ≠ 0 := by
    rintro rfl
    have := h.nsmul_zero hG hnG (a := 1) (by simp)
    rw [Nat.cast_one] at this
    exact one_ne_zero this
  obtain ⟨k, hk⟩ := AddSubmonoid.mem_multiples_iff _ _ |>.1 (mem_multiples_of_prime_card (g' := D) h.card hG0)
  have hk' : (k % c.n) • G = D := by
    rw [← hk]; exact nsmul_cast hnG (ZMod.natCast_mod k c.n)
  have hlt := Nat.mod_lt k h.prime_n.pos
  have hs := h.mul_stands hG hlt
  rw [hk'] at hs
  have e := stands_unique hs hD
  refine ⟨k % c.n, ?_, hlt, e⟩
  rcases Nat.eq_zero_or_pos (k % c.n) with h0 | h0
  · rw [h0, h.mul_base_zero] at e
    cases e
  · exact h0

end Verif.Algo
