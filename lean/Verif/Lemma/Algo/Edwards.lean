import Verif.Lemma.Algo.Montgomery

/-!
# Addition on a twisted Edwards curve is addition on a Montgomery curve

The curve `-x² + y² = 1 + d x² y²` with `-1` a square and `d` none; its points go to those of a Montgomery curve by
`u = (1 + y) / (1 - y)`, `v = c u / x`.
-/

namespace Verif.Algo

open WeierstrassCurve.Affine

/-- Constants of a twisted Edwards curve and of its map to a Montgomery curve. -/
structure Ed (F : Type) [Field F] where
  d : F
  c : F
  i : F
  A : F
  two_ne : (2 : F) ≠ 0
  hi : i ^ 2 = -1
  hd : ∀ r : F, r ^ 2 ≠ d
  hc : c ^ 2 * (1 + d) = -4
  hA : A = -c ^ 2 - 2

variable {F : Type} [Field F]

/-- A pair is on the curve. -/
def Ed.On (e : Ed F) (p : F × F) : Prop := p.2 ^ 2 - p.1 ^ 2 = 1 + e.d * p.1 ^ 2 * p.2 ^ 2

/-- The addition law. -/
def Ed.add (e : Ed F) (p q : F × F) : F × F :=
  ((p.1 * q.2 + q.1 * p.2) / (1 + e.d * p.1 * q.1 * p.2 * q.2), (p.2 * q.2 + p.1 * q.1) / (1 - e.d * p.1 * q.1 * p.2 * q.2))

/-- A pair stands for a point of the Montgomery curve. -/
def Ed.Rel (e : Ed F) (p : F × F) : (mont e.A).Point → Prop
  | .zero => p.1 = 0 ∧ p.2 = 1
  | .some u v _ => e.On p ∧ p.2 ≠ 1 ∧ u * (1 - p.2) = 1 + p.2 ∧ v * p.1 = e.c * u

variable (e : Ed F)

include e in
theorem Ed.four_ne : (4 : F) ≠ 0 := by
  intro h
  have : (2 : F) * 2 = 0 := by linear_combination h
  rcases mul_eq_zero.1 this with h | h <;> exact e.two_ne h

theorem Ed.c_ne : e.c ≠ 0 := by
  intro h
  have := e.hc
  rw [h] at this
  exact e.four_ne (by linear_combination this)

theorem Ed.D_ne : 1 + e.d ≠ 0 := by
  intro h
  have := e.hc
  rw [h] at this
  exact e.four_ne (by linear_combination this)

theorem Ed.square_zero {s t : F} (h : s ^ 2 = e.d * t ^ 2) : t = 0 := by
  by_contra ht
  apply e.hd (s / t)
  rw [div_pow, h]
  field_simp

variable {e}

/-- The denominators do not vanish. -/
theorem Ed.complete {p q : F × F} (hp : e.On p) (hq : e.On q) : (e.d * p.1 * q.1 * p.2 * q.2) ^ 2 ≠ 1 := by
  obtain ⟨x1, y1⟩ := p
  obtain ⟨x2, y2⟩ := q
  unfold Ed.On at hp hq
  simp only at hp hq ⊢
  intro h
  have hi := e.hi
  set s := e.d * x1 * x2 * y1 * y2 with hs
  have hne : s ≠ 0 := by
    intro h0
    rw [h0] at h
    exact zero_ne_one (by linear_combination h)
  have e1 : (e.i * x1 + s * y1) ^ 2 = e.d * (x1 * y1 * (e.i * x2 + y2)) ^ 2 := by
    linear_combination (x1 ^ 2 - e.d * x1 ^ 2 * y1 ^ 2 * x2 ^ 2) * hi + (y1 ^ 2 - 1) * h + hp - e.d * x1 ^ 2 * y1 ^ 2 * hq
  have e2 : (e.i * x1 - s * y1) ^ 2 = e.d * (x1 * y1 * (e.i * x2 - y2)) ^ 2 := by
    linear_combination (x1 ^ 2 - e.d * x1 ^ 2 * y1 ^ 2 * x2 ^ 2) * hi + (y1 ^ 2 - 1) * h + hp - e.d * x1 ^ 2 * y1 ^ 2 * hq
  have h1 := e.square_zero e1
  have h2 := e.square_zero e2
  have hxy : x1 * y1 ≠ 0 := by
    intro h0
    exact hne (by rw [hs]; linear_combination e.d * x2 * y2 * h0)
  have h3 := (mul_eq_zero.1 h1).resolve_left hxy
  have h4 := (mul_eq_zero.1 h2).resolve_left hxy
  have h5 : 2 * y2 = 0 := by linear_combination h3 - h4
  have h6 : y2 = 0 := (mul_eq_zero.1 h5).resolve_left e.two_ne
  exact hne (by rw [hs, h6, mul_zero])

theorem Ed.denom {p q : F × F} (hp : e.On p) (hq : e.On q) :
    1 + e.d * p.1 * q.1 * p.2 * q.2 ≠ 0 ∧ 1 - e.d * p.1 * q.1 * p.2 * q.2 ≠ 0 := by
  constructor <;> intro h <;> apply Ed.complete hp hq
  · linear_combination (e.d * p.1 * q.1 * p.2 * q.2 - 1) * h
  · linear_combination (-e.d * p.1 * q.1 * p.2 * q.2 - 1) * h

/-- Sums are on the curve. -/
theorem Ed.on_add {p q : F × F} (hp : e.On p) (hq : e.On q) : e.On (e.add p q) := by
  obtain ⟨hn, hm⟩ := Ed.denom hp hq
  obtain ⟨x1, y1⟩ := p
  obtain ⟨x2, y2⟩ := q
  unfold Ed.On at hp hq ⊢
  unfold Ed.add
  simp only at hp hq hn hm ⊢
  have hx3 := div_mul_cancel₀ (x1 * y2 + x2 * y1) hn
  have hy3 := div_mul_cancel₀ (y1 * y2 + x1 * x2) hm
  generalize (x1 * y2 + x2 * y1) / (1 + e.d * x1 * x2 * y1 * y2) = x3 at hx3 ⊢
  generalize (y1 * y2 + x1 * x2) / (1 - e.d * x1 * x2 * y1 * y2) = y3 at hy3 ⊢
  have h1 : (x3 * (1 + e.d * x1 * x2 * y1 * y2)) ^ 2 = (x1 * y2 + x2 * y1) ^ 2 := by rw [hx3]
  have h2 : (y3 * (1 - e.d * x1 * x2 * y1 * y2)) ^ 2 = (y1 * y2 + x1 * x2) ^ 2 := by rw [hy3]
  have h3 : (x3 * (1 + e.d * x1 * x2 * y1 * y2)) ^ 2 * (y3 * (1 - e.d * x1 * x2 * y1 * y2)) ^ 2 =
      (x1 * y2 + x2 * y1) ^ 2 * (y1 * y2 + x1 * x2) ^ 2 := by rw [hx3, hy3]
  refine mul_right_cancel₀ (mul_ne_zero (pow_ne_zero 2 hn) (pow_ne_zero 2 hm)) ?_
  linear_combination (1 + e.d * x1 * x2 * y1 * y2) ^ 2 * h2 - (1 - e.d * x1 * x2 * y1 * y2) ^ 2 * h1 - e.d * h3 +
    (
      e.d ^ 3 * x1 ^ 2 * y1 ^ 2 * x2 ^ 4 * y2 ^ 4 - e.d ^ 2 * x1 ^ 2 * x2 ^ 4 * y2 ^ 4 + e.d ^ 2 * y1 ^ 2
      * x2 ^ 4 * y2 ^ 4 - e.d ^ 2 * x2 ^ 4 * y2 ^ 4 - e.d * x1 ^ 2 * x2 ^ 4 * y2 ^ 2 + e.d * x1 ^ 2 * x2 ^
      2 * y2 ^ 4 + e.d * y1 ^ 2 * x2 ^ 4 * y2 ^ 2 - e.d * y1 ^ 2 * x2 ^ 2 * y2 ^ 4 - 2 * e.d * x2 ^ 4 * y2
      ^ 4 - 2 * e.d * x2 ^ 2 * y2 ^ 2 - 2 * x2 ^ 4 * y2 ^ 2 + x2 ^ 4 + 2 * x2 ^ 2 * y2 ^ 4 - 4 * x2 ^ 2 *
      y2 ^ 2 + y2 ^ 4) * hp + (
      e.d * x1 ^ 4 * x2 ^ 2 * y2 ^ 2 + 2 * e.d * x1 ^ 2 * x2 ^ 2 * y2 ^ 2 + e.d * y1 ^ 4 * x2 ^ 2 * y2 ^ 2
      - 2 * e.d * y1 ^ 2 * x2 ^ 2 * y2 ^ 2 + e.d * x2 ^ 2 * y2 ^ 2 + 2 * x1 ^ 2 * x2 ^ 2 * y2 ^ 2 - x1 ^ 2
      * x2 ^ 2 + x1 ^ 2 * y2 ^ 2 - 2 * y1 ^ 2 * x2 ^ 2 * y2 ^ 2 + y1 ^ 2 * x2 ^ 2 - y1 ^ 2 * y2 ^ 2 + 2 *
      x2 ^ 2 * y2 ^ 2 - x2 ^ 2 + y2 ^ 2 + 1) * hq

theorem Ed.on_eq {x y : F} (h : e.On (x, y)) : (1 + e.d) * x ^ 2 * y ^ 2 + (1 + x ^ 2) * (1 - y ^ 2) = 0 := by
  unfold Ed.On at h
  simp only at h
  linear_combination -h

/-- Two points with different first coordinates. -/
theorem Ed.chord {x1 y1 x2 y2 u1 v1 u2 v2 l u3 : F} (ho1 : e.On (x1, y1)) (ho2 : e.On (x2, y2)) (hk1 : y1 ≠ 1) (hk2 : y2 ≠ 1)
    (hu1 : u1 * (1 - y1) = 1 + y1) (hu2 : u2 * (1 - y2) = 1 + y2) (hv1 : v1 * x1 = e.c * u1) (hv2 : v2 * x2 = e.c * u2)
    (hx1 : x1 ≠ 0) (hx2 : x2 ≠ 0) (hy : y1 ≠ y2) (hl : l * (u1 - u2) = v1 - v2) (hu3 : u3 = l ^ 2 - e.A - u1 - u2) :
    (e.add (x1, y1) (x2, y2)).2 ≠ 1 ∧ u3 * (1 - (e.add (x1, y1) (x2, y2)).2) = 1 + (e.add (x1, y1) (x2, y2)).2 ∧
      -(l * (u3 - u1) + v1) * (e.add (x1, y1) (x2, y2)).1 = e.c * u3 := by
  obtain ⟨hn, hm⟩ := Ed.denom ho1 ho2
  have R1 := Ed.on_eq ho1
  have R2 := Ed.on_eq ho2
  have hc := e.hc
  have hA := e.hA
  have hD := e.D_ne
  have hcn := e.c_ne
  have hk1' : 1 - y1 ≠ 0 := sub_ne_zero.2 hk1.symm
  have hk2' : 1 - y2 ≠ 0 := sub_ne_zero.2 hk2.symm
  have hyy : y1 - y2 ≠ 0 := sub_ne_zero.2 hy
  have g : x1 ^ 2 * y1 ^ 2 * ((1 + x2 ^ 2) * (1 - y2 ^ 2)) - x2 ^ 2 * y2 ^ 2 * ((1 + x1 ^ 2) * (1 - y1 ^ 2)) = 0 := by
    linear_combination x1 ^ 2 * y1 ^ 2 * R2 - x2 ^ 2 * y2 ^ 2 * R1
  unfold Ed.add
  simp only at hn hm ⊢
  have hx3 := div_mul_cancel₀ (x1 * y2 + x2 * y1) hn
  have hy3 := div_mul_cancel₀ (y1 * y2 + x1 * x2) hm
  generalize (x1 * y2 + x2 * y1) / (1 + e.d * x1 * x2 * y1 * y2) = x3 at hx3 ⊢
  generalize (y1 * y2 + x1 * x2) / (1 - e.d * x1 * x2 * y1 * y2) = y3 at hy3 ⊢
  have hM : l * (2 * (y1 - y2) * x1 * x2) = e.c * ((1 + y1) * (1 - y2) * x2 - (1 + y2) * (1 - y1) * x1) := by
    linear_combination (1 - y1) * (1 - y2) * x1 * x2 * hl - l * x1 * x2 * (1 - y2) * hu1 + l * x1 * x2 * (1 - y1) * hu2 +
      x2 * (1 - y1) * (1 - y2) * hv1 - x1 * (1 - y1) * (1 - y2) * hv2 + e.c * x2 * (1 - y2) * hu1 - e.c * x1 * (1 - y1) * hu2
  have hl2 : (1 + e.d) * (x1 ^ 2 * x2 ^ 2 * (y1 - y2) ^ 2) * l ^ 2 =
      -((1 + y1) * (1 - y2) * x2 - (1 + y2) * (1 - y1) * x1) ^ 2 := by
    refine mul_left_cancel₀ e.four_ne ?_
    linear_combination (1 + e.d) * (l * (2 * (y1 - y2) * x1 * x2) +
      e.c * ((1 + y1) * (1 - y2) * x2 - (1 + y2) * (1 - y1) * x1)) * hM +
      ((1 + y1) * (1 - y2) * x2 - (1 + y2) * (1 - y1) * x1) ^ 2 * hc
  have hW : (1 + e.d) * (x1 ^ 2 * x2 ^ 2 * (y1 - y2) ^ 2) * (1 - y1) * (1 - y2) * u3 =
      -((1 + y1) * (1 - y2) * x2 - (1 + y2) * (1 - y1) * x1) ^ 2 * (1 - y1) * (1 - y2) -
        4 * (x1 ^ 2 * x2 ^ 2 * (y1 - y2) ^ 2) * (1 - y1) * (1 - y2) -
        2 * (1 + e.d) * (x1 ^ 2 * x2 ^ 2 * (y1 - y2) ^ 2) * (y1 * (1 - y2) + y2 * (1 - y1)) := by
    rw [hu3, hA]
    linear_combination (1 - y1) * (1 - y2) * hl2 + x1 ^ 2 * x2 ^ 2 * (y1 - y2) ^ 2 * (1 - y1) * (1 - y2) * hc -
      (1 + e.d) * (x1 ^ 2 * x2 ^ 2 * (y1 - y2) ^ 2) * (1 - y2) * hu1 -
      (1 + e.d) * (x1 ^ 2 * x2 ^ 2 * (y1 - y2) ^ 2) * (1 - y1) * hu2
  have hU : u3 * (1 - e.d * x1 * x2 * y1 * y2 - (y1 * y2 + x1 * x2)) = 1 - e.d * x1 * x2 * y1 * y2 + (y1 * y2 + x1 * x2) := by
    refine mul_left_cancel₀ (mul_ne_zero (mul_ne_zero (mul_ne_zero hD (mul_ne_zero (mul_ne_zero (pow_ne_zero 2 hx1)
      (pow_ne_zero 2 hx2)) (pow_ne_zero 2 hyy))) hk1') hk2') ?_
    linear_combination (1 - e.d * x1 * x2 * y1 * y2 - (y1 * y2 + x1 * x2)) * hW + (
      -3 * (1 + e.d) * x1 * y1 ^ 2 * x2 ^ 3 * y2 ^ 2 + (1 + e.d) * x1 * y1 ^ 2 * x2 ^ 3 * y2 + 6 * (1 +
      e.d) * x1 * y1 * x2 ^ 3 * y2 ^ 3 - (1 + e.d) * x1 * y1 * x2 ^ 3 * y2 ^ 2 + (1 + e.d) * x1 * y1 * x2
      ^ 3 * y2 - 3 * (1 + e.d) * x1 * x2 ^ 3 * y2 ^ 4 - (1 + e.d) * x1 * x2 ^ 3 * y2 ^ 3 - 2 * (1 + e.d) *
      x1 * x2 ^ 3 * y2 ^ 2 + 4 * x1 * y1 ^ 2 * x2 ^ 3 * y2 ^ 2 - 4 * x1 * y1 ^ 2 * x2 ^ 3 * y2 + x1 * y1 ^
      2 * x2 * y2 ^ 4 + x1 * y1 ^ 2 * x2 * y2 ^ 3 - x1 * y1 ^ 2 * x2 * y2 ^ 2 - x1 * y1 ^ 2 * x2 * y2 - 8
      * x1 * y1 * x2 ^ 3 * y2 ^ 3 + 4 * x1 * y1 * x2 ^ 3 * y2 ^ 2 - x1 * y1 * x2 ^ 3 * y2 + 3 * x1 * y1 *
      x2 ^ 3 - 3 * x1 * y1 * x2 * y2 ^ 4 - 3 * x1 * y1 * x2 * y2 ^ 3 + 3 * x1 * y1 * x2 * y2 ^ 2 + 3 * x1
      * y1 * x2 * y2 + 4 * x1 * x2 ^ 3 * y2 ^ 4 + 4 * x1 * x2 ^ 3 * y2 ^ 3 + 5 * x1 * x2 ^ 3 * y2 ^ 2 - 4
      * x1 * x2 ^ 3 * y2 - x1 * x2 ^ 3 + 3 * x1 * x2 * y2 ^ 4 + 3 * x1 * x2 * y2 ^ 3 - 3 * x1 * x2 * y2 ^
      2 - 3 * x1 * x2 * y2 - 2 * y1 ^ 2 * x2 ^ 2 * y2 ^ 4 + 2 * y1 ^ 2 * x2 ^ 2 * y2 ^ 3 - 3 * y1 ^ 2 * x2
      ^ 2 * y2 ^ 2 + y1 ^ 2 * x2 ^ 2 * y2 + 2 * y1 * x2 ^ 2 * y2 ^ 4 + 8 * y1 * x2 ^ 2 * y2 ^ 3 - 5 * y1 *
      x2 ^ 2 * y2 ^ 2 + 4 * y1 * x2 ^ 2 * y2 - y1 * x2 ^ 2 - 3 * x2 ^ 2 * y2 ^ 4 - 5 * x2 ^ 2 * y2 ^ 3 - 6
      * x2 ^ 2 * y2 ^ 2 + 3 * x2 ^ 2 * y2 - x2 ^ 2) * R1 + (
      (1 + e.d) * x1 ^ 3 * y1 * x2 * y2 ^ 2 + (1 + e.d) * x1 ^ 3 * y1 * x2 * y2 - 4 * x1 ^ 3 * y1 * x2 *
      y2 ^ 2 - 7 * x1 ^ 3 * y1 * x2 * y2 - 3 * x1 ^ 3 * y1 * x2 + 3 * x1 ^ 3 * x2 * y2 ^ 2 + 4 * x1 ^ 3 *
      x2 * y2 + x1 ^ 3 * x2 + x1 ^ 2 * y1 * y2 ^ 2 + 4 * x1 ^ 2 * y1 * y2 + 3 * x1 ^ 2 * y1 - x1 ^ 2 * y2
      - x1 ^ 2 + x1 * y1 ^ 4 * x2 * y2 ^ 2 - 3 * x1 * y1 ^ 4 * x2 * y2 + x1 * y1 ^ 3 * x2 * y2 ^ 2 + 3 *
      x1 * y1 ^ 3 * x2 * y2 + 2 * x1 * y1 ^ 3 * x2 - 4 * x1 * y1 ^ 2 * x2 * y2 ^ 2 + 2 * x1 * y1 ^ 2 * x2
      * y2 - 2 * x1 * y1 ^ 2 * x2 - x1 * y1 * x2 * y2 ^ 2 - 3 * x1 * y1 * x2 * y2 - 2 * x1 * y1 * x2 + 3 *
      x1 * x2 * y2 ^ 2 + x1 * x2 * y2 + 2 * x1 * x2) * R2 + (
      -x1 * y1 * x2 * y2 - x1 * y1 * x2 + x1 * x2 * y2 ^ 2 + 4 * x1 * x2 * y2 + 3 * x1 * x2 - y1 ^ 2 * y2
      ^ 2 - y1 ^ 2 * y2 + 3 * y1 * y2 ^ 2 + 4 * y1 * y2 + y1 - 3 * y2 ^ 2 - 6 * y2 - 3) * g
  have hY : u3 * (1 - y3) = 1 + y3 := by
    refine mul_right_cancel₀ hm ?_
    linear_combination hU - (u3 + 1) * hy3
  have hY1 : y3 ≠ 1 := by
    rintro rfl
    exact e.two_ne (by linear_combination -hY)
  refine ⟨hY1, hY, ?_⟩
  have hV : -(l * (u3 - u1) + v1) * (x1 * y2 + x2 * y1) = e.c * u3 * (1 + e.d * x1 * x2 * y1 * y2) := by
    have hnY : 1 - e.d * x1 * x2 * y1 * y2 - (y1 * y2 + x1 * x2) ≠ 0 := by
      intro h
      apply hY1
      refine mul_right_cancel₀ hm ?_
      linear_combination hy3 - h
    refine mul_left_cancel₀ (mul_ne_zero (mul_ne_zero (mul_ne_zero (mul_ne_zero (mul_ne_zero e.two_ne hyy) hx1) hx2) hnY)
      hk1') ?_
    have hV0 : (((1 + y1) * (1 - y2) * x2 - (1 + y2) * (1 - y1) * x1) *
        (y1 * y2 + x1 * x2 - y1 * (1 - e.d * x1 * x2 * y1 * y2)) +
        (1 + y1) * x2 * (y1 - y2) * (1 - e.d * x1 * x2 * y1 * y2 - (y1 * y2 + x1 * x2))) * (x1 * y2 + x2 * y1) +
        (1 - e.d * x1 * x2 * y1 * y2 + (y1 * y2 + x1 * x2)) * x1 * x2 * (y1 - y2) * (1 - y1) *
          (1 + e.d * x1 * x2 * y1 * y2) = 0 := by
      linear_combination (
      -(1 + e.d) ^ 2 * x1 * y1 ^ 4 * x2 + (1 + e.d) ^ 2 * x1 * y1 ^ 3 * x2 * y2 + (1 + e.d) ^ 2 * x1 * y1
      ^ 3 * x2 - (1 + e.d) ^ 2 * x1 * y1 ^ 2 * x2 * y2 + 2 * (1 + e.d) * x1 * y1 ^ 4 * x2 - 2 * (1 + e.d)
      * x1 * y1 ^ 3 * x2 * y2 - 2 * (1 + e.d) * x1 * y1 ^ 3 * x2 + 2 * (1 + e.d) * x1 * y1 ^ 2 * x2 * y2 -
      (1 + e.d) * x1 * y1 ^ 2 * x2 + (1 + e.d) * x1 * y1 * x2 + (1 + e.d) * y1 ^ 2 * y2 - (1 + e.d) * y1 *
      y2 - x1 * y1 ^ 4 * x2 + x1 * y1 ^ 3 * x2 * y2 + x1 * y1 ^ 3 * x2 - x1 * y1 ^ 2 * x2 * y2 + x1 * y1 ^
      2 * x2 - x1 * y1 * x2 - y1 ^ 2 * y2 + y1 * y2) * g + (
      (1 + e.d) * x1 * y1 ^ 4 * x2 ^ 3 - (1 + e.d) * x1 * y1 ^ 4 * x2 * y2 ^ 2 + (1 + e.d) * x1 * y1 ^ 4 *
      x2 - (1 + e.d) * x1 * y1 ^ 3 * x2 ^ 3 * y2 - (1 + e.d) * x1 * y1 ^ 3 * x2 ^ 3 + (1 + e.d) * x1 * y1
      ^ 3 * x2 * y2 ^ 3 + (1 + e.d) * x1 * y1 ^ 3 * x2 * y2 ^ 2 - (1 + e.d) * x1 * y1 ^ 3 * x2 * y2 - (1 +
      e.d) * x1 * y1 ^ 3 * x2 + (1 + e.d) * x1 * y1 ^ 2 * x2 ^ 3 * y2 - (1 + e.d) * x1 * y1 ^ 2 * x2 * y2
      ^ 3 + (1 + e.d) * x1 * y1 ^ 2 * x2 * y2 - x1 * y1 ^ 4 * x2 ^ 3 + x1 * y1 ^ 4 * x2 * y2 ^ 2 - x1 * y1
      ^ 4 * x2 + x1 * y1 ^ 3 * x2 ^ 3 * y2 + x1 * y1 ^ 3 * x2 ^ 3 - x1 * y1 ^ 3 * x2 * y2 ^ 3 - x1 * y1 ^
      3 * x2 * y2 ^ 2 + x1 * y1 ^ 3 * x2 * y2 + x1 * y1 ^ 3 * x2 - x1 * y1 ^ 2 * x2 ^ 3 * y2 + x1 * y1 ^ 2
      * x2 * y2 ^ 3 - x1 * y1 ^ 2 * x2 * y2 + x1 * y1 * x2 * y2 ^ 2 + x1 * y1 * x2 * y2 - x1 * x2 * y2 ^ 2
      - x1 * x2 * y2 + y1 ^ 2 * y2 ^ 3 - y1 ^ 2 * y2 - y1 * y2 ^ 3 + y1 * y2) * R1 + (
      (1 + e.d) * x1 * y1 ^ 6 * x2 - (1 + e.d) * x1 * y1 ^ 5 * x2 * y2 - (1 + e.d) * x1 * y1 ^ 5 * x2 + (1
      + e.d) * x1 * y1 ^ 4 * x2 * y2 - (1 + e.d) * x1 * y1 ^ 4 * x2 + (1 + e.d) * x1 * y1 ^ 3 * x2 * y2 +
      (1 + e.d) * x1 * y1 ^ 3 * x2 - (1 + e.d) * x1 * y1 ^ 2 * x2 * y2 - x1 * y1 ^ 6 * x2 + x1 * y1 ^ 5 *
      x2 * y2 + x1 * y1 ^ 5 * x2 - x1 * y1 ^ 4 * x2 * y2 + x1 * y1 ^ 4 * x2 - x1 * y1 ^ 3 * x2 * y2 - 2 *
      x1 * y1 ^ 3 * x2 + x1 * y1 ^ 2 * x2 * y2 + x1 * y1 * x2 - y1 ^ 4 * y2 + y1 ^ 3 * y2 + y1 ^ 2 * y2 -
      y1 * y2) * R2
    have hB : (u3 - u1) * (1 - y1) * (1 - e.d * x1 * x2 * y1 * y2 - (y1 * y2 + x1 * x2)) =
        2 * (y1 * y2 + x1 * x2 - y1 * (1 - e.d * x1 * x2 * y1 * y2)) := by
      linear_combination (1 - y1) * hU - (1 - e.d * x1 * x2 * y1 * y2 - (y1 * y2 + x1 * x2)) * hu1
    have hC : v1 * x1 * (1 - y1) = e.c * (1 + y1) := by linear_combination (1 - y1) * hv1 + e.c * hu1
    linear_combination -2 * e.c * hV0
      - (u3 - u1) * (1 - y1) * (1 - e.d * x1 * x2 * y1 * y2 - (y1 * y2 + x1 * x2)) * (x1 * y2 + x2 * y1) * hM
      - e.c * ((1 + y1) * (1 - y2) * x2 - (1 + y2) * (1 - y1) * x1) * (x1 * y2 + x2 * y1) * hB
      - 2 * (y1 - y2) * x2 * (1 - e.d * x1 * x2 * y1 * y2 - (y1 * y2 + x1 * x2)) * (x1 * y2 + x2 * y1) * hC
      - e.c * (1 + e.d * x1 * x2 * y1 * y2) * 2 * (y1 - y2) * x1 * x2 * (1 - y1) * hU
  refine mul_right_cancel₀ hn ?_
  linear_combination hV - (l * (u3 - u1) + v1) * hx3

/-- The double of a point. -/
theorem Ed.tangent {x y u v l u3 : F} (ho : e.On (x, y)) (hk : y ≠ 1)
    (hu : u * (1 - y) = 1 + y) (hv : v * x = e.c * u) (hx : x ≠ 0) (hy : 1 + y ≠ 0)
    (hl : l * (2 * v) = 3 * u ^ 2 + 2 * e.A * u + 1) (hu3 : u3 = l ^ 2 - e.A - u - u) :
    (e.add (x, y) (x, y)).2 ≠ 1 ∧ u3 * (1 - (e.add (x, y) (x, y)).2) = 1 + (e.add (x, y) (x, y)).2 ∧
      -(l * (u3 - u) + v) * (e.add (x, y) (x, y)).1 = e.c * u3 := by
  obtain ⟨hn, hm⟩ := Ed.denom ho ho
  have R := Ed.on_eq ho
  have hc := e.hc
  have hA := e.hA
  have hD := e.D_ne
  have hk' : 1 - y ≠ 0 := sub_ne_zero.2 hk.symm
  unfold Ed.add
  simp only at hn hm ⊢
  have hx3 := div_mul_cancel₀ (x * y + x * y) hn
  have hy3 := div_mul_cancel₀ (y * y + x * x) hm
  generalize (x * y + x * y) / (1 + e.d * x * x * y * y) = x3 at hx3 ⊢
  generalize (y * y + x * x) / (1 - e.d * x * x * y * y) = y3 at hy3 ⊢
  set N := (3 * (1 + e.d) * (1 + y) ^ 2 + 2 * (4 - 2 * (1 + e.d)) * (1 + y) * (1 - y) + (1 + e.d) * (1 - y) ^ 2) with hN
  have hDA : (1 + e.d) * e.A = 4 - 2 * (1 + e.d) := by rw [hA]; linear_combination -hc
  have hq : (1 + e.d) * (1 - y) ^ 2 * (3 * u ^ 2 + 2 * e.A * u + 1) = N := by
    rw [hN]
    linear_combination 2 * u * (1 - y) ^ 2 * hDA +
      (3 * (1 + e.d) * (u * (1 - y) + (1 + y)) + 2 * (4 - 2 * (1 + e.d)) * (1 - y)) * hu
  have hM : l * (2 * e.c * (1 + e.d) * (1 + y) * (1 - y)) = x * N := by
    linear_combination x * hq + (1 + e.d) * (1 - y) ^ 2 * x * hl - 2 * l * (1 + e.d) * (1 - y) ^ 2 * hv -
      2 * l * e.c * (1 + e.d) * (1 - y) * hu
  have hM' : 8 * (1 + y) * (1 - y) * l = -(e.c * x * N) := by
    linear_combination -e.c * hM + 2 * l * (1 + y) * (1 - y) * hc
  have h16 : (16 : F) ≠ 0 := by
    intro h
    have : (4 : F) * 4 = 0 := by linear_combination h
    rcases mul_eq_zero.1 this with h | h <;> exact e.four_ne h
  have hl2 : 16 * (1 + e.d) * (1 + y) ^ 2 * (1 - y) ^ 2 * l ^ 2 = -(x ^ 2 * N ^ 2) := by
    linear_combination -(l * (2 * e.c * (1 + e.d) * (1 + y) * (1 - y)) + x * N) * hM +
      4 * (1 + e.d) * (1 + y) ^ 2 * (1 - y) ^ 2 * l ^ 2 * hc
  have hW : 16 * (1 + e.d) * (1 + y) ^ 2 * (1 - y) ^ 2 * u3 = -(x ^ 2 * N ^ 2) -
      16 * (4 - 2 * (1 + e.d)) * (1 - y) ^ 2 * (1 + y) ^ 2 - 32 * (1 + e.d) * (1 + y) ^ 3 * (1 - y) := by
    rw [hu3]
    linear_combination hl2 - 16 * (1 - y) ^ 2 * (1 + y) ^ 2 * hDA - 32 * (1 + e.d) * (1 + y) ^ 2 * (1 - y) * hu
  have hU : u3 * (1 - e.d * x * x * y * y - (y * y + x * x)) = 1 - e.d * x * x * y * y + (y * y + x * x) := by
    refine mul_left_cancel₀ (mul_ne_zero (mul_ne_zero (mul_ne_zero h16 hD) (pow_ne_zero 2 hy)) (pow_ne_zero 2 hk')) ?_
    rw [hN] at hW
    linear_combination (1 - e.d * x * x * y * y - (y * y + x * x)) * hW + (
      64 * (1 + e.d) ^ 2 * x ^ 2 * y ^ 4 + 64 * (1 + e.d) ^ 2 * x ^ 2 * y ^ 3 + 16 * (1 + e.d) ^ 2 * x ^ 2
      * y ^ 2 - 128 * (1 + e.d) * x ^ 2 * y ^ 4 - 64 * (1 + e.d) * x ^ 2 * y ^ 3 + 128 * (1 + e.d) * x ^ 2
      * y ^ 2 + 64 * (1 + e.d) * x ^ 2 * y + 80 * (1 + e.d) * y ^ 4 + 64 * (1 + e.d) * y ^ 3 - 64 * (1 +
      e.d) * y ^ 2 - 64 * (1 + e.d) * y - 16 * (1 + e.d) + 64 * x ^ 2 * y ^ 4 - 128 * x ^ 2 * y ^ 2 + 64 *
      x ^ 2 - 64 * y ^ 4 + 128 * y ^ 2 - 64) * R
  have hY : u3 * (1 - y3) = 1 + y3 := by
    refine mul_right_cancel₀ hm ?_
    linear_combination hU - (u3 + 1) * hy3
  have hY1 : y3 ≠ 1 := by
    rintro rfl
    exact e.two_ne (by linear_combination -hY)
  refine ⟨hY1, hY, ?_⟩
  have hV : -(l * (u3 - u) + v) * (x * y + x * y) = e.c * u3 * (1 + e.d * x * x * y * y) := by
    have hnY : 1 - e.d * x * x * y * y - (y * y + x * x) ≠ 0 := by
      intro h
      apply hY1
      refine mul_right_cancel₀ hm ?_
      linear_combination hy3 - h
    have h8 : (8 : F) ≠ 0 := by
      intro h
      exact h16 (by linear_combination 2 * h)
    refine mul_left_cancel₀ (mul_ne_zero (mul_ne_zero (mul_ne_zero (mul_ne_zero h8 (pow_ne_zero 2 hk')) hy) hx) hnY) ?_
    have hV0 : (-(2 * x ^ 2 * N * (y * y + x * x - y * (1 - e.d * x * x * y * y))) +
        8 * (1 - y) * (1 + y) ^ 2 * (1 - e.d * x * x * y * y - (y * y + x * x))) * (x * y + x * y) +
        8 * (1 - y) ^ 2 * (1 + y) * x * (1 - e.d * x * x * y * y + (y * y + x * x)) * (1 + e.d * x * x * y * y) = 0 := by
      rw [hN]
      linear_combination (
      -8 * (1 + e.d) * x ^ 3 * y ^ 5 - 24 * (1 + e.d) * x ^ 3 * y ^ 4 - 8 * (1 + e.d) * x ^ 3 * y ^ 3 - 8
      * (1 + e.d) * x ^ 3 * y ^ 2 + 8 * x ^ 3 * y ^ 5 + 24 * x ^ 3 * y ^ 4 + 8 * x ^ 3 * y ^ 3 - 8 * x ^ 3
      * y ^ 2 - 32 * x ^ 3 * y - 16 * x * y ^ 4 - 24 * x * y ^ 3 + 24 * x * y ^ 2 + 8 * x * y + 8 * x) * R
    have hB : (u3 - u) * (1 - y) * (1 - e.d * x * x * y * y - (y * y + x * x)) =
        2 * (y * y + x * x - y * (1 - e.d * x * x * y * y)) := by
      linear_combination (1 - y) * hU - (1 - e.d * x * x * y * y - (y * y + x * x)) * hu
    have hC : v * x * (1 - y) = e.c * (1 + y) := by linear_combination (1 - y) * hv + e.c * hu
    linear_combination -e.c * hV0
      - (u3 - u) * (1 - y) * x * (1 - e.d * x * x * y * y - (y * y + x * x)) * (x * y + x * y) * hM'
      + e.c * x ^ 2 * N * (x * y + x * y) * hB
      - 8 * (1 - y) * (1 + y) * (1 - e.d * x * x * y * y - (y * y + x * x)) * (x * y + x * y) * hC
      - e.c * (1 + e.d * x * x * y * y) * 8 * (1 - y) ^ 2 * (1 + y) * x * hU
  refine mul_right_cancel₀ hn ?_
  linear_combination hV - (l * (u3 - u) + v) * hx3

variable [DecidableEq F]

omit [DecidableEq F] in
theorem Ed.rel_on {p : F × F} {P : (mont e.A).Point} (h : e.Rel p P) : e.On p := by
  cases P with
  | zero => obtain ⟨h1, h2⟩ := h; unfold Ed.On; rw [h1, h2]; ring
  | some u v hh => exact h.1

omit [DecidableEq F] in
theorem Ed.add_comm (p q : F × F) : e.add p q = e.add q p := by
  unfold Ed.add
  refine Prod.ext ?_ ?_ <;> simp only <;> congr 1 <;> ring

omit [DecidableEq F] in
theorem Ed.on_zero {y : F} (h : e.On (0, y)) : y = 1 ∨ y = -1 := by
  unfold Ed.On at h
  simp only at h
  have : (y - 1) * (y + 1) = 0 := by linear_combination h
  rcases mul_eq_zero.1 this with h | h
  · exact .inl (sub_eq_zero.1 h)
  · exact .inr (eq_neg_of_add_eq_zero_left h)

omit [DecidableEq F] in
theorem Ed.on_one {x y : F} (h : e.On (x, y)) (hy : y ^ 2 = 1) : x = 0 := by
  unfold Ed.On at h
  simp only at h
  have : (1 + e.d) * x ^ 2 = 0 := by linear_combination (1 - e.d * x ^ 2) * hy - h
  rcases mul_eq_zero.1 this with h | h
  · exact absurd h e.D_ne
  · exact pow_eq_zero_iff (two_ne_zero) |>.1 h

/-- The sum with the point of order two. -/
theorem Ed.rel_add_two {q : F × F} {u1 v1 u2 v2 y1 : F} {h1 : (mont e.A).Nonsingular u1 v1}
    {h2 : (mont e.A).Nonsingular u2 v2} (hp : e.Rel (0, y1) (.some u1 v1 h1)) (hq : e.Rel q (.some u2 v2 h2)) (hy : y1 ≠ q.2) :
    e.Rel (e.add (0, y1) q) (.some u1 v1 h1 + .some u2 v2 h2) := by
  obtain ⟨x2, y2⟩ := q
  obtain ⟨ho1, hk1, hu1, hv1⟩ := hp
  have hadd := Ed.on_add ho1 hq.1
  obtain ⟨ho2, hk2, hu2, hv2⟩ := hq
  simp only at *
  have hy1 : y1 = -1 := (Ed.on_zero ho1).resolve_left hk1
  subst hy1
  have hu10 : u1 = 0 := by
    have : u1 * 2 = 0 := by linear_combination hu1
    exact (mul_eq_zero.1 this).resolve_right e.two_ne
  have e1 := mont_eq h1
  have e2 := mont_eq h2
  subst hu10
  have hv10 : v1 = 0 := by
    have : v1 ^ 2 = 0 := by linear_combination e1
    exact pow_eq_zero_iff (two_ne_zero) |>.1 this
  subst hv10
  have hu2n : u2 ≠ 0 := by
    rintro rfl
    apply hy
    linear_combination hu2
  have hX : (0 : F) ≠ u2 := hu2n.symm
  rw [Point.add_of_X_ne hX]
  have ha : e.add (0, -1) (x2, y2) = (-x2, -y2) := by
    unfold Ed.add
    refine Prod.ext ?_ ?_ <;> simp
  rw [ha] at hadd ⊢
  have hl : (mont e.A).slope 0 u2 0 v2 * u2 = v2 := by
    rw [slope_of_X_ne hX]
    field_simp
    ring
  have hx3 : (mont e.A).addX 0 u2 ((mont e.A).slope 0 u2 0 v2) * u2 = 1 := by
    generalize (mont e.A).slope 0 u2 0 v2 = l at hl
    simp only [addX, mont]
    refine mul_left_cancel₀ hu2n ?_
    linear_combination (l * u2 + v2) * hl + e2
  have hy3 : (mont e.A).addY 0 u2 0 ((mont e.A).slope 0 u2 0 v2) * u2 ^ 2 = -v2 := by
    simp only [addY, negAddY, mont_negY]
    linear_combination -(mont e.A).addX 0 u2 ((mont e.A).slope 0 u2 0 v2) * u2 * hl - v2 * hx3
  refine ⟨hadd, ?_, ?_, ?_⟩
  · simp only
    intro h
    have hy2 : y2 = -1 := by linear_combination -h
    exact hy hy2.symm
  · simp only
    refine mul_left_cancel₀ hu2n ?_
    linear_combination (1 + y2) * hx3 - hu2
  · simp only
    refine mul_left_cancel₀ (pow_ne_zero 2 hu2n) ?_
    linear_combination -x2 * hy3 + hv2 - e.c * u2 * hx3

/-- Addition of pairs is addition in the group. -/
theorem Ed.rel_add {p q : F × F} {P Q : (mont e.A).Point} (hp : e.Rel p P) (hq : e.Rel q Q) : e.Rel (e.add p q) (P + Q) := by
  have hadd := Ed.on_add (Ed.rel_on hp) (Ed.rel_on hq)
  match P, Q, hp, hq with
  | .zero, Q, hp, hq =>
    have : e.add p q = q := by
      unfold Ed.add
      rw [hp.1, hp.2]
      refine Prod.ext ?_ ?_ <;> simp
    rw [this]
    have h0 : (Point.zero : (mont e.A).Point) + Q = Q := zero_add Q
    rw [h0]; exact hq
  | .some u v h, .zero, hp, hq =>
    have : e.add p q = p := by
      unfold Ed.add
      rw [hq.1, hq.2]
      refine Prod.ext ?_ ?_ <;> simp
    rw [this]
    have h0 : Point.some u v h + (Point.zero : (mont e.A).Point) = Point.some u v h := add_zero _
    rw [h0]; exact hp
  | .some u1 v1 h1, .some u2 v2 h2, hp, hq =>
    by_cases hyy : p.2 = q.2
    · obtain ⟨x1, y⟩ := p
      obtain ⟨x2, y2⟩ := q
      obtain rfl : y = y2 := hyy
      obtain ⟨ho1, hk1, hu1, hv1⟩ := hp
      obtain ⟨ho2, hk2, hu2, hv2⟩ := hq
      simp only at hk1 hu1 hv1 hu2 hv2
      have hk' : 1 - y ≠ 0 := sub_ne_zero.2 hk1.symm
      obtain rfl : u1 = u2 := mul_right_cancel₀ hk' (hu1.trans hu2.symm)
      by_cases hv : v1 = -v2
      · rw [Point.add_of_Y_eq rfl (by rw [mont_negY]; exact hv)]
        obtain ⟨hn, hm⟩ := Ed.denom ho1 ho2
        by_cases hy : 1 + y = 0
        · have hy1 : y = -1 := by linear_combination hy
          subst hy1
          have hx1 := Ed.on_one ho1 (by ring)
          have hx2 := Ed.on_one ho2 (by ring)
          subst hx1 hx2
          constructor <;> simp [Ed.add]
        · have hx : x2 = -x1 := by
            have hvn : v1 ≠ 0 := by
              rintro rfl
              have h0 : e.c * u1 = 0 := by rw [← hv1, zero_mul]
              have h0 := (mul_eq_zero.1 h0).resolve_left e.c_ne
              rw [h0, zero_mul] at hu1
              exact hy hu1.symm
            refine mul_left_cancel₀ hvn ?_
            linear_combination hv1 - hv2 + x2 * hv
          subst hx
          unfold Ed.On at ho1
          simp only at ho1 hn hm
          constructor
          · simp only [Ed.add]
            rw [show x1 * y + -x1 * y = 0 by ring, zero_div]
          · simp only [Ed.add]
            rw [div_eq_one_iff_eq hm]
            linear_combination ho1
      · have hvv : v1 = v2 := by
          have e1 := mont_eq h1
          have e2 := mont_eq h2
          have : (v1 - v2) * (v1 + v2) = 0 := by linear_combination e1 - e2
          rcases mul_eq_zero.1 this with h | h
          · exact sub_eq_zero.1 h
          · exact absurd (eq_neg_of_add_eq_zero_left h) hv
        subst hvv
        have hvn : v1 ≠ 0 := by
          rintro rfl
          exact hv (by ring)
        have hun : u1 ≠ 0 := by
          rintro rfl
          apply hvn
          have : v1 ^ 2 = 0 := by linear_combination mont_eq h1
          exact pow_eq_zero_iff (two_ne_zero) |>.1 this
        have hxx : x1 = x2 := mul_left_cancel₀ hvn (hv1.trans hv2.symm)
        subst hxx
        have hx : x1 ≠ 0 := by
          rintro rfl
          rw [mul_zero] at hv1
          exact (mul_ne_zero e.c_ne hun) hv1.symm
        have hy : 1 + y ≠ 0 := by
          rw [← hu1]; exact mul_ne_zero hun hk'
        have hY : v1 ≠ (mont e.A).negY u1 v1 := by rw [mont_negY]; exact hv
        have hd2 : v1 - -v1 ≠ 0 := by
          intro h; exact hv (by linear_combination h)
        rw [Point.add_self_of_Y_ne hY]
        have hl : (mont e.A).slope u1 u1 v1 v1 * (2 * v1) = 3 * u1 ^ 2 + 2 * e.A * u1 + 1 := by
          rw [slope_of_Y_ne rfl hY, mont_negY, show 2 * v1 = v1 - -v1 by ring, div_mul_cancel₀ _ hd2]
          simp only [mont]; ring
        obtain ⟨t1, t2, t3⟩ := Ed.tangent (u3 := (mont e.A).addX u1 u1 ((mont e.A).slope u1 u1 v1 v1)) ho1 hk1 hu1 hv1 hx hy hl
          (by simp only [addX, mont]; ring)
        refine ⟨hadd, t1, t2, ?_⟩
        rw [← t3]
        congr 1
        simp only [addY, negAddY, mont_negY]
    · by_cases hx1 : p.1 = 0
      · obtain ⟨x1, y1⟩ := p
        obtain rfl : x1 = 0 := hx1
        exact Ed.rel_add_two hp hq hyy
      · by_cases hx2 : q.1 = 0
        · obtain ⟨x2, y2⟩ := q
          obtain rfl : x2 = 0 := hx2
          rw [Ed.add_comm, _root_.add_comm]
          exact Ed.rel_add_two hq hp (Ne.symm hyy)
        · obtain ⟨x1, y1⟩ := p
          obtain ⟨x2, y2⟩ := q
          obtain ⟨ho1, hk1, hu1, hv1⟩ := hp
          obtain ⟨ho2, hk2, hu2, hv2⟩ := hq
          simp only at hk1 hu1 hv1 hu2 hv2 hk2 hyy hx1 hx2
          have hX : u1 ≠ u2 := by
            rintro rfl
            have : (u1 + 1) * (y2 - y1) = 0 := by linear_combination hu1 - hu2
            rcases mul_eq_zero.1 this with h | h
            · exact e.two_ne (by linear_combination (1 - y1) * h - hu1)
            · exact hyy (sub_eq_zero.1 h).symm
          rw [Point.add_of_X_ne hX]
          have hl : (mont e.A).slope u1 u2 v1 v2 * (u1 - u2) = v1 - v2 := by
            rw [slope_of_X_ne hX, div_mul_cancel₀ _ (sub_ne_zero.2 hX)]
          obtain ⟨t1, t2, t3⟩ := Ed.chord (u3 := (mont e.A).addX u1 u2 ((mont e.A).slope u1 u2 v1 v2)) ho1 ho2 hk1 hk2 hu1 hu2
            hv1 hv2 hx1 hx2 hyy hl (by simp only [addX, mont]; ring)
          refine ⟨hadd, t1, t2, ?_⟩
          rw [← t3]
          congr 1
          simp only [addY, negAddY, mont_negY]

omit [DecidableEq F] in
/-- A point stands for one pair only. -/
theorem Ed.rel_unique {p q : F × F} {P : (mont e.A).Point} (hp : e.Rel p P) (hq : e.Rel q P) : p = q := by
  obtain ⟨x1, y1⟩ := p
  obtain ⟨x2, y2⟩ := q
  cases P with
  | zero => rw [show x1 = 0 from hp.1, show x2 = 0 from hq.1, show y1 = 1 from hp.2, show y2 = 1 from hq.2]
  | some u v h =>
    obtain ⟨ho1, hk1, hu1, hv1⟩ := hp
    obtain ⟨ho2, hk2, hu2, hv2⟩ := hq
    simp only at hk1 hu1 hv1 hu2 hv2 hk2
    have hu : u + 1 ≠ 0 := by
      intro h0
      exact e.two_ne (by linear_combination (1 - y1) * h0 - hu1)
    obtain rfl : y1 = y2 := by
      refine mul_left_cancel₀ hu ?_
      linear_combination hu2 - hu1
    by_cases hv : v = 0
    · have hc0 : e.c * u = 0 := by rw [← hv1, hv, zero_mul]
      have hu0 := (mul_eq_zero.1 hc0).resolve_left e.c_ne
      have hy : y1 = -1 := by rw [hu0, zero_mul] at hu1; linear_combination -hu1
      rw [Ed.on_one ho1 (by rw [hy]; ring), Ed.on_one ho2 (by rw [hy]; ring)]
    · rw [mul_left_cancel₀ hv (hv1.trans hv2.symm)]

omit [DecidableEq F] in
/-- The negative of a pair. -/
theorem Ed.rel_neg {x y : F} {P : (mont e.A).Point} (h : e.Rel (x, y) P) : e.Rel (-x, y) (-P) := by
  cases P with
  | zero =>
    have h0 : -(Point.zero : (mont e.A).Point) = .zero := rfl
    rw [h0]
    exact ⟨by rw [show x = 0 from h.1, neg_zero], h.2⟩
  | some u v hh =>
    rw [Point.neg_some]
    obtain ⟨ho, hk, hu, hv⟩ := h
    refine ⟨?_, hk, hu, ?_⟩
    · unfold Ed.On at ho ⊢
      simp only at ho ⊢
      linear_combination ho
    · rw [mont_negY]
      simp only at hv ⊢
      linear_combination hv

omit [DecidableEq F] in
/-- Every pair on the curve stands for a point. -/
theorem Ed.exists_rel {x y : F} (h : e.On (x, y)) : ∃ P, e.Rel (x, y) P := by
  by_cases hy : y = 1
  · exact ⟨.zero, Ed.on_one h (by rw [hy]; ring), hy⟩
  · have hk : 1 - y ≠ 0 := sub_ne_zero.2 (Ne.symm hy)
    obtain ⟨u, hu⟩ : ∃ u, u * (1 - y) = 1 + y := ⟨(1 + y) / (1 - y), div_mul_cancel₀ _ hk⟩
    by_cases hx : x = 0
    · subst hx
      have hy1 := (Ed.on_zero h).resolve_left hy
      have hu0 : u = 0 := by
        refine mul_right_cancel₀ hk ?_
        rw [hu, hy1]; ring
      subst hu0
      have hns : (mont e.A).Nonsingular 0 0 := by
        rw [nonsingular_iff, equation_iff]
        simp [mont]
      exact ⟨.some 0 0 hns, h, hy, hu, by simp⟩
    · obtain ⟨v, hv⟩ : ∃ v, v * x = e.c * u := ⟨e.c * u / x, div_mul_cancel₀ _ hx⟩
      have heq : v ^ 2 = u ^ 3 + e.A * u ^ 2 + u := by
        have R := Ed.on_eq h
        have hc := e.hc
        have hDA : (1 + e.d) * e.A = 4 - 2 * (1 + e.d) := by rw [e.hA]; linear_combination -hc
        refine mul_right_cancel₀ (mul_ne_zero (mul_ne_zero e.D_ne (pow_ne_zero 2 hx)) (pow_ne_zero 3 hk)) ?_
        have h1 : v ^ 2 * x ^ 2 = e.c ^ 2 * u ^ 2 := by rw [← mul_pow, hv, mul_pow]
        have h2 : u ^ 2 * (1 - y) ^ 2 = (1 + y) ^ 2 := by rw [← mul_pow, hu]
        have h3 : u ^ 3 * (1 - y) ^ 3 = (1 + y) ^ 3 := by rw [← mul_pow, hu]
        linear_combination (1 + e.d) * (1 - y) ^ 3 * h1 + u ^ 2 * (1 - y) ^ 3 * hc - 4 * (1 - y) * h2
          - (1 + e.d) * x ^ 2 * h3 - x ^ 2 * u ^ 2 * (1 - y) ^ 3 * hDA - (4 - 2 * (1 + e.d)) * x ^ 2 * (1 - y) * h2
          - (1 + e.d) * x ^ 2 * (1 - y) ^ 2 * hu - 4 * (1 + y) * R
      have hns : (mont e.A).Nonsingular u v := by
        rw [nonsingular_iff, equation_iff]
        refine ⟨by simp only [mont]; linear_combination heq, ?_⟩
        by_cases hv0 : v = 0
        · left
          have hu0 : u = 0 := by
            have : e.c * u = 0 := by rw [← hv, hv0, zero_mul]
            exact (mul_eq_zero.1 this).resolve_left e.c_ne
          simp [mont, hu0]
        · right
          simp only [mont]
          intro h0
          have : 2 * v = 0 := by linear_combination h0
          exact hv0 ((mul_eq_zero.1 this).resolve_left e.two_ne)
      exact ⟨.some u v hns, h, hy, hu, hv⟩

end Verif.Algo
