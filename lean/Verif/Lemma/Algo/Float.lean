import Verif.Model.Algo.Float
import Verif.Lemma.Value
import Mathlib.Algebra.Order.Field.Power
import Mathlib.Data.Rat.Cast.Order
import Mathlib.Tactic.FieldSimp
import Mathlib.Tactic.Linarith
import Mathlib.Tactic.Positivity
import Mathlib.Tactic.Ring
import Mathlib.Tactic.NormNum

/-! # Rounding to `f64` and the shortest decimal -/

namespace Verif.Algo

/-! ## Nearest integers -/

theorem zpow_toNat (b : ℚ) (k : Int) : b ^ k = b ^ k.toNat / b ^ (-k).toNat := by
  obtain ⟨n, rfl | rfl⟩ := k.eq_nat_or_neg
  · simp
  · simp [zpow_neg]

theorem nearest_bound {a b : Nat} (hb : 0 < b) :
    2 * a ≤ 2 * nearest a b * b + b ∧ 2 * nearest a b * b ≤ 2 * a + b ∧
      ((2 * a = 2 * nearest a b * b + b ∨ 2 * nearest a b * b = 2 * a + b) → nearest a b % 2 = 0) := by
  have h1 := Nat.div_add_mod a b
  have h2 := Nat.mod_lt a hb
  have e1 : b * (a / b) = a / b * b := Nat.mul_comm _ _
  have e2 : 2 * (a / b) * b = 2 * (a / b * b) := Nat.mul_assoc _ _ _
  have e3 : 2 * (a / b + 1) * b = 2 * (a / b * b) + 2 * b := by ring
  unfold nearest
  split
  · refine ⟨by omega, by omega, by omega⟩
  · split
    · refine ⟨by omega, by omega, by omega⟩
    · split
      · refine ⟨by omega, by omega, by omega⟩
      · refine ⟨by omega, by omega, by omega⟩

theorem nearest_mul {a b c : Nat} (hc : 0 < c) : nearest (a * c) (b * c) = nearest a b := by
  have h1 : a * c / (b * c) = a / b := Nat.mul_div_mul_right _ _ hc
  have h2 : a * c % (b * c) = a % b * c := Nat.mul_mod_mul_right _ _ _
  unfold nearest
  rw [h1, h2]
  have h3 : 2 * (a % b * c) < b * c ↔ 2 * (a % b) < b := by
    rw [← Nat.mul_assoc]; exact Nat.mul_lt_mul_right hc
  have h4 : b * c < 2 * (a % b * c) ↔ b < 2 * (a % b) := by
    rw [← Nat.mul_assoc]; exact Nat.mul_lt_mul_right hc
  simp only [h3, h4]

theorem nearest_congr {a b a' b' : Nat} (hb : 0 < b) (hb' : 0 < b') (h : a * b' = a' * b) :
    nearest a b = nearest a' b' := by
  rw [← nearest_mul (a := a) (b := b) hb', ← nearest_mul (a := a') (b := b') hb, h, Nat.mul_comm b b']

theorem nearest_exact {q b : Nat} (hb : 0 < b) : nearest (q * b) b = q := by
  have h := nearest_mul (a := q) (b := 1) hb
  rw [Nat.one_mul] at h
  rw [h]
  simp [nearest, Nat.mod_one]

/-! ## The last place -/

theorem ltPow_iff {a b : Nat} (hb : 0 < b) (k : Int) : ltPow a b k = true ↔ (a : ℚ) / b < 2 ^ k := by
  unfold ltPow
  rw [decide_eq_true_iff, zpow_toNat 2 k]
  have hb' : (0 : ℚ) < b := by exact_mod_cast hb
  rw [div_lt_div_iff₀ hb' (by positivity)]
  rw [Nat.mul_comm b]
  exact_mod_cast Iff.rfl

theorem log2_bounds {a : Nat} (ha : 0 < a) : (2 : ℚ) ^ (a.log2 : Int) ≤ a ∧ (a : ℚ) < 2 ^ ((a.log2 : Int) + 1) := by
  have h1 : 2 ^ a.log2 ≤ a := Nat.log2_self_le (by omega)
  have h2 : a < 2 ^ (a.log2 + 1) := Nat.lt_log2_self
  constructor
  · rw [zpow_natCast]; exact_mod_cast h1
  · rw [show ((a.log2 : Int) + 1) = ((a.log2 + 1 : Nat) : Int) from by push_cast; rfl, zpow_natCast]; exact_mod_cast h2

/-- The exponent for a ratio: 53 bits, or the smallest one. -/
def IsPlace (r : ℚ) (e : Int) : Prop := r < 2 ^ (e + 53) ∧ -1074 ≤ e ∧ (e = -1074 ∨ (2 : ℚ) ^ (e + 52) ≤ r)

theorem IsPlace.unique {r : ℚ} {e e' : Int} (h : IsPlace r e) (h' : IsPlace r e') : e = e' := by
  have aux : ∀ {e e' : Int}, IsPlace r e → IsPlace r e' → e ≤ e' := by
    intro e e' h h'
    by_contra hlt
    have h1 : e ≠ -1074 := by have := h'.2.1; omega
    have h2 := h.2.2.resolve_left h1
    have h3 : (2 : ℚ) ^ (e' + 53) ≤ 2 ^ (e + 52) := zpow_le_zpow_right₀ (by norm_num) (by omega)
    linarith [h'.1]
  exact le_antisymm (aux h h') (aux h' h)

theorem lastPlace_spec {a b : Nat} (ha : 0 < a) (hb : 0 < b) : IsPlace ((a : ℚ) / b) (lastPlace a b) := by
  obtain ⟨a1, a2⟩ := log2_bounds ha
  obtain ⟨b1, b2⟩ := log2_bounds hb
  have hb' : (0 : ℚ) < b := by exact_mod_cast hb
  set A : Int := (a.log2 : Int)
  set B : Int := (b.log2 : Int)
  have hlo : (2 : ℚ) ^ (A - B - 1) ≤ (a : ℚ) / b := by
    rw [le_div_iff₀ hb']
    calc (2 : ℚ) ^ (A - B - 1) * b ≤ 2 ^ (A - B - 1) * 2 ^ (B + 1) := by
          apply mul_le_mul_of_nonneg_left b2.le (by positivity)
      _ = 2 ^ A := by rw [← zpow_add₀ (by norm_num)]; congr 1; ring
      _ ≤ a := a1
  have hhi : (a : ℚ) / b < 2 ^ (A - B + 1) := by
    rw [div_lt_iff₀ hb']
    calc (a : ℚ) < 2 ^ (A + 1) := a2
      _ = 2 ^ (A - B + 1) * 2 ^ B := by rw [← zpow_add₀ (by norm_num)]; congr 1; ring
      _ ≤ 2 ^ (A - B + 1) * b := by apply mul_le_mul_of_nonneg_left b1 (by positivity)
  unfold lastPlace
  simp only
  have key : ∀ l : Int, (a : ℚ) / b < 2 ^ (l + 53) → (2 : ℚ) ^ (l + 52) ≤ (a : ℚ) / b →
      IsPlace ((a : ℚ) / b) (max (-1074) l) := by
    intro l h1 h2
    rcases le_total (-1074) l with h | h
    · rw [max_eq_right h]
      exact ⟨h1, h, .inr h2⟩
    · rw [max_eq_left h]
      refine ⟨lt_of_lt_of_le h1 (zpow_le_zpow_right₀ (by norm_num) (by omega)), le_refl _, .inl rfl⟩
  by_cases hl : ltPow a b (A - B - 53 + 53) = true
  · rw [if_pos hl]
    rw [ltPow_iff hb] at hl
    refine key _ hl ?_
    rw [show A - B - 53 + 52 = A - B - 1 from by ring]; exact hlo
  · rw [if_neg hl]
    rw [ltPow_iff hb, not_lt] at hl
    refine key _ ?_ ?_
    · rw [show A - B - 53 + 1 + 53 = A - B + 1 from by ring]; exact hhi
    · rw [show A - B - 53 + 1 + 52 = A - B - 53 + 53 from by ring]; exact hl

theorem lastPlace_congr {a b a' b' : Nat} (ha : 0 < a) (hb : 0 < b) (hb' : 0 < b') (h : a * b' = a' * b) :
    lastPlace a b = lastPlace a' b' := by
  have ha' : 0 < a' := by
    rcases Nat.eq_zero_or_pos a' with h0 | h0
    · rw [h0, Nat.zero_mul, Nat.mul_eq_zero] at h; omega
    · exact h0
  have he : (a : ℚ) / b = (a' : ℚ) / b' := by
    rw [div_eq_div_iff (by positivity) (by positivity)]
    exact_mod_cast h
  exact (lastPlace_spec ha hb).unique (he ▸ lastPlace_spec ha' hb')

/-- Rounding depends on the ratio only. -/
theorem roundQ_congr {a b a' b' : Nat} (ha : 0 < a) (hb : 0 < b) (hb' : 0 < b') (h : a * b' = a' * b) :
    roundQ a b = roundQ a' b' := by
  unfold roundQ
  rw [lastPlace_congr ha hb hb' h]
  simp only
  rw [nearest_congr (a' := a' * 2 ^ (-lastPlace a' b').toNat) (b' := b' * 2 ^ (lastPlace a' b').toNat)
    (by positivity) (by positivity) (by
      calc a * 2 ^ (-lastPlace a' b').toNat * (b' * 2 ^ (lastPlace a' b').toNat)
          = a * b' * (2 ^ (-lastPlace a' b').toNat * 2 ^ (lastPlace a' b').toNat) := by ring
        _ = a' * b * (2 ^ (-lastPlace a' b').toNat * 2 ^ (lastPlace a' b').toNat) := by rw [h]
        _ = _ := by ring)]

/-- The value of an `f64`. -/
def F64.val (x : F64) : ℚ := x.m * 2 ^ x.e

theorem F64.val_eq (x : F64) : x.val = (x.num : ℚ) / x.den := by
  unfold F64.val F64.num F64.den
  rw [zpow_toNat 2]
  push_cast
  ring

theorem F64.den_pos (x : F64) : 0 < x.den := by unfold F64.den; positivity

/-- What rounding gives. -/
structure Rounded (r : ℚ) (x : F64) : Prop where
  lo : (4 * (x.m : ℚ) - (if x.m = 2 ^ 52 ∧ x.e ≠ -1074 then 1 else 2)) * 2 ^ (x.e - 2) ≤ r
  hi : r ≤ (4 * (x.m : ℚ) + 2) * 2 ^ (x.e - 2)
  odd : x.m % 2 ≠ 0 → (4 * (x.m : ℚ) - 2) * 2 ^ (x.e - 2) < r ∧ r < (4 * (x.m : ℚ) + 2) * 2 ^ (x.e - 2)
  big : x.e = -1074 ∨ 2 ^ 52 ≤ x.m
  small : x.m < 2 ^ 53
  min : -1074 ≤ x.e

theorem quarter (e : Int) : (2 : ℚ) ^ e = 4 * 2 ^ (e - 2) := by
  rw [show (4 : ℚ) = 2 ^ (2 : Int) from by norm_num, ← zpow_add₀ (by norm_num)]
  congr 1
  ring

theorem scaled {a b : Nat} (hb : 0 < b) (e : Int) :
    ((a * 2 ^ (-e).toNat : Nat) : ℚ) / ((b * 2 ^ e.toNat : Nat) : ℚ) = (a : ℚ) / b / 2 ^ e := by
  rw [zpow_toNat 2 e]
  push_cast
  have hb' : (b : ℚ) ≠ 0 := by positivity
  field_simp

theorem roundQ_spec {a b : Nat} (ha : 0 < a) (hb : 0 < b) {x : F64} (h : roundQ a b = some x) :
    Rounded ((a : ℚ) / b) x := by
  unfold roundQ at h
  simp only at h
  have hp := lastPlace_spec ha hb
  set e := lastPlace a b
  set m := nearest (a * 2 ^ (-e).toNat) (b * 2 ^ e.toNat) with hm
  have hbd : 0 < b * 2 ^ e.toNat := by positivity
  obtain ⟨n1, n2, n3⟩ := nearest_bound (a := a * 2 ^ (-e).toNat) hbd
  rw [← hm] at n1 n2 n3
  set r := (a : ℚ) / b
  have hsc := scaled (a := a) hb e
  set X := a * 2 ^ (-e).toNat
  set Y := b * 2 ^ e.toNat
  have hY : (0 : ℚ) < Y := by exact_mod_cast hbd
  have h2 : (0 : ℚ) < 2 ^ e := by positivity
  have h4 : (0 : ℚ) < 2 ^ (e - 2) := by positivity
  have hXr : (X : ℚ) = r / 2 ^ e * Y := by rw [← hsc]; field_simp
  have hr : r = r / 2 ^ e * 2 ^ e := by field_simp
  set z := r / 2 ^ e
  have c1 : z ≤ m + 1 / 2 := by
    have : (2 * X : ℚ) ≤ 2 * m * Y + Y := by exact_mod_cast n1
    rw [hXr] at this
    nlinarith
  have c2 : (m : ℚ) ≤ z + 1 / 2 := by
    have : (2 * m * Y : ℚ) ≤ 2 * X + Y := by exact_mod_cast n2
    rw [hXr] at this
    nlinarith
  have c3 : z = m + 1 / 2 ∨ (m : ℚ) = z + 1 / 2 → m % 2 = 0 := by
    intro hh
    apply n3
    rcases hh with hh | hh
    · left
      have : (2 * X : ℚ) = 2 * m * Y + Y := by rw [hXr, hh]; ring
      exact_mod_cast this
    · right
      have : (2 * m * Y : ℚ) = 2 * X + Y := by rw [hXr, hh]; ring
      exact_mod_cast this
  have zlt : z < 2 ^ 53 := by
    have := hp.1
    rw [zpow_add₀ (by norm_num)] at this
    rw [div_lt_iff₀ h2, mul_comm]
    exact_mod_cast this
  have q := quarter e
  generalize hg : (if m = 2 ^ 53 then (⟨2 ^ 52, e + 1⟩ : F64) else ⟨m, e⟩) = y at h
  split at h
  case isFalse => cases h
  obtain rfl := Option.some.inj h
  by_cases hc : m = 2 ^ 53
  · rw [if_pos hc] at hg
    subst hg
    have hmq : (m : ℚ) = 2 ^ 53 := by exact_mod_cast hc
    have q1 := quarter (e + 1)
    have q2 : (2 : ℚ) ^ (e + 1) = 2 * 2 ^ e := by rw [zpow_add₀ (by norm_num)]; norm_num; ring
    rw [q2] at q1
    refine ⟨?_, ?_, ?_, .inr (le_refl _), by norm_num, by have := hp.2.1; simp only; omega⟩
    · show (4 * (((2 : Nat) ^ 52 : Nat) : ℚ) - (if (2 : Nat) ^ 52 = 2 ^ 52 ∧ e + 1 ≠ -1074 then 1 else 2)) * _ ≤ r
      rw [if_pos ⟨rfl, by have := hp.2.1; omega⟩]
      push_cast
      rw [hr]
      have : (2 : ℚ) ^ (e + 1 - 2) = 2 ^ e / 2 := by linarith
      rw [this]
      rw [hmq] at c2
      nlinarith
    · simp only
      push_cast
      rw [hr]
      have : (2 : ℚ) ^ (e + 1 - 2) = 2 ^ e / 2 := by linarith
      rw [this]
      nlinarith
    · intro hodd
      norm_num at hodd
  · rw [if_neg hc] at hg
    subst hg
    have hmle : m ≤ 2 ^ 53 := by
      by_contra hlt
      have : (2 : ℚ) ^ 53 + 1 ≤ m := by exact_mod_cast (by omega : 2 ^ 53 + 1 ≤ m)
      linarith
    refine ⟨?_, ?_, ?_, ?_, by show m < 2 ^ 53; omega, hp.2.1⟩
    · simp only
      by_cases hcond : m = 2 ^ 52 ∧ e ≠ -1074
      · rw [if_pos hcond]
        have h5 := hp.2.2.resolve_left hcond.2
        have hmq : (m : ℚ) = 2 ^ 52 := by exact_mod_cast hcond.1
        rw [hmq]
        rw [zpow_add₀ (by norm_num), q] at h5
        norm_num at h5 ⊢
        linarith
      · rw [if_neg hcond, hr, q]
        nlinarith
    · simp only
      rw [hr, q]
      nlinarith
    · intro hodd
      simp only at hodd ⊢
      have s1 : z ≠ m + 1 / 2 := fun hh => hodd (c3 (.inl hh))
      have s2 : (m : ℚ) ≠ z + 1 / 2 := fun hh => hodd (c3 (.inr hh))
      have t1 := lt_of_le_of_ne c1 s1
      have t2 := lt_of_le_of_ne c2 s2
      rw [hr, q]
      constructor <;> nlinarith
    · simp only
      rcases hp.2.2 with h5 | h5
      · exact .inl h5
      · right
        rw [zpow_add₀ (by norm_num)] at h5
        have h6 : (2 : ℚ) ^ 52 ≤ z := by
          rw [le_div_iff₀ h2, mul_comm]
          exact_mod_cast h5
        by_contra hlt
        have : (m : ℚ) + 1 ≤ 2 ^ 52 := by exact_mod_cast (by omega : m + 1 ≤ 2 ^ 52)
        linarith

theorem roundQ_some {a b : Nat} (ha : 0 < a) (hb : 0 < b) (h : (a : ℚ) / b < 2 ^ (1023 : Int)) :
    ∃ x, roundQ a b = some x := by
  have hp := lastPlace_spec ha hb
  have he : lastPlace a b + 1 ≤ 971 := by
    rcases hp.2.2 with h1 | h1
    · omega
    · have := lt_of_le_of_lt h1 h
      rw [zpow_lt_zpow_iff_right₀ (by norm_num)] at this
      omega
  unfold roundQ
  simp only
  refine ⟨_, if_pos ?_⟩
  split
  · exact he
  · show lastPlace a b ≤ 971
    omega

/-- Numbers that are an `f64` are not changed by rounding. -/
theorem roundQ_exact {a b M : Nat} {E : Int} (ha : 0 < a) (hb : 0 < b) (h : (a : ℚ) / b = M * 2 ^ E) (hM : M < 2 ^ 53)
    (hE : -1074 ≤ E) (hE' : E ≤ 970) : ∃ x, roundQ a b = some x ∧ x.val = (a : ℚ) / b := by
  have hp := lastPlace_spec ha hb
  have hMq : (M : ℚ) < 2 ^ (53 : Int) := by exact_mod_cast hM
  have h2E : (0 : ℚ) < 2 ^ E := by positivity
  have hlt : (a : ℚ) / b < 2 ^ (E + 53) := by
    rw [h, zpow_add₀ (by norm_num), mul_comm]
    exact mul_lt_mul_of_pos_left hMq h2E
  have he : lastPlace a b ≤ E := by
    rcases hp.2.2 with h1 | h1
    · omega
    · have := lt_of_le_of_lt h1 hlt
      rw [zpow_lt_zpow_iff_right₀ (by norm_num)] at this
      omega
  obtain ⟨d, hd⟩ := Int.eq_ofNat_of_zero_le (by omega : 0 ≤ E - lastPlace a b)
  unfold roundQ
  simp only
  have hsc := scaled (a := a) hb (lastPlace a b)
  have hlast := hp.1
  set e := lastPlace a b
  have hY : 0 < b * 2 ^ e.toNat := by positivity
  have hY' : (0 : ℚ) < ((b * 2 ^ e.toNat : Nat) : ℚ) := by exact_mod_cast hY
  have hz : (a : ℚ) / b / 2 ^ e = ((M * 2 ^ d : Nat) : ℚ) := by
    rw [h, show E = e + d from by omega, zpow_add₀ (by norm_num)]
    push_cast
    rw [zpow_natCast]
    field_simp
  rw [hz, div_eq_iff hY'.ne'] at hsc
  have hX : a * 2 ^ (-e).toNat = M * 2 ^ d * (b * 2 ^ e.toNat) := by exact_mod_cast hsc
  rw [hX, nearest_exact hY]
  have hq : M * 2 ^ d ≠ 2 ^ 53 := by
    intro hq
    have h1 : (a : ℚ) / b = 2 ^ (e + 53) := by
      rw [div_eq_iff (by positivity)] at hz
      rw [hz, hq, zpow_add₀ (by norm_num)]
      push_cast
      rw [mul_comm]
    linarith
  rw [if_neg hq, if_pos (by show e ≤ 971; omega)]
  refine ⟨_, rfl, ?_⟩
  show ((M * 2 ^ d : Nat) : ℚ) * 2 ^ e = _
  rw [← hz]
  field_simp

/-! ## The interval of a number -/

/-- The numbers that are rounded to `x`. -/
def InI (x : F64) (v : ℚ) : Prop :=
  (4 * (x.m : ℚ) - (if x.m = 2 ^ 52 ∧ x.e ≠ -1074 then 1 else 2)) * 2 ^ (x.e - 2) ≤ v ∧
    v ≤ (4 * (x.m : ℚ) + 2) * 2 ^ (x.e - 2) ∧
    (x.m % 2 ≠ 0 → (4 * (x.m : ℚ) - (if x.m = 2 ^ 52 ∧ x.e ≠ -1074 then 1 else 2)) * 2 ^ (x.e - 2) < v ∧
      v < (4 * (x.m : ℚ) + 2) * 2 ^ (x.e - 2))

theorem Rounded.inI {r : ℚ} {x : F64} (h : Rounded r x) : InI x r := by
  refine ⟨h.lo, h.hi, fun ho => ?_⟩
  rw [if_neg (by rintro ⟨h1, -⟩; rw [h1] at ho; norm_num at ho)]
  exact h.odd ho

theorem units (x : F64) (k : Int) :
    ((2 ^ (x.e - 2).toNat * 10 ^ (-k).toNat : Nat) : ℚ) =
      ((2 ^ (2 - x.e).toNat * 10 ^ k.toNat : Nat) : ℚ) * (2 ^ (x.e - 2) / 10 ^ k) := by
  rw [zpow_toNat 2 (x.e - 2), zpow_toNat 10 k, show -(x.e - 2) = 2 - x.e from by ring]
  push_cast
  field_simp

theorem inInterval_iff {x : F64} {k : Int} {n : Nat} (hm : 0 < x.m) :
    inInterval x (2 ^ (x.e - 2).toNat * 10 ^ (-k).toNat) (2 ^ (2 - x.e).toNat * 10 ^ k.toNat) n = true ↔
      InI x (n * 10 ^ k) := by
  have hu := units x k
  have hd : (0 : ℚ) < ((2 ^ (2 - x.e).toNat * 10 ^ k.toNat : Nat) : ℚ) := by
    exact_mod_cast (by positivity : 0 < 2 ^ (2 - x.e).toNat * 10 ^ k.toNat)
  generalize 2 ^ (x.e - 2).toNat * 10 ^ (-k).toNat = u at *
  generalize 2 ^ (2 - x.e).toNat * 10 ^ k.toNat = d at *
  have h10 : (0 : ℚ) < 10 ^ k := by positivity
  have hle : ∀ c : Nat, c * u ≤ n * d ↔ (c : ℚ) * 2 ^ (x.e - 2) ≤ n * 10 ^ k := by
    intro c
    rw [← Nat.cast_le (α := ℚ)]
    push_cast
    rw [hu, show (c : ℚ) * (d * (2 ^ (x.e - 2) / 10 ^ k)) = (c * 2 ^ (x.e - 2)) * d / 10 ^ k from by ring,
      div_le_iff₀ h10, show (n : ℚ) * d * 10 ^ k = n * 10 ^ k * d from by ring]
    exact mul_le_mul_iff_left₀ hd
  have hge : ∀ c : Nat, n * d ≤ c * u ↔ n * 10 ^ k ≤ (c : ℚ) * 2 ^ (x.e - 2) := by
    intro c
    rw [← Nat.cast_le (α := ℚ)]
    push_cast
    rw [hu, show (c : ℚ) * (d * (2 ^ (x.e - 2) / 10 ^ k)) = (c * 2 ^ (x.e - 2)) * d / 10 ^ k from by ring,
      le_div_iff₀ h10, show (n : ℚ) * d * 10 ^ k = n * 10 ^ k * d from by ring]
    exact mul_le_mul_iff_left₀ hd
  have hlt : ∀ c : Nat, c * u < n * d ↔ (c : ℚ) * 2 ^ (x.e - 2) < n * 10 ^ k := by
    intro c; rw [← not_le, hge, not_le]
  have hgt : ∀ c : Nat, n * d < c * u ↔ n * 10 ^ k < (c : ℚ) * 2 ^ (x.e - 2) := by
    intro c; rw [← not_le, hle, not_le]
  have hlo : ((4 * x.m - (if x.m = 2 ^ 52 ∧ x.e ≠ -1074 then 1 else 2) : Nat) : ℚ) =
      4 * (x.m : ℚ) - (if x.m = 2 ^ 52 ∧ x.e ≠ -1074 then 1 else 2) := by
    split
    · rw [Nat.cast_sub (by omega)]; push_cast; rfl
    · rw [Nat.cast_sub (by omega)]; push_cast; rfl
  have hhi : ((4 * x.m + 2 : Nat) : ℚ) = 4 * (x.m : ℚ) + 2 := by push_cast; rfl
  unfold inInterval InI
  simp only
  rw [← hlo, ← hhi]
  by_cases he : x.m % 2 = 0
  · rw [if_pos he, Bool.and_eq_true, decide_eq_true_iff, decide_eq_true_iff, hle, hge]
    exact ⟨fun h => ⟨h.1, h.2, fun h' => absurd he h'⟩, fun h => ⟨h.1, h.2.1⟩⟩
  · rw [if_neg he, Bool.and_eq_true, decide_eq_true_iff, decide_eq_true_iff, hlt, hgt]
    exact ⟨fun h => ⟨h.1.le, h.2.le, fun _ => h⟩, fun h => h.2.2 he⟩

theorem InI.bounds {x : F64} {v : ℚ} (h : InI x v) : x.val - 2 ^ x.e / 2 ≤ v ∧ v ≤ x.val + 2 ^ x.e / 2 := by
  obtain ⟨h1, h2, -⟩ := h
  have q := quarter x.e
  have hp : (0 : ℚ) < 2 ^ (x.e - 2) := by positivity
  have h3 : (4 * (x.m : ℚ) - 2) * 2 ^ (x.e - 2) ≤ v := by
    refine le_trans (mul_le_mul_of_nonneg_right ?_ hp.le) h1
    split <;> linarith
  unfold F64.val
  rw [q]
  constructor <;> linarith

/-- What `pickDec` gives lies in the interval, and it gives something if the floor or the ceiling does. -/
theorem nearest_cases (a b : Nat) : nearest a b = a / b ∨ nearest a b = a / b + 1 := by
  unfold nearest
  split
  · exact .inl rfl
  · split
    · exact .inr rfl
    · split
      · exact .inl rfl
      · exact .inr rfl

theorem pickDec_inI {x : F64} {k : Int} {n : Nat} (hm : 0 < x.m) (h : pickDec x k = some n) : InI x (n * 10 ^ k) := by
  unfold pickDec at h
  simp only at h
  split at h
  · next h1 h2 =>
    obtain rfl := Option.some.inj h
    rcases nearest_cases (4 * x.m * (2 ^ (x.e - 2).toNat * 10 ^ (-k).toNat)) (2 ^ (2 - x.e).toNat * 10 ^ k.toNat) with h3 | h3
    · rw [h3]; exact (inInterval_iff hm).1 h1
    · rw [h3]; exact (inInterval_iff hm).1 h2
  · next h1 h2 => obtain rfl := Option.some.inj h; exact (inInterval_iff hm).1 h1
  · next h1 h2 => obtain rfl := Option.some.inj h; exact (inInterval_iff hm).1 h2
  · cases h

theorem pickDec_some {x : F64} {k : Int} {n : Nat} (hm : 0 < x.m) (hn : InI x (n * 10 ^ k))
    (h1 : (n : ℚ) * 10 ^ k < x.val + 10 ^ k) (h2 : x.val < (n : ℚ) * 10 ^ k + 10 ^ k) : ∃ n', pickDec x k = some n' := by
  have hu := units x k
  have hd : 0 < 2 ^ (2 - x.e).toNat * 10 ^ k.toNat := by positivity
  have hi := inInterval_iff (k := k) (n := n) hm
  have hq : n = 4 * x.m * (2 ^ (x.e - 2).toNat * 10 ^ (-k).toNat) / (2 ^ (2 - x.e).toNat * 10 ^ k.toNat) ∨
      n = 4 * x.m * (2 ^ (x.e - 2).toNat * 10 ^ (-k).toNat) / (2 ^ (2 - x.e).toNat * 10 ^ k.toNat) + 1 := by
    generalize 2 ^ (x.e - 2).toNat * 10 ^ (-k).toNat = u at *
    generalize 2 ^ (2 - x.e).toNat * 10 ^ k.toNat = d at *
    have hdq : (0 : ℚ) < d := by exact_mod_cast hd
    have h10 : (0 : ℚ) < 10 ^ k := by positivity
    have hX : ((4 * x.m * u : Nat) : ℚ) * 10 ^ k = x.val * d := by
      push_cast
      rw [hu]
      unfold F64.val
      rw [quarter x.e]
      field_simp
    have a1 : n * d < 4 * x.m * u + d := by
      have : ((n * d : Nat) : ℚ) * 10 ^ k < ((4 * x.m * u + d : Nat) : ℚ) * 10 ^ k := by
        rw [Nat.cast_add, add_mul, hX]
        push_cast
        nlinarith
      exact_mod_cast lt_of_mul_lt_mul_right this h10.le
    have a2 : 4 * x.m * u < n * d + d := by
      have : ((4 * x.m * u : Nat) : ℚ) * 10 ^ k < ((n * d + d : Nat) : ℚ) * 10 ^ k := by
        rw [hX]
        push_cast
        nlinarith
      exact_mod_cast lt_of_mul_lt_mul_right this h10.le
    generalize 4 * x.m * u = X at a1 a2
    have b1 := Nat.div_add_mod X d
    have b2 := Nat.mod_lt X hd
    have b3 : n * d < (X / d + 2) * d := by
      have : (X / d + 2) * d = d * (X / d) + 2 * d := by ring
      omega
    have b4 : X / d * d < (n + 1) * d := by
      have e1 : (n + 1) * d = n * d + d := by ring
      have e2 : X / d * d = d * (X / d) := by ring
      omega
    have b5 := Nat.lt_of_mul_lt_mul_right b3
    have b6 := Nat.lt_of_mul_lt_mul_right b4
    omega
  unfold pickDec
  simp only
  rcases hq with hq | hq
  · rw [← hq, hi.2 hn]
    split <;> simp_all
  · rw [← hq, hi.2 hn]
    split <;> simp_all

/-- At most one decimal number of at most 15 digits is rounded to an `f64`; others with these digits are too far. -/
theorem few_digits {n n' : Nat} {k : Int} {j : Nat} {x : F64} (hr : Rounded (n * 10 ^ k) x) (hx : 2 ^ 52 ≤ x.m)
    (hn : n < 10 ^ 15) (hi : InI x (n' * 10 ^ (k + j))) : n' * 10 ^ j = n := by
  have b1 := hr.inI.bounds
  have b2 := hi.bounds
  have hK : (0 : ℚ) < 10 ^ k := by positivity
  have hE : (0 : ℚ) < 2 ^ x.e := by positivity
  have hv : (2 : ℚ) ^ 52 * 2 ^ x.e ≤ x.val := by
    unfold F64.val
    exact mul_le_mul_of_nonneg_right (by exact_mod_cast hx) hE.le
  have hn' : (n : ℚ) * 10 ^ k ≤ 10 ^ 15 * 10 ^ k := mul_le_mul_of_nonneg_right (by exact_mod_cast hn.le) hK.le
  have hlt : (2 : ℚ) ^ x.e < 10 ^ k := by
    by_contra hge
    rw [not_lt] at hge
    norm_num at hv hn'
    linarith
  rw [zpow_add₀ (by norm_num), zpow_natCast] at b2
  have d1 : ((n' * 10 ^ j : Nat) : ℚ) * 10 ^ k < ((n + 1 : Nat) : ℚ) * 10 ^ k := by
    push_cast
    have : (n' : ℚ) * 10 ^ j * 10 ^ k = n' * (10 ^ k * 10 ^ j) := by ring
    rw [this]
    linarith
  have d2 : ((n : Nat) : ℚ) * 10 ^ k < ((n' * 10 ^ j + 1 : Nat) : ℚ) * 10 ^ k := by
    push_cast
    have : ((n' : ℚ) * 10 ^ j + 1) * 10 ^ k = n' * (10 ^ k * 10 ^ j) + 10 ^ k := by ring
    rw [this]
    linarith
  have e1 : n' * 10 ^ j < n + 1 := by exact_mod_cast lt_of_mul_lt_mul_right d1 hK.le
  have e2 : n < n' * 10 ^ j + 1 := by exact_mod_cast lt_of_mul_lt_mul_right d2 hK.le
  omega

theorem ulp_lt {n : Nat} {k : Int} {x : F64} (hr : Rounded (n * 10 ^ k) x) (hx : 2 ^ 52 ≤ x.m) (hn : n < 10 ^ 15) :
    (2 : ℚ) ^ x.e < 10 ^ k := by
  have b1 := hr.inI.bounds
  have hK : (0 : ℚ) < 10 ^ k := by positivity
  have hE : (0 : ℚ) < 2 ^ x.e := by positivity
  have hv : (2 : ℚ) ^ 52 * 2 ^ x.e ≤ x.val := by
    unfold F64.val
    exact mul_le_mul_of_nonneg_right (by exact_mod_cast hx) hE.le
  have hn' : (n : ℚ) * 10 ^ k ≤ 10 ^ 15 * 10 ^ k := mul_le_mul_of_nonneg_right (by exact_mod_cast hn.le) hK.le
  by_contra hge
  rw [not_lt] at hge
  norm_num at hv hn'
  linarith

/-- The shortest number is the one that was rounded, if that has at most 15 digits. -/
theorem shortest_few {n : Nat} {k : Int} {x : F64} (hr : Rounded (n * 10 ^ k) x) (hx : 2 ^ 52 ≤ x.m)
    (hn : n < 10 ^ 15) (h10 : n % 10 ≠ 0) : ∀ (f j : Nat), j < f → shortest x f (k + j) = some (n, k) := by
  have hm : 0 < x.m := Nat.lt_of_lt_of_le (by norm_num) hx
  intro f
  induction f with
  | zero => intro j hj; omega
  | succ f ih =>
    intro j hj
    unfold shortest
    cases j with
    | zero =>
      have hu := ulp_lt hr hx hn
      have b := hr.inI.bounds
      have hE : (0 : ℚ) < 2 ^ x.e := by positivity
      obtain ⟨n', hn'⟩ := pickDec_some hm hr.inI (by linarith) (by linarith)
      have h2 := few_digits (j := 0) hr hx hn (by simpa using pickDec_inI hm hn')
      rw [Nat.pow_zero, Nat.mul_one] at h2
      simp only [Nat.cast_zero, add_zero, hn', h2]
    | succ j =>
      have hnone : pickDec x (k + (j + 1 : Nat)) = none := by
        cases hp : pickDec x (k + (j + 1 : Nat)) with
        | none => rfl
        | some n' =>
          have h2 := few_digits hr hx hn (pickDec_inI hm hp)
          rw [Nat.pow_succ, ← Nat.mul_assoc] at h2
          omega
      rw [hnone]
      simp only
      rw [show k + ((j + 1 : Nat) : Int) - 1 = k + j from by push_cast; ring]
      exact ih j (by omega)

end Verif.Algo
