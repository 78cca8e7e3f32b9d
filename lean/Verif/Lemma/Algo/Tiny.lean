import Verif.Lemma.Algo.Extreme

/-! # Where numbers begin to become zero -/

namespace Verif.Algo

open Verif.Spec (Digits Decimal digitsVal NumTok IntTok decimalVal)

/-! ## Rounding to zero -/

theorem two_half (e : Int) : (2 : ℚ) ^ (e - 1) = 2 ^ e / 2 := by
  rw [zpow_sub_one₀ (by norm_num), div_eq_mul_inv]

theorem Rounded.zero {r : ℚ} {x : F64} (h : Rounded r x) (hr : r < 2 ^ (-1075 : Int)) : x.m = 0 := by
  rcases Nat.eq_zero_or_pos x.m with h0 | h0
  · exact h0
  · exfalso
    have b := h.inI.bounds.1
    have h1 : (2 : ℚ) ^ x.e ≤ x.val := by
      unfold F64.val
      exact le_mul_of_one_le_left (by positivity) (by exact_mod_cast h0)
    have h2 : (2 : ℚ) ^ (-1074 : Int) ≤ 2 ^ x.e := zpow_le_zpow_right₀ (by norm_num) h.min
    rw [show (-1075 : Int) = -1074 - 1 from rfl, two_half] at hr
    linarith

theorem Rounded.pos {r : ℚ} {x : F64} (h : Rounded r x) (hr : (2 : ℚ) ^ (-1075 : Int) < r) : 0 < x.m := by
  rcases Nat.eq_zero_or_pos x.m with h0 | h0
  · exfalso
    have he : x.e = -1074 := by
      rcases h.big with h1 | h1
      · exact h1
      · rw [h0] at h1
        norm_num at h1
    have b := h.inI.bounds.2
    have h1 : x.val = 0 := by unfold F64.val; rw [h0]; simp
    rw [h1, he, zero_add, ← two_half] at b
    exact absurd (lt_of_lt_of_le hr b) (lt_irrefl _)
  · exact h0

/-- Rounding a ratio that may be a little below the smallest normal number. -/
theorem Rounded.within_low {r : ℚ} {x : F64} (h : Rounded r x) (hr : (2 : ℚ) ^ (-1026 : Int) ≤ r) :
    Within (1 / 2 ^ 47) r x.val ∧ 0 < x.m := by
  have hm : 2 ^ 47 ≤ x.m := by
    rcases h.big with he | hb
    · by_contra hlt
      have hm : (x.m : ℚ) + 1 ≤ 2 ^ 47 := by exact_mod_cast (by omega : x.m + 1 ≤ 2 ^ 47)
      have h1 := h.hi
      rw [he] at h1
      have h2 : (2 : ℚ) ^ (-1026 : Int) = 2 ^ 50 * 2 ^ (-1074 - 2 : Int) := by
        rw [show (2 : ℚ) ^ 50 = 2 ^ (50 : Int) from by norm_cast, ← zpow_add₀ (by norm_num)]
        norm_num
      have h3 : (0 : ℚ) < 2 ^ (-1074 - 2 : Int) := by positivity
      rw [h2] at hr
      generalize (2 : ℚ) ^ (-1074 - 2 : Int) = q at *
      norm_num at hm hr
      nlinarith
    · exact Nat.le_trans (by norm_num) hb
  obtain ⟨b1, b2⟩ := h.inI.bounds
  have hE : (0 : ℚ) < 2 ^ x.e := by positivity
  have hv : (2 : ℚ) ^ 47 * 2 ^ x.e ≤ x.val := by
    unfold F64.val
    exact mul_le_mul_of_nonneg_right (by exact_mod_cast hm) hE.le
  refine ⟨?_, Nat.lt_of_lt_of_le (by norm_num) hm⟩
  unfold Within
  generalize x.val = v at *
  generalize (2 : ℚ) ^ x.e = u at *
  norm_num at hv ⊢
  constructor <;> linarith

theorem pow10_near {k : Nat} {p : F64} (h : pow10 k = some p) : Within (2 / 2 ^ 53) (10 ^ k) p.val ∧ 0 < p.m := by
  unfold pow10 at h
  split at h
  · have hr := roundQ_spec (by positivity) (by norm_num) h
    have h1 : (2 : ℚ) ^ (-1022 : Int) ≤ ((10 ^ k : Nat) : ℚ) / (1 : Nat) := by
      rw [Nat.cast_one, div_one, Nat.cast_pow]
      exact le_trans one_le_tiny (one_le_pow₀ (by norm_num))
    have h2 := (hr.within h1).1
    rw [Nat.cast_one, div_one, Nat.cast_pow] at h2
    exact ⟨h2, Nat.lt_of_lt_of_le (by norm_num) (hr.normal h1)⟩
  · cases h

/-- The quotient by a power of ten of the table. -/
theorem div_near {f p : F64} {k : Nat} (hp : pow10 k = some p) (hf : f.val ≤ 2 ^ (1020 : Int)) (hm : 0 < f.m) :
    ∃ x q, f.div p = some x ∧ Rounded q x ∧ Within (1 / 2 ^ 51) (f.val / 10 ^ k) q := by
  obtain ⟨⟨p1, p2⟩, hpm⟩ := pow10_near hp
  have d1 := f.den_pos
  have d2 := p.den_pos
  have n1 := F64.num_pos hm
  have n2 := F64.num_pos hpm
  have hk : (1 : ℚ) ≤ 10 ^ k := one_le_pow₀ (by norm_num)
  have p0 : 0 < p.val := lt_of_lt_of_le (mul_pos (by linarith) (by norm_num)) p1
  have f0 : 0 ≤ f.val := f.val_nonneg
  have hv : ((f.num * p.den : Nat) : ℚ) / ((f.den * p.num : Nat) : ℚ) = f.val / p.val := by
    rw [F64.val_eq, F64.val_eq]; push_cast; field_simp
  have h1 : f.val / p.val ≤ 2 * f.val := by
    rw [div_le_iff₀ p0]
    clear hf
    norm_num at p1
    nlinarith
  obtain ⟨x, hx⟩ := roundQ_some (a := f.num * p.den) (b := f.den * p.num) (by positivity) (by positivity) (by
    rw [hv]
    refine lt_of_le_of_lt h1 ?_
    rw [two_zpow 1023 3 1020 rfl]
    have hy : (0 : ℚ) < 2 ^ (1020 : Int) := zpow_pos (by norm_num) _
    revert hf hy
    generalize (2 : ℚ) ^ (1020 : Int) = y
    intro hf hy
    have h8 : (2 : ℚ) ^ (3 : Int) = 8 := by norm_num
    rw [h8]
    linarith)
  refine ⟨x, _, hx, roundQ_spec (by positivity) (by positivity) hx, ?_⟩
  rw [hv]
  have hk0 : (0 : ℚ) < 10 ^ k := by linarith
  clear h1 hx hv hf
  generalize (10 : ℚ) ^ k = t at *
  generalize p.val = y at *
  generalize f.val = z at *
  unfold Within
  norm_num at p1 p2 ⊢
  constructor
  · rw [div_mul_eq_mul_div, div_le_div_iff₀ hk0 p0]
    nlinarith
  · rw [div_mul_eq_mul_div, div_le_div_iff₀ p0 hk0]
    nlinarith

/-- The digits divided by the power of ten: how far the ratio that is rounded last may be off. -/
theorem f64Parts_low {s : Nat} {e : Int} (hs : 0 < s) (hs' : s < 2 ^ 64) (he : e < 0) (he' : -600 ≤ e) :
    ∃ x q, f64Parts s e = some x ∧ Rounded q x ∧ Within (1 / 2 ^ 45) (s * 10 ^ e) q := by
  have hsq : (1 : ℚ) ≤ s := by exact_mod_cast hs
  have h64 := u64_lt hs'
  obtain ⟨f, hf, hfm, f1, f2⟩ := roundQ_within (a := s) (b := 1) (r := s) hs (by norm_num) (by norm_num)
    (le_trans one_le_tiny hsq) (by
      have : (s : ℚ) < 2 ^ 64 := by exact_mod_cast hs'
      refine lt_trans this ?_
      rw [← zpow_natCast]
      exact zpow_lt_zpow_right₀ (by norm_num) (by norm_num))
  have hfm' : 0 < f.m := Nat.lt_of_lt_of_le (by norm_num) hfm
  have hfb : f.val ≤ 2 ^ (65 : Int) := by
    have h4 : (2 : ℚ) ^ (65 : Int) = 36893488147419103232 := by norm_num
    rw [h4]
    norm_num at f2
    linarith
  have h65 : (2 : ℚ) ^ (65 : Int) ≤ 2 ^ (1020 : Int) := zpow_le_zpow_right₀ (by norm_num) (by norm_num)
  have h68 : (2 : ℚ) ^ (68 : Int) ≤ 2 ^ (1020 : Int) := zpow_le_zpow_right₀ (by norm_num) (by norm_num)
  have hE : (10 : ℚ) ^ e = 1 / 10 ^ e.natAbs := by
    rw [← zpow_natCast, one_div, ← zpow_neg, show -(e.natAbs : Int) = e from by omega]
  unfold f64Parts
  rw [hf, Option.bind_some]
  by_cases h308 : e.natAbs ≤ 308
  · obtain ⟨p, hp⟩ := pow10_some h308
    obtain ⟨x, q, hx, hq, q1, q2⟩ := div_near hp (le_trans hfb h65) hfm'
    unfold fromParts
    rw [hp]
    simp only
    rw [if_neg (by omega)]
    refine ⟨x, q, hx, hq, ?_⟩
    rw [hE, mul_one_div]
    have hk : (0 : ℚ) < 10 ^ e.natAbs := by positivity
    have g1 := div_le_div_of_nonneg_right f1 hk.le
    have g2 := div_le_div_of_nonneg_right f2 hk.le
    rw [mul_div_right_comm] at g1 g2
    have g0 : (0 : ℚ) < s / 10 ^ e.natAbs := by positivity
    revert q1 q2 g0 g1 g2
    generalize f.val / 10 ^ e.natAbs = a
    generalize (s : ℚ) / 10 ^ e.natAbs = b
    intro q1 q2 g1 g2 g0
    unfold Within
    norm_num at q1 q2 g1 g2 ⊢
    constructor <;> linarith
  · obtain ⟨n, hn⟩ : ∃ n, e.natAbs + 1 = n + 2 := ⟨e.natAbs - 1, by omega⟩
    obtain ⟨p, hp⟩ := pow10_some (k := 308) (le_refl _)
    obtain ⟨g, r, hg, hr, r1, r2⟩ := div_near hp (le_trans hfb h65) hfm'
    have hlow : (2 : ℚ) ^ (-1026 : Int) ≤ r := by
      refine le_trans ?_ r1
      have h : (10 : ℚ) ^ 308 * 2 ≤ 2 ^ 1026 := by
        have h : 10 ^ 308 * 2 ≤ 2 ^ 1026 := by decide +kernel
        exact_mod_cast h
      have hT : (0 : ℚ) < 10 ^ 308 := by positivity
      have hU : (0 : ℚ) < 2 ^ 1026 := by positivity
      rw [show (-1026 : Int) = -((1026 : Nat) : Int) from rfl, zpow_neg, zpow_natCast, div_mul_eq_mul_div,
        le_div_iff₀ hT, ← div_eq_inv_mul, div_le_iff₀ hU]
      have hf9 : (1 : ℚ) / 2 ≤ f.val * (1 - 1 / 2 ^ 51) := by
        norm_num at f1 ⊢
        linarith
      revert h hT hU hf9
      generalize (10 : ℚ) ^ 308 = t
      generalize (2 : ℚ) ^ 1026 = u
      generalize f.val * (1 - 1 / 2 ^ 51) = w
      intro h hT hU hf9
      nlinarith
    obtain ⟨⟨g1, g2⟩, hgm⟩ := hr.within_low hlow
    have f0 := f.val_nonneg
    have r0 : r ≤ 2 * f.val := by
      refine le_trans r2 ?_
      have : f.val / 10 ^ 308 ≤ f.val := div_le_self f0 (one_le_pow₀ (by norm_num))
      revert this
      generalize f.val / 10 ^ 308 = w
      intro this
      norm_num
      linarith
    have hgb : g.val ≤ 2 ^ (1020 : Int) := by
      refine le_trans ?_ h68
      rw [two_zpow 68 3 65 rfl]
      have h8 : (2 : ℚ) ^ (3 : Int) = 8 := by norm_num
      rw [h8]
      clear h65 h68 r1 r2 hlow
      revert hfb
      generalize (2 : ℚ) ^ (65 : Int) = y
      intro hfb
      norm_num at g2
      linarith
    rw [hn, fromParts, pow10_none (by omega)]
    simp only
    rw [if_neg (by omega), if_neg (by omega), hp, Option.bind_some, hg, Option.bind_some]
    obtain ⟨p', hp'⟩ := pow10_some (k := (e + 308).natAbs) (by omega)
    obtain ⟨x, q, hx, hq, q1, q2⟩ := div_near hp' hgb hgm
    unfold fromParts
    rw [hp']
    simp only
    rw [if_neg (by omega)]
    refine ⟨x, q, hx, hq, ?_⟩
    rw [ten_zpow e (e + 308).natAbs 308 (by omega), mul_one_div]
    have hA : (0 : ℚ) < 10 ^ (e + 308).natAbs := by positivity
    have hB : (0 : ℚ) < 10 ^ 308 := by positivity
    clear h65 h68 hgb hlow hfb r0 hE
    revert q1 q2 g1 g2 r1 r2 hA hB
    generalize (10 : ℚ) ^ (e + 308).natAbs = A
    generalize (10 : ℚ) ^ 308 = B
    intro r1 r2 g1 g2 q1 q2 hA hB
    have k1 := div_le_div_of_nonneg_right f1 (mul_pos hA hB).le
    have k2 := div_le_div_of_nonneg_right f2 (mul_pos hA hB).le
    have l1 := div_le_div_of_nonneg_right r1 hA.le
    have l2 := div_le_div_of_nonneg_right r2 hA.le
    have m1 := div_le_div_of_nonneg_right g1 hA.le
    have m2 := div_le_div_of_nonneg_right g2 hA.le
    rw [mul_div_right_comm] at k1 k2 l1 l2 m1 m2
    have e1 : f.val / B / A = f.val / (A * B) := by rw [div_div, mul_comm B A]
    rw [e1] at l1 l2
    have g0 : (0 : ℚ) < s / (A * B) := by positivity
    revert q1 q2 k1 k2 l1 l2 m1 m2 g0
    generalize f.val / (A * B) = a
    generalize (s : ℚ) / (A * B) = b
    generalize r / A = c
    generalize g.val / A = d
    intro q1 q2 k1 k2 l1 l2 m1 m2 g0
    unfold Within
    norm_num at q1 q2 k1 k2 l1 l2 m1 m2 ⊢
    constructor <;> linarith

/-! ## The bounds -/

theorem below : (24 : ℚ) * 10 ^ (-325 : Int) * (1 + 1 / 1000) < 2 ^ (-1075 : Int) := by
  have h : 24024 * 2 ^ 1075 < 1000 * 10 ^ 325 := by decide +kernel
  have h' : (24024 : ℚ) * 2 ^ 1075 < 1000 * 10 ^ 325 := by exact_mod_cast h
  have hA : (0 : ℚ) < 10 ^ 325 := by positivity
  have hB : (0 : ℚ) < 2 ^ 1075 := by positivity
  rw [show (-325 : Int) = -((325 : Nat) : Int) from rfl, show (-1075 : Int) = -((1075 : Nat) : Int) from rfl,
    zpow_neg, zpow_neg, zpow_natCast, zpow_natCast, ← div_eq_mul_inv, div_mul_eq_mul_div, div_lt_iff₀ hA, ← div_eq_inv_mul,
    lt_div_iff₀ hB]
  revert h'
  generalize (2 : ℚ) ^ 1075 = u
  generalize (10 : ℚ) ^ 325 = t
  intro h'
  linarith

theorem above : (2 : ℚ) ^ (-1075 : Int) < 25 * 10 ^ (-325 : Int) * (1 - 1 / 1000) := by
  have h : 1000 * 10 ^ 325 < 24975 * 2 ^ 1075 := by decide +kernel
  have h' : (1000 : ℚ) * 10 ^ 325 < 24975 * 2 ^ 1075 := by exact_mod_cast h
  have hA : (0 : ℚ) < 10 ^ 325 := by positivity
  have hB : (0 : ℚ) < 2 ^ 1075 := by positivity
  rw [show (-325 : Int) = -((325 : Nat) : Int) from rfl, show (-1075 : Int) = -((1075 : Nat) : Int) from rfl,
    zpow_neg, zpow_neg, zpow_natCast, zpow_natCast, ← div_eq_mul_inv, div_mul_eq_mul_div, lt_div_iff₀ hA, ← div_eq_inv_mul,
    div_lt_iff₀ hB]
  revert h'
  generalize (2 : ℚ) ^ 1075 = u
  generalize (10 : ℚ) ^ 325 = t
  intro h'
  linarith

theorem above' : (25 : ℚ) * 10 ^ (-325 : Int) ≤ 2 ^ (-1074 : Int) := by
  have h : 25 * 2 ^ 1074 ≤ 10 ^ 325 := by decide +kernel
  have h' : (25 : ℚ) * 2 ^ 1074 ≤ 10 ^ 325 := by exact_mod_cast h
  have hA : (0 : ℚ) < 10 ^ 325 := by positivity
  have hB : (0 : ℚ) < 2 ^ 1074 := by positivity
  rw [show (-325 : Int) = -((325 : Nat) : Int) from rfl, show (-1074 : Int) = -((1074 : Nat) : Int) from rfl,
    zpow_neg, zpow_neg, zpow_natCast, zpow_natCast, ← div_eq_mul_inv, div_le_iff₀ hA, ← div_eq_inv_mul,
    le_div_iff₀ hB]
  exact h'

/-- A number that is too small is read as zero. -/
theorem readF64_below {t : Str} {s : Nat} {e : Int} (h : Decimal t false s e) (hl : t.length < 2 ^ 29) (hs : 0 < s)
    (hv : (s : ℚ) * 10 ^ e ≤ 24 * 10 ^ (-325 : Int)) : ∃ x, readF64 t = some x ∧ x.m = 0 := by
  by_cases ht : (s : ℚ) * 10 ^ e < 10 ^ (-331 : Int)
  · exact readF64_tiny h hl hs ht
  · rw [not_lt] at ht
    have hd := Decimal.digits_lt h
    have hE1 : -2 ^ 30 ≤ e := by
      have h3 : (s : ℚ) * 10 ^ e < 10 ^ ((t.length : Int) + e) := by
        rw [zpow_add₀ (by norm_num), zpow_natCast]
        exact mul_lt_mul_of_pos_right (by exact_mod_cast hd) (by positivity)
      have h4 := lt_of_le_of_lt ht h3
      rw [zpow_lt_zpow_iff_right₀ (by norm_num)] at h4
      omega
    have hE2 : e < -323 := by
      have h3 := lt_of_le_of_lt (le_trans (ten_le hs e) hv)
        (b := 24 * (10 : ℚ) ^ (-325 : Int)) (c := 10 ^ (-323 : Int)) (by
          rw [ten_step (show (-323 : Int) = 1 + -324 from rfl), ten_step (show (-324 : Int) = 1 + -325 from rfl)]
          have : (0 : ℚ) < 10 ^ (-325 : Int) := zpow_pos (by norm_num) _
          revert this
          generalize (10 : ℚ) ^ (-325 : Int) = z
          intro this
          linarith)
      rwa [zpow_lt_zpow_iff_right₀ (by norm_num)] at h3
    obtain ⟨s', e', hr, hs', hw⟩ := readF64_split h hl hE1 (by omega)
    have hv0 : (0 : ℚ) < s * 10 ^ e := mul_pos (by exact_mod_cast hs) (by positivity)
    obtain ⟨w1, w2⟩ := within_half hw hv0.le
    have hs0 : 0 < s' := by
      rcases Nat.eq_zero_or_pos s' with rfl | h0
      · rw [Nat.cast_zero, zero_mul, mul_zero] at w1
        exact absurd (lt_of_lt_of_le hv0 w1) (lt_irrefl _)
      · exact h0
    have hz : (0 : ℚ) < 10 ^ (-332 : Int) := zpow_pos (by norm_num) _
    have hE3 : -600 ≤ e' := by
      have h3 : (10 : ℚ) ^ (-332 : Int) < s' * 10 ^ e' := by
        rw [ten_step (show (-331 : Int) = 1 + -332 from rfl)] at ht
        revert ht hz
        generalize (10 : ℚ) ^ (-332 : Int) = z
        intro ht hz
        linarith
      have h4 := lt_trans h3 (ten_lt hs' _)
      rw [zpow_lt_zpow_iff_right₀ (by norm_num)] at h4
      omega
    have hE4 : e' < 0 := by
      have h3 : (10 : ℚ) ^ e' < 10 ^ (-322 : Int) := by
        refine lt_of_le_of_lt (le_trans (ten_le hs0 e') (le_trans w2 (mul_le_mul_of_nonneg_left hv (by norm_num)))) ?_
        rw [ten_step (show (-322 : Int) = 1 + -323 from rfl), ten_step (show (-323 : Int) = 1 + -324 from rfl),
          ten_step (show (-324 : Int) = 1 + -325 from rfl)]
        have : (0 : ℚ) < 10 ^ (-325 : Int) := zpow_pos (by norm_num) _
        revert this
        generalize (10 : ℚ) ^ (-325 : Int) = z
        intro this
        linarith
      rw [zpow_lt_zpow_iff_right₀ (by norm_num)] at h3
      omega
    obtain ⟨x, q, hx, hq, q1, q2⟩ := f64Parts_low hs0 hs' hE4 hE3
    refine ⟨x, by rw [hr, hx], hq.zero (lt_of_le_of_lt ?_ below)⟩
    obtain ⟨v1, v2⟩ := hw
    revert hv v1 v2 q1 q2 hv0
    generalize (s : ℚ) * 10 ^ e = a
    generalize (s' : ℚ) * 10 ^ e' = b
    generalize (10 : ℚ) ^ (-325 : Int) = z
    intro v1 v2 hv q1 q2 hv0
    norm_num at v1 v2 q1 q2 ⊢
    linarith

/-! ## Reading and printing -/

theorem f64Text_tiny {t : Str} {neg : Bool} {s : Nat} {e : Int} (h : Decimal t neg s e) (hl : t.length < 2 ^ 29) (hs : 0 < s)
    (hv : (s : ℚ) * 10 ^ e ≤ 24 * 10 ^ (-325 : Int)) :
    ¬ IntTok t ∧ f64Text t = some (if neg = true then c!"-0.0" else c!"0.0") := by
  constructor
  · intro hi
    obtain ⟨h1, rfl⟩ := IntTok.decimal hi h
    have h2 := le_trans (ten_le hs 0) hv
    have h3 : (24 : ℚ) * 10 ^ (-325 : Int) ≤ 24 * 10 ^ (-2 : Int) :=
      mul_le_mul_of_nonneg_left (zpow_le_zpow_right₀ (by norm_num) (by norm_num)) (by norm_num)
    have h4 := le_trans h2 h3
    norm_num at h4
  · have key : ∀ {t : Str}, Decimal t false s e → t.length < 2 ^ 29 → (readF64 t).bind formatF64 = some c!"0.0" := by
      intro t h hl
      obtain ⟨x, hx, hxm⟩ := readF64_below h hl hs hv
      rw [hx, Option.bind_some]
      unfold formatF64
      rw [if_pos hxm]
    cases neg with
    | false => rw [f64Text_pos h, key h hl]; rfl
    | true =>
      obtain ⟨t', rfl, h'⟩ := Decimal.of_neg h
      simp only [f64Text, key h' (Nat.lt_of_succ_lt hl)]
      rfl

theorem not_zero_of_le {b : ℚ} (hb : 0 < b) {s : Nat} {e : Int} (h : b ≤ (s : ℚ) * 10 ^ e) : s ≠ 0 := by
  rintro rfl
  rw [Nat.cast_zero, zero_mul] at h
  exact absurd (lt_of_lt_of_le hb h) (lt_irrefl _)

end Verif.Algo
