import Verif.Lemma.Algo.Readings

/-! # Numbers that are too large or too small for an `f64` -/

namespace Verif.Algo

open Verif.Spec (Digits Decimal digitsVal NumTok IntTok decimalVal)

/-! ## Rounding -/

theorem roundQ_none {a b : Nat} (ha : 0 < a) (hb : 0 < b) (h : (2 : ℚ) ^ (1024 : Int) ≤ (a : ℚ) / b) : roundQ a b = none := by
  have hp := lastPlace_spec ha hb
  have he : 972 ≤ lastPlace a b := by
    have := lt_of_le_of_lt h hp.1
    rw [zpow_lt_zpow_iff_right₀ (by norm_num)] at this
    omega
  unfold roundQ
  simp only
  refine if_neg ?_
  split
  · show ¬ lastPlace a b + 1 ≤ 971
    omega
  · show ¬ lastPlace a b ≤ 971
    omega

theorem Rounded.double {r : ℚ} {x : F64} (h : Rounded r x) (hr : 0 ≤ r) : x.val ≤ 2 * r := by
  have b1 := h.inI.bounds.1
  have hE : (0 : ℚ) < 2 ^ x.e := by positivity
  rcases Nat.eq_zero_or_pos x.m with h0 | h0
  · have : x.val = 0 := by unfold F64.val; rw [h0]; simp
    linarith
  · have h1 : (2 : ℚ) ^ x.e ≤ x.val := by
      unfold F64.val
      exact le_mul_of_one_le_left hE.le (by exact_mod_cast h0)
    linarith

/-- Rounding at most doubles. -/
theorem roundQ_le {a b : Nat} (hb : 0 < b) (h : (a : ℚ) / b < 2 ^ (1023 : Int)) :
    ∃ x, roundQ a b = some x ∧ x.val ≤ 2 * ((a : ℚ) / b) ∧ -1074 ≤ x.e := by
  rcases Nat.eq_zero_or_pos a with rfl | ha
  · obtain ⟨x, hx, hm⟩ := roundQ_zero hb
    exact ⟨x, hx, by unfold F64.val; rw [hm]; simp, roundQ_min hx⟩
  · obtain ⟨x, hx⟩ := roundQ_some ha hb h
    exact ⟨x, hx, (roundQ_spec ha hb hx).double (by positivity), roundQ_min hx⟩

theorem F64.zero_of_lt {x : F64} (he : -1074 ≤ x.e) (h : x.val < 2 ^ (-1074 : Int)) : x.m = 0 := by
  rcases Nat.eq_zero_or_pos x.m with h0 | h0
  · exact h0
  · exfalso
    have h1 : (2 : ℚ) ^ x.e ≤ x.val := by
      unfold F64.val
      exact le_mul_of_one_le_left (by positivity) (by exact_mod_cast h0)
    have h2 : (2 : ℚ) ^ (-1074 : Int) ≤ 2 ^ x.e := zpow_le_zpow_right₀ (by norm_num) he
    linarith

theorem pow10_some {k : Nat} (hk : k ≤ 308) : ∃ p, pow10 k = some p := by
  by_cases h : k = 308
  · subst h
    exact Option.isSome_iff_exists.1 (by decide +kernel)
  · obtain ⟨p, hp, -⟩ := pow10_within (k := k) (by omega)
    exact ⟨p, hp⟩

theorem pow10_half {k : Nat} {p : F64} (h : pow10 k = some p) : (10 : ℚ) ^ k ≤ 2 * p.val ∧ 0 < p.m := by
  unfold pow10 at h
  split at h
  · have hr := roundQ_spec (by positivity) (by norm_num) h
    have h1 : (2 : ℚ) ^ (-1022 : Int) ≤ ((10 ^ k : Nat) : ℚ) / (1 : Nat) := by
      rw [Nat.cast_one, div_one, Nat.cast_pow]
      exact le_trans one_le_tiny (one_le_pow₀ (by norm_num))
    have h2 := (hr.within h1).2
    rw [Nat.cast_one, div_one, Nat.cast_pow] at h2
    have h3 : (0 : ℚ) < 10 ^ k := by positivity
    refine ⟨?_, Nat.lt_of_lt_of_le (by norm_num) (hr.normal h1)⟩
    norm_num at h2
    linarith
  · cases h

theorem pow10_none {k : Nat} (hk : 308 < k) : pow10 k = none := by
  unfold pow10
  exact if_neg (by omega)

theorem u64_lt {s : Nat} (hs : s < 2 ^ 64) : (s : ℚ) < 18446744073709551616 := by
  have h : s < 18446744073709551616 := hs
  exact_mod_cast h

theorem f64_of_u64 {s : Nat} (hs : 0 < s) (hs' : s < 2 ^ 64) :
    ∃ f, roundQ s 1 = some f ∧ 0 < f.m ∧ (s : ℚ) ≤ 2 * f.val ∧ f.val ≤ 2 * s := by
  have hsq : (1 : ℚ) ≤ s := by exact_mod_cast hs
  obtain ⟨f, hf, hfm, f1, f2⟩ := roundQ_within (a := s) (b := 1) (r := s) hs (by norm_num) (by norm_num)
    (le_trans one_le_tiny hsq) (by
      have : (s : ℚ) < 2 ^ 64 := by exact_mod_cast hs'
      refine lt_trans this ?_
      rw [← zpow_natCast]
      exact zpow_lt_zpow_right₀ (by norm_num) (by norm_num))
  refine ⟨f, hf, Nat.lt_of_lt_of_le (by norm_num) hfm, ?_, ?_⟩
  · norm_num at f1; linarith
  · norm_num at f2; linarith

/-! ## Too large -/

theorem f64Parts_large {s : Nat} {e : Int} (hs : 0 < s) (hs' : s < 2 ^ 64) (h : (10 : ℚ) ^ (309 : Int) ≤ s * 10 ^ e) :
    f64Parts s e = none := by
  have h64 := u64_lt hs'
  have he : 0 ≤ e := by
    by_contra hlt
    have h1 : (10 : ℚ) ^ e ≤ 1 := zpow_le_one_of_nonpos₀ (by norm_num) (by omega)
    have h2 : (s : ℚ) * 10 ^ e ≤ s * 1 := mul_le_mul_of_nonneg_left h1 (by positivity)
    have h3 : (10 : ℚ) ^ (20 : Int) ≤ 10 ^ (309 : Int) := zpow_le_zpow_right₀ (by norm_num) (by norm_num)
    have h4 : (10 : ℚ) ^ (20 : Int) = 100000000000000000000 := by norm_num
    rw [h4] at h3
    generalize (10 : ℚ) ^ (309 : Int) = z at *
    linarith
  obtain ⟨f, hf, hfm, f1, -⟩ := f64_of_u64 hs hs'
  unfold f64Parts
  rw [hf, Option.bind_some]
  unfold fromParts
  split
  · next p hp =>
    obtain ⟨p1, hpm⟩ := pow10_half hp
    rw [if_pos he]
    have d1 := f.den_pos
    have d2 := p.den_pos
    have n1 := F64.num_pos hfm
    have n2 := F64.num_pos hpm
    have hv : ((f.num * p.num : Nat) : ℚ) / ((f.den * p.den : Nat) : ℚ) = f.val * p.val := by
      rw [F64.val_eq, F64.val_eq]; push_cast; field_simp
    refine roundQ_none (by positivity) (by positivity) ?_
    rw [hv]
    have hE : (10 : ℚ) ^ e = 10 ^ e.natAbs := by rw [← zpow_natCast, Int.natAbs_of_nonneg he]
    have h1 : (s : ℚ) * 10 ^ e ≤ 2 * f.val * (2 * p.val) := by
      rw [hE]
      exact mul_le_mul f1 p1 (by positivity) (le_trans (by positivity) f1)
    have h2 : (2 : ℚ) ^ (1024 : Int) * 4 ≤ 10 ^ (309 : Int) := by
      have h : 2 ^ 1024 * 4 ≤ 10 ^ 309 := by decide +kernel
      rw [show (309 : Int) = ((309 : Nat) : Int) from rfl, show (1024 : Int) = ((1024 : Nat) : Int) from rfl,
        zpow_natCast, zpow_natCast]
      exact_mod_cast h
    clear hE
    generalize (2 : ℚ) ^ (1024 : Int) = y at *
    generalize (10 : ℚ) ^ (309 : Int) = z at *
    nlinarith
  · rw [if_neg (by omega), if_pos he]

/-! ## Too small -/

theorem fromParts_zero {n : Nat} {f : F64} {e : Int} (hf : f.m = 0) : ∃ x, fromParts (n + 1) f e = some x ∧ x.m = 0 := by
  have hfn : f.num = 0 := by unfold F64.num; rw [hf, Nat.zero_mul]
  have d1 := f.den_pos
  unfold fromParts
  split
  · next p hp =>
    have d2 := p.den_pos
    have d3 := pow10_pos hp
    split
    · unfold F64.mul
      rw [hfn, Nat.zero_mul]
      exact roundQ_zero (by positivity)
    · unfold F64.div
      rw [hfn, Nat.zero_mul]
      exact roundQ_zero (by positivity)
  · rw [if_pos hf]
    exact ⟨_, rfl, hf⟩

theorem F64.val_nonneg (f : F64) : 0 ≤ f.val := by
  unfold F64.val
  positivity

theorem ten_zpow (e : Int) (a b : Nat) (h : e = -(a + b : Nat)) : (10 : ℚ) ^ e = 1 / (10 ^ a * 10 ^ b) := by
  rw [← pow_add, ← zpow_natCast, one_div, ← zpow_neg, h]

theorem two_zpow (a b c : Int) (h : a = b + c) : (2 : ℚ) ^ a = 2 ^ b * 2 ^ c := by
  rw [h, zpow_add₀ (by norm_num)]

/-- Dividing by a power of ten. -/
theorem div_pow10 {f p : F64} {k : Nat} (hp : pow10 k = some p) (hf : f.val ≤ 2 ^ (1020 : Int)) :
    ∃ x, f.div p = some x ∧ x.val * 10 ^ k ≤ 4 * f.val ∧ -1074 ≤ x.e := by
  obtain ⟨p1, hpm⟩ := pow10_half hp
  have d1 := f.den_pos
  have d2 := p.den_pos
  have n2 := F64.num_pos hpm
  have hk : (1 : ℚ) ≤ 10 ^ k := one_le_pow₀ (by norm_num)
  have p0 : 0 < p.val := by linarith
  have f0 : 0 ≤ f.val := f.val_nonneg
  have hv : ((f.num * p.den : Nat) : ℚ) / ((f.den * p.num : Nat) : ℚ) = f.val / p.val := by
    rw [F64.val_eq, F64.val_eq]; push_cast; field_simp
  have h1 : f.val / p.val ≤ 2 * f.val := by
    rw [div_le_iff₀ p0]
    nlinarith
  obtain ⟨x, hx, hx1, hx2⟩ := roundQ_le (a := f.num * p.den) (b := f.den * p.num) (by positivity) (by
    rw [hv]
    refine lt_of_le_of_lt h1 ?_
    rw [two_zpow 1023 3 1020 rfl]
    have hy : (0 : ℚ) < 2 ^ (1020 : Int) := zpow_pos (by norm_num) _
    revert hf hy
    generalize (2 : ℚ) ^ (1020 : Int) = y
    intro hf hy
    have h8 : (2 : ℚ) ^ (3 : Int) = 8 := by norm_num
    rw [h8]
    linarith)
  rw [hv] at hx1
  refine ⟨x, hx, ?_, hx2⟩
  refine le_trans (mul_le_mul_of_nonneg_right hx1 (by positivity)) ?_
  refine le_trans (mul_le_mul_of_nonneg_left p1 (by positivity)) ?_
  rw [show 2 * (f.val / p.val) * (2 * p.val) = 4 * f.val * (p.val / p.val) from by ring, div_self p0.ne', mul_one]

theorem f64Parts_tiny {s : Nat} {e : Int} (hs : 0 < s) (hs' : s < 2 ^ 64) (h : (s : ℚ) * 10 ^ e < 10 ^ (-330 : Int)) :
    ∃ x, f64Parts s e = some x ∧ x.m = 0 := by
  have h64 := u64_lt hs'
  have he : e < -330 := by
    have h1 : (10 : ℚ) ^ e ≤ s * 10 ^ e := le_mul_of_one_le_left (by positivity) (by exact_mod_cast hs)
    have h2 := lt_of_le_of_lt h1 h
    rwa [zpow_lt_zpow_iff_right₀ (by norm_num)] at h2
  obtain ⟨f, hf, hfm, -, f2⟩ := f64_of_u64 hs hs'
  have f0 : 0 ≤ f.val := f.val_nonneg
  have hfb : f.val ≤ 2 ^ (65 : Int) := by
    have h4 : (2 : ℚ) ^ (65 : Int) = 36893488147419103232 := by norm_num
    rw [h4]
    linarith
  have hbig : (2 : ℚ) ^ (68 : Int) ≤ 2 ^ (1020 : Int) := zpow_le_zpow_right₀ (by norm_num) (by norm_num)
  have h65 : (2 : ℚ) ^ (65 : Int) ≤ 2 ^ (1020 : Int) := zpow_le_zpow_right₀ (by norm_num) (by norm_num)
  obtain ⟨p, hp⟩ := pow10_some (k := 308) (le_refl _)
  obtain ⟨g, hg, g1, g2⟩ := div_pow10 hp (le_trans hfb h65)
  have g0 : 0 ≤ g.val := g.val_nonneg
  have hgb : g.val ≤ 2 ^ (1020 : Int) := by
    refine le_trans ?_ hbig
    have h1 : g.val ≤ g.val * 10 ^ 308 := le_mul_of_one_le_right g0 (one_le_pow₀ (by norm_num))
    rw [two_zpow 68 3 65 rfl]
    have h8 : (2 : ℚ) ^ (3 : Int) = 8 := by norm_num
    rw [h8]
    revert h1 g1 hfb
    generalize (2 : ℚ) ^ (65 : Int) = y
    generalize g.val * 10 ^ 308 = w
    intro h1 g1 hfb
    linarith
  have htiny : (10 : ℚ) ^ (-330 : Int) * 32 ≤ 2 ^ (-1074 : Int) := by
    have h : 2 ^ 1074 * 32 ≤ 10 ^ 330 := by decide +kernel
    rw [show (-330 : Int) = -((330 : Nat) : Int) from rfl, show (-1074 : Int) = -((1074 : Nat) : Int) from rfl,
      zpow_neg, zpow_neg, zpow_natCast, zpow_natCast, inv_mul_eq_div, div_le_iff₀ (by positivity), ← div_eq_inv_mul,
      le_div_iff₀ (by positivity), mul_comm]
    exact_mod_cast h
  unfold f64Parts
  rw [hf, Option.bind_some]
  obtain ⟨n, hn⟩ : ∃ n, e.natAbs + 1 = n + 3 := ⟨e.natAbs - 2, by omega⟩
  rw [hn]
  unfold fromParts
  rw [pow10_none (by omega)]
  simp only
  rw [if_neg (by omega), if_neg (by omega), hp, Option.bind_some, hg, Option.bind_some]
  by_cases hsm : (e + 308).natAbs ≤ 308
  · obtain ⟨q, hq⟩ := pow10_some hsm
    obtain ⟨x, hx, x1, x2⟩ := div_pow10 hq hgb
    unfold fromParts
    rw [hq]
    simp only
    rw [if_neg (by omega), hx]
    refine ⟨x, rfl, F64.zero_of_lt x2 ?_⟩
    have hE : (10 : ℚ) ^ e = 1 / (10 ^ (e + 308).natAbs * 10 ^ 308) := ten_zpow _ _ _ (by omega)
    have hA : (0 : ℚ) < 10 ^ (e + 308).natAbs := by positivity
    have hB : (0 : ℚ) < 10 ^ 308 := by positivity
    have hx0 : x.val * (10 ^ (e + 308).natAbs * 10 ^ 308) ≤ 32 * s := by
      calc x.val * (10 ^ (e + 308).natAbs * 10 ^ 308) = x.val * 10 ^ (e + 308).natAbs * 10 ^ 308 := (mul_assoc _ _ _).symm
        _ ≤ 4 * g.val * 10 ^ 308 := mul_le_mul_of_nonneg_right x1 hB.le
        _ = 4 * (g.val * 10 ^ 308) := mul_assoc _ _ _
        _ ≤ 4 * (4 * f.val) := mul_le_mul_of_nonneg_left g1 (by norm_num)
        _ ≤ 32 * s := by linarith
    have hx3 : x.val ≤ 32 * (s * 10 ^ e) := by
      rw [hE, mul_one_div, ← mul_div_assoc, le_div_iff₀ (by positivity)]
      exact hx0
    refine lt_of_le_of_lt hx3 (lt_of_lt_of_le ?_ htiny)
    clear htiny
    generalize (10 : ℚ) ^ (-330 : Int) = z at *
    linarith
  · obtain ⟨x, hx, x1, x2⟩ := div_pow10 hp hgb
    rw [fromParts, pow10_none (by omega)]
    simp only
    by_cases hgm : g.m = 0
    · rw [if_pos hgm]
      exact ⟨g, rfl, hgm⟩
    · rw [if_neg hgm, if_neg (by omega), hp, Option.bind_some, hx, Option.bind_some]
      refine fromParts_zero (F64.zero_of_lt x2 ?_)
      have hB : (0 : ℚ) < 10 ^ 308 := by positivity
      have hx0 : x.val * (10 ^ 308 * 10 ^ 308) ≤ 32 * s := by
        calc x.val * (10 ^ 308 * 10 ^ 308) = x.val * 10 ^ 308 * 10 ^ 308 := (mul_assoc _ _ _).symm
          _ ≤ 4 * g.val * 10 ^ 308 := mul_le_mul_of_nonneg_right x1 hB.le
          _ = 4 * (g.val * 10 ^ 308) := mul_assoc _ _ _
          _ ≤ 4 * (4 * f.val) := mul_le_mul_of_nonneg_left g1 (by norm_num)
          _ ≤ 32 * s := by linarith
      have hx3 : x.val ≤ 32 * 2 ^ 64 * (1 / (10 ^ 308 * 10 ^ 308)) := by
        rw [mul_one_div, le_div_iff₀ (by positivity)]
        refine le_trans hx0 ?_
        have h4 : (32 : ℚ) * 2 ^ 64 = 32 * 18446744073709551616 := by norm_num
        rw [h4]
        exact mul_le_mul_of_nonneg_left h64.le (by norm_num)
      refine lt_of_le_of_lt hx3 ?_
      have h : 32 * 2 ^ 64 * 2 ^ 1074 < 10 ^ 308 * 10 ^ 308 := by decide +kernel
      rw [show (-1074 : Int) = -((1074 : Nat) : Int) from rfl, zpow_neg, zpow_natCast, mul_one_div,
        div_lt_iff₀ (by positivity), ← div_eq_inv_mul, lt_div_iff₀ (by positivity)]
      exact_mod_cast h

/-! ## Texts -/

/-- What follows the digits: nothing, or an exponent. -/
theorem readExp_form {ex : Str} {x : Int} (hx : ex = [] ∧ x = 0 ∨ ∃ c d, (c = 'e' ∨ c = 'E') ∧ Digits d ∧
      (ex = c :: d ∧ x = digitsVal d 0 ∨ ex = c :: '+' :: d ∧ x = digitsVal d 0 ∨ ex = c :: '-' :: d ∧ x = -(digitsVal d 0 : Int))) :
    Stops ex ∧ (∀ r, ex ≠ '.' :: r) ∧ (x = 0 ∧ (∀ n e0, readExp n e0 ex = f64Parts n e0) ∨
      ∃ b d, x = (if b = true then -(natOfDigits d : Int) else natOfDigits d) ∧ ∀ n e0, readExp n e0 ex = expDigits n e0 b d) := by
  rcases hx with ⟨rfl, rfl⟩ | ⟨c, d, hc, hd, hx⟩
  · exact ⟨fun _ _ h => (by cases h), fun _ h => (by cases h), .inl ⟨rfl, fun _ _ => rfl⟩⟩
  · obtain ⟨hd0, hd⟩ := digits_all.1 hd
    rw [digitsVal_eq] at hx
    have hstop : isDigit c = false ∧ c ≠ '.' := by rcases hc with rfl | rfl <;> decide
    refine ⟨?_, ?_, .inr ?_⟩
    · intro a r h
      rcases hx with ⟨rfl, -⟩ | ⟨rfl, -⟩ | ⟨rfl, -⟩ <;>
      · obtain ⟨rfl, -⟩ := List.cons.inj h
        exact hstop.1
    · intro r h
      rcases hx with ⟨rfl, -⟩ | ⟨rfl, -⟩ | ⟨rfl, -⟩ <;> exact hstop.2 (List.cons.inj h).1
    · rcases hx with ⟨rfl, hx⟩ | ⟨rfl, hx⟩ | ⟨rfl, hx⟩
      · refine ⟨false, d, hx, fun n e0 => ?_⟩
        cases d with
        | nil => exact absurd rfl hd0
        | cons y d =>
          have hy : y ≠ '+' ∧ y ≠ '-' := by
            simp only [List.all_cons, Bool.and_eq_true] at hd
            constructor <;> (rintro rfl; exact absurd hd.1 (by decide))
          rcases hc with rfl | rfl
          · unfold readExp
            split <;> simp_all
          · unfold readExp
            split <;> simp_all
      · refine ⟨false, d, hx, fun n e0 => ?_⟩
        rcases hc with rfl | rfl <;> rfl
      · refine ⟨true, d, hx, fun n e0 => ?_⟩
        rcases hc with rfl | rfl <;> rfl

/-- How a number with any exponent is read. -/
theorem readF64_any {t : Str} {s : Nat} {e : Int} (h : Decimal t false s e) (hl : t.length < 2 ^ 29) (hs : 0 < s) :
    ∃ (s' : Nat) (e0 x : Int), 0 < s' ∧ s' < 2 ^ 64 ∧ e0.natAbs < 2 ^ 29 ∧ (x - e).natAbs < 2 ^ 29 ∧
      Within (1 / 2 ^ 60) (s * 10 ^ e) (s' * 10 ^ (e0 + x)) ∧
      (readF64 t = f64Parts s' (clampI32 (e0 + x)) ∨
        0 ≤ x ∧ 2 ^ 31 ≤ x ∧ readF64 t = none ∨ x ≤ -2 ^ 31 ∧ readF64 t = some ⟨0, -1074⟩) := by
  obtain ⟨int, fd, frac, ex, x, rfl, hi, -, hf, hx, rfl, rfl⟩ := h
  rw [digitsVal_eq] at hs ⊢
  obtain ⟨-, hi⟩ := digits_all.1 hi
  simp only [Bool.false_eq_true, if_false, List.nil_append, List.length_append] at hl ⊢
  have hfd : fd.all isDigit = true := by
    rcases hf with ⟨-, rfl⟩ | ⟨h, -⟩
    · rfl
    · exact (digits_all.1 h).2
  have hfl : int.length + fd.length < 2 ^ 29 := by
    rcases hf with ⟨-, rfl⟩ | ⟨-, rfl⟩
    · simp; omega
    · simp only [List.length_cons] at hl; omega
  obtain ⟨hx1, hx2, hx3⟩ := readExp_form hx
  obtain ⟨s', e0, h3, h4, h5, h6⟩ := readF64_lead hi hfd hf hx1 hx2
  have hs' : 0 < s' := by
    rcases Nat.eq_zero_or_pos s' with rfl | h0
    · exfalso
      have h7 := (h6 0).1
      have h8 : (0 : ℚ) < (natOfDigits (int ++ fd) : ℚ) * 10 ^ ((0 : Int) - fd.length) :=
        mul_pos (by exact_mod_cast hs) (by positivity)
      rw [Nat.cast_zero, zero_mul] at h7
      revert h7 h8
      generalize (natOfDigits (int ++ fd) : ℚ) * 10 ^ ((0 : Int) - fd.length) = z
      intro h7 h8
      norm_num at h7
      linarith
    · exact h0
  refine ⟨s', e0, x, hs', h4, by omega, by omega, h6 x, ?_⟩
  rw [h3]
  rcases hx3 with ⟨rfl, h7⟩ | ⟨b, d, hxb, h7⟩
  · rw [h7, Int.add_zero, clampI32_small (by omega) (by omega)]
    exact .inl rfl
  · rw [h7]
    unfold expDigits
    by_cases hlt : natOfDigits d < 2 ^ 31
    · rw [if_pos hlt]
      left
      cases b
      · simp only [Bool.false_eq_true, if_false] at hxb ⊢
        rw [hxb]
      · simp only [if_true] at hxb ⊢
        rw [hxb, Int.sub_eq_add_neg]
    · rw [if_neg hlt]
      right
      cases b
      · simp only [Bool.false_eq_true, if_false] at hxb ⊢
        exact .inl ⟨by omega, by omega, if_pos ⟨by omega, trivial⟩⟩
      · simp only [if_true] at hxb ⊢
        exact .inr ⟨by omega, if_neg (by simp)⟩

theorem within_half {u v : ℚ} (h : Within (1 / 2 ^ 60) u v) (hu : 0 ≤ u) : u ≤ 2 * v ∧ v ≤ 2 * u := by
  obtain ⟨h1, h2⟩ := h
  norm_num at h1 h2
  constructor <;> linarith

theorem le_clamp {a : Int} (h : 2 ^ 30 ≤ a) : 2 ^ 30 ≤ clampI32 a := by
  unfold clampI32
  omega

theorem clamp_le {a : Int} (h : a ≤ -2 ^ 30) : clampI32 a ≤ -2 ^ 30 := by
  unfold clampI32
  omega

theorem ten_lt {s : Nat} (h : s < 2 ^ 64) (e : Int) : (s : ℚ) * 10 ^ e < 10 ^ (20 + e) := by
  rw [zpow_add₀ (by norm_num)]
  refine mul_lt_mul_of_pos_right (lt_trans (u64_lt h) (by norm_num)) (by positivity)

theorem ten_le {s : Nat} (h : 0 < s) (e : Int) : (10 : ℚ) ^ e ≤ s * 10 ^ e :=
  le_mul_of_one_le_left (by positivity) (by exact_mod_cast h)

theorem ten_step {a b : Int} (h : a = 1 + b) : (10 : ℚ) ^ a = 10 * 10 ^ b := by
  rw [h, zpow_add₀ (by norm_num), zpow_one]

/-- A number that is too large is not read. -/
theorem readF64_large {t : Str} {s : Nat} {e : Int} (h : Decimal t false s e) (hl : t.length < 2 ^ 29)
    (hv : (10 : ℚ) ^ (310 : Int) ≤ s * 10 ^ e) : readF64 t = none := by
  have hs : 0 < s := by
    rcases Nat.eq_zero_or_pos s with rfl | h0
    · exfalso
      rw [Nat.cast_zero, zero_mul] at hv
      have : (0 : ℚ) < 10 ^ (310 : Int) := zpow_pos (by norm_num) _
      exact absurd (lt_of_lt_of_le this hv) (lt_irrefl _)
    · exact h0
  obtain ⟨s', e0, x, h1, h2, h3, h4, h5, h6⟩ := readF64_any h hl hs
  obtain ⟨w1, -⟩ := within_half h5 (by positivity)
  have hw : (10 : ℚ) ^ (309 : Int) ≤ s' * 10 ^ (e0 + x) := by
    rw [ten_step (show (310 : Int) = 1 + 309 from rfl)] at hv
    have h0 : (0 : ℚ) < 10 ^ (309 : Int) := zpow_pos (by norm_num) _
    revert hv h0
    generalize (10 : ℚ) ^ (309 : Int) = z
    intro hv h0
    linarith
  have hE : 289 < e0 + x := by
    have := lt_of_le_of_lt hw (ten_lt h2 _)
    rw [zpow_lt_zpow_iff_right₀ (by norm_num)] at this
    omega
  rcases h6 with h6 | ⟨-, -, h6⟩ | ⟨h6, -⟩
  · rw [h6]
    by_cases hb : e0 + x < 2 ^ 31
    · rw [clampI32_small (by omega) hb]
      exact f64Parts_large h1 h2 hw
    · have := le_clamp (a := e0 + x) (by omega)
      exact f64Parts_large h1 h2 (le_trans (zpow_le_zpow_right₀ (by norm_num) (by omega)) (ten_le h1 _))
  · exact h6
  · omega

/-- A number that is too small is read as zero. -/
theorem readF64_tiny {t : Str} {s : Nat} {e : Int} (h : Decimal t false s e) (hl : t.length < 2 ^ 29) (hs : 0 < s)
    (hv : (s : ℚ) * 10 ^ e < 10 ^ (-331 : Int)) : ∃ x, readF64 t = some x ∧ x.m = 0 := by
  obtain ⟨s', e0, x, h1, h2, h3, h4, h5, h6⟩ := readF64_any h hl hs
  obtain ⟨-, w2⟩ := within_half h5 (by positivity)
  have hw : (s' : ℚ) * 10 ^ (e0 + x) < 10 ^ (-330 : Int) := by
    rw [ten_step (show (-330 : Int) = 1 + -331 from rfl)]
    have h0 : (0 : ℚ) < 10 ^ (-331 : Int) := zpow_pos (by norm_num) _
    revert hv h0
    generalize (10 : ℚ) ^ (-331 : Int) = z
    intro hv h0
    linarith
  have hE : e0 + x < -330 := by
    have := lt_of_le_of_lt (ten_le h1 _) hw
    rwa [zpow_lt_zpow_iff_right₀ (by norm_num)] at this
  rcases h6 with h6 | ⟨-, h6, -⟩ | ⟨-, h6⟩
  · rw [h6]
    by_cases hb : -2 ^ 31 ≤ e0 + x
    · rw [clampI32_small hb (by omega)]
      exact f64Parts_tiny h1 h2 hw
    · have := clamp_le (a := e0 + x) (by omega)
      exact f64Parts_tiny h1 h2 (lt_of_lt_of_le (ten_lt h2 _) (zpow_le_zpow_right₀ (by norm_num) (by omega)))
  · omega
  · exact ⟨_, h6, rfl⟩

/-- Numbers kept as integers have no exponent and fewer than 65 bits. -/
theorem IntTok.decimal {t : Str} {neg : Bool} {s : Nat} {e : Int} (hi : IntTok t) (h : Decimal t neg s e) : s < 2 ^ 64 ∧ e = 0 := by
  have key : ∀ {t : Str} {s : Nat} {e : Int}, Decimal t false s e → Spec.AllDigits t → s = digitsVal t 0 ∧ e = 0 := by
    rintro t s e ⟨int, fd, frac, ex, x, rfl, -, -, hf, hx, rfl, rfl⟩ ha
    simp only [Bool.false_eq_true, if_false, List.nil_append] at ha ⊢
    have h1 : ex = [] ∧ x = 0 := by
      rcases hx with h | ⟨c, d, hc, -, h⟩
      · exact h
      · exfalso
        have : c ∈ ex := by rcases h with ⟨rfl, -⟩ | ⟨rfl, -⟩ | ⟨rfl, -⟩ <;> simp
        have := ha c (by simp [this])
        rcases hc with rfl | rfl <;> revert this <;> decide
    have h2 : frac = [] ∧ fd = [] := by
      rcases hf with h | ⟨-, rfl⟩
      · exact h
      · exfalso
        have := ha '.' (by simp)
        revert this
        decide
    obtain ⟨rfl, rfl⟩ := h1
    obtain ⟨rfl, rfl⟩ := h2
    simp
  rcases hi with ⟨-, h1, h2⟩ | ⟨d, rfl, h1, -, h2⟩
  · cases neg with
    | false => obtain ⟨rfl, rfl⟩ := key h h1; exact ⟨h2, rfl⟩
    | true =>
      obtain ⟨t', rfl, -⟩ := Decimal.of_neg h
      exact absurd (h1 '-' (by simp)) (by decide)
  · cases neg with
    | false => exact absurd rfl (Decimal.head h d)
    | true =>
      obtain ⟨t', ht, h3⟩ := Decimal.of_neg h
      obtain ⟨-, rfl⟩ := List.cons.inj ht
      obtain ⟨rfl, rfl⟩ := key h3 h1
      exact ⟨by omega, rfl⟩

end Verif.Algo
