import Verif.Lemma.Algo.Again

/-! # Reading keeps the order of numbers with the same exponent -/

namespace Verif.Algo

open Verif.Spec (Decimal decimalVal)

/-- Of two different numbers the interval of the smaller one ends where that of the larger one begins, or before. -/
theorem interval_apart {m m' : Nat} {e e' : Int} (h1 : e = -1074 ∨ 2 ^ 52 ≤ m) (h2 : m < 2 ^ 53) (h3 : -1074 ≤ e)
    (h1' : e' = -1074 ∨ 2 ^ 52 ≤ m') (h2' : m' < 2 ^ 53) (h3' : -1074 ≤ e') (h : (m : ℚ) * 2 ^ e < m' * 2 ^ e') :
    (4 * (m : ℚ) + 2) * 2 ^ (e - 2) ≤ (4 * (m' : ℚ) - (if m' = 2 ^ 52 ∧ e' ≠ -1074 then 1 else 2)) * 2 ^ (e' - 2) := by
  have hp : (0 : ℚ) < 2 ^ (e - 2) := by positivity
  have hp' : (0 : ℚ) < 2 ^ (e' - 2) := by positivity
  have q1 := quarter e
  have q2 := quarter e'
  have hm : (m : ℚ) + 1 ≤ 2 ^ 53 := by exact_mod_cast (by omega : m + 1 ≤ 2 ^ 53)
  have hm' : (m' : ℚ) + 1 ≤ 2 ^ 53 := by exact_mod_cast (by omega : m' + 1 ≤ 2 ^ 53)
  have hlt : ∀ {a b : Int}, a < b → 2 * (2 : ℚ) ^ (a - 2) ≤ 2 ^ (b - 2) := by
    intro a b hab
    rw [show (2 : ℚ) * 2 ^ (a - 2) = 2 ^ (a - 2 + 1) from by rw [zpow_add₀ (by norm_num)]; ring]
    exact zpow_le_zpow_right₀ (by norm_num) (by omega)
  rw [q1, q2] at h
  rcases lt_trichotomy e e' with he | rfl | he
  · have hb : 2 ^ 52 ≤ m' := h1'.resolve_left (by omega)
    have hne : e' ≠ -1074 := by omega
    have hs := hlt he
    have g1 : (4 * (m : ℚ) + 2) * 2 ^ (e - 2) ≤ (4 * 2 ^ 53 - 2) * 2 ^ (e - 2) :=
      mul_le_mul_of_nonneg_right (by linarith) hp.le
    have g2 : (4 * (2 : ℚ) ^ 52 - 1) * 2 ^ (e' - 2) ≤
        (4 * (m' : ℚ) - (if m' = 2 ^ 52 ∧ e' ≠ -1074 then 1 else 2)) * 2 ^ (e' - 2) := by
      refine mul_le_mul_of_nonneg_right ?_ hp'.le
      split
      · next h => rw [h.1]; push_cast; linarith
      · next h =>
        have : 2 ^ 52 + 1 ≤ m' := by
          rcases Nat.lt_or_ge (2 ^ 52) m' with h' | h'
          · omega
          · exact absurd ⟨by omega, hne⟩ h
        have : (2 : ℚ) ^ 52 + 1 ≤ m' := by exact_mod_cast this
        linarith
    refine le_trans g1 (le_trans ?_ g2)
    generalize (2 : ℚ) ^ (e - 2) = a at *
    generalize (2 : ℚ) ^ (e' - 2) = b at *
    norm_num
    linarith
  · have hlt' : (m : ℚ) < m' := by
      by_contra hc
      have := mul_le_mul_of_nonneg_right (not_lt.1 hc) (by positivity : (0 : ℚ) ≤ 4 * 2 ^ (e - 2))
      linarith
    have : (m : ℚ) + 1 ≤ m' := by exact_mod_cast hlt'
    refine mul_le_mul_of_nonneg_right ?_ hp.le
    split <;> linarith
  · exfalso
    have hb : 2 ^ 52 ≤ m := h1.resolve_left (by omega)
    have hb' : (2 : ℚ) ^ 52 ≤ m := by exact_mod_cast hb
    have hs := hlt he
    have g1 : (m' : ℚ) * (4 * 2 ^ (e' - 2)) ≤ (2 ^ 53 - 1) * (4 * 2 ^ (e' - 2)) :=
      mul_le_mul_of_nonneg_right (by linarith) (by positivity)
    have g2 : (2 : ℚ) ^ 52 * (4 * 2 ^ (e - 2)) ≤ m * (4 * 2 ^ (e - 2)) :=
      mul_le_mul_of_nonneg_right hb' (by positivity)
    generalize (2 : ℚ) ^ (e - 2) = a at *
    generalize (2 : ℚ) ^ (e' - 2) = b at *
    norm_num at *
    linarith

theorem interval_unique {m m' : Nat} {e e' : Int} (h1 : e = -1074 ∨ 2 ^ 52 ≤ m) (h2 : m < 2 ^ 53) (h3 : -1074 ≤ e)
    (h1' : e' = -1074 ∨ 2 ^ 52 ≤ m') (h2' : m' < 2 ^ 53) (h3' : -1074 ≤ e') (h : (m : ℚ) * 2 ^ e = m' * 2 ^ e') :
    m = m' ∧ e = e' := by
  have aux : ∀ {m m' : Nat} {e e' : Int}, m < 2 ^ 53 → -1074 ≤ e → (e' = -1074 ∨ 2 ^ 52 ≤ m') → e < e' →
      (m : ℚ) * 2 ^ e ≠ m' * 2 ^ e' := by
    intro m m' e e' a1 a2 a3 a4 h
    have hb : (2 : ℚ) ^ 52 ≤ m' := by exact_mod_cast a3.resolve_left (by omega)
    have hm : (m : ℚ) < 2 ^ 53 := by exact_mod_cast a1
    have hp : (0 : ℚ) < 2 ^ e := by positivity
    have hs : 2 * (2 : ℚ) ^ e ≤ 2 ^ e' := by
      rw [show (2 : ℚ) * 2 ^ e = 2 ^ (e + 1) from by rw [zpow_add₀ (by norm_num)]; ring]
      exact zpow_le_zpow_right₀ (by norm_num) (by omega)
    have g1 : (m : ℚ) * 2 ^ e < 2 ^ 53 * 2 ^ e := mul_lt_mul_of_pos_right hm hp
    have g2 : (2 : ℚ) ^ 52 * 2 ^ e' ≤ m' * 2 ^ e' := mul_le_mul_of_nonneg_right hb (by positivity)
    have g3 : (2 : ℚ) ^ 52 * (2 * 2 ^ e) ≤ 2 ^ 52 * 2 ^ e' := mul_le_mul_of_nonneg_left hs (by positivity)
    rw [h] at g1
    generalize (2 : ℚ) ^ e = a at *
    generalize (2 : ℚ) ^ e' = b at *
    norm_num at *
    linarith
  rcases lt_trichotomy e e' with he | rfl | he
  · exact absurd h (aux h2 h3 h1' he)
  · have : (m : ℚ) = m' := mul_right_cancel₀ (by positivity) h
    exact ⟨by exact_mod_cast this, rfl⟩
  · exact absurd h.symm (aux h2' h3' h1 he)

theorem F64.val_zero {x : F64} (h : x.m = 0) : x.val = 0 := by
  unfold F64.val
  rw [h, Nat.cast_zero, zero_mul]

/-- Rounding keeps the order. -/
theorem roundQ_mono {a b a' b' : Nat} (hb : 0 < b) (hb' : 0 < b') (h : (a : ℚ) / b ≤ a' / b') {x y : F64}
    (hx : roundQ a b = some x) (hy : roundQ a' b' = some y) : x.val ≤ y.val := by
  rcases Nat.eq_zero_or_pos a with rfl | ha
  · obtain ⟨z, hz, hm⟩ := roundQ_zero hb
    rw [hx] at hz
    obtain rfl := Option.some.inj hz
    rw [F64.val_zero hm]
    exact y.val_nonneg
  · have hbq : (0 : ℚ) < b := by exact_mod_cast hb
    have hbq' : (0 : ℚ) < b' := by exact_mod_cast hb'
    have ha' : 0 < a' := by
      rcases Nat.eq_zero_or_pos a' with rfl | h0
      · rw [Nat.cast_zero, zero_div] at h
        have : (0 : ℚ) < a / b := by positivity
        linarith
      · exact h0
    have rx := roundQ_spec ha hb hx
    have ry := roundQ_spec ha' hb' hy
    by_contra hlt
    have hap := interval_apart ry.big ry.small ry.min rx.big rx.small rx.min (not_le.1 hlt)
    have heq : (a : ℚ) / b = a' / b' := le_antisymm h (le_trans ry.hi (le_trans hap rx.lo))
    rw [div_eq_div_iff (by positivity) (by positivity)] at heq
    have := roundQ_congr ha hb hb' (a' := a') (by exact_mod_cast heq)
    rw [hx, hy] at this
    obtain rfl := Option.some.inj this
    exact hlt (le_refl _)

theorem mul_mono {f f' p x y : F64} (hf : f.val ≤ f'.val) (hx : f.mul p = some x) (hy : f'.mul p = some y) :
    x.val ≤ y.val := by
  have d1 := f.den_pos
  have d2 := f'.den_pos
  have d3 := p.den_pos
  refine roundQ_mono (by positivity) (by positivity) ?_ hx hy
  push_cast
  rw [mul_div_mul_comm, mul_div_mul_comm, ← F64.val_eq, ← F64.val_eq, ← F64.val_eq]
  exact mul_le_mul_of_nonneg_right hf p.val_nonneg

theorem div_mono {f f' p x y : F64} (hp : 0 < p.num) (hf : f.val ≤ f'.val) (hx : f.div p = some x)
    (hy : f'.div p = some y) : x.val ≤ y.val := by
  have d1 := f.den_pos
  have d2 := f'.den_pos
  have d3 := p.den_pos
  refine roundQ_mono (by positivity) (by positivity) ?_ hx hy
  push_cast
  rw [mul_div_mul_comm, mul_div_mul_comm, ← F64.val_eq, ← F64.val_eq]
  exact mul_le_mul_of_nonneg_right hf (by positivity)

theorem fromParts_mono {n : Nat} {f f' x y : F64} {e : Int} (hf : f.val ≤ f'.val) (hx : fromParts n f e = some x)
    (hy : fromParts n f' e = some y) : x.val ≤ y.val := by
  induction n generalizing f f' e with
  | zero => simp [fromParts] at hx
  | succ n ih =>
    unfold fromParts at hx hy
    cases hp : pow10 e.natAbs with
    | some p =>
      rw [hp] at hx hy
      simp only at hx hy
      split at hx
      · next he => rw [if_pos he] at hy; exact mul_mono hf hx hy
      · next he => rw [if_neg he] at hy; exact div_mono (pow10_pos hp) hf hx hy
    | none =>
      rw [hp] at hx hy
      simp only at hx hy
      split at hx
      · next h0 =>
        obtain rfl := Option.some.inj hx
        rw [F64.val_zero h0]
        exact y.val_nonneg
      · next h0 =>
        have h0' : f'.m ≠ 0 := by
          intro h
          rw [F64.val_zero h] at hf
          have : 0 < f.val := by
            unfold F64.val
            have : (0 : ℚ) < f.m := by exact_mod_cast Nat.pos_of_ne_zero h0
            positivity
          linarith
        rw [if_neg h0'] at hy
        split at hx
        · cases hx
        · next he =>
          rw [if_neg he] at hy
          obtain ⟨p, hp, hx⟩ := Option.bind_eq_some_iff.1 hx
          obtain ⟨g, hg, hx⟩ := Option.bind_eq_some_iff.1 hx
          rw [hp, Option.bind_some] at hy
          obtain ⟨g', hg', hy⟩ := Option.bind_eq_some_iff.1 hy
          exact ih (div_mono (pow10_pos hp) hf hg hg') hx hy

theorem f64Parts_mono {s s' : Nat} {e : Int} (hs : s ≤ s') {x y : F64} (hx : f64Parts s e = some x)
    (hy : f64Parts s' e = some y) : x.val ≤ y.val := by
  obtain ⟨f, hf, hx⟩ := Option.bind_eq_some_iff.1 hx
  obtain ⟨g, hg, hy⟩ := Option.bind_eq_some_iff.1 hy
  refine fromParts_mono (roundQ_mono (by norm_num) (by norm_num) ?_ hf hg) hx hy
  have : (s : ℚ) ≤ s' := by exact_mod_cast hs
  simpa using this

/-- What is printed lies in the interval of the number. -/
theorem formatF64_inI {x : F64} {u : Str} (h : formatF64 x = some u) :
    ∃ s e, Decimal u false s e ∧ (x.m = 0 ∧ s = 0 ∨ 0 < x.m ∧ InI x (s * 10 ^ e)) := by
  unfold formatF64 at h
  split at h
  · next hm =>
    obtain rfl := Option.some.inj h
    exact ⟨0, -1, ⟨['0'], ['0'], ['.', '0'], [], 0, rfl, digits_all.2 ⟨by simp, rfl⟩, .inl rfl,
      .inr ⟨digits_all.2 ⟨by simp, rfl⟩, rfl⟩, .inl ⟨rfl, rfl⟩, rfl, rfl⟩, .inl ⟨hm, rfl⟩⟩
  · next hm =>
    have hm0 : 0 < x.m := by omega
    obtain ⟨⟨n, k⟩, hr, rfl⟩ := Option.map_eq_some_iff.1 h
    obtain ⟨h1, -, -⟩ := shortest_inI hm0 hr
    rcases (formatDec_decimal (shortest_pos hm0 hr) k).2 with ⟨h0, -, hd⟩ | hd
    · refine ⟨_, _, hd, .inr ⟨hm0, ?_⟩⟩
      have hkq : (10 : ℚ) ^ k = 10 ^ k.toNat := by rw [← zpow_natCast, Int.toNat_of_nonneg h0]
      rw [hkq] at h1
      have : ((n * 10 ^ (k.toNat + 1) : Nat) : ℚ) * 10 ^ (-1 : Int) = n * 10 ^ k.toNat := by
        push_cast
        rw [pow_succ, zpow_neg_one]
        field_simp
      rwa [this]
    · exact ⟨_, _, hd, .inr ⟨hm0, h1⟩⟩

/-- Printing keeps the order. -/
theorem formatF64_mono {x y : F64} (hx : x.m = 0 ∨ Norm x) (hy : y.m = 0 ∨ Norm y) (h : x.val ≤ y.val) {u w : Str}
    (hu : formatF64 x = some u) (hw : formatF64 y = some w) :
    ∃ s e s' e', Decimal u false s e ∧ Decimal w false s' e' ∧ (s : ℚ) * 10 ^ e ≤ s' * 10 ^ e' := by
  obtain ⟨s, e, d1, c1⟩ := formatF64_inI hu
  obtain ⟨s', e', d2, c2⟩ := formatF64_inI hw
  refine ⟨s, e, s', e', d1, d2, ?_⟩
  rcases c1 with ⟨hm, rfl⟩ | ⟨hm, i1⟩
  · rw [Nat.cast_zero, zero_mul]
    positivity
  · have nx := hx.resolve_left (by omega)
    have hpos : 0 < x.val := by
      unfold F64.val
      have : (0 : ℚ) < x.m := by exact_mod_cast hm
      positivity
    rcases c2 with ⟨hm', rfl⟩ | ⟨hm', i2⟩
    · rw [F64.val_zero hm'] at h
      linarith
    · have ny := hy.resolve_left (by omega)
      rcases lt_or_eq_of_le h with hlt | heq
      · exact le_trans i1.2.1 (le_trans (interval_apart nx.big nx.small nx.min ny.big ny.small ny.min hlt) i2.1)
      · obtain ⟨e1, e2⟩ := interval_unique nx.big nx.small nx.min ny.big ny.small ny.min heq
        have : x = y := by cases x; cases y; simp only at e1 e2; rw [e1, e2]
        rw [this, hw] at hu
        obtain rfl := Option.some.inj hu
        have e3 := decimal_posOf d1
        rw [decimal_posOf d2] at e3
        obtain ⟨rfl, rfl⟩ := Prod.mk.inj e3
        exact le_refl _

/-- Two numbers with the same exponent, read and printed. -/
theorem read_mono {t t' u u' : Str} {s s' : Nat} {e : Int} (h : Decimal t false s e) (h' : Decimal t' false s' e)
    (hs : s ≤ s') (hs' : s' < 2 ^ 64) (hl : t.length < 2 ^ 30) (hl' : t'.length < 2 ^ 30) (h1 : -2 ^ 30 ≤ e)
    (h2 : e ≤ 2 ^ 30) (hu : (readF64 t).bind formatF64 = some u) (hu' : (readF64 t').bind formatF64 = some u') :
    ∃ s e s' e', Decimal u false s e ∧ Decimal u' false s' e' ∧ (s : ℚ) * 10 ^ e ≤ s' * 10 ^ e' := by
  rw [readF64_decimal h (by omega) hl h1 h2] at hu
  rw [readF64_decimal h' hs' hl' h1 h2] at hu'
  obtain ⟨x, hx, hu⟩ := Option.bind_eq_some_iff.1 hu
  obtain ⟨y, hy, hu'⟩ := Option.bind_eq_some_iff.1 hu'
  exact formatF64_mono (f64Parts_norm hx) (f64Parts_norm hy) (f64Parts_mono hs hx hy) hu hu'

theorem f64Text_split {t u : Str} {neg : Bool} {s : Nat} {e : Int} (h : Decimal t neg s e) (hu : f64Text t = some u) :
    ∃ t' u', Decimal t' false s e ∧ t'.length ≤ t.length ∧ (readF64 t').bind formatF64 = some u' ∧
      ∀ s' e', Decimal u' false s' e' → Decimal u neg s' e' := by
  cases neg with
  | false =>
    rw [f64Text_pos h] at hu
    exact ⟨t, u, h, le_refl _, hu, fun _ _ h => h⟩
  | true =>
    obtain ⟨t', rfl, hp⟩ := Decimal.of_neg h
    simp only [f64Text] at hu
    obtain ⟨u', hu', rfl⟩ := Option.map_eq_some_iff.1 hu
    exact ⟨t', u', hp, by simp, hu', fun _ _ h => Decimal.neg h⟩

theorem read_zero_val {t u : Str} {e : Int} (h : Decimal t false 0 e) (hl : t.length < 2 ^ 29) (h1 : -2 ^ 30 ≤ e)
    (h2 : e ≤ 2 ^ 30) (hu : (readF64 t).bind formatF64 = some u) : Decimal u false 0 (-1) := by
  rw [read_zero' h hl h1 h2] at hu
  obtain rfl := Option.some.inj hu
  exact ⟨['0'], ['0'], ['.', '0'], [], 0, rfl, digits_all.2 ⟨by simp, rfl⟩, .inl rfl,
      .inr ⟨digits_all.2 ⟨by simp, rfl⟩, rfl⟩, .inl ⟨rfl, rfl⟩, rfl, rfl⟩

/-- The same with signs. -/
theorem f64Text_mono {t t' u u' : Str} {neg neg' : Bool} {s s' : Nat} {e : Int} (h : Decimal t neg s e)
    (h' : Decimal t' neg' s' e) (hv : decimalVal neg s e ≤ decimalVal neg' s' e) (hs : s < 2 ^ 64) (hs' : s' < 2 ^ 64)
    (hl : t.length < 2 ^ 29) (hl' : t'.length < 2 ^ 29) (h1 : -2 ^ 30 ≤ e) (h2 : e ≤ 2 ^ 30)
    (hu : f64Text t = some u) (hu' : f64Text t' = some u') :
    ∃ a c a' c', Decimal u neg a c ∧ Decimal u' neg' a' c' ∧ decimalVal neg a c ≤ decimalVal neg' a' c' := by
  obtain ⟨p, q, hp, hpl, hq, hr⟩ := f64Text_split h hu
  obtain ⟨p', q', hp', hpl', hq', hr'⟩ := f64Text_split h' hu'
  have hT : (0 : ℚ) < 10 ^ e := by positivity
  have some1 : ∃ a c, Decimal q false a c := by
    obtain ⟨x, -, hx⟩ := Option.bind_eq_some_iff.1 hq
    exact (formatF64_decimal hx).2
  have some2 : ∃ a c, Decimal q' false a c := by
    obtain ⟨x, -, hx⟩ := Option.bind_eq_some_iff.1 hq'
    exact (formatF64_decimal hx).2
  cases neg with
  | false =>
    cases neg' with
    | false =>
      simp only [decimalVal, Bool.false_eq_true, if_false, one_mul] at hv
      have hle : (s : ℚ) ≤ s' := le_of_mul_le_mul_right hv hT
      obtain ⟨a, c, a', c', d1, d2, d3⟩ := read_mono hp hp' (by exact_mod_cast hle) hs' (by omega) (by omega) h1 h2 hq hq'
      exact ⟨a, c, a', c', hr _ _ d1, hr' _ _ d2, by simpa only [decimalVal, Bool.false_eq_true, if_false, one_mul] using d3⟩
    | true =>
      simp only [decimalVal, Bool.false_eq_true, if_false, if_true, one_mul] at hv
      have hz : s = 0 := by
        rcases Nat.eq_zero_or_pos s with h0 | h0
        · exact h0
        · have e1 : (0 : ℚ) < s * 10 ^ e := by
            have : (0 : ℚ) < s := by exact_mod_cast h0
            positivity
          have e2 : (0 : ℚ) ≤ s' * 10 ^ e := by positivity
          linarith
      have hz' : s' = 0 := by
        rcases Nat.eq_zero_or_pos s' with h0 | h0
        · exact h0
        · have e1 : (0 : ℚ) < s' * 10 ^ e := by
            have : (0 : ℚ) < s' := by exact_mod_cast h0
            positivity
          have e2 : (0 : ℚ) ≤ s * 10 ^ e := by positivity
          linarith
      subst hz hz'
      exact ⟨_, _, _, _, hr _ _ (read_zero_val hp (by omega) h1 h2 hq), hr' _ _ (read_zero_val hp' (by omega) h1 h2 hq'),
        by simp [decimalVal]⟩
  | true =>
    cases neg' with
    | false =>
      obtain ⟨a, c, d1⟩ := some1
      obtain ⟨a', c', d2⟩ := some2
      refine ⟨a, c, a', c', hr _ _ d1, hr' _ _ d2, ?_⟩
      simp only [decimalVal, Bool.false_eq_true, if_false, if_true, one_mul]
      have e1 : (0 : ℚ) ≤ a * 10 ^ c := by positivity
      have e2 : (0 : ℚ) ≤ a' * 10 ^ c' := by positivity
      linarith
    | true =>
      simp only [decimalVal, if_true] at hv
      have hv' : (s' : ℚ) * 10 ^ e ≤ s * 10 ^ e := by linarith
      have hle : (s' : ℚ) ≤ s := le_of_mul_le_mul_right hv' hT
      obtain ⟨a, c, a', c', d1, d2, d3⟩ := read_mono hp' hp (by exact_mod_cast hle) hs (by omega) (by omega) h1 h2 hq' hq
      refine ⟨a', c', a, c, hr _ _ d2, hr' _ _ d1, ?_⟩
      simp only [decimalVal, if_true]
      linarith

end Verif.Algo
