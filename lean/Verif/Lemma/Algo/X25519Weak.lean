import Verif.Lemma.Algo.TwistOrder

/-!
# Which secrets of X25519 are equal
-/

namespace Verif.Algo

open WeierstrassCurve.Affine

/-- The coordinates of the points of small order. -/
def Low (u : Fp) : Prop := u = 0 ∨ u = 1 ∨ u = -1 ∨ u = ((lowA : ℕ) : Fp) ∨ u = ((lowB : ℕ) : Fp)

theorem low_eight {d : Fp} (hd : d ≠ 0) {D : (montT d curveA).Point} (h : Low (xcT D)) : 8 • D = 0 := by
  have key : ∀ u : Nat, ((u : ℕ) : Fp) = xcT D → montMul 4 u = 0 → 8 • D = 0 := by
    intro u hu h0
    have a := cast_montMulT hd hu (k := 4) (by decide)
    rw [h0, Nat.cast_zero] at a
    have := doubleT_of_xc_zero hd a.symm
    rwa [← mul_nsmul'] at this
  rcases h with h | h | h | h | h
  · exact key 0 (by rw [h, Nat.cast_zero]) (by decide +kernel)
  · exact key 1 (by rw [h, Nat.cast_one]) (by decide +kernel)
  · refine key (p25519 - 1) ?_ (by decide +kernel)
    rw [h, Nat.cast_sub p_pos, CharP.cast_eq_zero, Nat.cast_one, zero_sub]
  · exact key lowA h.symm (by decide +kernel)
  · exact key lowB h.symm (by decide +kernel)

theorem eight_of_mul {G : Type} [AddGroup G] {D : G} {q m : Nat} (hq : q.Prime) (h : (8 * q) • D = 0)
    (hm : (8 * m) • D = 0) (hn : ¬ q ∣ m) : 8 • D = 0 := by
  have h1 := addOrderOf_dvd_iff_nsmul_eq_zero.2 h
  have h2 := addOrderOf_dvd_iff_nsmul_eq_zero.2 hm
  have h3 := Nat.dvd_gcd h1 h2
  rw [Nat.gcd_mul_left, (Nat.Prime.coprime_iff_not_dvd hq).2 hn] at h3
  exact addOrderOf_dvd_iff_nsmul_eq_zero.1 h3

theorem curve_low {D : (montT (1 : Fp) curveA).Point} : 8 • D = 0 ↔ Low (xcT D) := by
  refine ⟨fun h => ?_, low_eight one_ne_zero⟩
  rcases curve_eight h with h | h | h | h
  · exact .inl h
  · exact .inr (.inl h)
  · exact .inr (.inr (.inr (.inl h)))
  · exact .inr (.inr (.inr (.inr h)))

theorem twist_low {D : (montT (2 : Fp) curveA).Point} : 8 • D = 0 ↔ Low (xcT D) := by
  refine ⟨fun h => ?_, low_eight two_ne⟩
  have h1 := addOrderOf_dvd_iff_nsmul_eq_zero.2 h
  have h2 := addOrderOf_dvd_iff_nsmul_eq_zero.2 (twist_order D)
  have h3 := Nat.dvd_gcd h1 h2
  rw [show Nat.gcd 8 (4 * ellT) = 4 by decide +kernel] at h3
  rcases twist_four (addOrderOf_dvd_iff_nsmul_eq_zero.1 h3) with h | h
  · exact .inl h
  · exact .inr (.inr (.inl h))

/-- Multiples of a point by numbers that are private keys. -/
theorem multiples {d : Fp} (hd : d ≠ 0) {D : (montT d curveA).Point} {q i j : Nat} (hq : q.Prime)
    (hl : 2 ^ 252 < q) (h : (8 * q) • D = 0) (hi : 2 ^ 251 ≤ i) (hi' : i < 2 ^ 252) (hj' : j < 2 ^ 252) :
    (xcT ((8 * i) • D) = 0 ↔ 8 • D = 0) ∧
    (xcT ((8 * i) • D) = xcT ((8 * j) • D) ↔ 8 • D = 0 ∨ i = j ∨ i + j = q) := by
  have z : xcT ((8 * i) • D) = 0 ↔ 8 • D = 0 := by
    constructor
    · intro h0
      have h2 := doubleT_of_xc_zero hd h0
      rw [← mul_nsmul', show 2 * (8 * i) = 8 * (2 * i) by ring] at h2
      refine eight_of_mul hq h h2 fun hdv => ?_
      rcases (Nat.Prime.dvd_mul hq).1 hdv with h | h
      · have := Nat.le_of_dvd (by decide) h; omega
      · have := Nat.le_of_dvd (by omega) h; omega
    · intro h8
      rw [mul_nsmul, h8, nsmul_zero]; rfl
  refine ⟨z, ?_, ?_⟩
  · intro he
    by_cases h0 : xcT ((8 * i) • D) = 0
    · exact .inl (z.1 h0)
    have small : ∀ {m n : Nat}, n < m → m < 2 ^ 252 → (8 * m) • D = (8 * n) • D → 8 • D = 0 := by
      intro m n hnm hm he
      have h1 : (8 * (m - n)) • D = 0 := by
        have : (8 * (m - n)) • D + (8 * n) • D = 0 + (8 * n) • D := by
          rw [← add_nsmul, zero_add, ← Nat.mul_add, Nat.sub_add_cancel hnm.le, he]
        exact add_right_cancel this
      refine eight_of_mul hq h h1 fun hdv => ?_
      have := Nat.le_of_dvd (by omega) hdv; omega
    rcases eq_or_neg_of_xcT hd he h0 with h' | h'
    · rcases Nat.lt_trichotomy i j with hl | hl | hl
      · exact .inl (small hl hj' h'.symm)
      · exact .inr (.inl hl)
      · exact .inl (small hl hi' h')
    · have h1 : (8 * (i + j)) • D = 0 := by
        rw [Nat.mul_add, add_nsmul, h', neg_add_cancel]
      by_cases hdv : q ∣ i + j
      · right; right
        obtain ⟨c, hc⟩ := hdv
        have c1 : c = 1 := by
          rcases Nat.lt_or_ge c 2 with hlt | hge
          · have : c ≠ 0 := by rintro rfl; omega
            omega
          · have := Nat.mul_le_mul_left q hge; omega
        rw [hc, c1, Nat.mul_one]
      · exact .inl (eight_of_mul hq h h1 hdv)
  · rintro (h8 | rfl | hs)
    · rw [z.2 h8, mul_nsmul, h8, nsmul_zero]; rfl
    · rfl
    · have h1 : (8 * i) • D + (8 * j) • D = 0 := by
        rw [← add_nsmul, ← Nat.mul_add, hs, h]
      rw [eq_neg_of_add_eq_zero_left h1, xcT_neg]

theorem leBytes_zero_iff {x : Nat} (hx : x < p25519) : leBytes 32 x = List.replicate 32 0 ↔ ((x : ℕ) : Fp) = 0 := by
  rw [show List.replicate 32 (0 : UInt8) = leBytes 32 0 by decide +kernel]
  constructor
  · intro h
    rw [leBytes_inj hx p_pos h, Nat.cast_zero]
  · intro h
    have : ((x : ℕ) : Fp) = ((0 : ℕ) : Fp) := by rw [h, Nat.cast_zero]
    rw [ZMod.natCast_eq_natCast_iff', Nat.mod_eq_of_lt hx, Nat.zero_mod] at this
    rw [this]

theorem leBytes_eq_iff {x y : Nat} (hx : x < p25519) (hy : y < p25519) :
    leBytes 32 x = leBytes 32 y ↔ ((x : ℕ) : Fp) = ((y : ℕ) : Fp) := by
  constructor
  · intro h; rw [leBytes_inj hx hy h]
  · intro h
    rw [ZMod.natCast_eq_natCast_iff', Nat.mod_eq_of_lt hx, Nat.mod_eq_of_lt hy] at h
    rw [h]

theorem ell_gt : 2 ^ 252 < ell := by decide
theorem ellT_gt : 2 ^ 252 < ellT := by decide

/-- Which public keys give the zero secret, and which private keys give the same secret. -/
theorem x25519_cases (a b pk : Bytes) :
    (x25519 a pk = List.replicate 32 0 ↔ Low ((uCoord pk : ℕ) : Fp)) ∧
    (x25519 a pk = x25519 b pk ↔ Low ((uCoord pk : ℕ) : Fp) ∨ clamp a = clamp b ∨
      (IsSquare (rhs ((uCoord pk : ℕ) : Fp)) ∧ clamp a + clamp b = 8 * ell) ∨
      (¬ IsSquare (rhs ((uCoord pk : ℕ) : Fp)) ∧ clamp a + clamp b = 8 * ellT)) := by
  obtain ⟨i, hi, i1, i2⟩ := clamp_form a
  obtain ⟨j, hj, j1, j2⟩ := clamp_form b
  rw [x25519, x25519, leBytes_zero_iff (montMul_lt ..), leBytes_eq_iff (montMul_lt ..) (montMul_lt ..)]
  rcases exists_point ((uCoord pk : ℕ) : Fp) with ⟨hs, D, hD⟩ | ⟨hs, D, hD⟩
  · rw [cast_montMulT one_ne_zero hD (clamp_lt a), cast_montMulT one_ne_zero hD (clamp_lt b), hi, hj]
    obtain ⟨z, e⟩ := multiples one_ne_zero prime_ell ell_gt (curve_order D) i1 i2 j2
    rw [z, e, curve_low, ← hD]
    simp only [hs, true_and, not_true, false_and, or_false, iff_self]
    rw [← Nat.mul_add, Nat.mul_right_inj (by decide), Nat.mul_right_inj (by decide)]
  · rw [cast_montMulT two_ne hD (clamp_lt a), cast_montMulT two_ne hD (clamp_lt b), hi, hj]
    have ho : (8 * ellT) • D = 0 := by
      rw [show 8 * ellT = 2 * (4 * ellT) by ring, mul_nsmul', twist_order, nsmul_zero]
    obtain ⟨z, e⟩ := multiples two_ne prime_ellT ellT_gt ho i1 i2 j2
    rw [z, e, twist_low, ← hD]
    simp only [hs, false_and, not_false_iff, true_and, false_or, iff_self]
    rw [← Nat.mul_add, Nat.mul_right_inj (by decide), Nat.mul_right_inj (by decide)]

end Verif.Algo
