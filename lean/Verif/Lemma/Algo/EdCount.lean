import Verif.Lemma.Algo.EdKeys
import Verif.Lemma.Algo.TwistOrder
import Verif.Lemma.Algo.Tags
import Verif.Spec.EdWeak

/-!
# The orders of the public keys for EdDSA
-/

namespace Verif.Algo

open WeierstrassCurve.Affine Spec

theorem montT_one : montT (1 : Fp) curveA = mont ed.A := by
  show (⟨0, 1 * curveA, 0, 1 ^ 2, 0⟩ : WeierstrassCurve Fp) = ⟨0, curveA, 0, 1, 0⟩
  rw [one_mul, one_pow]

theorem ed_order (D : (mont ed.A).Point) : (8 * edL) • D = 0 := by
  have : ∀ W, montT (1 : Fp) curveA = W → ∀ D : W.Point, (8 * ell) • D = 0 := by
    rintro _ rfl D
    exact curve_order D
  exact this _ montT_one D

theorem ed_card : Nat.card (mont ed.A).Point = 8 * edL := by
  have : ∀ W, montT (1 : Fp) curveA = W → Nat.card W.Point = 8 * ell := by
    rintro _ rfl
    exact card_curves.1
  exact this _ montT_one

/-- The points of order dividing eight. -/
theorem ed_eight {D : (mont ed.A).Point} (h : 8 • D = 0) :
    D = 0 ∨ ∃ u v hp, D = .some u v hp ∧ (u = 0 ∨ u = 1 ∨ u = ((lowA : ℕ) : Fp) ∨ u = ((lowB : ℕ) : Fp)) := by
  have : ∀ W, montT (1 : Fp) curveA = W → ∀ D : W.Point, 8 • D = 0 →
      D = 0 ∨ ∃ u v hp, D = .some u v hp ∧ (u = 0 ∨ u = 1 ∨ u = ((lowA : ℕ) : Fp) ∨ u = ((lowB : ℕ) : Fp)) := by
    rintro _ rfl D h
    match D, h with
    | .zero, _ => exact .inl rfl
    | .some u v hp, h =>
      right
      refine ⟨u, v, hp, rfl, ?_⟩
      have := curve_eight h
      simpa only [xcT, div_one] using this
  exact this _ montT_one D h

/-- Eight times a point is a multiple of the base point. -/
theorem ed_multiple {A G : (mont ed.A).Point} (hG : addOrderOf G = edL) : ∃ k, k < edL ∧ 8 • A = (8 * k) • G := by
  have hfin : Finite (mont ed.A).Point := Nat.finite_of_card_ne_zero (by rw [ed_card]; decide)
  have h1 : (8 : ℕ) • A ∈ AddSubgroup.zmultiples G := by
    have hc : Nat.card ((mont ed.A).Point ⧸ AddSubgroup.zmultiples G) = 8 := by
      have := AddSubgroup.card_eq_card_quotient_mul_card_addSubgroup (AddSubgroup.zmultiples G)
      rw [ed_card, Nat.card_zmultiples, hG] at this
      exact (Nat.eq_of_mul_eq_mul_right edL_pos this).symm
    have h8 : (8 : ℕ) • (QuotientAddGroup.mk' (AddSubgroup.zmultiples G) A) = 0 := by
      rw [← hc]; exact card_nsmul_eq_zero'
    rw [← map_nsmul] at h8
    exact (QuotientAddGroup.eq_zero_iff _).1 h8
  obtain ⟨j, hj⟩ := mem_zmultiples_iff_mem_range_addOrderOf.1 h1 |> Finset.mem_image.1
  rw [hG] at hj
  have hL : edL • G = 0 := by rw [← hG]; exact addOrderOf_nsmul_eq_zero G
  refine ⟨((j : ZMod edL) * (8 : ZMod edL)⁻¹).val, ZMod.val_lt _, ?_⟩
  rw [← hj.2]
  refine nsmul_edL hL ?_
  have h8 : (8 : ZMod edL) ≠ 0 := by
    have : ((8 : ℕ) : ZMod edL) ≠ 0 := by
      rw [Ne, ZMod.natCast_eq_zero_iff]
      exact fun h => absurd (Nat.le_of_dvd (by decide) h) (by decide)
    exact_mod_cast this
  push_cast
  rw [ZMod.natCast_rightInverse, mul_comm (j : ZMod edL), mul_inv_cancel_left₀ h8]

/-- The order of a point: a divisor of eight, or one times the order of the base point. -/
theorem ed_addOrder (A : (mont ed.A).Point) :
    (8 • A = 0 ∧ addOrderOf A ∣ 8) ∨ (8 • A ≠ 0 ∧ edL ∣ addOrderOf A) := by
  by_cases h : 8 • A = 0
  · exact .inl ⟨h, addOrderOf_dvd_iff_nsmul_eq_zero.2 h⟩
  · right
    refine ⟨h, ?_⟩
    by_contra hn
    have hc : (addOrderOf A).Coprime edL := ((Nat.Prime.coprime_iff_not_dvd prime_ell).2 hn).symm
    exact h (addOrderOf_dvd_iff_nsmul_eq_zero.1 (hc.dvd_of_dvd_mul_right
      (addOrderOf_dvd_iff_nsmul_eq_zero.2 (ed_order A))))

theorem edWeak_iff_eight {pk : Bytes} {a : Nat × Nat} {A : (mont ed.A).Point} (ha : edDecompress pk = some a)
    (hA : EStands a A) : EdWeak pk ↔ 8 • A = 0 := by
  have h8 := estands_mul hA (show 8 < 2 ^ 256 by decide)
  constructor
  · rintro ⟨a', ha', h⟩
    rw [ha] at ha'
    obtain rfl := Option.some.inj ha'
    exact estands_zero_eq h8 h
  · intro h
    rw [h] at h8
    exact ⟨a, ha, estands_unique h8 estands_zero⟩

/-- For which messages a signature is accepted under a key. -/
theorem edVerify_messages {pk m m' sig : Bytes} {a : Nat × Nat} {A : (mont ed.A).Point} (ha : edDecompress pk = some a)
    (hA : EStands a A) (h : edVerify pk m sig = some true) :
    edVerify pk m' sig = some true ↔
      edHash (sig.take 32 ++ pk ++ m) % addOrderOf A = edHash (sig.take 32 ++ pk ++ m') % addOrderOf A := by
  obtain ⟨G, hG, hL⟩ := exists_edOrder
  obtain ⟨a', s, rb, ha', hrb, hs, rfl⟩ := edVerify_shape h
  rw [List.take_append_of_le_length hrb.ge, List.take_of_length_le hrb.le]
  obtain ⟨q, hq, h1⟩ := (edVerify_iff ha hA hG m rb hrb hs).1 h
  rw [edVerify_iff ha hA hG m' rb hrb hs]
  have key : edHash (rb ++ pk ++ m) • -A = edHash (rb ++ pk ++ m') • -A ↔
      edHash (rb ++ pk ++ m) % addOrderOf A = edHash (rb ++ pk ++ m') % addOrderOf A := by
    rw [neg_nsmul, neg_nsmul, neg_inj, nsmul_eq_nsmul_iff_modEq]
    rfl
  rw [← key]
  constructor
  · rintro ⟨q', hq', h2⟩
    obtain rfl := estands_compress hq hq' (h1.trans h2.symm)
    exact add_right_cancel (estands_inj hq hq')
  · intro he
    exact ⟨q, by rw [← he]; exact hq, h1⟩

/-- When a signature without a secret is accepted. -/
theorem edVerify_free {pk : Bytes} {a : Nat × Nat} {A : (mont ed.A).Point} (ha : edDecompress pk = some a)
    (hA : EStands a A) {s : Nat} (hs : s < edL) (m : Bytes) :
    edVerify pk m (edFree s) = some true ↔ edHash ((edFree s).take 32 ++ pk ++ m) % addOrderOf A = 0 := by
  obtain ⟨G, hG, hL⟩ := exists_edOrder
  have hr := estands_mul hG ((hs.trans edL_lt).trans (show 2 ^ 253 < 2 ^ 256 by decide))
  have hrb : (edCompress (edMul s edBase)).length = 32 := edCompress_len _
  unfold edFree
  rw [List.take_append_of_le_length hrb.ge, List.take_of_length_le hrb.le, edVerify_iff ha hA hG m _ hrb hs,
    ← Nat.dvd_iff_mod_eq_zero, addOrderOf_dvd_iff_nsmul_eq_zero]
  constructor
  · rintro ⟨q, hq, h1⟩
    obtain rfl := estands_compress hq hr h1
    have := estands_inj hq hr
    rw [add_eq_right, neg_nsmul, neg_eq_zero] at this
    exact this
  · intro h
    refine ⟨_, ?_, rfl⟩
    rw [neg_nsmul, h, neg_zero, zero_add]
    exact hr

/-! ## The keys of small order -/

theorem cast_p_sub_one : (((p25519 - 1 : ℕ)) : Fp) = -1 := by
  rw [Nat.cast_sub (by decide), CharP.cast_eq_zero (Algo.Fp) Algo.p25519]
  push_cast
  ring

theorem ed_weak_y {x y : Nat} {D : (mont ed.A).Point} (hD : EStands (x, y) D) (h : 8 • D = 0) :
    y = 1 ∨ y = p25519 - 1 ∨ y = 0 ∨
      y = 55188659117513257062467267217118295137698188065244968500265048394206261417927 ∨
      y = 2707385501144840649318225287225658788936804267575313519463743609750303402022 := by
  obtain ⟨⟨-, hy⟩, hrel⟩ := hD
  have hy : y < p25519 := hy
  rcases ed_eight h with rfl | ⟨u, v, hp, rfl, hu⟩
  · left
    have h1 : ((y : ℕ) : Fp) = ((1 : ℕ) : Fp) := by rw [Nat.cast_one]; exact hrel.2
    exact cast_inj hy (by decide) h1
  · obtain ⟨-, h1, h2, -⟩ := hrel
    have h2 : u * (1 - (y : Fp)) = 1 + (y : Fp) := h2
    have low : ∀ w z : Nat, u = ((w : ℕ) : Fp) → (w + 1) % p25519 ≠ 0 → (w + z * (p25519 - (w + 1) % p25519)) % p25519 = 1 →
        z < p25519 → y = z := by
      intro w z hw hw1 hz hzp
      refine cast_inj hy hzp ?_
      have e1 : ((w + z * (p25519 - (w + 1) % p25519) : ℕ) : Fp) = ((1 : ℕ) : Fp) := by
        rw [ZMod.natCast_eq_natCast_iff', hz]; rfl
      rw [Nat.cast_add, Nat.cast_mul, Nat.cast_sub (Nat.mod_lt _ p_pos).le, ZMod.natCast_mod,
        CharP.cast_eq_zero (Algo.Fp) Algo.p25519] at e1
      push_cast at e1
      have hne : ((w + 1 : ℕ) : Fp) ≠ 0 := cast_ne_zero hw1
      push_cast at hne
      rw [hw] at h2
      exact mul_left_cancel₀ hne (by linear_combination e1 - h2)
    rcases hu with hu | hu | hu | hu
    · right; left
      refine cast_inj hy (by decide) ?_
      rw [cast_p_sub_one]
      rw [hu, zero_mul] at h2
      linear_combination -h2
    · right; right; left
      exact low 1 0 (by rw [hu, Nat.cast_one]) (by decide) (by decide) (by decide)
    · right; right; right; left
      exact low lowA _ hu (by decide +kernel) (by decide +kernel) (by decide +kernel)
    · right; right; right; right
      exact low lowB _ hu (by decide +kernel) (by decide +kernel) (by decide +kernel)

/-- Eight times a point, by doubling. -/
def edEight (a : Nat × Nat) : Nat × Nat :=
  let b := edAdd a a
  let c := edAdd b b
  edAdd c c

theorem estands_eight {a : Nat × Nat} {A : (mont ed.A).Point} (hA : EStands a A) : EStands (edEight a) (8 • A) := by
  have h2 := estands_add hA hA
  have h4 := estands_add h2 h2
  have h8 := estands_add h4 h4
  rw [show A + A + (A + A) + (A + A + (A + A)) = 8 • A by
    rw [show (8 : ℕ) = 2 * 2 * 2 from rfl, mul_nsmul', mul_nsmul', two_nsmul, two_nsmul, two_nsmul]] at h8
  exact h8

theorem edWeakKeys_eight : ∀ pk ∈ edWeakKeys, ((edDecompress pk).map edEight) = some (0, 1) := by decide +kernel

theorem edWeakKeys_weak (pk : Bytes) (h : pk ∈ edWeakKeys) : EdWeak pk := by
  obtain ⟨a, ha, h8⟩ := Option.map_eq_some_iff.1 (edWeakKeys_eight pk h)
  obtain ⟨A, hA⟩ := edDecompress_stands ha
  exact (edWeak_iff_eight ha hA).2 (estands_zero_eq (estands_eight hA) h8)

/-- The keys of small order are fourteen. -/
theorem edWeak_iff {pk : Bytes} : EdWeak pk ↔ pk ∈ edWeakKeys := by
  refine ⟨?_, edWeakKeys_weak pk⟩
  rintro ⟨a, ha, h8⟩
  obtain ⟨A, hA⟩ := edDecompress_stands ha
  have hz : 8 • A = 0 := estands_zero_eq (estands_mul hA (show 8 < 2 ^ 256 by decide)) h8
  obtain ⟨x, y⟩ := a
  have hyv := ed_weak_y hA hz
  have hl := edDecompress_len ha
  have hy : leNat pk % 2 ^ 255 % p25519 = y := by
    unfold edDecompress at ha
    rw [if_neg (by rw [hl]; decide)] at ha
    simp only at ha
    split_ifs at ha <;> (simp only [Option.some.injEq, Prod.mk.injEq] at ha; exact ha.2)
  have hlt : leNat pk < 2 ^ 256 := by
    have := leNat_lt_pow pk
    rw [hl] at this
    exact this
  have hpk : leBytes 32 (leNat pk) = pk := by
    have := leBytes_leNat pk
    rwa [hl] at this
  have hnum : leNat pk % 2 ^ 255 ∈ edWeakNumbers := by
    have hm : leNat pk % 2 ^ 255 < 2 ^ 255 := Nat.mod_lt _ (by decide)
    generalize leNat pk % 2 ^ 255 = z at hy hm
    have hp : p25519 = 2 ^ 255 - 19 := by decide
    unfold edWeakNumbers
    simp only [List.mem_cons, List.not_mem_nil, or_false]
    rw [hp] at hy hyv ⊢
    omega
  rw [← hpk]
  unfold edWeakKeys
  rw [List.mem_flatMap]
  refine ⟨_, hnum, ?_⟩
  simp only [List.mem_cons, List.not_mem_nil, or_false]
  have : leNat pk = leNat pk % 2 ^ 255 ∨ leNat pk = 2 ^ 255 + leNat pk % 2 ^ 255 := by omega
  rcases this with h | h
  · left; rw [← h]
  · right; rw [← h]

end Verif.Algo
