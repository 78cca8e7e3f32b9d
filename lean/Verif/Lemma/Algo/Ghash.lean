import Verif.Lemma.Algo.Symmetric
import Mathlib.RingTheory.AdjoinRoot
import Mathlib.FieldTheory.Finite.Basic
import Mathlib.Algebra.CharP.Two
import Mathlib.Algebra.CharP.Algebra
import Mathlib.Tactic.ComputeDegree
import Mathlib.Dynamics.PeriodicPts.Lemmas

/-!
# GHASH: few hash keys give two messages two given tags

The blocks of GCM are the elements of the field of `2 ^ 128` elements, and GHASH is the value of a polynomial.
-/

namespace Verif.Algo

set_option maxRecDepth 8000

open Polynomial

/-- The polynomial of the field of GCM (SP 800-38D, section 6.3). -/
noncomputable def gcmPoly : (ZMod 2)[X] := X ^ 128 + X ^ 7 + X ^ 2 + X + 1

theorem gcmPoly_degree : gcmPoly.natDegree = 128 := by
  unfold gcmPoly; compute_degree!

theorem gcmPoly_monic : gcmPoly.Monic := by
  unfold gcmPoly; monicity!

/-- The ring of blocks, which turns out to be a field. -/
abbrev GF := AdjoinRoot gcmPoly

/-- The class of `X`. -/
noncomputable abbrev gfX : GF := AdjoinRoot.root gcmPoly

instance : Nontrivial GF := AdjoinRoot.nontrivial _ (by
  rw [degree_eq_natDegree gcmPoly_monic.ne_zero, gcmPoly_degree]; decide)

instance : CharP GF 2 := charP_of_injective_algebraMap (algebraMap (ZMod 2) GF).injective 2

theorem gcmPoly_eval₂ {S : Type} [CommRing S] (i : ZMod 2 →+* S) (x : S) :
    gcmPoly.eval₂ i x = x ^ 128 + x ^ 7 + x ^ 2 + x + 1 := by
  simp [gcmPoly, eval₂_add, eval₂_pow]

theorem gfX_pow : gfX ^ 128 = gfX ^ 7 + gfX ^ 2 + gfX + 1 := by
  have h := (gcmPoly_eval₂ (AdjoinRoot.of gcmPoly) gfX).symm.trans (AdjoinRoot.eval₂_root gcmPoly)
  have h2 : gfX ^ 128 + (gfX ^ 7 + gfX ^ 2 + gfX + 1) = 0 := by rw [← h]; ring
  exact CharTwo.add_eq_zero.1 h2

/-- Bit `i` of a number as an element of the field. -/
noncomputable def gfBit (x i : Nat) : GF := if x.testBit i then 1 else 0

/-- The element a block stands for: the most significant bit is the constant term. -/
noncomputable def gfVal (x : Nat) : GF := ∑ i ∈ Finset.range 128, gfBit x (127 - i) * gfX ^ i

theorem gfBit_xor (a b i : Nat) : gfBit (a ^^^ b) i = gfBit a i + gfBit b i := by
  unfold gfBit
  rw [Nat.testBit_xor]
  cases a.testBit i <;> cases b.testBit i <;> simp [CharTwo.add_self_eq_zero]

theorem gfVal_xor (a b : Nat) : gfVal (a ^^^ b) = gfVal a + gfVal b := by
  unfold gfVal
  rw [← Finset.sum_add_distrib]
  exact Finset.sum_congr rfl fun i _ => by rw [gfBit_xor, add_mul]

theorem gfVal_zero : gfVal 0 = 0 := by
  unfold gfVal gfBit; simp

/-- The sum of the `n` low bits, the highest of them as the constant term. -/
noncomputable def gfLow (n x : Nat) : GF := ∑ i ∈ Finset.range n, gfBit x (n - 1 - i) * gfX ^ i

theorem gfLow_succ (n x : Nat) : gfLow (n + 1) x = gfBit x n + gfX * gfLow n x := by
  unfold gfLow
  rw [Finset.sum_range_succ', Finset.mul_sum, add_comm]
  congr 1
  · simp
  · refine Finset.sum_congr rfl fun i hi => ?_
    rw [show n + 1 - 1 - (i + 1) = n - 1 - i by omega, pow_succ]
    ring

theorem gfVal_shift {v : Nat} (hv : v < 2 ^ 128) :
    gfVal (v >>> 1) + gfBit v 0 * gfX ^ 128 = gfX * gfVal v := by
  have h127 : gfBit (v >>> 1) (127 - 0) = 0 := by
    unfold gfBit
    rw [Nat.testBit_shiftRight, Nat.testBit_lt_two_pow (by simpa using hv)]
    rfl
  have key : ∀ i ∈ Finset.range 127, gfBit (v >>> 1) (127 - (i + 1)) * gfX ^ (i + 1) =
      gfX * (gfBit v (127 - i) * gfX ^ i) := by
    intro i hi
    have hi := Finset.mem_range.1 hi
    unfold gfBit
    rw [Nat.testBit_shiftRight, show 1 + (127 - (i + 1)) = 127 - i by omega, pow_succ]
    ring
  unfold gfVal
  rw [Finset.sum_range_succ' _ 127, h127, zero_mul, add_zero, Finset.sum_congr rfl key,
    Finset.sum_range_succ _ 127, mul_add, Finset.mul_sum]
  congr 1
  rw [pow_succ gfX 127]
  simp only [Nat.sub_self]
  ring

theorem gfVal_e1 : gfVal (0xe1 <<< 120) = gfX ^ 128 := by
  have h : ∀ i ∈ Finset.range 128, gfBit (0xe1 <<< 120) (127 - i) * gfX ^ i =
      (if i = 7 then gfX ^ 7 else 0) + (if i = 2 then gfX ^ 2 else 0) + (if i = 1 then gfX else 0) +
        (if i = 0 then 1 else 0) := by
    intro i hi
    have hb : (0xe1 <<< 120 : Nat).testBit (127 - i) = decide (i = 7 ∨ i = 2 ∨ i = 1 ∨ i = 0) := by
      have : ∀ i : Fin 128, (0xe1 <<< 120 : Nat).testBit (127 - i) =
          decide (i.1 = 7 ∨ i.1 = 2 ∨ i.1 = 1 ∨ i.1 = 0) := by decide +kernel
      exact this ⟨i, Finset.mem_range.1 hi⟩
    unfold gfBit
    rw [hb]
    by_cases h7 : i = 7
    · subst h7; simp
    by_cases h2 : i = 2
    · subst h2; simp
    by_cases h1 : i = 1
    · subst h1; simp
    by_cases h0 : i = 0
    · subst h0; simp
    simp [h7, h2, h1, h0]
  unfold gfVal
  rw [Finset.sum_congr rfl h, Finset.sum_add_distrib, Finset.sum_add_distrib, Finset.sum_add_distrib, gfX_pow]
  simp [Finset.sum_ite_eq']

/-- Multiplication by `X`. -/
theorem gfVal_double {v : Nat} (hv : v < 2 ^ 128) :
    gfVal (if v &&& 1 = 1 then (v >>> 1) ^^^ (0xe1 <<< 120) else v >>> 1) = gfX * gfVal v ∧
      (if v &&& 1 = 1 then (v >>> 1) ^^^ (0xe1 <<< 120) else v >>> 1) < 2 ^ 128 := by
  have hs : v >>> 1 < 2 ^ 128 := lt_of_le_of_lt (Nat.shiftRight_le _ _) hv
  have hb : v.testBit 0 = decide (v &&& 1 = 1) := by
    rw [Nat.testBit_zero, Nat.and_one_is_mod]
  rw [← gfVal_shift hv]
  unfold gfBit
  rw [hb]
  split
  · rw [gfVal_xor, gfVal_e1]
    refine ⟨by simp_all, Nat.xor_lt_two_pow hs (by decide +kernel)⟩
  · exact ⟨by simp_all, hs⟩

theorem gfMul_lt (n x : Nat) {z v : Nat} (hz : z < 2 ^ 128) (hv : v < 2 ^ 128) : gfMul n x z v < 2 ^ 128 := by
  induction n generalizing z v with
  | zero => exact hz
  | succ n ih =>
    unfold gfMul
    refine ih ?_ (gfVal_double hv).2
    split
    · exact Nat.xor_lt_two_pow hz hv
    · exact hz

theorem gfVal_mul (n x : Nat) {z v : Nat} (hv : v < 2 ^ 128) :
    gfVal (gfMul n x z v) = gfVal z + gfLow n x * gfVal v := by
  induction n generalizing z v with
  | zero => simp [gfMul, gfLow]
  | succ n ih =>
    have hb : x.testBit n = decide (x >>> n &&& 1 = 1) := by
      rw [Nat.testBit_eq_decide_div_mod_eq, Nat.and_one_is_mod, Nat.shiftRight_eq_div_pow]
    unfold gfMul
    rw [ih (gfVal_double hv).2, (gfVal_double hv).1, gfLow_succ]
    unfold gfBit
    rw [hb]
    split
    · rw [gfVal_xor]
      simp_all
      ring
    · simp_all
      ring

/-- The product of blocks is the product in the field. -/
theorem gfVal_gfMul (x : Nat) {v : Nat} (hv : v < 2 ^ 128) : gfVal (gfMul 128 x 0 v) = gfVal x * gfVal v := by
  rw [gfVal_mul 128 x hv, gfVal_zero, zero_add]
  rfl

theorem gfVal_inj {a b : Nat} (ha : a < 2 ^ 128) (hb : b < 2 ^ 128) (h : gfVal a = gfVal b) : a = b := by
  have h0 : gfVal (a ^^^ b) = 0 := by rw [gfVal_xor, h, CharTwo.add_self_eq_zero]
  have hx : a ^^^ b < 2 ^ 128 := Nat.xor_lt_two_pow ha hb
  suffices a ^^^ b = 0 by
    have h := congrArg (· ^^^ b) this
    simpa [Nat.xor_assoc] using h
  generalize a ^^^ b = n at h0 hx
  let q : (ZMod 2)[X] := ∑ i ∈ Finset.range 128, C (if n.testBit (127 - i) then 1 else 0) * X ^ i
  have hq : AdjoinRoot.mk gcmPoly q = 0 := by
    rw [← h0]
    unfold gfVal gfBit
    simp only [q, map_sum, map_mul, map_pow, AdjoinRoot.mk_X]
    refine Finset.sum_congr rfl fun i _ => ?_
    split <;> simp
  have hd : q.degree < gcmPoly.degree := by
    rw [degree_eq_natDegree gcmPoly_monic.ne_zero, gcmPoly_degree]
    refine (degree_sum_le _ _).trans_lt ?_
    refine (Finset.sup_lt_iff (by exact WithBot.bot_lt_coe _)).2 fun i hi => ?_
    exact (degree_C_mul_X_pow_le _ _).trans_lt (by exact_mod_cast Finset.mem_range.1 hi)
  have hq0 : q = 0 := by
    by_contra hne
    exact absurd (degree_le_of_dvd (AdjoinRoot.mk_eq_zero.1 hq) hne) (not_le.2 hd)
  apply Nat.eq_of_testBit_eq
  intro i
  rw [Nat.zero_testBit]
  by_cases hi : i < 128
  · have hc := congrArg (fun p => coeff p (127 - i)) hq0
    simp only [q, finsetSum_coeff, coeff_C_mul, coeff_X_pow, coeff_zero, mul_ite, mul_one, mul_zero] at hc
    rw [Finset.sum_ite_eq, if_pos (Finset.mem_range.2 (by omega)), show 127 - (127 - i) = i by omega] at hc
    by_contra hb
    simp [hb] at hc
  · exact Nat.testBit_lt_two_pow (lt_of_lt_of_le hx (Nat.pow_le_pow_right (by decide) (by omega)))

/-! ## The ring of blocks is a field -/

/-- Squared `k` times. -/
def gfSq : Nat → Nat → Nat
  | 0, x => x
  | k + 1, x => gfSq k (gfMul 128 x 0 x)

theorem gfSq_lt (k : Nat) {x : Nat} (hx : x < 2 ^ 128) : gfSq k x < 2 ^ 128 := by
  induction k generalizing x with
  | zero => exact hx
  | succ k ih => exact ih (gfMul_lt 128 x (by decide) hx)

theorem gfVal_gfSq (k : Nat) {x : Nat} (hx : x < 2 ^ 128) : gfVal (gfSq k x) = gfVal x ^ 2 ^ k := by
  induction k generalizing x with
  | zero => simp [gfSq]
  | succ k ih =>
    rw [gfSq, ih (gfMul_lt 128 x (by decide) hx), gfVal_gfMul x hx, ← sq, ← pow_mul, pow_succ']

theorem gfVal_one_bit {k : Nat} (hk : k < 128) : gfVal (2 ^ (127 - k)) = gfX ^ k := by
  unfold gfVal
  rw [Finset.sum_eq_single_of_mem k (Finset.mem_range.2 hk)]
  · unfold gfBit
    rw [Nat.testBit_two_pow_self]
    simp
  · intro i hi hne
    unfold gfBit
    have hi := Finset.mem_range.1 hi
    rw [Nat.testBit_two_pow_of_ne (by omega)]
    simp

theorem gfX_frob : gfX ^ 2 ^ 128 = gfX := by
  have h : gfSq 128 (2 ^ 126) = 2 ^ 126 := by decide +kernel
  have h1 := gfVal_gfSq 128 (x := 2 ^ 126) (by decide +kernel)
  rw [h] at h1
  have h2 := gfVal_one_bit (k := 1) (by decide)
  rw [pow_one] at h2
  rw [show gfVal (2 ^ 126) = gfX from h2] at h1
  exact h1.symm

theorem gfX_half : ∃ u : GF, u * (gfX ^ 2 ^ 64 + gfX) = 1 := by
  have h : gfMul 128 0x180da934bf53158251c13dbb149f5279 0 (gfSq 64 (2 ^ 126) ^^^ 2 ^ 126) = 2 ^ 127 := by
    decide +kernel
  have hs := gfSq_lt 64 (x := 2 ^ 126) (by decide +kernel)
  have h2 : gfVal (2 ^ 126) = gfX := by
    have := gfVal_one_bit (k := 1) (by decide)
    rwa [pow_one] at this
  have h3 : gfVal (2 ^ 127) = 1 := gfVal_one_bit (k := 0) (by decide)
  have h1 := gfVal_gfMul 0x180da934bf53158251c13dbb149f5279
    (v := gfSq 64 (2 ^ 126) ^^^ 2 ^ 126) (Nat.xor_lt_two_pow hs (by decide +kernel))
  rw [h, h3, gfVal_xor, gfVal_gfSq 64 (by decide +kernel), h2] at h1
  exact ⟨_, h1.symm⟩

/-- The polynomial of GCM is irreducible. -/
theorem gcmPoly_irreducible : Irreducible gcmPoly := by
  have hnu : ¬ IsUnit gcmPoly := by
    intro h
    have := natDegree_eq_zero_of_isUnit h
    rw [gcmPoly_degree] at this
    cases this
  obtain ⟨g, hg, hgf⟩ := WfDvdMonoid.exists_irreducible_factor hnu gcmPoly_monic.ne_zero
  have : Fact (Irreducible g) := ⟨hg⟩
  have hle : g.natDegree ≤ 128 := gcmPoly_degree ▸ natDegree_le_of_dvd hgf gcmPoly_monic.ne_zero
  by_cases hd : g.natDegree = 128
  · obtain ⟨q, hq⟩ := hgf
    have hq0 : q ≠ 0 := by
      rintro rfl
      exact gcmPoly_monic.ne_zero (by rw [hq, mul_zero])
    have h1 := natDegree_mul hg.ne_zero hq0
    rw [← hq, gcmPoly_degree, hd] at h1
    have hu : IsUnit q := isUnit_iff_degree_eq_zero.2 (by
      rw [degree_eq_natDegree hq0, show q.natDegree = 0 by omega]; rfl)
    rw [hq]
    exact (irreducible_mul_isUnit hu).2 hg
  · exfalso
    let K := AdjoinRoot g
    let β : K := AdjoinRoot.root g
    have hfin : Module.Finite (ZMod 2) K := (AdjoinRoot.powerBasis hg.ne_zero).finite
    have : Finite K := Module.finite_of_finite (ZMod 2)
    have : Fintype K := Fintype.ofFinite K
    have : CharP K 2 := charP_of_injective_algebraMap (algebraMap (ZMod 2) K).injective 2
    have hcard : Fintype.card K = 2 ^ g.natDegree := by
      rw [Module.card_eq_pow_finrank (K := ZMod 2), ZMod.card, (AdjoinRoot.powerBasis hg.ne_zero).finrank,
        AdjoinRoot.powerBasis_dim]
    have hroot : gcmPoly.eval₂ (AdjoinRoot.of g) β = 0 := by
      obtain ⟨q, hq⟩ := hgf
      rw [hq, eval₂_mul, AdjoinRoot.eval₂_root, zero_mul]
    let φ : GF →+* K := AdjoinRoot.lift (AdjoinRoot.of g) β hroot
    have hφ : φ gfX = β := AdjoinRoot.lift_root _
    have hiter : ∀ n, (frobenius K 2)^[n] β = β ^ 2 ^ n := by
      intro n; rw [← iterate_frobenius]
    have p1 : Function.IsPeriodicPt (frobenius K 2) g.natDegree β := by
      unfold Function.IsPeriodicPt Function.IsFixedPt
      rw [hiter, ← hcard, FiniteField.pow_card]
    have p2 : Function.IsPeriodicPt (frobenius K 2) 128 β := by
      unfold Function.IsPeriodicPt Function.IsFixedPt
      rw [hiter, ← hφ, ← map_pow, gfX_frob]
    have p3 : Function.IsPeriodicPt (frobenius K 2) 64 β := by
      refine (p1.gcd p2).trans_dvd ?_
      have h1 : Nat.gcd g.natDegree 128 ∣ 128 := Nat.gcd_dvd_right _ _
      have h2 : Nat.gcd g.natDegree 128 ≤ g.natDegree := Nat.gcd_le_left _ hg.natDegree_pos
      obtain ⟨k, hk, he⟩ := (Nat.dvd_prime_pow Nat.prime_two).1 (show Nat.gcd g.natDegree 128 ∣ 2 ^ 7 from h1)
      rw [he] at h2 ⊢
      have : k ≠ 7 := by
        rintro rfl
        exact hd (le_antisymm hle h2)
      exact pow_dvd_pow 2 (n := 6) (by omega)
    have h64 : β ^ 2 ^ 64 = β := by
      rw [← hiter]; exact p3
    obtain ⟨u, hu⟩ := gfX_half
    have := congrArg φ hu
    rw [map_mul, map_add, map_pow, hφ, h64, CharTwo.add_self_eq_zero, mul_zero, map_one] at this
    exact zero_ne_one this

instance : Fact (Irreducible gcmPoly) := ⟨gcmPoly_irreducible⟩

end Verif.Algo
