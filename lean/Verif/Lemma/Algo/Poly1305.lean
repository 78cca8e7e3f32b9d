import Verif.Lemma.Algo.Symmetric
import Verif.Lemma.Algo.X25519
import Mathlib.Algebra.Polynomial.Roots
import Mathlib.Data.Int.Interval

/-!
# Poly1305: few keys give two messages two given tags
-/

namespace Verif.Algo

open Polynomial

theorem prime_32985101 : Nat.Prime 32985101 := by
  refine prime_of_cert _ 2 25 [2, 2, 5, 5, 17, 19403] (by decide +kernel) (by decide +kernel) (by decide +kernel) ?_ (by decide +kernel) (by decide +kernel)
  intro q hq
  simp only [List.mem_cons, List.not_mem_nil, or_false] at hq
  rcases hq with rfl | rfl | rfl | rfl | rfl | rfl
  · norm_num
  · norm_num
  · norm_num
  · norm_num
  · norm_num
  · norm_num

theorem prime_3134801 : Nat.Prime 3134801 := by
  refine prime_of_cert _ 3 22 [2, 2, 2, 2, 5, 5, 17, 461] (by decide +kernel) (by decide +kernel) (by decide +kernel) ?_ (by decide +kernel) (by decide +kernel)
  intro q hq
  simp only [List.mem_cons, List.not_mem_nil, or_false] at hq
  rcases hq with rfl | rfl | rfl | rfl | rfl | rfl | rfl | rfl
  · norm_num
  · norm_num
  · norm_num
  · norm_num
  · norm_num
  · norm_num
  · norm_num
  · norm_num

theorem prime_4024685905107147541 : Nat.Prime 4024685905107147541 := by
  refine prime_of_cert _ 2 62 [2, 2, 3, 3, 5, 13, 43, 4889, 37003, 221101] (by decide +kernel) (by decide +kernel) (by decide +kernel) ?_ (by decide +kernel) (by decide +kernel)
  intro q hq
  simp only [List.mem_cons, List.not_mem_nil, or_false] at hq
  rcases hq with rfl | rfl | rfl | rfl | rfl | rfl | rfl | rfl | rfl | rfl
  · norm_num
  · norm_num
  · norm_num
  · norm_num
  · norm_num
  · norm_num
  · norm_num
  · norm_num
  · norm_num
  · norm_num

theorem prime_897064739519922787230182993783 : Nat.Prime 897064739519922787230182993783 := by
  refine prime_of_cert _ 5 100 [2, 73, 487, 3134801, 4024685905107147541] (by decide +kernel) (by decide +kernel) (by decide +kernel) ?_ (by decide +kernel) (by decide +kernel)
  intro q hq
  simp only [List.mem_cons, List.not_mem_nil, or_false] at hq
  rcases hq with rfl | rfl | rfl | rfl | rfl
  · norm_num
  · norm_num
  · norm_num
  · exact prime_3134801
  · exact prime_4024685905107147541

theorem prime_poly1305 : Nat.Prime poly1305Prime := by
  refine prime_of_cert _ 2 130 [2, 23, 32985101, 897064739519922787230182993783] (by decide +kernel) (by decide +kernel) (by decide +kernel) ?_ (by decide +kernel) (by decide +kernel)
  intro q hq
  simp only [List.mem_cons, List.not_mem_nil, or_false] at hq
  rcases hq with rfl | rfl | rfl | rfl
  · norm_num
  · norm_num
  · exact prime_32985101
  · exact prime_897064739519922787230182993783


instance : Fact poly1305Prime.Prime := ⟨prime_poly1305⟩

/-! ## Numbers and bytes -/

theorem leNat_lt_pow (b : Bytes) : leNat b < 256 ^ b.length := by
  induction b with
  | nil => simp [leNat]
  | cons x b ih =>
    have := x.toNat_lt
    simp only [leNat, List.length_cons, Nat.pow_succ]
    omega

theorem leNat_one_inj {a b : Bytes} (h : leNat (a ++ [1]) = leNat (b ++ [1])) : a = b := by
  have pos : ∀ c : Bytes, 1 ≤ leNat (c ++ [1]) := by
    intro c
    induction c with
    | nil => decide
    | cons x c ih => simp only [List.cons_append, leNat]; omega
  have one : leNat [1] = 1 := rfl
  induction a generalizing b with
  | nil =>
    cases b with
    | nil => rfl
    | cons y b =>
      have := pos b
      simp only [List.nil_append, List.cons_append, leNat] at h
      have : (1 : UInt8).toNat = 1 := rfl
      omega
  | cons x a ih =>
    cases b with
    | nil =>
      have := pos a
      simp only [List.nil_append, List.cons_append, leNat] at h
      have : (1 : UInt8).toNat = 1 := rfl
      omega
    | cons y b =>
      have hx := x.toNat_lt
      have hy := y.toNat_lt
      simp only [List.cons_append, leNat] at h
      have h1 : x.toNat = y.toNat := by omega
      have h2 : leNat (a ++ [1]) = leNat (b ++ [1]) := by omega
      rw [UInt8.toNat_inj.1 h1, ih h2]

theorem leNat_one_lt {a : Bytes} (h : a.length ≤ 16) : leNat (a ++ [1]) < 2 ^ 129 := by
  have key : ∀ c : Bytes, leNat (c ++ [1]) < 2 * 256 ^ c.length := by
    intro c
    induction c with
    | nil => decide
    | cons x c ih =>
      have := x.toNat_lt
      simp only [List.cons_append, leNat, List.length_cons, Nat.pow_succ]
      omega
  refine lt_of_lt_of_le (key a) ?_
  calc 2 * 256 ^ a.length ≤ 2 * 256 ^ 16 := Nat.mul_le_mul_left _ (Nat.pow_le_pow_right (by decide) h)
    _ = 2 ^ 129 := by norm_num

/-! ## The polynomial of a message -/

/-- The blocks of a message as numbers; `n` bounds their number. -/
def polyNums : Nat → Bytes → List Nat
  | 0, _ => []
  | n + 1, m => if m = [] then [] else leNat (m.take 16 ++ [1]) :: polyNums n (m.drop 16)

theorem polyNums_length (n : Nat) (m : Bytes) : (polyNums n m).length ≤ (m.length + 15) / 16 := by
  induction n generalizing m with
  | zero => simp [polyNums]
  | succ n ih =>
    unfold polyNums
    split
    · simp
    · rename_i h
      have h0 : m.length ≠ 0 := by simpa using h
      have := ih (m.drop 16)
      rw [List.length_drop] at this
      rw [List.length_cons]
      omega

theorem polyNums_bounds {n : Nat} {m : Bytes} {b : Nat} (h : b ∈ polyNums n m) : 0 < b ∧ b < poly1305Prime := by
  induction n generalizing m with
  | zero => simp [polyNums] at h
  | succ n ih =>
    unfold polyNums at h
    split at h
    · simp at h
    · rcases List.mem_cons.1 h with rfl | h
      · have h1 := leNat_one_lt (a := m.take 16) (by simp)
        have h2 : (2 : Nat) ^ 129 < poly1305Prime := by decide +kernel
        refine ⟨?_, by omega⟩
        by_contra h0
        have h3 : leNat (m.take 16 ++ [1]) = 0 := by omega
        have : ∀ c : Bytes, leNat (c ++ [1]) ≠ 0 := by
          intro c
          induction c with
          | nil => decide
          | cons x c ih => simp only [List.cons_append, leNat]; omega
        exact this _ h3
      · exact ih h

theorem polyNums_inj {n n' : Nat} {m m' : Bytes} (hn : m.length < 16 * n) (hn' : m'.length < 16 * n')
    (h : polyNums n m = polyNums n' m') : m = m' := by
  induction n generalizing n' m m' with
  | zero => omega
  | succ n ih =>
    cases n' with
    | zero => omega
    | succ n' =>
      unfold polyNums at h
      by_cases h1 : m = [] <;> by_cases h2 : m' = [] <;>
        simp only [h1, h2, if_true, if_false, reduceCtorEq, List.cons.injEq] at h
      · rw [h1, h2]
      · obtain ⟨h3, h4⟩ := h
        have h5 := leNat_one_inj h3
        have e : m.drop 16 = m'.drop 16 := by
          by_cases hz : m.length < 16
          · have hl : m.length = (m'.take 16).length := by
              rw [← h5, List.length_take]; omega
            rw [List.length_take] at hl
            rw [List.drop_eq_nil_of_le (by omega), List.drop_eq_nil_of_le (by omega)]
          · by_cases hz' : m'.length < 16
            · have hl : (m.take 16).length = (m'.take 16).length := by rw [h5]
              simp only [List.length_take] at hl
              omega
            · exact ih (by rw [List.length_drop]; omega) (by rw [List.length_drop]; omega) h4
        rw [← List.take_append_drop 16 m, ← List.take_append_drop 16 m', h5, e]

/-- The polynomial without constant term whose coefficients from the lowest on are given. -/
noncomputable def lowFirst : List Nat → (ZMod poly1305Prime)[X]
  | [] => 0
  | b :: l => X * (C (b : ZMod poly1305Prime) + lowFirst l)

theorem lowFirst_zero (l : List Nat) : (lowFirst l).eval 0 = 0 := by
  cases l <;> simp [lowFirst]

theorem natCast_inj_of_lt {a b : Nat} (ha : a < poly1305Prime) (hb : b < poly1305Prime)
    (h : (a : ZMod poly1305Prime) = b) : a = b := by
  rw [ZMod.natCast_eq_natCast_iff'] at h
  rwa [Nat.mod_eq_of_lt ha, Nat.mod_eq_of_lt hb] at h

theorem lowFirst_inj {l l' : List Nat} (h1 : ∀ b ∈ l, 0 < b ∧ b < poly1305Prime)
    (h2 : ∀ b ∈ l', 0 < b ∧ b < poly1305Prime) (h : lowFirst l = lowFirst l') : l = l' := by
  have ne : ∀ (b : Nat) (l : List Nat), 0 < b ∧ b < poly1305Prime → lowFirst (b :: l) ≠ 0 := by
    intro b l hb h
    simp only [lowFirst, mul_eq_zero, X_ne_zero, false_or] at h
    have h := congrArg (eval 0) h
    simp only [eval_add, eval_C, lowFirst_zero, add_zero, eval_zero] at h
    have := natCast_inj_of_lt hb.2 (b := 0) (by decide +kernel) (by simpa using h)
    omega
  induction l generalizing l' with
  | nil =>
    cases l' with
    | nil => rfl
    | cons b l' => exact absurd h.symm (ne b l' (h2 b (by simp)))
  | cons a l ih =>
    cases l' with
    | nil => exact absurd h (ne a l (h1 a (by simp)))
    | cons b l' =>
      have hc := mul_left_cancel₀ X_ne_zero h
      have h0 := congrArg (eval 0) hc
      simp only [eval_add, eval_C, lowFirst_zero, add_zero] at h0
      obtain rfl := natCast_inj_of_lt (h1 a (by simp)).2 (h2 b (by simp)).2 h0
      rw [ih (fun x hx => h1 x (by simp [hx])) (fun x hx => h2 x (by simp [hx])) (add_left_cancel hc)]

theorem lowFirst_degree (l : List Nat) : (lowFirst l).natDegree ≤ l.length := by
  induction l with
  | nil => simp [lowFirst]
  | cons b l ih =>
    refine (natDegree_mul_le).trans ?_
    rw [natDegree_X, List.length_cons, Nat.add_comm]
    refine Nat.add_le_add_right ((natDegree_add_le _ _).trans ?_) 1
    rw [natDegree_C]
    omega

theorem polyBlocks_lt (r : Nat) {n acc : Nat} (m : Bytes) (h : acc < poly1305Prime) :
    polyBlocks r n acc m < poly1305Prime := by
  induction n generalizing acc m with
  | zero => exact h
  | succ n ih =>
    unfold polyBlocks
    split
    · exact h
    · exact ih _ (Nat.mod_lt _ (by decide +kernel))

theorem polyBlocks_eval (r n acc : Nat) (m : Bytes) (p : List Nat)
    (h : (acc : ZMod poly1305Prime) = (lowFirst p).eval (r : ZMod poly1305Prime)) :
    (polyBlocks r n acc m : ZMod poly1305Prime) =
      (lowFirst ((polyNums n m).reverse ++ p)).eval (r : ZMod poly1305Prime) := by
  induction n generalizing acc m p with
  | zero => simpa [polyBlocks, polyNums] using h
  | succ n ih =>
    unfold polyBlocks polyNums
    split
    · simpa using h
    · rw [ih _ _ (leNat (m.take 16 ++ [1]) :: p) (by
        rw [ZMod.natCast_mod]
        push_cast
        simp only [lowFirst, eval_mul, eval_X, eval_add, eval_C, h]
        ring)]
      simp

theorem polyBlocks_eq (r n : Nat) (m : Bytes) :
    (polyBlocks r n 0 m : ZMod poly1305Prime) =
      (lowFirst (polyNums n m).reverse).eval (r : ZMod poly1305Prime) := by
  have := polyBlocks_eval r n 0 m [] (by simp [lowFirst])
  simpa using this

/-! ## Counting -/

/-- The number that the first half of a one-time key stands for (RFC 8439, section 2.5). -/
def polyR (key : Bytes) : Nat := leNat (key.take 16) &&& 0x0ffffffc0ffffffc0ffffffc0fffffff

theorem polyR_lt (key : Bytes) : polyR key < poly1305Prime :=
  lt_of_le_of_lt (Nat.and_le_right) (by decide +kernel)

/-- For two different messages and two tags there are at most eight times as many first halves of keys under
which the messages have these tags as the longer message has blocks. -/
theorem poly1305_few (m m' t t' : Bytes) (hne : m ≠ m') :
    ∃ S : Finset Nat, S.card ≤ 8 * ((max m.length m'.length + 15) / 16) ∧
      ∀ key, poly1305 key m = t → poly1305 key m' = t' → polyR key ∈ S := by
  classical
  set c := (polyNums (m.length / 16 + 1) m).reverse with hc
  set c' := (polyNums (m'.length / 16 + 1) m').reverse with hc'
  set δ : ℤ := ((leNat t : ℤ) - leNat t') % 2 ^ 128 with hδ
  let f : ℤ → (ZMod poly1305Prime)[X] := fun k =>
    lowFirst c - lowFirst c' - C ((δ + 2 ^ 128 * k : ℤ) : ZMod poly1305Prime)
  have hcne : lowFirst c ≠ lowFirst c' := by
    intro h
    have hb : ∀ n (m : Bytes), ∀ b ∈ (polyNums n m).reverse, 0 < b ∧ b < poly1305Prime :=
      fun n m b hb => polyNums_bounds (List.mem_reverse.1 hb)
    have := lowFirst_inj (hb _ _) (hb _ _) h
    exact hne (polyNums_inj (by omega) (by omega) (List.reverse_injective this))
  have hf : ∀ k, f k ≠ 0 := by
    intro k h
    have h0 := congrArg (eval 0) h
    simp only [f, eval_sub, lowFirst_zero, eval_C, sub_zero, zero_sub, eval_zero, neg_eq_zero] at h0
    simp only [f, h0, C_0, sub_zero, sub_eq_zero] at h
    exact hcne h
  have hdeg : ∀ k, (f k).natDegree ≤ (max m.length m'.length + 15) / 16 := by
    intro k
    refine (natDegree_sub_le _ _).trans ?_
    rw [natDegree_C]
    refine max_le ((natDegree_sub_le _ _).trans ?_) (Nat.zero_le _)
    have h1 : (lowFirst c).natDegree ≤ (m.length + 15) / 16 :=
      (lowFirst_degree c).trans (by rw [hc, List.length_reverse]; exact polyNums_length _ _)
    have h2 : (lowFirst c').natDegree ≤ (m'.length + 15) / 16 :=
      (lowFirst_degree c').trans (by rw [hc', List.length_reverse]; exact polyNums_length _ _)
    omega
  refine ⟨(Finset.Icc (-4 : ℤ) 3).biUnion fun k => (f k).roots.toFinset.image ZMod.val, ?_, ?_⟩
  · refine Finset.card_biUnion_le.trans ?_
    refine (Finset.sum_le_card_nsmul _ _ ((max m.length m'.length + 15) / 16) fun k _ => ?_).trans ?_
    · exact Finset.card_image_le.trans ((Multiset.toFinset_card_le _).trans ((card_roots' _).trans (hdeg k)))
    · simp
  · intro key h1 h2
    set v := polyBlocks (polyR key) (m.length / 16 + 1) 0 m with hv
    set v' := polyBlocks (polyR key) (m'.length / 16 + 1) 0 m' with hv'
    have hlt : v < poly1305Prime := polyBlocks_lt _ _ (by decide +kernel)
    have hlt' : v' < poly1305Prime := polyBlocks_lt _ _ (by decide +kernel)
    have e1 : (v + leNat ((key.drop 16).take 16)) % 2 ^ 128 = leNat t := by
      rw [← h1]; exact (leNat_leBytes 16 _).symm
    have e2 : (v' + leNat ((key.drop 16).take 16)) % 2 ^ 128 = leNat t' := by
      rw [← h2]; exact (leNat_leBytes 16 _).symm
    have hp : poly1305Prime < 4 * 2 ^ 128 := by decide +kernel
    obtain ⟨k, hk, hk4, hk3⟩ : ∃ k : ℤ, (v : ℤ) - v' = δ + 2 ^ 128 * k ∧ -4 ≤ k ∧ k ≤ 3 := by
      generalize leNat ((key.drop 16).take 16) = s at e1 e2
      generalize leNat t = τ at *
      generalize leNat t' = τ' at *
      generalize poly1305Prime = p at hp hlt hlt'
      refine ⟨((v : ℤ) - v') / 2 ^ 128, ?_, ?_, ?_⟩ <;> omega
    refine Finset.mem_biUnion.2 ⟨k, Finset.mem_Icc.2 ⟨hk4, hk3⟩, ?_⟩
    refine Finset.mem_image.2 ⟨(polyR key : ZMod poly1305Prime), ?_, ?_⟩
    · rw [Multiset.mem_toFinset, mem_roots (hf k)]
      have hk' := congrArg (Int.cast : ℤ → ZMod poly1305Prime) hk
      push_cast at hk'
      simp only [f, IsRoot.def, eval_sub, eval_C, hc, hc', ← polyBlocks_eq]
      push_cast
      rw [← hv, ← hv', hk', sub_self]
    · exact ZMod.val_cast_of_lt (polyR_lt key)

end Verif.Algo
