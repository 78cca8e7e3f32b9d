import Verif.Lemma.Algo.GcmKeys
import Verif.Lemma.Algo.EdSign
import Mathlib.Combinatorics.Additive.CauchyDavenport
import Mathlib.Combinatorics.Pigeonhole

/-!
# One ciphertext and tag for two one-time keys of Poly1305
-/

namespace Verif.Algo

open Polynomial Spec Finset
open scoped Pointwise

set_option maxRecDepth 8000

/-- The field of Poly1305. -/
abbrev PF := ZMod poly1305Prime

/-- What blocks contribute: the last one with the power `e`, the one before with the next power, and so on. -/
def lin (r : PF) (e : Nat) : List Nat → PF
  | [] => 0
  | x :: l => (x : PF) * r ^ (e + l.length) + lin r e l

theorem lin_append (r : PF) (e : Nat) (l l' : List Nat) : lin r e (l ++ l') = lin r (e + l'.length) l + lin r e l' := by
  induction l with
  | nil => simp [lin]
  | cons x l ih =>
    simp only [List.cons_append, lin, ih, List.length_append]
    rw [show e + (l.length + l'.length) = e + l'.length + l.length by omega]
    ring

/-- Blocks that fit. -/
def Fit (n : Nat) (l : List Nat) : Prop := l.length = n ∧ ∀ x ∈ l, x < 2 ^ 128

theorem Fit.append {n n' : Nat} {l l' : List Nat} (h : Fit n l) (h' : Fit n' l') : Fit (n + n') (l ++ l') :=
  ⟨by rw [List.length_append, h.1, h'.1], fun x hx => (List.mem_append.1 hx).elim (h.2 x) (h'.2 x)⟩

theorem fit_pair {x y : Nat} (hx : x < 2 ^ 128) (hy : y < 2 ^ 128) : Fit 2 [x, y] := by
  refine ⟨rfl, fun z hz => ?_⟩
  rcases List.mem_cons.1 hz with rfl | hz
  · exact hx
  · rw [List.mem_singleton.1 hz]
    exact hy

theorem cast_block_inj {x y : Nat} (hx : x < 2 ^ 128) (hy : y < 2 ^ 128) (h : (x : PF) = y) : x = y := by
  have h2 : (2 : Nat) ^ 128 < poly1305Prime := by decide +kernel
  exact natCast_inj_of_lt (by omega) (by omega) h

theorem min_step {p n k a b c : Nat} (h : min p (1 + n * k) ≤ a) (h' : k < b) (hc : min p (b + a - 1) ≤ c) :
    min p (1 + (n + 1) * k) ≤ c := by
  have : (n + 1) * k = n * k + k := by ring
  omega

theorem pigeon (B n : Nat) (f : Nat × Nat → PF) (h : poly1305Prime * n < B * B) :
    ∃ (g : PF) (V : Finset (Nat × Nat)), (∀ q ∈ V, (q.1 < B ∧ q.2 < B) ∧ f q = g) ∧ n < V.card := by
  classical
  have hc : (univ : Finset PF).card * n < (range B ×ˢ range B).card := by
    rw [card_product, card_range, card_univ, ZMod.card]
    exact h
  obtain ⟨g, -, hg⟩ := exists_lt_card_fiber_of_mul_lt_card_of_maps_to (f := f) (fun q _ => mem_univ _) hc
  refine ⟨g, _, fun q hq => ?_, hg⟩
  have h1 := mem_product.1 (mem_filter.1 hq).1
  exact ⟨⟨mem_range.1 h1.1, mem_range.1 h1.2⟩, (mem_filter.1 hq).2⟩

section
variable {r s : PF} (hr : r ≠ 0) (hs : s ≠ 0) (hne : r ≠ s)
include hr hs hne

/-- Two blocks: on one line of differences they give more than `2 ^ 126` values. -/
theorem pair_free (e : Nat) : ∃ (g : PF) (U : Finset PF), 2 ^ 126 < U.card ∧
    ∀ u ∈ U, ∃ l, Fit 2 l ∧ lin r e l = u ∧ lin r e l - lin s e l = g := by
  classical
  let f : Nat × Nat → List Nat := fun q => [q.1, q.2]
  obtain ⟨g, V, hV, hg⟩ := pigeon (2 ^ 128) (2 ^ 126) (fun q => lin r e (f q) - lin s e (f q)) (by decide +kernel)
  refine ⟨g, V.image fun q => lin r e (f q), ?_, ?_⟩
  · rw [card_image_of_injOn]
    · exact hg
    · rintro ⟨x, y⟩ hx ⟨x', y'⟩ hx' he
      obtain ⟨⟨hx1, hy1⟩, hgx⟩ := hV _ hx
      obtain ⟨⟨hx1', hy1'⟩, hgx'⟩ := hV _ hx'
      have he2 : lin s e (f (x, y)) = lin s e (f (x', y')) := by
        have : lin r e (f (x, y)) = lin r e (f (x', y')) := he
        linear_combination this - hgx + hgx'
      simp only [f, lin, List.length_cons, List.length_nil] at he he2
      have e1 : (x : PF) * r + y = x' * r + y' := by
        refine mul_right_cancel₀ (pow_ne_zero e hr) ?_
        linear_combination he
      have e2 : (x : PF) * s + y = x' * s + y' := by
        refine mul_right_cancel₀ (pow_ne_zero e hs) ?_
        linear_combination he2
      have e3 : (x : PF) = x' := by
        refine mul_right_cancel₀ (sub_ne_zero.2 hne) ?_
        linear_combination e1 - e2
      have e4 : (y : PF) = y' := by
        rw [e3] at e1
        exact add_left_cancel e1
      exact Prod.ext (cast_block_inj hx1 hx1' e3) (cast_block_inj hy1 hy1' e4)
  · intro u hu
    obtain ⟨q, hq, rfl⟩ := mem_image.1 hu
    exact ⟨f q, fit_pair (hV q hq).1.1 (hV q hq).1.2, rfl, (hV q hq).2⟩

omit hs in
/-- Two blocks: their differences have `2 ^ 128` values. -/
theorem pair_cover (e : Nat) : ∃ A : Finset PF, 2 ^ 128 ≤ A.card ∧
    ∀ a ∈ A, ∃ l, Fit 2 l ∧ lin r e l - lin s e l = a := by
  classical
  have key : ∀ (f : Nat → List Nat) (w : PF), w ≠ 0 → (∀ x < 2 ^ 128, Fit 2 (f x)) →
      (∀ x, lin r e (f x) - lin s e (f x) = x * w) → ∃ A : Finset PF, 2 ^ 128 ≤ A.card ∧
        ∀ a ∈ A, ∃ l, Fit 2 l ∧ lin r e l - lin s e l = a := by
    intro f w hw hf hl
    refine ⟨(range (2 ^ 128)).image fun x : Nat => (x : PF) * w, ?_, ?_⟩
    · rw [card_image_of_injOn, card_range]
      intro x hx y hy h
      exact cast_block_inj (mem_range.1 hx) (mem_range.1 hy) (mul_right_cancel₀ hw h)
    · intro a ha
      obtain ⟨x, hx, rfl⟩ := mem_image.1 ha
      exact ⟨f x, hf x (mem_range.1 hx), hl x⟩
  by_cases h : r ^ e - s ^ e = 0
  · refine key (fun x => [x, 0]) (r ^ (e + 1) - s ^ (e + 1)) ?_ (fun x hx => fit_pair hx (by decide))
      (fun x => by simp [lin]; ring)
    intro h'
    refine hne (mul_left_cancel₀ (pow_ne_zero e hr) ?_)
    linear_combination h' - s * h
  · exact key (fun x => [0, x]) _ h (fun x hx => fit_pair (by decide) hx) (fun x => by simp [lin]; ring)

theorem many_free (n e : Nat) : ∃ (g : PF) (U : Finset PF), min poly1305Prime (1 + n * 2 ^ 126) ≤ U.card ∧
    ∀ u ∈ U, ∃ l, Fit (2 * n) l ∧ lin r e l = u ∧ lin r e l - lin s e l = g := by
  classical
  induction n with
  | zero => exact ⟨0, {0}, by simp, fun u hu => ⟨[], ⟨rfl, by simp⟩, by simpa [lin] using (mem_singleton.1 hu).symm, by simp [lin]⟩⟩
  | succ n ih =>
    obtain ⟨g, U, hU, h⟩ := ih
    obtain ⟨g', U', hU', h'⟩ := pair_free hr hs hne (e + 2 * n)
    refine ⟨g' + g, U' + U, ?_, ?_⟩
    · have hn' : U'.Nonempty := card_pos.1 (by omega)
      have hp : 0 < poly1305Prime := by decide +kernel
      have hn : U.Nonempty := card_pos.1 (lt_of_lt_of_le (by rw [lt_min_iff]; omega) hU)
      have := ZMod.cauchy_davenport (p := poly1305Prime) prime_poly1305 hn' hn
      exact min_step hU hU' this
    · intro u hu
      obtain ⟨a, ha, b, hb, rfl⟩ := mem_add.1 hu
      obtain ⟨l', hl', e1, e2⟩ := h' a ha
      obtain ⟨l, hl, e3, e4⟩ := h b hb
      refine ⟨l' ++ l, by have := hl'.append hl; rwa [show 2 + 2 * n = 2 * (n + 1) by omega] at this, ?_, ?_⟩
      · rw [lin_append, hl.1, e1, e3]
      · rw [lin_append, lin_append, hl.1]
        linear_combination e2 + e4

omit hs in
theorem many_cover (n e : Nat) : ∃ A : Finset PF, min poly1305Prime (1 + n * (2 ^ 128 - 1)) ≤ A.card ∧
    ∀ a ∈ A, ∃ l, Fit (2 * n) l ∧ lin r e l - lin s e l = a := by
  classical
  induction n with
  | zero => exact ⟨{0}, by simp, fun u hu => ⟨[], ⟨rfl, by simp⟩, by simpa [lin] using (mem_singleton.1 hu).symm⟩⟩
  | succ n ih =>
    obtain ⟨U, hU, h⟩ := ih
    obtain ⟨U', hU', h'⟩ := pair_cover hr hne (e + 2 * n)
    refine ⟨U' + U, ?_, ?_⟩
    · have hn' : U'.Nonempty := card_pos.1 (by omega)
      have hp : 0 < poly1305Prime := by decide +kernel
      have hn : U.Nonempty := card_pos.1 (lt_of_lt_of_le (by rw [lt_min_iff]; omega) hU)
      have := ZMod.cauchy_davenport (p := poly1305Prime) prime_poly1305 hn' hn
      exact min_step hU (by omega) this
    · intro u hu
      obtain ⟨a, ha, b, hb, rfl⟩ := mem_add.1 hu
      obtain ⟨l', hl', e2⟩ := h' a ha
      obtain ⟨l, hl, e4⟩ := h b hb
      refine ⟨l' ++ l, by have := hl'.append hl; rwa [show 2 + 2 * n = 2 * (n + 1) by omega] at this, ?_⟩
      rw [lin_append, lin_append, hl.1]
      linear_combination e2 + e4

/-- Sixteen blocks: any difference, together with a value outside any set of at most `2 ^ 128` elements. -/
theorem sixteen_blocks (e : Nat) (δ : PF) (S : Finset PF) (hS : S.card ≤ 2 ^ 128) :
    ∃ l, Fit 16 l ∧ lin r e l - lin s e l = δ ∧ lin r e l ∉ S := by
  classical
  obtain ⟨g, U, hU, hfree⟩ := many_free hr hs hne 4 (e + 8)
  obtain ⟨A, hA, hcov⟩ := many_cover hr hne 4 e
  have hAu : A = univ := by
    rw [← card_eq_iff_eq_univ, ZMod.card]
    refine le_antisymm (by simpa [ZMod.card] using card_le_univ A) (le_trans ?_ hA)
    rw [le_min_iff]
    exact ⟨le_refl _, by decide +kernel⟩
  obtain ⟨l, hl, hd⟩ := hcov (δ - g) (by rw [hAu]; exact mem_univ _)
  obtain ⟨u, hu, hn⟩ : ∃ u ∈ U, u + lin r e l ∉ S := by
    by_contra hcon
    push Not at hcon
    have : (U.image fun u => u + lin r e l) ⊆ S := by
      intro x hx
      obtain ⟨u, hu, rfl⟩ := mem_image.1 hx
      exact hcon u hu
    have := card_le_card this
    rw [card_image_of_injective _ (add_left_injective _)] at this
    have h1 : 1 + 4 * 2 ^ 126 ≤ U.card := le_trans (by rw [le_min_iff]; exact ⟨by decide +kernel, le_refl _⟩) hU
    omega
  obtain ⟨l', hl', e1, e2⟩ := hfree u hu
  refine ⟨l' ++ l, hl'.append hl, ?_, ?_⟩
  · rw [lin_append, lin_append, hl.1]
    linear_combination e2 + hd
  · rw [lin_append, hl.1, e1]
    exact hn

end

/-- Sixteen blocks with which two values at different places differ by a given number modulo `2 ^ 128`. -/
theorem sixteen_tags {r s : PF} (hne : r ≠ s) (e : Nat) (he : e ≠ 0) (K K' : PF) (d : Nat) (hd : d < 2 ^ 128) :
    ∃ l, Fit 16 l ∧ (K + lin r e l).val % 2 ^ 128 = ((K' + lin s e l).val + d) % 2 ^ 128 := by
  classical
  have hbig : (2 : Nat) ^ 128 < poly1305Prime := by decide +kernel
  have zero : ∀ l, lin 0 e l = 0 := by
    intro l
    induction l with
    | nil => rfl
    | cons x l ih => rw [lin, ih, zero_pow (by omega), mul_zero, add_zero]
  have univ8 : ∀ {r s : PF}, r ≠ 0 → r ≠ s → ∀ a, ∃ l, Fit 16 l ∧ lin r e l - lin s e l = a := by
    intro r s hr hne a
    obtain ⟨A, hA, hcov⟩ := many_cover hr hne 8 e
    have hAu : A = univ := by
      rw [← card_eq_iff_eq_univ, ZMod.card]
      refine le_antisymm (by simpa [ZMod.card] using card_le_univ A) (le_trans ?_ hA)
      rw [le_min_iff]
      exact ⟨le_refl _, by decide +kernel⟩
    exact hcov a (by rw [hAu]; exact mem_univ _)
  by_cases hr : r = 0
  · subst hr
    obtain ⟨l, hl, h⟩ := univ8 (fun h => hne h.symm) (fun h => hne h.symm)
      (((K.val + 2 ^ 128 - d) % 2 ^ 128 : Nat) - K')
    rw [zero, sub_zero] at h
    refine ⟨l, hl, ?_⟩
    rw [zero, add_zero, h, add_sub_cancel, ZMod.val_cast_of_lt (lt_trans (Nat.mod_lt _ (by decide)) hbig)]
    omega
  by_cases hs : s = 0
  · subst hs
    obtain ⟨l, hl, h⟩ := univ8 hr hr (((K'.val + d) % 2 ^ 128 : Nat) - K)
    rw [zero, sub_zero] at h
    refine ⟨l, hl, ?_⟩
    rw [zero, add_zero, h, add_sub_cancel, ZMod.val_cast_of_lt (lt_trans (Nat.mod_lt _ (by decide)) hbig)]
    omega
  obtain ⟨l, hl, h1, h2⟩ := sixteen_blocks hr hs hne e (K' - K + d) ((range d).image fun n : Nat => (n : PF) - K)
    (card_image_le.trans (by rw [card_range]; omega))
  refine ⟨l, hl, ?_⟩
  have h3 : d ≤ (K + lin r e l).val := by
    by_contra hcon
    refine h2 (mem_image.2 ⟨(K + lin r e l).val, mem_range.2 (by omega), ?_⟩)
    rw [ZMod.natCast_val, ZMod.cast_id', id]
    ring
  have h4 : (K' + lin s e l).val = (K + lin r e l).val - d := by
    have hlt := ZMod.val_lt (K + lin r e l)
    refine natCast_inj_of_lt (ZMod.val_lt _) (by omega) ?_
    rw [Nat.cast_sub h3, ZMod.natCast_val, ZMod.natCast_val, ZMod.cast_id', id, id]
    linear_combination -h1
  rw [h4, Nat.sub_add_cancel h3]

theorem polyNums_append {k : Nat} (n : Nat) {a : Bytes} (b : Bytes) (ha : a.length = 16 * k) :
    polyNums (k + n) (a ++ b) = polyNums k a ++ polyNums n b := by
  induction k generalizing a with
  | zero =>
    obtain rfl := List.eq_nil_of_length_eq_zero (by simpa using ha)
    simp [polyNums]
  | succ k ih =>
    have hne : a ≠ [] := by rintro rfl; simp at ha
    rw [show k + 1 + n = (k + n) + 1 by omega, polyNums, polyNums, if_neg (by simp [hne]), if_neg hne,
      List.take_append_of_le_length (by omega), List.drop_append_of_le_length (by omega),
      ih (by rw [List.length_drop]; omega)]
    rfl

theorem leNat_snoc (b : Bytes) : leNat (b ++ [1]) = leNat b + 256 ^ b.length := by
  induction b with
  | nil => rfl
  | cons x b ih =>
    simp only [List.cons_append, leNat, ih, List.length_cons]
    ring

/-- The bytes of blocks. -/
def blockBytes (l : List Nat) : Bytes := l.flatMap (leBytes 16)

theorem blockBytes_length (l : List Nat) : (blockBytes l).length = 16 * l.length := by
  induction l with
  | nil => rfl
  | cons x l ih =>
    rw [blockBytes, List.flatMap_cons, List.length_append, leBytes_length]
    rw [blockBytes] at ih
    rw [ih, List.length_cons]
    ring

theorem polyNums_blocks {l : List Nat} (h : ∀ x ∈ l, x < 2 ^ 128) :
    polyNums l.length (blockBytes l) = l.map fun x => x + 2 ^ 128 := by
  induction l with
  | nil => rfl
  | cons x l ih =>
    have h1 : polyNums 1 (leBytes 16 x) = [x + 2 ^ 128] := by
      have hne : leBytes 16 x ≠ [] := by intro h; simpa using congrArg List.length h
      rw [polyNums, if_neg hne, List.take_of_length_le (by simp), polyNums, leNat_snoc, leNat_leBytes, leBytes_length,
        show (256 : Nat) ^ 16 = 2 ^ 128 by norm_num, Nat.mod_eq_of_lt (h x (by simp))]
    rw [blockBytes, List.flatMap_cons, List.length_cons, Nat.add_comm,
      polyNums_append (k := 1) _ _ (by simp), h1]
    rw [blockBytes] at ih
    rw [ih fun y hy => h y (by simp [hy])]
    rfl

theorem lowFirst_append (r : PF) (l l' : List Nat) :
    (lowFirst (l ++ l')).eval r = (lowFirst l).eval r + r ^ l.length * (lowFirst l').eval r := by
  induction l with
  | nil => simp [lowFirst]
  | cons x l ih =>
    simp only [List.cons_append, lowFirst, eval_mul, eval_X, eval_add, eval_C, ih, List.length_cons]
    ring

theorem lowFirst_lin (r : PF) (l : List Nat) : (lowFirst l.reverse).eval r = lin r 1 l := by
  induction l with
  | nil => simp [lowFirst, lin]
  | cons x l ih =>
    rw [List.reverse_cons, lowFirst_append, ih, lin, List.length_reverse]
    simp only [lowFirst, eval_mul, eval_X, eval_add, eval_C, eval_zero]
    ring

theorem lin_map (r : PF) (e : Nat) (l : List Nat) :
    lin r e (l.map fun x => x + 2 ^ 128) = lin r e l + lin r e (List.replicate l.length (2 ^ 128)) := by
  induction l with
  | nil => simp [lin]
  | cons x l ih =>
    simp only [List.map_cons, lin, ih, List.length_cons, List.replicate_succ, List.length_map, List.length_replicate]
    push_cast
    ring

/-- The tag with the last blocks of the ciphertext apart. -/
theorem chaTag_last (aad c : Bytes) (n : Nat) (hc : 16 ∣ c.length) :
    ∃ K : PF → PF, ∀ (key nonce : Bytes) (l : List Nat), Fit n l →
      chaTag key nonce aad (c ++ blockBytes l) =
        leBytes 16 ((K (polyR (chaBlock key 0 nonce)) + lin (polyR (chaBlock key 0 nonce)) 2 l).val +
          leNat (((chaBlock key 0 nonce).drop 16).take 16)) := by
  obtain ⟨k, hk⟩ := hc
  let z := leBytes 8 aad.length ++ leBytes 8 (c.length + 16 * n)
  let pre := polyNums ((aad.length + 15) / 16 + k) (pad16 aad ++ c)
  refine ⟨fun r => lin r (2 + n) pre + lin r 2 (List.replicate n (2 ^ 128)) + lin r 1 [leNat (z ++ [1])],
    fun key nonce l hl => ?_⟩
  have hr : polyR ((chaBlock key 0 nonce).take 32) = polyR (chaBlock key 0 nonce) := by
    unfold polyR; rw [List.take_take]; rfl
  have hs : (((chaBlock key 0 nonce).take 32).drop 16).take 16 = ((chaBlock key 0 nonce).drop 16).take 16 := by
    rw [List.drop_take, List.take_take]; rfl
  have hin : chaInput aad (c ++ blockBytes l) = (pad16 aad ++ c) ++ (blockBytes l ++ z) := by
    unfold chaInput
    rw [pad16_full (b := c ++ blockBytes l) ⟨k + n, by rw [List.length_append, blockBytes_length, hl.1]; omega⟩,
      List.length_append, blockBytes_length, hl.1]
    simp only [z, List.append_assoc]
  have hzl : z.length = 16 := by simp [z]
  have hz : polyNums 2 z = [leNat (z ++ [1])] := by
    have hne : z ≠ [] := by intro h; rw [h] at hzl; cases hzl
    rw [polyNums, if_neg hne, List.take_of_length_le (by omega), List.drop_eq_nil_of_le (by omega)]
    rfl
  have hpl : (pad16 aad ++ c).length = 16 * ((aad.length + 15) / 16 + k) := by
    rw [List.length_append, pad16_length]; omega
  have hlen : ((pad16 aad ++ c) ++ (blockBytes l ++ z)).length / 16 + 1 = ((aad.length + 15) / 16 + k) + (n + 2) := by
    rw [List.length_append (as := pad16 aad ++ c), List.length_append (as := blockBytes l), hpl, blockBytes_length, hl.1, hzl]; omega
  have hnums : polyNums (((aad.length + 15) / 16 + k) + (n + 2)) ((pad16 aad ++ c) ++ (blockBytes l ++ z)) =
      pre ++ ((l.map fun x => x + 2 ^ 128) ++ [leNat (z ++ [1])]) := by
    rw [polyNums_append _ _ hpl, polyNums_append (k := n) _ _ (by rw [blockBytes_length, hl.1]), hz, ← hl.1,
      polyNums_blocks hl.2]
  change poly1305 _ (chaInput aad (c ++ blockBytes l)) = _
  rw [hin]
  unfold poly1305
  change leBytes 16 (polyBlocks (polyR ((chaBlock key 0 nonce).take 32)) _ 0 _ + _) = _
  rw [hr, hs, hlen]
  congr 2
  refine natCast_inj_of_lt (polyBlocks_lt _ _ (by decide +kernel)) (ZMod.val_lt _) ?_
  rw [polyBlocks_eq, hnums, lowFirst_lin, ZMod.natCast_val, ZMod.cast_id', id, lin_append, lin_append, lin_map,
    List.length_append, List.length_map, hl.1]
  simp only [List.length_singleton]
  rw [show 1 + (n + 1) = 2 + n by omega]
  ring

/-- Two keys with different places: sixteen last blocks make the tags equal. -/
theorem chaTag_two_keys {key key' nonce nonce' : Bytes}
    (hne : polyR (chaBlock key 0 nonce) ≠ polyR (chaBlock key' 0 nonce')) (aad c : Bytes) (hc : 16 ∣ c.length) :
    ∃ x, x.length = 256 ∧ chaTag key nonce aad (c ++ x) = chaTag key' nonce' aad (c ++ x) := by
  obtain ⟨K, hK⟩ := chaTag_last aad c 16 hc
  have hne' : (polyR (chaBlock key 0 nonce) : PF) ≠ polyR (chaBlock key' 0 nonce') := fun h =>
    hne (natCast_inj_of_lt (polyR_lt _) (polyR_lt _) h)
  set s := leNat (((chaBlock key 0 nonce).drop 16).take 16)
  set s' := leNat (((chaBlock key' 0 nonce').drop 16).take 16)
  obtain ⟨l, hl, h⟩ := sixteen_tags hne' 2 (by decide) (K (polyR (chaBlock key 0 nonce)))
    (K (polyR (chaBlock key' 0 nonce'))) ((s' + 2 ^ 128 - s % 2 ^ 128) % 2 ^ 128) (Nat.mod_lt _ (by decide))
  refine ⟨blockBytes l, by rw [blockBytes_length, hl.1], ?_⟩
  refine leNat_inj (by rw [chaTag_length, chaTag_length]) ?_
  rw [hK _ _ _ hl, hK _ _ _ hl, leNat_leBytes, leNat_leBytes, show (256 : Nat) ^ 16 = 2 ^ 128 by norm_num]
  change (_ + s) % _ = (_ + s') % _
  generalize (K _ + lin _ 2 l).val = a at h ⊢
  generalize (K (polyR (chaBlock key' 0 nonce')) + lin _ 2 l).val = b at h ⊢
  omega

/-- Two keys with different places: at most eight last blocks make the tags equal. -/
theorem chaTag_few_last {key key' nonce nonce' : Bytes}
    (hne : polyR (chaBlock key 0 nonce) ≠ polyR (chaBlock key' 0 nonce')) (aad c : Bytes) (hc : 16 ∣ c.length) :
    ∃ S : Finset Nat, S.card ≤ 8 ∧
      ∀ y, y.length = 16 → chaTag key nonce aad (c ++ y) = chaTag key' nonce' aad (c ++ y) → leNat y ∈ S := by
  classical
  obtain ⟨K, hK⟩ := chaTag_last aad c 1 hc
  have hbd : ∀ b : Bytes, polyR b < 2 ^ 124 := fun b => lt_of_le_of_lt Nat.and_le_right (by decide +kernel)
  have h1 := hbd (chaBlock key 0 nonce)
  have h2 := hbd (chaBlock key' 0 nonce')
  have hw : (polyR (chaBlock key 0 nonce) : PF) ^ 2 - polyR (chaBlock key' 0 nonce') ^ 2 ≠ 0 := by
    rw [sq_sub_sq]
    refine mul_ne_zero (fun h => ?_) (fun h => hne (natCast_inj_of_lt (polyR_lt _) (polyR_lt _) (sub_eq_zero.1 h)))
    have hp : 2 * (2 : Nat) ^ 124 < poly1305Prime := by decide +kernel
    have := natCast_inj_of_lt (a := polyR (chaBlock key 0 nonce) + polyR (chaBlock key' 0 nonce')) (b := 0)
      (by omega) (by omega) (by push_cast; exact h)
    omega
  set r := polyR (chaBlock key 0 nonce)
  set r' := polyR (chaBlock key' 0 nonce')
  set s := leNat (((chaBlock key 0 nonce).drop 16).take 16)
  set s' := leNat (((chaBlock key' 0 nonce').drop 16).take 16)
  let δ : ℤ := ((s' : ℤ) - s) % 2 ^ 128
  refine ⟨(Finset.Icc (-4 : ℤ) 3).image fun k =>
    (((K r' - K r + ((δ + 2 ^ 128 * k : ℤ) : PF)) / ((r : PF) ^ 2 - r' ^ 2)).val), card_image_le.trans (by simp), ?_⟩
  intro y hy h
  have hyl : leNat y < 2 ^ 128 := by
    have := leNat_lt_pow y
    rwa [hy, show (256 : Nat) ^ 16 = 2 ^ 128 by norm_num] at this
  have hf : Fit 1 [leNat y] := ⟨rfl, fun z hz => by rw [List.mem_singleton.1 hz]; exact hyl⟩
  have hb : blockBytes [leNat y] = y := by
    have := leBytes_leNat y
    rw [hy] at this
    simp [blockBytes, this]
  have e1 := hK key nonce _ hf
  have e2 := hK key' nonce' _ hf
  rw [hb] at e1 e2
  rw [e1, e2] at h
  have h := congrArg leNat h
  rw [leNat_leBytes, leNat_leBytes, show (256 : Nat) ^ 16 = 2 ^ 128 by norm_num] at h
  change (_ + s) % _ = (_ + s') % _ at h
  have hu := ZMod.val_lt (K r + lin r 2 [leNat y])
  have hv := ZMod.val_lt (K r' + lin r' 2 [leNat y])
  have hp : poly1305Prime < 4 * 2 ^ 128 := by decide +kernel
  obtain ⟨k, hk, hk4, hk3⟩ : ∃ k : ℤ, ((K r + lin r 2 [leNat y]).val : ℤ) - (K r' + lin r' 2 [leNat y]).val =
      δ + 2 ^ 128 * k ∧ -4 ≤ k ∧ k ≤ 3 := by
    generalize (K r + lin r 2 [leNat y]).val = a at *
    generalize (K r' + lin r' 2 [leNat y]).val = b at *
    refine ⟨((a : ℤ) - b) / 2 ^ 128, ?_, ?_, ?_⟩ <;> omega
  refine mem_image.2 ⟨k, Finset.mem_Icc.2 ⟨hk4, hk3⟩, ?_⟩
  have hk' := congrArg (Int.cast : ℤ → PF) hk
  rw [Int.cast_sub, Int.cast_natCast, Int.cast_natCast, ZMod.natCast_val, ZMod.natCast_val, ZMod.cast_id', id, id] at hk'
  have hval : (K r' - K r + ((δ + 2 ^ 128 * k : ℤ) : PF)) / ((r : PF) ^ 2 - r' ^ 2) = (leNat y : PF) := by
    rw [div_eq_iff hw, ← hk']
    simp only [lin, List.length_nil, Nat.add_zero]
    ring
  rw [hval]
  exact ZMod.val_cast_of_lt (lt_trans hyl (by decide +kernel))

end Verif.Algo
