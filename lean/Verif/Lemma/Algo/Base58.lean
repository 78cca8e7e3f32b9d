import Mathlib.Data.Nat.Digits.Defs
import Mathlib.Data.Nat.Digits.Lemmas
import Verif.Spec.DidKey

/-! # Base58 -/

namespace Verif.Algo

open Verif.Spec

theorem toBase_digits {b : Nat} (hb : 1 < b) {f n : Nat} (h : n < b ^ f) : toBase b f n = Nat.digits b n := by
  induction f generalizing n with
  | zero =>
    have : n = 0 := by simpa using h
    subst this
    simp [toBase]
  | succ f ih =>
    rw [toBase]
    split
    · rename_i h0; subst h0; simp
    · rename_i h0
      rw [Nat.digits_def' hb (Nat.pos_of_ne_zero h0), ih]
      rw [Nat.div_lt_iff_lt_mul (by omega)]
      rwa [← Nat.pow_succ]

theorem digits58_eq (n : Nat) : digits58 n = Nat.digits 58 n := by
  induction n using Nat.strongRecOn with
  | _ n ih =>
    rw [digits58]
    split
    · rename_i h; subst h; simp
    · rename_i h
      rw [Nat.digits_def' (by decide) (Nat.pos_of_ne_zero h), ih _ (Nat.div_lt_self (Nat.pos_of_ne_zero h) (by decide))]

theorem ofBase_eq (b : Nat) (ds : List Nat) : ofBase b ds = Nat.ofDigits b ds.reverse := by
  induction ds using List.reverseRecOn with
  | nil => simp [ofBase]
  | append_singleton l a ih =>
    rw [List.reverse_append, ofBase, List.foldl_append]
    show ofBase b l * b + a = _
    rw [ih]
    simp [Nat.ofDigits_cons]
    ring

theorem bytesNat_aux (b : Bytes) (n : Nat) : b.foldl (fun n x => 256 * n + x.toNat) n =
    (b.map UInt8.toNat).foldl (fun n d => n * 256 + d) n := by
  induction b generalizing n with
  | nil => rfl
  | cons x b ih => simp only [List.map, List.foldl]; rw [ih, Nat.mul_comm]

theorem bytesNat_eq (b : Bytes) : bytesNat b = Nat.ofDigits 256 (b.map UInt8.toNat).reverse := by
  rw [← ofBase_eq]; exact bytesNat_aux b 0

theorem digit_char {d : Nat} (h : d < 58) : b58Digit (b58Alphabet.getD d '1') = some d := by
  have : ∀ d : Fin 58, b58Digit (b58Alphabet.getD d '1') = some d.val := by decide +kernel
  exact this ⟨d, h⟩

theorem char_digit {c : Char} {d : Nat} (h : b58Digit c = some d) : d < 58 ∧ b58Alphabet.getD d '1' = c := by
  rw [b58Digit, List.findIdx?_eq_some_iff_getElem] at h
  obtain ⟨hl, h1, -⟩ := h
  refine ⟨hl, ?_⟩
  rw [List.getD_eq_getElem?_getD, List.getElem?_eq_getElem hl]
  simpa using h1

theorem mapM_digits {ds : List Nat} (h : ∀ d ∈ ds, d < 58) : (ds.map fun d => b58Alphabet.getD d '1').mapM b58Digit = some ds := by
  induction ds with
  | nil => rfl
  | cons d ds ih =>
    rw [List.map_cons, List.mapM_cons, digit_char (h d (by simp)), ih (fun x hx => h x (by simp [hx]))]
    rfl

theorem mapM_chars {s : Str} {ds : List Nat} (h : s.mapM b58Digit = some ds) :
    (∀ d ∈ ds, d < 58) ∧ ds.map (fun d => b58Alphabet.getD d '1') = s := by
  induction s generalizing ds with
  | nil => obtain rfl : [] = ds := by simpa using h
           simp
  | cons c s ih =>
    simp only [List.mapM_cons, Option.bind_eq_bind, Option.bind_eq_some_iff, Option.pure_def, Option.some.injEq] at h
    obtain ⟨d, hd, ds', hds, rfl⟩ := h
    obtain ⟨h1, h2⟩ := char_digit hd
    obtain ⟨h3, h4⟩ := ih hds
    refine ⟨?_, by rw [List.map_cons, h2, h4]⟩
    rintro x (_ | ⟨_, hx⟩)
    · exact h1
    · exact h3 x hx

/-- Digits, most significant first, as the zeros in front and the rest. -/
theorem split_zeros (ds : List Nat) : ∃ k l, ds = List.replicate k 0 ++ l ∧ ds.takeWhile (· == 0) = List.replicate k 0 ∧
    (∀ h : l ≠ [], l.head h ≠ 0) := by
  induction ds with
  | nil => exact ⟨0, [], rfl, rfl, fun h => absurd rfl h⟩
  | cons d ds ih =>
    by_cases hd : d = 0
    · obtain ⟨k, l, h1, h2, h3⟩ := ih
      refine ⟨k + 1, l, ?_, ?_, h3⟩
      · rw [h1, hd, List.replicate_succ]; rfl
      · rw [List.takeWhile_cons, hd, List.replicate_succ]; simp [h2]
    · refine ⟨0, d :: ds, rfl, ?_, fun _ => hd⟩
      simp [hd]

theorem digits_ofDigits_rev {b k : Nat} (hb : 1 < b) {l : List Nat} (hl : ∀ d ∈ l, d < b)
    (h0 : ∀ h : l ≠ [], l.head h ≠ 0) : Nat.digits b (Nat.ofDigits b (List.replicate k 0 ++ l).reverse) = l.reverse := by
  rw [List.reverse_append, Nat.ofDigits_append, List.reverse_replicate, Nat.ofDigits_replicate_zero]
  simp only [Nat.mul_zero, Nat.add_zero]
  apply Nat.digits_ofDigits b hb
  · simpa using hl
  · intro h
    rw [List.getLast_reverse]
    exact h0 _

theorem toNat_ofNat_map {l : List Nat} (h : ∀ d ∈ l, d < 256) : (l.map UInt8.ofNat).map UInt8.toNat = l := by
  rw [List.map_map]
  conv_rhs => rw [← List.map_id l]
  apply List.map_congr_left
  intro d hd
  simp [Nat.mod_eq_of_lt (h d hd)]

theorem ofNat_toNat_map (b : Bytes) : (b.map UInt8.toNat).map UInt8.ofNat = b := by
  rw [List.map_map]
  conv_rhs => rw [← List.map_id b]
  apply List.map_congr_left
  intro d hd
  simp

theorem digits_head {b n : Nat} (h : (Nat.digits b n).reverse ≠ []) : (Nat.digits b n).reverse.head h ≠ 0 := by
  rw [List.head_reverse]
  apply Nat.getLast_digit_ne_zero
  rintro rfl
  simp at h

theorem takeWhile_zeros {k : Nat} {l : List Nat} (h : ∀ h : l ≠ [], l.head h ≠ 0) :
    (List.replicate k 0 ++ l).takeWhile (· == 0) = List.replicate k 0 := by
  induction k with
  | zero =>
    cases l with
    | nil => rfl
    | cons d l =>
      have : d ≠ 0 := h (by simp)
      simp [this]
  | succ k ih => rw [List.replicate_succ, List.cons_append, List.takeWhile_cons]; simpa using ih

theorem takeWhile_bytes (b : Bytes) : (b.takeWhile (· == 0)).length = ((b.map UInt8.toNat).takeWhile (· == 0)).length := by
  induction b with
  | nil => rfl
  | cons x b ih =>
    rw [List.map_cons, List.takeWhile_cons, List.takeWhile_cons]
    by_cases hx : x = 0
    · subst hx; simpa using ih
    · have : x.toNat ≠ 0 := fun h => hx (UInt8.toNat_inj.1 (by simpa using h))
      simp [hx, this]

theorem ofDigits_lt {b : Nat} (hb : 1 < b) {l : List Nat} (hl : ∀ d ∈ l, d < b) : Nat.ofDigits b l.reverse < b ^ l.length := by
  have := Nat.ofDigits_lt_base_pow_length hb (l := l.reverse) (by simpa using hl)
  simpa using this

/-- The numbers of the bytes that digits in base 58 stand for. -/
theorem decode_digits {ds : List Nat} (hd : ∀ d ∈ ds, d < 58) :
    toBase 256 ds.length (ofBase 58 ds) = Nat.digits 256 (Nat.ofDigits 58 ds.reverse) := by
  rw [ofBase_eq, toBase_digits (by decide)]
  exact lt_of_lt_of_le (ofDigits_lt (by decide) hd) (Nat.pow_le_pow_left (by decide) _)

theorem replicate_char (k : Nat) : List.replicate k '1' = (List.replicate k 0).map fun d => b58Alphabet.getD d '1' := by
  rw [List.map_replicate]; rfl

/-- What is read is what is written. -/
theorem b58_iff (s : Str) (b : Bytes) : b58Decode s = some b ↔ b58Encode b = s := by
  constructor
  · intro h
    simp only [b58Decode, Option.map_eq_some_iff] at h
    obtain ⟨ds, hds, rfl⟩ := h
    obtain ⟨hd, hs⟩ := mapM_chars hds
    rw [decode_digits hd]
    obtain ⟨k, l, rfl, htw, h0⟩ := split_zeros ds
    rw [htw]
    have hl : ∀ d ∈ l, d < 58 := fun d hx => hd d (by simp [hx])
    generalize hn : Nat.ofDigits 58 (List.replicate k 0 ++ l).reverse = n
    have hln : Nat.digits 58 n = l.reverse := by rw [← hn]; exact digits_ofDigits_rev (by decide) hl h0
    have hb : ∀ d ∈ List.replicate k 0 ++ (Nat.digits 256 n).reverse, d < 256 := by
      intro d hx
      rcases List.mem_append.1 hx with hx | hx
      · rw [List.eq_of_mem_replicate hx]; decide
      · exact Nat.digits_lt_base (by decide) (List.mem_reverse.1 hx)
    rw [b58Encode, takeWhile_bytes, bytesNat_eq, toNat_ofNat_map hb, takeWhile_zeros (fun h => digits_head h),
      digits58_eq]
    have hnum : Nat.ofDigits 256 (List.replicate k 0 ++ (Nat.digits 256 n).reverse).reverse = n := by
      rw [List.reverse_append, Nat.ofDigits_append, List.reverse_replicate, Nat.ofDigits_replicate_zero, List.reverse_reverse,
        Nat.ofDigits_digits]
      simp
    rw [hnum, hln, List.reverse_reverse, List.length_replicate, replicate_char, ← List.map_append]
    exact hs
  · rintro rfl
    have hv : ∀ d ∈ b.map UInt8.toNat, d < 256 := by
      intro d hd
      obtain ⟨x, -, rfl⟩ := List.mem_map.1 hd
      exact x.toNat_lt
    obtain ⟨k, l, hbl, htw, h0⟩ := split_zeros (b.map UInt8.toNat)
    have hl : ∀ d ∈ l, d < 256 := fun d hx => hv d (by rw [hbl]; simp [hx])
    rw [b58Encode, takeWhile_bytes, htw, List.length_replicate, digits58_eq, replicate_char, ← List.map_append]
    generalize hn : bytesNat b = n
    have hd : ∀ d ∈ List.replicate k 0 ++ (Nat.digits 58 n).reverse, d < 58 := by
      intro d hx
      rcases List.mem_append.1 hx with hx | hx
      · rw [List.eq_of_mem_replicate hx]; decide
      · exact Nat.digits_lt_base (by decide) (List.mem_reverse.1 hx)
    rw [b58Decode, mapM_digits hd, Option.map_some, decode_digits hd, takeWhile_zeros (fun h => digits_head h)]
    have hnum : Nat.ofDigits 58 (List.replicate k 0 ++ (Nat.digits 58 n).reverse).reverse = n := by
      rw [List.reverse_append, Nat.ofDigits_append, List.reverse_replicate, Nat.ofDigits_replicate_zero, List.reverse_reverse,
        Nat.ofDigits_digits]
      simp
    have hln : Nat.digits 256 n = l.reverse := by
      rw [← hn, bytesNat_eq, hbl]; exact digits_ofDigits_rev (by decide) hl h0
    rw [hnum, hln, List.reverse_reverse, ← hbl, ofNat_toNat_map]

end Verif.Algo
