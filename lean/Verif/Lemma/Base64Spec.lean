import Verif.Lemma.Base64
import Verif.Spec.Base64

namespace Verif
open Spec

theorem bitsOf_length (w n : Nat) : (bitsOf w n).length = w := by
  induction w generalizing n with
  | zero => rfl
  | succ w ih => simp [bitsOf, ih]

theorem bitsOf_add (w1 w2 n : Nat) :
    bitsOf (w1 + w2) n = bitsOf w1 (n / 2 ^ w2) ++ bitsOf w2 (n % 2 ^ w2) := by
  induction w2 generalizing n with
  | zero => simp [bitsOf]
  | succ w ih =>
    have e1 : n / 2 / 2 ^ w = n / 2 ^ (w + 1) := by
      rw [Nat.pow_succ, Nat.mul_comm, Nat.div_div_eq_div_mul]
    have e2 : n % 2 ^ (w + 1) / 2 = n / 2 % 2 ^ w := by
      rw [Nat.pow_succ, Nat.mul_comm, Nat.mod_mul_right_div_self]
    have e3 : n % 2 ^ (w + 1) % 2 = n % 2 :=
      Nat.mod_mod_of_dvd n (by rw [Nat.pow_succ]; exact Nat.dvd_mul_left 2 _)
    have e4 : bitsOf (w + 1) (n % 2 ^ (w + 1))
        = bitsOf w (n % 2 ^ (w + 1) / 2) ++ [n % 2 ^ (w + 1) % 2 == 1] := rfl
    have e5 : bitsOf (w1 + (w + 1)) n = bitsOf (w1 + w) (n / 2) ++ [n % 2 == 1] := rfl
    rw [e5, ih, e4, e1, e2, e3, List.append_assoc]

theorem bitsOf_split (w1 w2 : Nat) {n x y : Nat} (h : n = x * 2 ^ w2 + y) (hy : y < 2 ^ w2) :
    bitsOf (w1 + w2) n = bitsOf w1 x ++ bitsOf w2 y := by
  have hp : 0 < 2 ^ w2 := Nat.pow_pos (by omega)
  have h1 : n / 2 ^ w2 = x := by
    rw [h, Nat.mul_comm, Nat.mul_add_div hp, Nat.div_eq_of_lt hy]; rfl
  have h2 : n % 2 ^ w2 = y := by
    rw [h, Nat.mul_comm, Nat.mul_add_mod, Nat.mod_eq_of_lt hy]
  rw [bitsOf_add, h1, h2]

theorem bitsOf_inj (w : Nat) : ∀ {m n : Nat}, m < 2 ^ w → n < 2 ^ w →
    bitsOf w m = bitsOf w n → m = n := by
  induction w with
  | zero => intro m n hm hn _; simp at hm hn; omega
  | succ w ih =>
    intro m n hm hn h
    simp only [bitsOf] at h
    have h' := List.append_inj h (by simp [bitsOf_length])
    have h1 := ih (by rw [Nat.pow_succ] at hm; omega) (by rw [Nat.pow_succ] at hn; omega) h'.1
    have h2 := h'.2
    simp only [List.cons.injEq, and_true] at h2
    have : (m % 2 = 1) ↔ (n % 2 = 1) := by
      have := congrArg (· = true) h2
      simpa using this
    omega

theorem idxOf_b64Char : ∀ n, n < 64 → alphabet.idxOf (b64Char n) = n := by decide

theorem b64Char_mem : ∀ n, n < 64 → b64Char n ∈ alphabet := by decide

theorem b64Char_getElem : ∀ n, (h : n < 64) → b64Char n = alphabet[n]'(by simpa [alphabet] using h) := by
  decide

theorem alphabet_length : alphabet.length = 64 := by decide

theorem bits24 (a b c x y z w : Nat)
    (h : a * 65536 + b * 256 + c = x * 262144 + y * 4096 + z * 64 + w)
    (hb : b < 256) (hc : c < 256) (hy : y < 64) (hz : z < 64) (hw : w < 64) :
    bitsOf 6 x ++ (bitsOf 6 y ++ (bitsOf 6 z ++ bitsOf 6 w))
      = bitsOf 8 a ++ (bitsOf 8 b ++ bitsOf 8 c) := by
  rw [← bitsOf_split 8 8 rfl (by simpa using hc), ← bitsOf_split 8 (8 + 8) rfl (by simp; omega),
    ← bitsOf_split 6 6 rfl (by simpa using hw), ← bitsOf_split 6 (6 + 6) rfl (by simp; omega),
    ← bitsOf_split 6 (6 + (6 + 6)) rfl (by simp; omega)]
  refine congrArg (bitsOf 24) (?_ : (_ : Nat) = _)
  simp only [Nat.reducePow, Nat.reduceAdd]
  rw [← Nat.add_assoc, ← Nat.add_assoc, ← Nat.add_assoc]
  exact h.symm

theorem replicate_bits (n : Nat) : List.replicate n false = bitsOf n 0 := by
  induction n with
  | zero => rfl
  | succ n ih => rw [List.replicate_succ', ih]; simp [bitsOf]

theorem bits18 (a b x y z : Nat)
    (h : (a * 256 + b) * 4 = x * 4096 + y * 64 + z) (hb : b < 256) (hy : y < 64) (hz : z < 64) :
    bitsOf 6 x ++ (bitsOf 6 y ++ bitsOf 6 z)
      = bitsOf 8 a ++ (bitsOf 8 b ++ List.replicate 2 false) := by
  rw [replicate_bits, ← bitsOf_split 8 2 rfl (by simp), ← bitsOf_split 8 (8 + 2) rfl (by simp; omega),
    ← bitsOf_split 6 6 rfl (by simpa using hz), ← bitsOf_split 6 (6 + 6) rfl (by simp; omega)]
  refine congrArg (bitsOf 18) (?_ : (_ : Nat) = _)
  simp only [Nat.reducePow, Nat.reduceAdd]
  omega

theorem bits12 (a x y : Nat) (h : a * 16 = x * 64 + y) (hy : y < 64) :
    bitsOf 6 x ++ bitsOf 6 y = bitsOf 8 a ++ List.replicate 4 false := by
  rw [replicate_bits, ← bitsOf_split 8 4 rfl (by simp), ← bitsOf_split 6 6 rfl (by simpa using hy)]
  refine congrArg (bitsOf 12) (?_ : (_ : Nat) = _)
  simp only [Nat.reducePow]
  omega

/-- The encoder meets the specification. -/
theorem isBase64Url_encode (bs : Bytes) : IsBase64Url bs (b64Encode bs) := by
  induction bs using b64Encode.induct with
  | case1 a b c t ih =>
    have ha := a.toNat_lt; have hb := b.toNat_lt; have hc := c.toNat_lt
    obtain ⟨hm, z, hz, hbits⟩ := ih
    refine ⟨?_, z, hz, ?_⟩
    · intro x hx
      simp only [b64Encode, List.mem_cons] at hx
      rcases hx with rfl | rfl | rfl | rfl | hx
      · exact b64Char_mem _ (by omega)
      · exact b64Char_mem _ (by omega)
      · exact b64Char_mem _ (by omega)
      · exact b64Char_mem _ (by omega)
      · exact hm x hx
    · simp only [b64Encode, List.flatMap_cons, hbits]
      rw [idxOf_b64Char _ (by omega), idxOf_b64Char _ (by omega), idxOf_b64Char _ (by omega),
        idxOf_b64Char _ (by omega)]
      have := bits24 a.toNat b.toNat c.toNat (a.toNat / 4) (a.toNat % 4 * 16 + b.toNat / 16)
        (b.toNat % 16 * 4 + c.toNat / 64) (c.toNat % 64) (by omega) (by omega) (by omega)
        (by omega) (by omega) (by omega)
      simp only [← List.append_assoc] at this ⊢
      rw [this]
  | case2 a b =>
    have ha := a.toNat_lt; have hb := b.toNat_lt
    refine ⟨?_, 2, by omega, ?_⟩
    · intro x hx
      simp only [b64Encode, List.mem_cons, List.not_mem_nil, or_false] at hx
      rcases hx with rfl | rfl | rfl <;> exact b64Char_mem _ (by omega)
    · simp only [b64Encode, List.flatMap_cons, List.flatMap_nil, List.append_nil,
        List.append_assoc]
      rw [idxOf_b64Char _ (by omega), idxOf_b64Char _ (by omega), idxOf_b64Char _ (by omega)]
      exact bits18 _ _ _ _ _ (by omega) (by omega) (by omega) (by omega)
  | case3 a =>
    have ha := a.toNat_lt
    refine ⟨?_, 4, by omega, ?_⟩
    · intro x hx
      simp only [b64Encode, List.mem_cons, List.not_mem_nil, or_false] at hx
      rcases hx with rfl | rfl <;> exact b64Char_mem _ (by omega)
    · simp only [b64Encode, List.flatMap_cons, List.flatMap_nil, List.append_nil]
      rw [idxOf_b64Char _ (by omega), idxOf_b64Char _ (by omega)]
      exact bits12 _ _ _ (by omega) (by omega)
  | case4 => exact ⟨by simp [b64Encode], 0, by omega, by simp [b64Encode]⟩

theorem flatMap_bits_length {α : Type} (l : List α) (w : Nat) (f : α → Nat) :
    (l.flatMap (fun c => bitsOf w (f c))).length = w * l.length := by
  induction l with
  | nil => simp
  | cons a t ih => simp [List.flatMap_cons, ih, bitsOf_length, Nat.mul_add]; omega

theorem text_bits_inj : ∀ (s t : List Char), (∀ c ∈ s, c ∈ alphabet) → (∀ c ∈ t, c ∈ alphabet) →
    s.flatMap (fun c => bitsOf 6 (alphabet.idxOf c))
      = t.flatMap (fun c => bitsOf 6 (alphabet.idxOf c)) → s = t := by
  intro s
  induction s with
  | nil =>
    intro t _ _ h
    cases t with
    | nil => rfl
    | cons b t =>
      have := congrArg List.length h
      simp only [flatMap_bits_length, List.length_nil, List.length_cons] at this
      omega
  | cons a s ih =>
    intro t hs ht h
    cases t with
    | nil =>
      have := congrArg List.length h
      simp only [flatMap_bits_length, List.length_nil, List.length_cons] at this
      omega
    | cons b t =>
      simp only [List.mem_cons, forall_eq_or_imp] at hs ht
      simp only [List.flatMap_cons] at h
      have h' := List.append_inj h (by simp [bitsOf_length])
      have la := List.idxOf_lt_length_of_mem hs.1
      have lb := List.idxOf_lt_length_of_mem ht.1
      rw [alphabet_length] at la lb
      have hi := bitsOf_inj 6 (by simpa using la) (by simpa using lb) h'.1
      have hab : a = b := by
        have e1 := List.getElem_idxOf (xs := alphabet) (x := a) (by rw [alphabet_length]; exact la)
        have e2 := List.getElem_idxOf (xs := alphabet) (x := b) (by rw [alphabet_length]; exact lb)
        rw [← e1, ← e2]; congr 1
      rw [hab, ih t hs.2 ht.2 h'.2]

/-- The specification determines the text. -/
theorem isBase64Url_unique {bs : Bytes} {s t : Str} (hs : IsBase64Url bs s)
    (ht : IsBase64Url bs t) : s = t := by
  obtain ⟨ms, zs, lzs, es⟩ := hs
  obtain ⟨mt, zt, lzt, et⟩ := ht
  apply text_bits_inj s t ms mt
  rw [es, et]
  have h1 := congrArg List.length es
  have h2 := congrArg List.length et
  simp only [flatMap_bits_length, List.length_append, List.length_replicate] at h1 h2
  have : zs = zt := by omega
  rw [this]

end Verif
