import Verif.Model.Utf8
import Verif.Lemma.Base64

namespace Verif

theorem char_valid (c : Char) :
    c.toNat < 0xD800 ∨ 0xDFFF < c.toNat ∧ c.toNat < 0x110000 := c.valid

theorem mkChar_toNat (c : Char) (lo : Nat) (h : lo ≤ c.toNat) : mkChar lo c.toNat = some c := by
  unfold mkChar
  rw [if_pos ⟨h, char_valid c⟩, Char.ofNat_toNat]

theorem utf8Cont_ofNat (n : Nat) (h : n < 64) : utf8Cont (UInt8.ofNat (0x80 + n)) = some n := by
  unfold utf8Cont
  rw [toNat_ofNat_lt (by omega), if_pos (by omega)]
  rw [Nat.add_sub_cancel_left]

theorem char_lt (c : Char) : c.toNat < 0x110000 := by
  have := char_valid c
  omega

theorem utf8Step_char (c : Char) (t : Bytes) : utf8Step (utf8Char c ++ t) = some (c, t) := by
  have hc := char_lt c
  unfold utf8Char; dsimp only
  split
  · rename_i h
    simp only [List.cons_append, List.nil_append, utf8Step]
    rw [toNat_ofNat_lt (by omega), if_pos h, mkChar_toNat c 0 (by omega)]
    simp
  split
  · rename_i h1 h2
    simp only [List.cons_append, List.nil_append, utf8Step]
    rw [toNat_ofNat_lt (by omega), if_neg (by omega), if_neg (by omega), if_pos (by omega)]
    simp only [utf8Step.utf8Step2]
    rw [utf8Cont_ofNat _ (by omega)]
    simp only [Option.bind_eq_bind, Option.bind_some]
    rw [show (0xC0 + c.toNat / 64 - 0xC0) * 64 + c.toNat % 64 = c.toNat by omega,
      mkChar_toNat c _ (by omega)]
    simp
  split
  · rename_i h1 h2 h3
    simp only [List.cons_append, List.nil_append, utf8Step]
    rw [toNat_ofNat_lt (by omega), if_neg (by omega), if_neg (by omega), if_neg (by omega),
      if_pos (by omega)]
    simp only [utf8Step.utf8Step3]
    rw [utf8Cont_ofNat _ (by omega), utf8Cont_ofNat _ (by omega)]
    simp only [Option.bind_eq_bind, Option.bind_some]
    rw [show (0xE0 + c.toNat / 4096 - 0xE0) * 4096 + c.toNat / 64 % 64 * 64 + c.toNat % 64
        = c.toNat by omega, mkChar_toNat c _ (by omega)]
    simp
  · rename_i h1 h2 h3
    simp only [List.cons_append, List.nil_append, utf8Step]
    rw [toNat_ofNat_lt (by omega), if_neg (by omega), if_neg (by omega), if_neg (by omega),
      if_neg (by omega)]
    simp only [utf8Step.utf8Step4]
    rw [utf8Cont_ofNat _ (by omega), utf8Cont_ofNat _ (by omega), utf8Cont_ofNat _ (by omega)]
    simp only [Option.bind_eq_bind, Option.bind_some]
    rw [show (0xF0 + c.toNat / 262144 - 0xF0) * 262144 + c.toNat / 4096 % 64 * 4096
        + c.toNat / 64 % 64 * 64 + c.toNat % 64 = c.toNat by omega, mkChar_toNat c _ (by omega)]
    simp

theorem utf8Char_length_pos (c : Char) : 0 < (utf8Char c).length := by
  unfold utf8Char; dsimp only
  split
  · simp
  split
  · simp
  split <;> simp

theorem utf8_cons (c : Char) (r : Str) : utf8 (c :: r) = utf8Char c ++ utf8 r := by
  simp [utf8, List.flatMap_cons]

theorem utf8DecodeN_utf8 : ∀ (s : Str) (n : Nat), (utf8 s).length ≤ n →
    utf8DecodeN n (utf8 s) = some s := by
  intro s
  induction s with
  | nil => intro n _; cases n <;> rfl
  | cons c t ih =>
    intro n hn
    have hp := utf8Char_length_pos c
    rw [utf8_cons, List.length_append] at hn
    cases n with
    | zero => omega
    | succ n =>
      rw [utf8_cons]
      have hne : ∃ a l, utf8Char c ++ utf8 t = a :: l := by
        cases h : utf8Char c with
        | nil => simp [h] at hp
        | cons a l => exact ⟨a, l ++ utf8 t, rfl⟩
      obtain ⟨a, l, hal⟩ := hne
      have hs := utf8Step_char c (utf8 t)
      rw [hal] at hs ⊢
      simp only [utf8DecodeN, hs, Option.bind_eq_bind, Option.bind_some]
      rw [ih n (by omega)]
      rfl

/-- Decoding inverts encoding. -/
@[simp] theorem utf8Decode_utf8 (s : Str) : utf8Decode (utf8 s) = some s :=
  utf8DecodeN_utf8 s _ (Nat.le_refl _)

theorem utf8_injective {s t : Str} (h : utf8 s = utf8 t) : s = t := by
  have := utf8Decode_utf8 s
  rw [h, utf8Decode_utf8] at this
  simpa using this.symm

theorem utf8_append (s t : Str) : utf8 (s ++ t) = utf8 s ++ utf8 t := by
  simp [utf8, List.flatMap_append]

theorem toNat_ofNat_char {n : Nat} (h : n < 0xD800 ∨ 0xDFFF < n ∧ n < 0x110000) :
    (Char.ofNat n).toNat = n := by
  have hv : n.isValidChar := h
  unfold Char.ofNat
  rw [dif_pos hv]
  simp only [Char.ofNatAux, Char.toNat]
  rfl

theorem mkChar_some {lo n : Nat} {c : Char} (h : mkChar lo n = some c) :
    c.toNat = n ∧ lo ≤ n := by
  unfold mkChar at h
  split at h
  · rename_i h1
    simp only [Option.some.injEq] at h
    subst h
    exact ⟨toNat_ofNat_char h1.2, h1.1⟩
  · simp at h

theorem utf8Cont_some {b : UInt8} {n : Nat} (h : utf8Cont b = some n) :
    b.toNat = 0x80 + n ∧ n < 64 := by
  unfold utf8Cont at h
  split at h
  · simp only [Option.some.injEq] at h; omega
  · simp at h

theorem utf8Step_sound {bs : Bytes} {c : Char} {t : Bytes} (h : utf8Step bs = some (c, t)) :
    bs = utf8Char c ++ t := by
  have hlt := char_lt c
  cases bs with
  | nil => simp [utf8Step] at h
  | cons a l =>
    have ha := a.toNat_lt
    simp only [utf8Step] at h
    split at h
    · rename_i h1
      simp only [Option.map_eq_some_iff, Prod.mk.injEq] at h
      obtain ⟨c', hc, rfl, rfl⟩ := h
      obtain ⟨hn, _⟩ := mkChar_some hc
      rw [utf8Char, if_pos (by omega), hn]
      simp
    split at h
    · simp at h
    split at h
    · rename_i h1 h2 h3
      cases l with
      | nil => simp [utf8Step.utf8Step2] at h
      | cons b l =>
        simp only [utf8Step.utf8Step2, Option.bind_eq_bind, Option.bind_eq_some_iff,
          Option.some.injEq, Prod.mk.injEq] at h
        obtain ⟨y, hy, c', hc, rfl, rfl⟩ := h
        obtain ⟨hn, hlo⟩ := mkChar_some hc
        obtain ⟨hb, hy64⟩ := utf8Cont_some hy
        rw [utf8Char, if_neg (by omega), if_pos (by omega), hn]
        simp only [List.cons_append, List.nil_append, List.cons.injEq, and_true]
        exact ⟨(byte_eq _ _ (by omega)).symm, (byte_eq _ _ (by omega)).symm⟩
    split at h
    · rename_i h1 h2 h3 h4
      match l, h with
      | [], h => simp [utf8Step.utf8Step3] at h
      | [_], h => simp [utf8Step.utf8Step3] at h
      | b :: b2 :: l, h =>
        simp only [utf8Step.utf8Step3, Option.bind_eq_bind, Option.bind_eq_some_iff,
          Option.some.injEq, Prod.mk.injEq] at h
        obtain ⟨y, hy, z, hz, c', hc, rfl, rfl⟩ := h
        obtain ⟨hn, hlo⟩ := mkChar_some hc
        obtain ⟨hb, hy64⟩ := utf8Cont_some hy
        obtain ⟨hb2, hz64⟩ := utf8Cont_some hz
        rw [utf8Char, if_neg (by omega), if_neg (by omega), if_pos (by omega), hn]
        simp only [List.cons_append, List.nil_append, List.cons.injEq, and_true]
        exact ⟨(byte_eq _ _ (by omega)).symm, (byte_eq _ _ (by omega)).symm,
          (byte_eq _ _ (by omega)).symm⟩
    · rename_i h1 h2 h3 h4
      match l, h with
      | [], h => simp [utf8Step.utf8Step4] at h
      | [_], h => simp [utf8Step.utf8Step4] at h
      | [_, _], h => simp [utf8Step.utf8Step4] at h
      | b :: b2 :: b3 :: l, h =>
        simp only [utf8Step.utf8Step4, Option.bind_eq_bind, Option.bind_eq_some_iff,
          Option.some.injEq, Prod.mk.injEq] at h
        obtain ⟨y, hy, z, hz, w, hw, c', hc, rfl, rfl⟩ := h
        obtain ⟨hn, hlo⟩ := mkChar_some hc
        obtain ⟨hb, hy64⟩ := utf8Cont_some hy
        obtain ⟨hb2, hz64⟩ := utf8Cont_some hz
        obtain ⟨hb3, hw64⟩ := utf8Cont_some hw
        rw [utf8Char, if_neg (by omega), if_neg (by omega), if_neg (by omega), hn]
        simp only [List.cons_append, List.nil_append, List.cons.injEq, and_true]
        exact ⟨(byte_eq _ _ (by omega)).symm, (byte_eq _ _ (by omega)).symm,
          (byte_eq _ _ (by omega)).symm, (byte_eq _ _ (by omega)).symm⟩

/-- Only encodings are decoded. -/
theorem utf8DecodeN_sound : ∀ (n : Nat) (bs : Bytes) (s : Str),
    utf8DecodeN n bs = some s → utf8 s = bs := by
  intro n
  induction n with
  | zero =>
    intro bs s h
    cases bs with
    | nil => simp [utf8DecodeN] at h; subst h; rfl
    | cons a t => simp [utf8DecodeN] at h
  | succ n ih =>
    intro bs s h
    cases bs with
    | nil => simp [utf8DecodeN] at h; subst h; rfl
    | cons a t =>
      simp only [utf8DecodeN, Option.bind_eq_bind, Option.bind_eq_some_iff, Option.some.injEq,
        Prod.exists] at h
      obtain ⟨c, r, hs, r', hr, rfl⟩ := h
      rw [utf8_cons, ih _ _ hr, ← utf8Step_sound hs]

theorem utf8Decode_eq_some {bs : Bytes} {s : Str} : utf8Decode bs = some s ↔ utf8 s = bs :=
  ⟨utf8DecodeN_sound bs.length bs s, fun h => h ▸ utf8Decode_utf8 s⟩

end Verif
