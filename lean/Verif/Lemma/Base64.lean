import Verif.Model.Base64

namespace Verif

theorem b64Val_b64Char : ∀ n, n < 64 → b64Val (b64Char n) = some n := by decide

theorem b64Char_ne_pad : ∀ n, n < 64 → b64Char n ≠ '=' := by decide

theorem b64Val_lt {c : Char} {n : Nat} (h : b64Val c = some n) : n < 64 := by
  unfold b64Val at h
  split at h
  · simp at h; omega
  split at h
  · simp at h; omega
  split at h
  · simp at h; omega
  split at h
  · simp at h; omega
  split at h
  · simp at h; omega
  · simp at h

theorem char_ofNat_toNat (c : Char) : Char.ofNat c.toNat = c := by
  exact Char.ofNat_toNat c

theorem b64Char_b64Val {c : Char} {n : Nat} (h : b64Val c = some n) : b64Char n = c := by
  unfold b64Val at h
  split at h
  · rename_i hc
    simp at h; subst h
    unfold b64Char
    rw [if_pos (by omega), show 65 + (c.toNat - 65) = c.toNat by omega, char_ofNat_toNat]
  split at h
  · rename_i hc
    simp at h; subst h
    unfold b64Char
    rw [if_neg (by omega), if_pos (by omega),
      show 97 + (c.toNat - 97 + 26 - 26) = c.toNat by omega, char_ofNat_toNat]
  split at h
  · rename_i hc
    simp at h; subst h
    unfold b64Char
    rw [if_neg (by omega), if_neg (by omega), if_pos (by omega),
      show 48 + (c.toNat - 48 + 52 - 52) = c.toNat by omega, char_ofNat_toNat]
  split at h
  · rename_i hc
    simp at h; subst h; subst hc; decide
  split at h
  · rename_i hc
    simp at h; subst h; subst hc; decide
  · simp at h

theorem b64Val_ne_pad {c : Char} {n : Nat} (h : b64Val c = some n) : c ≠ '=' := by
  rintro rfl
  simp [b64Val] at h

theorem byte_eq (x : UInt8) (n : Nat) (h : n = x.toNat) : UInt8.ofNat n = x := by
  subst h; simp

theorem b64DecodeData_encode (bs : Bytes) : b64DecodeData (b64Encode bs) = some bs := by
  induction bs using b64Encode.induct with
  | case1 a b c t ih =>
    have ha := a.toNat_lt; have hb := b.toNat_lt; have hc := c.toNat_lt
    simp only [b64Encode, b64DecodeData]
    rw [b64Val_b64Char _ (by omega), b64Val_b64Char _ (by omega), b64Val_b64Char _ (by omega),
      b64Val_b64Char _ (by omega), ih]
    simp only [Option.some.injEq, List.cons.injEq, and_true]
    refine ⟨byte_eq _ _ (by omega), byte_eq _ _ (by omega), byte_eq _ _ (by omega)⟩
  | case2 a b =>
    have ha := a.toNat_lt; have hb := b.toNat_lt
    simp only [b64Encode, b64DecodeData]
    rw [b64Val_b64Char _ (by omega), b64Val_b64Char _ (by omega), b64Val_b64Char _ (by omega)]
    simp only
    rw [if_pos (by omega)]
    simp only [Option.some.injEq, List.cons.injEq, and_true]
    refine ⟨byte_eq _ _ (by omega), byte_eq _ _ (by omega)⟩
  | case3 a =>
    have ha := a.toNat_lt
    simp only [b64Encode, b64DecodeData]
    rw [b64Val_b64Char _ (by omega), b64Val_b64Char _ (by omega)]
    simp only
    rw [if_pos (by omega)]
    simp only [Option.some.injEq, List.cons.injEq, and_true]
    exact byte_eq _ _ (by omega)
  | case4 => simp [b64Encode, b64DecodeData]

theorem b64Encode_noPad (bs : Bytes) : ∀ c ∈ b64Encode bs, c ≠ '=' := by
  induction bs using b64Encode.induct with
  | case1 a b c t ih =>
    have ha := a.toNat_lt; have hb := b.toNat_lt; have hc := c.toNat_lt
    intro x hx
    simp only [b64Encode, List.mem_cons] at hx
    rcases hx with rfl | rfl | rfl | rfl | hx
    · exact b64Char_ne_pad _ (by omega)
    · exact b64Char_ne_pad _ (by omega)
    · exact b64Char_ne_pad _ (by omega)
    · exact b64Char_ne_pad _ (by omega)
    · exact ih x hx
  | case2 a b =>
    have ha := a.toNat_lt; have hb := b.toNat_lt
    intro x hx
    simp only [b64Encode, List.mem_cons, List.not_mem_nil, or_false] at hx
    rcases hx with rfl | rfl | rfl <;> exact b64Char_ne_pad _ (by omega)
  | case3 a =>
    have ha := a.toNat_lt
    intro x hx
    simp only [b64Encode, List.mem_cons, List.not_mem_nil, or_false] at hx
    rcases hx with rfl | rfl <;> exact b64Char_ne_pad _ (by omega)
  | case4 => simp [b64Encode]

theorem b64Encode_chars (bs : Bytes) : ∀ c ∈ b64Encode bs, ∃ n, n < 64 ∧ b64Char n = c := by
  induction bs using b64Encode.induct with
  | case1 a b c t ih =>
    have ha := a.toNat_lt; have hb := b.toNat_lt; have hc := c.toNat_lt
    intro x hx
    simp only [b64Encode, List.mem_cons] at hx
    rcases hx with rfl | rfl | rfl | rfl | hx
    · exact ⟨_, by omega, rfl⟩
    · exact ⟨_, by omega, rfl⟩
    · exact ⟨_, by omega, rfl⟩
    · exact ⟨_, by omega, rfl⟩
    · exact ih x hx
  | case2 a b =>
    have ha := a.toNat_lt; have hb := b.toNat_lt
    intro x hx
    simp only [b64Encode, List.mem_cons, List.not_mem_nil, or_false] at hx
    rcases hx with rfl | rfl | rfl <;> exact ⟨_, by omega, rfl⟩
  | case3 a =>
    have ha := a.toNat_lt
    intro x hx
    simp only [b64Encode, List.mem_cons, List.not_mem_nil, or_false] at hx
    rcases hx with rfl | rfl <;> exact ⟨_, by omega, rfl⟩
  | case4 => simp [b64Encode]

theorem takeWhile_all {α : Type} (p : α → Bool) (l : List α) (h : ∀ x ∈ l, p x = true) :
    l.takeWhile p = l := by
  induction l with
  | nil => rfl
  | cons a t ih =>
    simp only [List.mem_cons, forall_eq_or_imp] at h
    simp [h.1, ih h.2]

theorem dropWhile_all {α : Type} (p : α → Bool) (l : List α) (h : ∀ x ∈ l, p x = true) :
    l.dropWhile p = [] := by
  induction l with
  | nil => rfl
  | cons a t ih =>
    simp only [List.mem_cons, forall_eq_or_imp] at h
    simp [h.1, ih h.2]

theorem b64PadOk_zero (d : Nat) : b64PadOk d 0 = true := by
  unfold b64PadOk; split <;> (try split) <;> simp

/-- Round-trip of the whole codec. -/
@[simp] theorem b64Decode_encode (bs : Bytes) : b64Decode (b64Encode bs) = some bs := by
  have h : ∀ x ∈ b64Encode bs, (decide (x ≠ '=')) = true := by
    intro x hx; simpa using b64Encode_noPad bs x hx
  unfold b64Decode
  simp only [takeWhile_all _ _ h, dropWhile_all _ _ h, List.all_nil, List.length_nil,
    b64PadOk_zero, Bool.and_self, if_true, b64DecodeData_encode]

theorem toNat_ofNat_lt {n : Nat} (h : n < 256) : (UInt8.ofNat n).toNat = n := by
  simp; omega

theorem b64DecodeData_sound : ∀ (s : Str) (bs : Bytes), b64DecodeData s = some bs →
    b64Encode bs = s := by
  intro s
  induction s using b64DecodeData.induct with
  | case1 a b c d t va vb vc vd r hr hd hc hb ha ih =>
    intro bs h
    simp only [b64DecodeData, ha, hb, hc, hd, hr, Option.some.injEq] at h
    subst h
    have := b64Val_lt ha; have := b64Val_lt hb; have := b64Val_lt hc; have := b64Val_lt hd
    simp only [b64Encode, List.cons.injEq]
    rw [toNat_ofNat_lt (by omega), toNat_ofNat_lt (by omega), toNat_ofNat_lt (by omega)]
    refine ⟨?_, ?_, ?_, ?_, ih r hr⟩
    · rw [show (va * 4 + vb / 16) / 4 = va by omega]; exact b64Char_b64Val ha
    · rw [show (va * 4 + vb / 16) % 4 * 16 + (vb % 16 * 16 + vc / 4) / 16 = vb by omega]
      exact b64Char_b64Val hb
    · rw [show (vb % 16 * 16 + vc / 4) % 16 * 4 + (vc % 4 * 64 + vd) / 64 = vc by omega]
      exact b64Char_b64Val hc
    · rw [show (vc % 4 * 64 + vd) % 64 = vd by omega]; exact b64Char_b64Val hd
  | case2 a b c d t hno =>
    intro bs h
    simp [b64DecodeData] at h
  | case3 a b c va vb vc hc hb ha h0 =>
    intro bs h
    simp only [b64DecodeData, ha, hb, hc, h0, if_true, Option.some.injEq] at h
    subst h
    have := b64Val_lt ha; have := b64Val_lt hb; have := b64Val_lt hc
    simp only [b64Encode, List.cons.injEq, and_true]
    rw [toNat_ofNat_lt (by omega), toNat_ofNat_lt (by omega)]
    refine ⟨?_, ?_, ?_⟩
    · rw [show (va * 4 + vb / 16) / 4 = va by omega]; exact b64Char_b64Val ha
    · rw [show (va * 4 + vb / 16) % 4 * 16 + (vb % 16 * 16 + vc / 4) / 16 = vb by omega]
      exact b64Char_b64Val hb
    · rw [show (vb % 16 * 16 + vc / 4) % 16 * 4 = vc by omega]
      exact b64Char_b64Val hc
  | case4 a b c va vb vc hc hb ha h0 =>
    intro bs h
    simp [b64DecodeData, ha, hb, hc, h0] at h
  | case5 a b c hno =>
    intro bs h
    simp [b64DecodeData] at h
  | case6 a b va vb hb ha h0 =>
    intro bs h
    simp only [b64DecodeData, ha, hb, h0, if_true, Option.some.injEq] at h
    subst h
    have := b64Val_lt ha; have := b64Val_lt hb
    simp only [b64Encode, List.cons.injEq, and_true]
    rw [toNat_ofNat_lt (by omega)]
    refine ⟨?_, ?_⟩
    · rw [show (va * 4 + vb / 16) / 4 = va by omega]; exact b64Char_b64Val ha
    · rw [show (va * 4 + vb / 16) % 4 * 16 = vb by omega]; exact b64Char_b64Val hb
  | case7 a b va vb ha hb h0 =>
    intro bs h
    simp [b64DecodeData, ha, hb, h0] at h
  | case8 a b hno =>
    intro bs h
    simp [b64DecodeData] at h
  | case9 a => intro bs h; simp [b64DecodeData] at h
  | case10 => intro bs h; simp [b64DecodeData] at h; subst h; rfl

theorem b64Decode_sound {s : Str} {bs : Bytes} (h : b64Decode s = some bs) :
    ∃ p, s = b64Encode bs ++ List.replicate p '=' ∧ b64PadOk (b64Encode bs).length p = true := by
  unfold b64Decode at h
  simp only at h
  split at h
  · rename_i hp
    simp only [Bool.and_eq_true] at hp
    have h1 := b64DecodeData_sound _ _ h
    refine ⟨(s.dropWhile (· ≠ '=')).length, ?_, ?_⟩
    · have hall : s.dropWhile (· ≠ '=')
          = List.replicate (s.dropWhile (· ≠ '=')).length '=' := by
        rw [List.eq_replicate_iff]
        refine ⟨rfl, fun b hb => ?_⟩
        have := List.all_eq_true.1 hp.1 b hb
        simpa using this
      rw [h1, ← hall]
      exact (List.takeWhile_append_dropWhile).symm
    · rw [h1]; exact hp.2
  · simp at h

theorem b64Encode_injective {a b : Bytes} (h : b64Encode a = b64Encode b) : a = b := by
  have := b64Decode_encode a
  rw [h, b64Decode_encode] at this
  simpa using this.symm

theorem b64Encode_length (bs : Bytes) : (b64Encode bs).length = (bs.length * 4 + 2) / 3 := by
  induction bs using b64Encode.induct with
  | case1 a b c t ih => simp only [b64Encode, List.length_cons, ih]; omega
  | case2 a b => simp [b64Encode]
  | case3 a => simp [b64Encode]
  | case4 => simp [b64Encode]

end Verif
