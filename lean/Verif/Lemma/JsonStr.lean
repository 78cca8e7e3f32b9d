import Verif.Spec.JsonText
import Verif.Lemma.Utf8
import Verif.Lemma.Hex

namespace Verif
open Spec

theorem hexVal_complete : ∀ p ∈ hexTable, hexVal p.1 = some p.2 := by decide

theorem hexVal_sound_aux : ∀ k, k < 128 →
    (hexVal (Char.ofNat k)).all (fun n => decide ((Char.ofNat k, n) ∈ hexTable)) = true := by
  decide

theorem hexVal_sound {c : Char} {n : Nat} (h : hexVal c = some n) : (c, n) ∈ hexTable := by
  have hlt : c.toNat < 128 := by
    unfold hexVal at h
    split at h
    · omega
    split at h
    · omega
    split at h
    · omega
    · simp at h
  have := hexVal_sound_aux c.toNat hlt
  rw [Char.ofNat_toNat, h] at this
  simpa using this

theorem hex4_complete {u : Str} {n : Nat} (h : CodeUnit u n) (r : Str) :
    hex4 (u ++ r) = some (n, r) := by
  obtain ⟨a, b, c, d, x, y, z, w, rfl, ha, hb, hc, hd, rfl⟩ := h
  have ha := hexVal_complete _ ha
  have hb := hexVal_complete _ hb
  have hc := hexVal_complete _ hc
  have hd := hexVal_complete _ hd
  simp only at ha hb hc hd
  simp only [List.cons_append, List.nil_append, hex4, ha, hb, hc, hd, Option.some.injEq,
    Prod.mk.injEq, and_true]
  omega

theorem hex4_sound {t r : Str} {n : Nat} (h : hex4 t = some (n, r)) :
    ∃ u, t = u ++ r ∧ CodeUnit u n := by
  match t, h with
  | [], h => simp [hex4] at h
  | [_], h => simp [hex4] at h
  | [_, _], h => simp [hex4] at h
  | [_, _, _], h => simp [hex4] at h
  | a :: b :: c :: d :: t, h =>
    simp only [hex4] at h
    split at h
    · rename_i x y z w ha hb hc hd
      simp only [Option.some.injEq, Prod.mk.injEq] at h
      obtain ⟨hn, rfl⟩ := h
      exact ⟨[a, b, c, d], rfl, a, b, c, d, x, y, z, w, rfl, hexVal_sound ha, hexVal_sound hb,
        hexVal_sound hc, hexVal_sound hd, by omega⟩
    · simp at h

theorem codeUnit_lt {u : Str} {n : Nat} (h : CodeUnit u n) : n < 0x10000 := by
  obtain ⟨a, b, c, d, x, y, z, w, rfl, ha, hb, hc, hd, rfl⟩ := h
  have ha := hexVal_lt (hexVal_complete _ ha)
  have hb := hexVal_lt (hexVal_complete _ hb)
  have hc := hexVal_lt (hexVal_complete _ hc)
  have hd := hexVal_lt (hexVal_complete _ hd)
  simp only at ha hb hc hd
  omega

theorem parseUnicode_one {u : Str} {c : Char} (h : CodeUnit u c.toNat) (r : Str) :
    parseUnicode (u ++ r) = some (c, r) := by
  have hv := char_valid c
  unfold parseUnicode
  rw [hex4_complete h]
  simp only
  rw [if_neg (by omega), if_neg (by omega), Char.ofNat_toNat]

theorem parseUnicode_two {u v : Str} {hi lo : Nat} {c : Char} (hu : CodeUnit u hi)
    (hv : CodeUnit v lo) (h1 : 0xD800 ≤ hi) (h2 : hi < 0xDC00) (h3 : 0xDC00 ≤ lo)
    (h4 : lo < 0xE000) (hc : c.toNat = 0x10000 + (hi - 0xD800) * 0x400 + (lo - 0xDC00)) (r : Str) :
    parseUnicode (u ++ ('\\' :: 'u' :: (v ++ r))) = some (c, r) := by
  unfold parseUnicode
  rw [hex4_complete hu]
  simp only
  rw [if_neg (by omega), if_pos (by omega), hex4_complete hv]
  simp only
  rw [if_pos (by omega), ← hc, Char.ofNat_toNat]

theorem parseUnicode_sound {t r : Str} {c : Char} (h : parseUnicode t = some (c, r)) :
    (∃ u, t = u ++ r ∧ CodeUnit u c.toNat) ∨
    (∃ u v hi lo, t = u ++ ('\\' :: 'u' :: (v ++ r)) ∧ CodeUnit u hi ∧ CodeUnit v lo ∧
      0xD800 ≤ hi ∧ hi < 0xDC00 ∧ 0xDC00 ≤ lo ∧ lo < 0xE000 ∧
      c.toNat = 0x10000 + (hi - 0xD800) * 0x400 + (lo - 0xDC00)) := by
  unfold parseUnicode at h
  split at h
  · simp at h
  · rename_i n t1 hn
    obtain ⟨u, rfl, hu⟩ := hex4_sound hn
    have hlt := codeUnit_lt hu
    split at h
    · simp at h
    rename_i hs1
    split at h
    · rename_i hs2
      split at h
      · rename_i t2
        split at h
        · rename_i m t3 hm
          obtain ⟨v, rfl, hv⟩ := hex4_sound hm
          split at h
          · rename_i hs3
            simp only [Option.some.injEq, Prod.mk.injEq] at h
            obtain ⟨rfl, rfl⟩ := h
            right
            refine ⟨u, v, n, m, rfl, hu, hv, by omega, by omega, by omega, by omega, ?_⟩
            rw [toNat_ofNat_char (by omega)]
          · simp at h
        · simp at h
      · simp at h
    · rename_i hs2
      simp only [Option.some.injEq, Prod.mk.injEq] at h
      obtain ⟨rfl, rfl⟩ := h
      left
      refine ⟨u, rfl, ?_⟩
      rw [toNat_ofNat_char (by omega)]
      exact hu

theorem simpleEsc_complete : ∀ p ∈ escapeTable, simpleEsc p.1 = some (Char.ofNat p.2) ∧ p.1 ≠ 'u' := by
  decide

theorem simpleEsc_sound {e c : Char} (h : simpleEsc e = some c) : (e, c.toNat) ∈ escapeTable := by
  unfold simpleEsc at h
  repeat' (split at h)
  all_goals first
    | (simp only [Option.some.injEq] at h; subst h; simp_all; decide)
    | (simp only [Option.some.injEq] at h; subst h; simp_all [escapeTable])
    | simp at h

/-- Every literal of the grammar is read. -/
theorem parseStrN_complete {s t : Str} (h : StrBody s t) :
    ∀ (n : Nat) (rest : Str), s.length < n → parseStrN n (t ++ '"' :: rest) = some (s, rest) := by
  induction h with
  | nil =>
    intro n rest hn
    cases n with
    | zero => simp at hn
    | succ n => simp [parseStrN]
  | @plain c s t h1 h2 h3 _ ih =>
    intro n rest hn
    cases n with
    | zero => simp at hn
    | succ n =>
      simp only [List.length_cons, Nat.add_lt_add_iff_right] at hn
      simp only [List.cons_append, parseStrN]
      rw [if_neg h2, if_neg h3, if_neg (by omega), ih n rest hn]
      rfl
  | @esc e n s t c h1 h2 _ ih =>
    intro m rest hn
    cases m with
    | zero => simp at hn
    | succ m =>
      simp only [List.length_cons, Nat.add_lt_add_iff_right] at hn
      obtain ⟨h3, h4⟩ := simpleEsc_complete _ h1
      simp only at h3 h4
      rw [← h2, Char.ofNat_toNat] at h3
      simp only [List.cons_append, parseStrN]
      rw [if_neg (by decide), if_pos trivial, if_neg h4]
      simp only [h3]
      rw [ih m rest hn]
      rfl
  | @unicode u s t c h1 _ ih =>
    intro m rest hn
    cases m with
    | zero => simp at hn
    | succ m =>
      simp only [List.length_cons, Nat.add_lt_add_iff_right] at hn
      simp only [List.cons_append, parseStrN, List.append_assoc]
      rw [if_neg (by decide), if_pos trivial, if_pos trivial, parseUnicode_one h1]
      simp only
      rw [ih m rest hn]
      rfl
  | @surrogates u v hi lo s t c hu hv h1 h2 h3 h4 hc _ ih =>
    intro m rest hn
    cases m with
    | zero => simp at hn
    | succ m =>
      simp only [List.length_cons, Nat.add_lt_add_iff_right] at hn
      simp only [List.cons_append, parseStrN, List.append_assoc]
      rw [if_neg (by decide), if_pos trivial, if_pos trivial,
        parseUnicode_two hu hv h1 h2 h3 h4 hc]
      simp only
      rw [ih m rest hn]
      rfl

/-- Only literals of the grammar are read. -/
theorem parseStrN_sound : ∀ (n : Nat) (s r rest : Str), parseStrN n s = some (r, rest) →
    ∃ t, s = t ++ '"' :: rest ∧ StrBody r t := by
  intro n
  induction n with
  | zero => intro s r rest h; simp [parseStrN] at h
  | succ n ih =>
    intro s r rest h
    cases s with
    | nil => simp [parseStrN] at h
    | cons c s =>
      simp only [parseStrN] at h
      split at h
      · rename_i hc
        simp only [Option.some.injEq, Prod.mk.injEq] at h
        obtain ⟨rfl, rfl⟩ := h
        exact ⟨[], by simp [hc], .nil⟩
      rename_i hq
      split at h
      · rename_i hb
        cases s with
        | nil => simp at h
        | cons e t1 =>
          simp only at h
          split at h
          · rename_i he
            split at h
            · simp at h
            · rename_i ch t2 hu
              simp only [Option.map_eq_some_iff, Prod.mk.injEq, Prod.exists] at h
              obtain ⟨a, b, hab, rfl, rfl⟩ := h
              obtain ⟨t, rfl, hs⟩ := ih _ _ _ hab
              rcases parseUnicode_sound hu with ⟨u, rfl, hcu⟩ | ⟨u, v, hi, lo, rfl, h1, h2, h3⟩
              · exact ⟨'\\' :: 'u' :: (u ++ t), by simp [hb, he], .unicode hcu hs⟩
              · exact ⟨'\\' :: 'u' :: (u ++ ('\\' :: 'u' :: (v ++ t))), by simp [hb, he],
                  .surrogates h1 h2 h3.1 h3.2.1 h3.2.2.1 h3.2.2.2.1 h3.2.2.2.2 hs⟩
          · split at h
            · simp at h
            · rename_i ch hch
              simp only [Option.map_eq_some_iff, Prod.mk.injEq, Prod.exists] at h
              obtain ⟨a, b, hab, rfl, rfl⟩ := h
              obtain ⟨t, rfl, hs⟩ := ih _ _ _ hab
              exact ⟨'\\' :: e :: t, by simp [hb], .esc (simpleEsc_sound hch) rfl hs⟩
      rename_i hb
      split at h
      · simp at h
      rename_i h32
      simp only [Option.map_eq_some_iff, Prod.mk.injEq, Prod.exists] at h
      obtain ⟨a, b, hab, rfl, rfl⟩ := h
      obtain ⟨t, rfl, hs⟩ := ih _ _ _ hab
      exact ⟨c :: t, by simp, .plain (by omega) hq hb hs⟩

theorem strBody_append {a b s t : Str} (h1 : StrBody a b) (h2 : StrBody s t) :
    StrBody (a ++ s) (b ++ t) := by
  induction h1 with
  | nil => exact h2
  | plain h1 h2 h3 _ ih => exact .plain h1 h2 h3 ih
  | esc h1 h2 _ ih => exact .esc h1 h2 ih
  | unicode h1 _ ih =>
    simp only [List.cons_append, List.append_assoc]
    exact .unicode h1 ih
  | surrogates h1 h2 h3 h4 h5 h6 h7 _ ih =>
    simp only [List.cons_append, List.append_assoc]
    exact .surrogates h1 h2 h3 h4 h5 h6 h7 ih

theorem hexDigit_mem : ∀ n, n < 16 → (hexDigit n, n) ∈ hexTable := by decide

theorem strBody_escChar (c : Char) : StrBody [c] (escChar c) := by
  have key : ∀ (e : Char) (n : Nat), (e, n) ∈ escapeTable → c.toNat = n →
      StrBody [c] ['\\', e] := fun e n h1 h2 => .esc h1 h2 .nil
  unfold escChar
  split
  · rename_i h; exact key _ 0x22 (by decide) (by rw [h]; decide)
  split
  · rename_i h; exact key _ 0x5C (by decide) (by rw [h]; decide)
  split
  · rename_i h; exact key _ 8 (by decide) h
  split
  · rename_i h; exact key _ 12 (by decide) h
  split
  · rename_i h; exact key _ 10 (by decide) h
  split
  · rename_i h; exact key _ 13 (by decide) h
  split
  · rename_i h; exact key _ 9 (by decide) h
  split
  · rename_i h
    refine .unicode (u := ['0', '0', hexDigit (c.toNat / 16), hexDigit (c.toNat % 16)]) ?_ .nil
    exact ⟨'0', '0', _, _, 0, 0, c.toNat / 16, c.toNat % 16, rfl, by decide, by decide,
      hexDigit_mem _ (by omega), hexDigit_mem _ (by omega), by omega⟩
  · rename_i h1 h2 _ _ _ _ _ h3
    exact .plain (by omega) h1 h2 .nil

theorem strBody_print (s : Str) : StrBody s (s.flatMap escChar) := by
  induction s with
  | nil => exact .nil
  | cons c s ih =>
    rw [List.flatMap_cons]
    exact strBody_append (a := [c]) (strBody_escChar c) ih

end Verif
