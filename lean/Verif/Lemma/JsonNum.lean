import Verif.Lemma.JsonStr

namespace Verif
open Spec

/-- The text does not continue a number token. -/
def NumEnd (rest : Str) : Prop :=
  ∀ c, rest.head? = some c → isDigit c = false ∧ c ≠ '.' ∧ c ≠ 'e' ∧ c ≠ 'E'

def NoDigit (rest : Str) : Prop := ∀ c, rest.head? = some c → isDigit c = false

theorem isDigit_iff {c : Char} : isDigit c = true ↔ '0'.toNat ≤ c.toNat ∧ c.toNat ≤ '9'.toNat := by
  simp only [isDigit, Bool.and_eq_true, decide_eq_true_eq]
  exact Iff.rfl

theorem span_append {p : Char → Bool} {d rest : Str} (h1 : ∀ c ∈ d, p c = true)
    (h2 : ∀ c, rest.head? = some c → p c = false) :
    (d ++ rest).takeWhile p = d ∧ (d ++ rest).dropWhile p = rest := by
  induction d with
  | nil =>
    cases rest with
    | nil => simp
    | cons c t =>
      have := h2 c rfl
      simp [this]
  | cons a d ih =>
    simp only [List.mem_cons, forall_eq_or_imp] at h1
    have := ih h1.2
    simp [h1.1, this]

theorem takeWhile_digits (s : Str) : ∀ c ∈ s.takeWhile isDigit, isDigit c = true := by
  induction s with
  | nil => simp
  | cons a s ih =>
    intro c hc
    rw [List.takeWhile_cons] at hc
    split at hc
    · rename_i ha
      simp only [List.mem_cons] at hc
      rcases hc with rfl | hc
      · exact ha
      · exact ih c hc
    · simp at hc

theorem digits1_complete {d rest : Str} (h : Digits d) (hr : NoDigit rest) :
    digits1 (d ++ rest) = some (d, rest) := by
  have hd : ∀ c ∈ d, isDigit c = true := fun c hc => isDigit_iff.2 (h.2 c hc)
  obtain ⟨h1, h2⟩ := span_append hd hr
  unfold digits1
  rw [h1, h2]
  cases d with
  | nil => exact absurd rfl h.1
  | cons a d => rfl

theorem digits1_sound {s d r : Str} (h : digits1 s = some (d, r)) : s = d ++ r ∧ Digits d := by
  unfold digits1 at h
  split at h
  · simp at h
  · rename_i hne
    simp only [Option.some.injEq, Prod.mk.injEq] at h
    obtain ⟨h1, h2⟩ := h
    subst h1 h2
    refine ⟨List.takeWhile_append_dropWhile.symm, ?_, ?_⟩
    · intro h; exact hne h
    · intro c hc; exact isDigit_iff.1 (takeWhile_digits s c hc)

theorem scanInt_complete {i rest : Str} (h : i = ['0'] ∨ Digits i ∧ i.head? ≠ some '0')
    (hr : NoDigit rest) : scanInt (i ++ rest) = some (i, rest) := by
  rcases h with rfl | ⟨h1, h2⟩
  · simp [scanInt]
  · cases i with
    | nil => exact absurd rfl h1.1
    | cons c d =>
      have hc0 : c ≠ '0' := by simpa using h2
      have hd : ∀ x ∈ c :: d, isDigit x = true := fun x hx => isDigit_iff.2 (h1.2 x hx)
      simp only [List.mem_cons, forall_eq_or_imp] at hd
      obtain ⟨h3, h4⟩ := span_append hd.2 hr
      simp only [List.cons_append, scanInt]
      rw [if_neg hc0, if_pos hd.1, h3, h4]

theorem scanInt_sound {s i r : Str} (h : scanInt s = some (i, r)) :
    s = i ++ r ∧ (i = ['0'] ∨ Digits i ∧ i.head? ≠ some '0') := by
  cases s with
  | nil => simp [scanInt] at h
  | cons c t =>
    simp only [scanInt] at h
    split at h
    · rename_i hc
      simp only [Option.some.injEq, Prod.mk.injEq] at h
      obtain ⟨rfl, rfl⟩ := h
      exact ⟨by simp [hc], Or.inl rfl⟩
    split at h
    · rename_i hc hd
      simp only [Option.some.injEq, Prod.mk.injEq] at h
      obtain ⟨rfl, rfl⟩ := h
      refine ⟨by simp [List.takeWhile_append_dropWhile], Or.inr ⟨⟨by simp, ?_⟩, by simpa using hc⟩⟩
      intro x hx
      simp only [List.mem_cons] at hx
      rcases hx with rfl | hx
      · exact isDigit_iff.1 hd
      · exact isDigit_iff.1 (takeWhile_digits t x hx)
    · simp at h

theorem scanFrac_complete {f rest : Str} (h : f = [] ∨ ∃ d, Digits d ∧ f = '.' :: d)
    (hr : NoDigit rest) (hdot : rest.head? ≠ some '.') : scanFrac (f ++ rest) = some (f, rest) := by
  rcases h with rfl | ⟨d, hd, rfl⟩
  · cases rest with
    | nil => rfl
    | cons c t =>
      have : c ≠ '.' := by simpa using hdot
      simp [scanFrac, this]
  · simp only [List.cons_append, scanFrac, if_true]
    rw [digits1_complete hd hr]
    rfl

theorem scanFrac_sound {s f r : Str} (h : scanFrac s = some (f, r)) :
    s = f ++ r ∧ (f = [] ∨ ∃ d, Digits d ∧ f = '.' :: d) := by
  cases s with
  | nil => simp [scanFrac] at h; simp [h]
  | cons c t =>
    simp only [scanFrac] at h
    split at h
    · rename_i hc
      simp only [Option.map_eq_some_iff, Prod.mk.injEq, Prod.exists] at h
      obtain ⟨a, b, hab, rfl, rfl⟩ := h
      obtain ⟨rfl, hd⟩ := digits1_sound hab
      exact ⟨by simp [hc], Or.inr ⟨a, hd, rfl⟩⟩
    · simp only [Option.some.injEq, Prod.mk.injEq] at h
      obtain ⟨rfl, rfl⟩ := h
      exact ⟨rfl, Or.inl rfl⟩

theorem scanExp_complete {x rest : Str}
    (h : x = [] ∨ ∃ e sg d, (e = 'e' ∨ e = 'E') ∧ (sg = [] ∨ sg = ['+'] ∨ sg = ['-']) ∧ Digits d ∧
      x = e :: (sg ++ d)) (hr : NumEnd rest) : scanExp (x ++ rest) = some (x, rest) := by
  have hnd : NoDigit rest := fun c hc => (hr c hc).1
  rcases h with rfl | ⟨e, sg, d, he, hsg, hd, rfl⟩
  · cases rest with
    | nil => rfl
    | cons c t =>
      have := hr c rfl
      simp [scanExp, this.2.2]
  · simp only [List.cons_append, scanExp]
    rw [if_pos he]
    rcases hsg with rfl | rfl | rfl
    · simp only [List.nil_append]
      cases d with
      | nil => exact absurd rfl hd.1
      | cons c d =>
        have hcd := hd.2 c (by simp)
        have hc : ¬ (c = '+' ∨ c = '-') := by
          rintro (rfl | rfl) <;> exact absurd hcd.1 (by decide)
        simp only [List.cons_append]
        rw [if_neg hc, ← List.cons_append, digits1_complete hd hnd]
        rfl
    · simp only [List.cons_append, List.nil_append]
      rw [if_pos (Or.inl trivial), digits1_complete hd hnd]
      rfl
    · simp only [List.cons_append, List.nil_append]
      rw [if_pos (Or.inr trivial), digits1_complete hd hnd]
      rfl

theorem scanExp_sound {s x r : Str} (h : scanExp s = some (x, r)) :
    s = x ++ r ∧ (x = [] ∨ ∃ e sg d, (e = 'e' ∨ e = 'E') ∧ (sg = [] ∨ sg = ['+'] ∨ sg = ['-']) ∧
      Digits d ∧ x = e :: (sg ++ d)) := by
  cases s with
  | nil => simp [scanExp] at h; simp [h]
  | cons e t =>
    simp only [scanExp] at h
    split at h
    · rename_i he
      cases t with
      | nil => simp at h
      | cons g t1 =>
        simp only at h
        split at h
        · rename_i hg
          simp only [Option.map_eq_some_iff, Prod.mk.injEq, Prod.exists] at h
          obtain ⟨a, b, hab, rfl, rfl⟩ := h
          obtain ⟨rfl, hd⟩ := digits1_sound hab
          refine ⟨by simp, Or.inr ⟨e, [g], a, he, ?_, hd, rfl⟩⟩
          rcases hg with rfl | rfl <;> simp
        · simp only [Option.map_eq_some_iff, Prod.mk.injEq, Prod.exists] at h
          obtain ⟨a, b, hab, rfl, rfl⟩ := h
          obtain ⟨h1, hd⟩ := digits1_sound hab
          refine ⟨by simp [h1], Or.inr ⟨e, [], a, he, by simp, hd, rfl⟩⟩
    · simp only [Option.some.injEq, Prod.mk.injEq] at h
      obtain ⟨rfl, rfl⟩ := h
      exact ⟨rfl, Or.inl rfl⟩

theorem digit_not {c : Char} (h : '0'.toNat ≤ c.toNat ∧ c.toNat ≤ '9'.toNat) :
    c ≠ '.' ∧ c ≠ '-' ∧ c ≠ 'e' ∧ c ≠ 'E' := by
  refine ⟨?_, ?_, ?_, ?_⟩ <;> rintro rfl <;> revert h <;> decide

theorem notDigit_dot : isDigit '.' = false := by decide

theorem scanUnsigned_complete {i f x rest : Str}
    (hi : i = ['0'] ∨ Digits i ∧ i.head? ≠ some '0')
    (hf : f = [] ∨ ∃ d, Digits d ∧ f = '.' :: d)
    (hx : x = [] ∨ ∃ e sg d, (e = 'e' ∨ e = 'E') ∧ (sg = [] ∨ sg = ['+'] ∨ sg = ['-']) ∧ Digits d ∧
      x = e :: (sg ++ d)) (hr : NumEnd rest) :
    scanUnsigned (i ++ f ++ x ++ rest) = some (i ++ f ++ x, rest) := by
  have hxr : NoDigit (x ++ rest) ∧ (x ++ rest).head? ≠ some '.' := by
    rcases hx with rfl | ⟨e, sg, d, he, hsg, hd, rfl⟩
    · refine ⟨fun c hc => (hr c hc).1, fun h => (hr '.' h).2.1 rfl⟩
    · refine ⟨?_, ?_⟩
      · intro c hc
        simp only [List.cons_append, List.head?_cons, Option.some.injEq] at hc
        subst hc
        rcases he with rfl | rfl <;> decide
      · simp only [List.cons_append, List.head?_cons, ne_eq, Option.some.injEq]
        rcases he with rfl | rfl <;> decide
  have hfr : NoDigit (f ++ (x ++ rest)) := by
    rcases hf with rfl | ⟨d, hd, rfl⟩
    · exact hxr.1
    · intro c hc
      simp only [List.cons_append, List.head?_cons, Option.some.injEq] at hc
      subst hc
      decide
  unfold scanUnsigned
  rw [List.append_assoc, List.append_assoc, scanInt_complete hi hfr]
  simp only
  rw [scanFrac_complete hf hxr.1 hxr.2]
  simp only
  rw [scanExp_complete hx hr]

theorem scanNum_complete {t rest : Str} (h : NumTok t) (hr : NumEnd rest) :
    scanNum (t ++ rest) = some (t, rest) := by
  obtain ⟨sg, i, f, x, rfl, hsg, hi, hf, hx⟩ := h
  have hu := scanUnsigned_complete hi hf hx hr
  rcases hsg with rfl | rfl
  · simp only [List.nil_append]
    have : ∃ c l, i ++ f ++ x ++ rest = c :: l ∧ c ≠ '-' := by
      rcases hi with rfl | ⟨hd, _⟩
      · exact ⟨'0', f ++ x ++ rest, by simp, by decide⟩
      · cases i with
        | nil => exact absurd rfl hd.1
        | cons c i =>
          exact ⟨c, i ++ f ++ x ++ rest, by simp, (digit_not (hd.2 c (by simp))).2.1⟩
    obtain ⟨c, l, hcl, hc⟩ := this
    rw [hcl] at hu ⊢
    simp only [scanNum]
    rw [if_neg hc, hu]
  · have e : ['-'] ++ i ++ f ++ x ++ rest = '-' :: (i ++ f ++ x ++ rest) := by simp
    rw [e]
    simp only [scanNum, if_true]
    rw [hu]
    simp

theorem scanUnsigned_sound {s t r : Str} (h : scanUnsigned s = some (t, r)) :
    s = t ++ r ∧ ∃ i f x, t = i ++ f ++ x ∧
    (i = ['0'] ∨ Digits i ∧ i.head? ≠ some '0') ∧
    (f = [] ∨ ∃ d, Digits d ∧ f = '.' :: d) ∧
    (x = [] ∨ ∃ e sg d, (e = 'e' ∨ e = 'E') ∧ (sg = [] ∨ sg = ['+'] ∨ sg = ['-']) ∧ Digits d ∧
      x = e :: (sg ++ d)) := by
  unfold scanUnsigned at h
  split at h
  · simp at h
  rename_i i s1 h1
  split at h
  · simp at h
  rename_i f s2 h2
  split at h
  · simp at h
  rename_i x s3 h3
  simp only [Option.some.injEq, Prod.mk.injEq] at h
  obtain ⟨rfl, rfl⟩ := h
  obtain ⟨rfl, hi⟩ := scanInt_sound h1
  obtain ⟨rfl, hf⟩ := scanFrac_sound h2
  obtain ⟨rfl, hx⟩ := scanExp_sound h3
  exact ⟨by simp, i, f, x, rfl, hi, hf, hx⟩

theorem scanNum_sound {s t r : Str} (h : scanNum s = some (t, r)) : s = t ++ r ∧ NumTok t := by
  cases s with
  | nil => simp [scanNum] at h
  | cons c s =>
    simp only [scanNum] at h
    split at h
    · rename_i hc
      simp only [Option.map_eq_some_iff, Prod.mk.injEq, Prod.exists] at h
      obtain ⟨a, b, hab, rfl, rfl⟩ := h
      obtain ⟨rfl, i, f, x, rfl, hi, hf, hx⟩ := scanUnsigned_sound hab
      exact ⟨by simp [hc], ['-'], i, f, x, by simp, Or.inr rfl, hi, hf, hx⟩
    · obtain ⟨h1, i, f, x, rfl, hi, hf, hx⟩ := scanUnsigned_sound h
      exact ⟨h1, [], i, f, x, by simp, Or.inl rfl, hi, hf, hx⟩

/-- First character of a number token. -/
theorem numTok_head {t : Str} (h : NumTok t) : ∃ c l, t = c :: l ∧
    (c = '-' ∨ '0'.toNat ≤ c.toNat ∧ c.toNat ≤ '9'.toNat) := by
  obtain ⟨sg, i, f, x, rfl, hsg, hi, hf, hx⟩ := h
  rcases hsg with rfl | rfl
  · rcases hi with rfl | ⟨hd, _⟩
    · exact ⟨'0', f ++ x, by simp, Or.inr (by decide)⟩
    · cases i with
      | nil => exact absurd rfl hd.1
      | cons c i => exact ⟨c, i ++ f ++ x, by simp, Or.inr (hd.2 c (by simp))⟩
  · exact ⟨'-', i ++ f ++ x, by simp, Or.inl rfl⟩

end Verif
