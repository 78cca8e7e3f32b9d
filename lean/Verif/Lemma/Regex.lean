import Verif.Spec.Regex

/-!
# Derivatives are the usual reading
-/

namespace Verif

open Spec

theorem matches_none {s : Str} : ¬ Matches .none s := by
  intro h; cases h

theorem matches_eps {s : Str} : Matches .eps s ↔ s = [] := by
  constructor
  · intro h; cases h; rfl
  · rintro rfl; exact .eps

theorem matches_cls {p : Char → Bool} {s : Str} : Matches (.cls p) s ↔ ∃ c, s = [c] ∧ p c = true := by
  constructor
  · intro h
    cases h with
    | cls hc => exact ⟨_, rfl, hc⟩
  · rintro ⟨c, rfl, hc⟩
    exact .cls hc

theorem matches_seq {a b : Re} {s : Str} :
    Matches (.seq a b) s ↔ ∃ x y, s = x ++ y ∧ Matches a x ∧ Matches b y := by
  constructor
  · intro h
    cases h with
    | seq h1 h2 => exact ⟨_, _, rfl, h1, h2⟩
  · rintro ⟨x, y, rfl, h1, h2⟩
    exact .seq h1 h2

theorem matches_alt {a b : Re} {s : Str} : Matches (.alt a b) s ↔ Matches a s ∨ Matches b s := by
  constructor
  · intro h
    cases h with
    | altL h => exact .inl h
    | altR h => exact .inr h
  · rintro (h | h)
    · exact .altL h
    · exact .altR h

theorem matches_opt {a : Re} {s : Str} : Matches a.opt s ↔ s = [] ∨ Matches a s := by
  unfold Re.opt
  rw [matches_alt, matches_eps, or_comm]

theorem nullable_iff (r : Re) : r.nullable = true ↔ Matches r [] := by
  induction r with
  | none => simp [Re.nullable, matches_none]
  | eps => simp [Re.nullable, matches_eps]
  | cls p => simp [Re.nullable, matches_cls]
  | seq a b iha ihb =>
    simp only [Re.nullable, Bool.and_eq_true, iha, ihb, matches_seq]
    constructor
    · rintro ⟨h1, h2⟩; exact ⟨[], [], rfl, h1, h2⟩
    · rintro ⟨x, y, h, h1, h2⟩
      obtain ⟨rfl, rfl⟩ := List.append_eq_nil_iff.1 h.symm
      exact ⟨h1, h2⟩
  | alt a b iha ihb => simp [Re.nullable, iha, ihb, matches_alt]
  | star a _ => simp only [Re.nullable, true_iff]; exact .starNil

/-- A non-empty match of a star begins with a non-empty match of its argument. -/
theorem matches_star_cons {a : Re} {c : Char} {s : Str} :
    Matches (.star a) (c :: s) ↔ ∃ x y, s = x ++ y ∧ Matches a (c :: x) ∧ Matches (.star a) y := by
  constructor
  · intro h
    generalize hr : Re.star a = r at h
    generalize ht : c :: s = t at h
    induction h with
    | eps => cases ht
    | cls _ => cases hr
    | seq _ _ => cases hr
    | altL _ => cases hr
    | altR _ => cases hr
    | starNil => cases ht
    | @starCons b x y h1 h2 _ ih =>
      cases hr
      cases x with
      | nil => exact ih rfl ht
      | cons d x =>
        rw [List.cons_append, List.cons.injEq] at ht
        obtain ⟨rfl, rfl⟩ := ht
        exact ⟨x, y, rfl, h1, h2⟩
  · rintro ⟨x, y, rfl, h1, h2⟩
    exact .starCons h1 h2

theorem deriv_iff (c : Char) (r : Re) : ∀ s, Matches (r.deriv c) s ↔ Matches r (c :: s) := by
  induction r with
  | none => intro s; simp [Re.deriv, matches_none]
  | eps => intro s; simp [Re.deriv, matches_none, matches_eps]
  | cls p =>
    intro s
    unfold Re.deriv
    split
    · rename_i h
      rw [matches_eps, matches_cls]
      constructor
      · rintro rfl; exact ⟨c, rfl, h⟩
      · rintro ⟨d, hd, -⟩; exact (List.cons.inj hd).2
    · rename_i h
      rw [matches_cls]
      constructor
      · intro h'; exact absurd h' matches_none
      · rintro ⟨d, hd, h'⟩
        rw [← (List.cons.inj hd).1] at h'
        exact absurd h' h
  | seq a b iha ihb =>
    intro s
    have left : Matches (.seq (a.deriv c) b) s ↔ ∃ x y, s = x ++ y ∧ Matches a (c :: x) ∧ Matches b y := by
      rw [matches_seq]
      simp only [iha]
    rw [matches_seq]
    unfold Re.deriv
    split
    · rename_i hn
      rw [matches_alt, left, ihb]
      constructor
      · rintro (⟨x, y, rfl, h1, h2⟩ | h)
        · exact ⟨c :: x, y, rfl, h1, h2⟩
        · exact ⟨[], c :: s, rfl, (nullable_iff a).1 hn, h⟩
      · rintro ⟨x, y, h, h1, h2⟩
        cases x with
        | nil => right; rw [h]; exact h2
        | cons d x =>
          rw [List.cons_append, List.cons.injEq] at h
          obtain ⟨rfl, rfl⟩ := h
          exact .inl ⟨x, y, rfl, h1, h2⟩
    · rename_i hn
      rw [left]
      constructor
      · rintro ⟨x, y, rfl, h1, h2⟩
        exact ⟨c :: x, y, rfl, h1, h2⟩
      · rintro ⟨x, y, h, h1, h2⟩
        cases x with
        | nil => exact absurd ((nullable_iff a).2 h1) hn
        | cons d x =>
          rw [List.cons_append, List.cons.injEq] at h
          obtain ⟨rfl, rfl⟩ := h
          exact ⟨x, y, rfl, h1, h2⟩
  | alt a b iha ihb => intro s; simp [Re.deriv, matches_alt, iha, ihb]
  | star a ih =>
    intro s
    unfold Re.deriv
    rw [matches_seq, matches_star_cons]
    simp only [ih]

/-- Matching by derivatives agrees with the usual reading. -/
theorem accepts_iff (r : Re) (s : Str) : r.accepts s = true ↔ Matches r s := by
  induction s generalizing r with
  | nil => exact nullable_iff r
  | cons c s ih => rw [← deriv_iff]; exact ih _

/-! ## Derived operators -/

theorem matches_chr {c : Char} {s : Str} : Matches (.chr c) s ↔ s = [c] := by
  unfold Re.chr
  rw [matches_cls]
  constructor
  · rintro ⟨d, rfl, h⟩
    rw [beq_iff_eq] at h
    rw [h]
  · rintro rfl
    exact ⟨c, rfl, by simp⟩

theorem matches_lit {t s : Str} : Matches (.lit t) s ↔ s = t := by
  induction t generalizing s with
  | nil => exact matches_eps
  | cons c t ih =>
    unfold Re.lit
    rw [matches_seq]
    constructor
    · rintro ⟨x, y, rfl, h1, h2⟩
      rw [matches_chr.1 h1, ih.1 h2]; rfl
    · rintro rfl
      exact ⟨[c], t, rfl, matches_chr.2 rfl, ih.2 rfl⟩

theorem matches_star_cls {p : Char → Bool} {s : Str} : Matches (.star (.cls p)) s ↔ ∀ c ∈ s, p c = true := by
  induction s with
  | nil => simp [Matches.starNil]
  | cons c s ih =>
    rw [matches_star_cons]
    constructor
    · rintro ⟨x, y, rfl, h1, h2⟩
      obtain ⟨d, hd, hp⟩ := matches_cls.1 h1
      obtain ⟨rfl, rfl⟩ := List.cons.inj hd
      intro e he
      rcases List.mem_cons.1 he with rfl | he
      · exact hp
      · exact ih.1 h2 e he
    · intro h
      exact ⟨[], s, rfl, .cls (h c (by simp)), ih.2 fun d hd => h d (by simp [hd])⟩

theorem matches_plus_cls {p : Char → Bool} {s : Str} :
    Matches (.plus (.cls p)) s ↔ s ≠ [] ∧ ∀ c ∈ s, p c = true := by
  unfold Re.plus
  rw [matches_seq]
  constructor
  · rintro ⟨x, y, rfl, h1, h2⟩
    obtain ⟨c, rfl, hc⟩ := matches_cls.1 h1
    refine ⟨by simp, ?_⟩
    intro d hd
    rcases List.mem_cons.1 hd with rfl | hd
    · exact hc
    · exact matches_star_cls.1 h2 d hd
  · rintro ⟨h1, h2⟩
    cases s with
    | nil => exact absurd rfl h1
    | cons c s => exact ⟨[c], s, rfl, .cls (h2 c (by simp)), matches_star_cls.2 fun d hd => h2 d (by simp [hd])⟩

theorem matches_upTo_cls {p : Char → Bool} {n : Nat} {s : Str} :
    Matches (.upTo (.cls p) n) s ↔ s.length ≤ n ∧ ∀ c ∈ s, p c = true := by
  induction n generalizing s with
  | zero =>
    unfold Re.upTo
    rw [matches_eps]
    constructor
    · rintro rfl; simp
    · rintro ⟨h, -⟩; exact List.length_eq_zero_iff.1 (by omega)
  | succ n ih =>
    unfold Re.upTo
    rw [matches_opt, matches_seq]
    constructor
    · rintro (rfl | ⟨x, y, rfl, h1, h2⟩)
      · simp
      · obtain ⟨c, rfl, hc⟩ := matches_cls.1 h1
        obtain ⟨h3, h4⟩ := ih.1 h2
        refine ⟨by simpa using h3, ?_⟩
        intro d hd
        rcases List.mem_cons.1 hd with rfl | hd
        · exact hc
        · exact h4 d hd
    · rintro ⟨h1, h2⟩
      cases s with
      | nil => exact .inl rfl
      | cons c s =>
        exact .inr ⟨[c], s, rfl, .cls (h2 c (by simp)), ih.2 ⟨by simpa using h1, fun d hd => h2 d (by simp [hd])⟩⟩

/-- A star of a sequence `a` then a character: parts, each followed by that character. -/
theorem matches_star_parts {p : Char → Bool} {c : Char} {s : Str} :
    Matches (.star (.seq (.star (.cls p)) (.chr c))) s ↔
      ∃ parts : List Str, s = (parts.map fun x => x ++ [c]).flatten ∧ ∀ x ∈ parts, ∀ d ∈ x, p d = true := by
  constructor
  · intro h
    generalize hr : Re.star (.seq (.star (.cls p)) (.chr c)) = r at h
    induction h with
    | eps => cases hr
    | cls _ => cases hr
    | seq _ _ => cases hr
    | altL _ => cases hr
    | altR _ => cases hr
    | starNil => exact ⟨[], rfl, by simp⟩
    | @starCons b x y h1 h2 _ ih =>
      cases hr
      obtain ⟨parts, rfl, hp⟩ := ih rfl
      obtain ⟨u, v, rfl, h3, h4⟩ := matches_seq.1 h1
      rw [matches_chr.1 h4]
      refine ⟨u :: parts, by simp, ?_⟩
      intro z hz
      rcases List.mem_cons.1 hz with rfl | hz
      · exact matches_star_cls.1 h3
      · exact hp z hz
  · rintro ⟨parts, rfl, hp⟩
    induction parts with
    | nil => exact .starNil
    | cons u parts ih =>
      rw [List.map_cons, List.flatten_cons]
      refine .starCons (.seq (matches_star_cls.2 (hp u (by simp))) (matches_chr.2 rfl)) (ih fun x hx => hp x (by simp [hx]))

theorem isLower_iff {c : Char} : isLower c = true ↔ 'a' ≤ c ∧ c ≤ 'z' := by simp [isLower]
theorem isUpper_iff {c : Char} : isUpper c = true ↔ 'A' ≤ c ∧ c ≤ 'Z' := by simp [isUpper]
theorem isDigit_range {c : Char} : isDigit c = true ↔ '0' ≤ c ∧ c ≤ '9' := by
  simp only [isDigit, Bool.and_eq_true, decide_eq_true_eq]
  exact Iff.rfl

/-! ## The two patterns -/

theorem isIdChar_iff {c : Char} : isIdChar c = true ↔ ('a' ≤ c ∧ c ≤ 'z') ∨ ('A' ≤ c ∧ c ≤ 'Z') ∨
    ('0' ≤ c ∧ c ≤ '9') ∨ c ∈ c!".-_%" := by
  simp only [isIdChar, isAlpha, Bool.or_eq_true, isLower_iff, isUpper_iff, isDigit_range, beq_iff_eq,
    List.mem_cons, List.not_mem_nil, or_false, or_assoc]

theorem didRe_iff {s : Str} : didRe.accepts s = true ↔ IsDid s := by
  rw [accepts_iff]
  unfold didRe IsDid
  simp only [matches_seq, matches_lit, matches_plus_cls, matches_chr, matches_star_parts, isLower_iff, isIdChar_iff]
  constructor
  · rintro ⟨x, y, rfl, rfl, m, z, rfl, ⟨hm, hm'⟩, _, w, rfl, rfl, _, i, rfl, ⟨parts, rfl, hp⟩, hi, hi'⟩
    exact ⟨m, parts, i, rfl, hm, hm', hp, hi, hi'⟩
  · rintro ⟨m, parts, i, rfl, hm, hm', hp, hi, hi'⟩
    exact ⟨_, _, rfl, rfl, m, _, rfl, ⟨hm, hm'⟩, [':'], _, rfl, rfl, _, i, rfl, ⟨parts, rfl, hp⟩, hi, hi'⟩

theorem didTailRe_iff {s : Str} : didTailRe.accepts s = true ↔ IsUrlTail s := by
  rw [accepts_iff]
  unfold didTailRe IsUrlTail
  have e1 : ∀ (c : Char) (p : Char → Bool) (x : Str), Matches (.opt (.seq (.chr c) (.star (.cls p)))) x ↔
      x = [] ∨ ∃ y, x = c :: y ∧ ∀ d ∈ y, p d = true := by
    intro c p x
    rw [matches_opt, matches_seq]
    simp only [matches_chr, matches_star_cls]
    constructor
    · rintro (h | ⟨a, y, rfl, rfl, h⟩)
      · exact .inl h
      · exact .inr ⟨y, rfl, h⟩
    · rintro (h | ⟨y, rfl, h⟩)
      · exact .inl h
      · exact .inr ⟨[c], y, rfl, rfl, h⟩
  have n1 : ∀ (y : Str) (c : Char), (∀ d ∈ y, (!(d == c)) = true) ↔ c ∉ y := by
    intro y c
    simp only [Bool.not_eq_true', beq_eq_false_iff_ne]
    exact ⟨fun h hc => h c hc rfl, fun h d hd hdc => h (hdc ▸ hd)⟩
  have n2 : ∀ (y : Str) (c e : Char), (∀ d ∈ y, (!(d == c || d == e)) = true) ↔ c ∉ y ∧ e ∉ y := by
    intro y c e
    rw [← n1, ← n1, ← forall_and]
    refine forall_congr' fun d => ?_
    simp only [Bool.not_or, Bool.and_eq_true]
    constructor
    · intro h; exact ⟨fun hd => (h hd).1, fun hd => (h hd).2⟩
    · intro h hd; exact ⟨h.1 hd, h.2 hd⟩
  simp only [matches_seq, e1, n1, n2]
  constructor
  · rintro ⟨p, r, rfl, hp, q, f, rfl, hq, hf⟩
    exact ⟨p, q, f, rfl, hp, hq, hf⟩
  · rintro ⟨p, q, f, rfl, hp, hq, hf⟩
    exact ⟨p, _, rfl, hp, q, f, rfl, hq, hf⟩

end Verif
