import Verif.Lemma.JsonNum

namespace Verif
open Spec

variable {mk : Bool → Str → Json}

/-! ## White space -/

theorem isWs_iff {c : Char} : isWs c = true ↔ c ∈ [' ', '\n', '\t', '\r'] := by
  simp [isWs, or_assoc]

theorem ws_nil : Ws [] := by intro c h; simp at h

theorem ws_append {a b : Str} (ha : Ws a) (hb : Ws b) : Ws (a ++ b) := by
  intro c hc
  rcases List.mem_append.1 hc with h | h
  · exact ha c h
  · exact hb c h

theorem skipWs_append {w : Str} (h : Ws w) (s : Str) : skipWs (w ++ s) = skipWs s := by
  induction w with
  | nil => rfl
  | cons c w ih =>
    have hc : isWs c = true := isWs_iff.2 (h c (by simp))
    simp only [List.cons_append, skipWs, hc, if_true]
    exact ih (fun x hx => h x (List.mem_cons_of_mem _ hx))

theorem skipWs_cons {c : Char} (h : isWs c = false) (s : Str) : skipWs (c :: s) = c :: s := by
  simp [skipWs, h]

theorem skipWs_split (s : Str) : ∃ w, Ws w ∧ s = w ++ skipWs s := by
  induction s with
  | nil => exact ⟨[], ws_nil, rfl⟩
  | cons c s ih =>
    simp only [skipWs]
    split
    · rename_i hc
      obtain ⟨w, hw, hs⟩ := ih
      refine ⟨c :: w, ?_, by simp [← hs]⟩
      intro x hx
      simp only [List.mem_cons] at hx
      rcases hx with rfl | hx
      · exact isWs_iff.1 hc
      · exact hw x hx
    · exact ⟨[], ws_nil, rfl⟩

theorem skipWs_head {s t : Str} {c : Char} (h : skipWs s = c :: t) : isWs c = false := by
  induction s with
  | nil => simp [skipWs] at h
  | cons a s ih =>
    simp only [skipWs] at h
    split at h
    · exact ih h
    · rename_i ha
      simp only [List.cons.injEq] at h
      obtain ⟨rfl, _⟩ := h
      simpa using ha

theorem skipWs_idem (s : Str) : skipWs (skipWs s) = skipWs s := by
  cases h : skipWs s with
  | nil => rfl
  | cons c t => exact skipWs_cons (skipWs_head h) t

theorem skipWs_nil_ws {s : Str} (h : skipWs s = []) : Ws s := by
  obtain ⟨w, hw, hs⟩ := skipWs_split s
  rw [h, List.append_nil] at hs
  rw [hs]; exact hw

theorem skipWs_of_ws {s : Str} (h : Ws s) : skipWs s = [] := by
  have := skipWs_append h []
  rw [List.append_nil] at this
  rw [this]; rfl

theorem skipWs_length (s : Str) : (skipWs s).length ≤ s.length := by
  obtain ⟨w, _, hs⟩ := skipWs_split s
  have := congrArg List.length hs
  rw [List.length_append] at this
  omega

theorem stripLit_some {l s r : Str} : stripLit l s = some r ↔ s = l ++ r := by
  induction l generalizing s with
  | nil => simp [stripLit]
  | cons a l ih =>
    cases s with
    | nil => simp [stripLit]
    | cons b s =>
      simp only [stripLit, List.cons_append, List.cons.injEq]
      split
      · rename_i h; subst h; rw [ih]; simp
      · rename_i h; simp [Ne.symm h]

/-! ## The parser ignores leading white space -/

theorem parseV_skip (n : Nat) (s : Str) : parseV mk n (skipWs s) = parseV mk n s := by
  cases n with
  | zero => simp [parseV]
  | succ n => simp only [parseV, skipWs_idem]

theorem parseElems_skip (n : Nat) (s : Str) : parseElems mk n (skipWs s) = parseElems mk n s := by
  cases n with
  | zero => simp [parseElems]
  | succ n => simp only [parseElems, parseV_skip]

theorem parseMembers_skip (n : Nat) (s : Str) : parseMembers mk n (skipWs s) = parseMembers mk n s := by
  cases n with
  | zero => simp [parseMembers]
  | succ n => simp only [parseMembers, skipWs_idem]

theorem parseV_ws {w : Str} (h : Ws w) (n : Nat) (s : Str) : parseV mk n (w ++ s) = parseV mk n s := by
  rw [← parseV_skip, skipWs_append h, parseV_skip]

/-! ## Soundness: whatever is read is in the grammar -/

theorem elems_ws {w : Str} (h : Ws w) {l : List Json} {t : Str} (he : ElemsW mk l t) :
    ElemsW mk l (w ++ t) := by
  cases he with
  | one h1 h2 h3 =>
    rw [← List.append_assoc]
    exact .one (ws_append h h1) h2 h3
  | cons h1 h2 h3 h4 =>
    rw [← List.append_assoc]
    exact .cons (ws_append h h1) h2 h3 h4

theorem members_ws {w : Str} (h : Ws w) {l : List (Str × Json)} {t : Str} (he : MembersW mk l t) :
    MembersW mk l (w ++ t) := by
  cases he with
  | one h0 h1 h2 h3 h4 h5 =>
    rw [← List.append_assoc]
    exact .one (ws_append h h0) h1 h2 h3 h4 h5
  | cons h0 h1 h2 h3 h4 h5 h6 =>
    rw [← List.append_assoc]
    exact .cons (ws_append h h0) h1 h2 h3 h4 h5 h6

/-- The text consumed by a string literal has a backslash exactly when its inside has one. -/
theorem literal_flag (t r : Str) :
    ((t ++ '"' :: r).take ((t ++ '"' :: r).length - r.length)).contains '\\' = t.contains '\\' := by
  have h : (t ++ '"' :: r).length - r.length = t.length + 1 := by
    simp only [List.length_append, List.length_cons]; omega
  have h2 : (t ++ '"' :: r).take (t.length + 1) = t ++ ['"'] := by
    rw [show t ++ '"' :: r = (t ++ ['"']) ++ r by simp]
    exact List.take_left' (by simp)
  rw [h, h2, Bool.eq_iff_iff]
  simp

theorem parse_sound (n : Nat) :
    (∀ s j r, parseV mk n s = some (j, r) → ∃ w t, Ws w ∧ TextW mk j t ∧ s = w ++ (t ++ r)) ∧
    (∀ s l r, parseElems mk n s = some (l, r) → ∃ t, ElemsW mk l t ∧ s = t ++ ']' :: r) ∧
    (∀ s es r, parseMembers mk n s = some (es, r) → ∃ t, MembersW mk es t ∧ s = t ++ '}' :: r) := by
  induction n with
  | zero =>
    refine ⟨?_, ?_, ?_⟩ <;> intro s j r h
    · simp [parseV] at h
    · simp [parseElems] at h
    · simp [parseMembers] at h
  | succ n ih =>
    obtain ⟨ihV, ihE, ihM⟩ := ih
    refine ⟨?_, ?_, ?_⟩
    · intro s j r h
      obtain ⟨w, hw, hs⟩ := skipWs_split s
      simp only [parseV] at h
      split at h
      · simp at h
      rename_i c t hct
      rw [hct] at hs
      split at h
      · rename_i hc; subst hc
        simp only [Option.map_eq_some_iff, Prod.mk.injEq, stripLit_some] at h
        obtain ⟨a, rfl, rfl, rfl⟩ := h
        exact ⟨w, _, hw, .null, by simp [hs]⟩
      split at h
      · rename_i hc; subst hc
        simp only [Option.map_eq_some_iff, Prod.mk.injEq, stripLit_some] at h
        obtain ⟨a, rfl, rfl, rfl⟩ := h
        exact ⟨w, _, hw, .true, by simp [hs]⟩
      split at h
      · rename_i hc; subst hc
        simp only [Option.map_eq_some_iff, Prod.mk.injEq, stripLit_some] at h
        obtain ⟨a, rfl, rfl, rfl⟩ := h
        exact ⟨w, _, hw, .false, by simp [hs]⟩
      split at h
      · rename_i hc; subst hc
        simp only [Option.map_eq_some_iff, Prod.mk.injEq, Prod.exists] at h
        obtain ⟨a, b, hab, rfl, rfl⟩ := h
        obtain ⟨t', rfl, hb⟩ := parseStrN_sound _ _ _ _ hab
        rw [literal_flag]
        exact ⟨w, _, hw, .str hb, by simp [hs]⟩
      split at h
      · rename_i hc; subst hc
        obtain ⟨w1, hw1, hs1⟩ := skipWs_split t
        split at h
        · simp at h
        rename_i d t1 hd
        rw [hd] at hs1
        split at h
        · rename_i hdd; subst hdd
          simp only [Option.some.injEq, Prod.mk.injEq] at h
          obtain ⟨rfl, rfl⟩ := h
          exact ⟨w, _, hw, .arrNil hw1, by simp [hs, hs1]⟩
        · simp only [Option.map_eq_some_iff, Prod.mk.injEq, Prod.exists] at h
          obtain ⟨a, b, hab, rfl, rfl⟩ := h
          obtain ⟨t', he, ht'⟩ := ihE _ _ _ hab
          exact ⟨w, _, hw, .arr (elems_ws hw1 he), by rw [hs, hs1, ht']; simp⟩
      split at h
      · rename_i hc; subst hc
        obtain ⟨w1, hw1, hs1⟩ := skipWs_split t
        split at h
        · simp at h
        rename_i d t1 hd
        rw [hd] at hs1
        split at h
        · rename_i hdd; subst hdd
          simp only [Option.some.injEq, Prod.mk.injEq] at h
          obtain ⟨rfl, rfl⟩ := h
          exact ⟨w, _, hw, .objNil hw1, by simp [hs, hs1]⟩
        · simp only [Option.map_eq_some_iff, Prod.mk.injEq, Prod.exists] at h
          obtain ⟨a, b, hab, rfl, rfl⟩ := h
          obtain ⟨t', he, ht'⟩ := ihM _ _ _ hab
          exact ⟨w, _, hw, .obj (members_ws hw1 he), by rw [hs, hs1, ht']; simp⟩
      · simp only [Option.map_eq_some_iff, Prod.mk.injEq, Prod.exists] at h
        obtain ⟨a, b, hab, rfl, rfl⟩ := h
        obtain ⟨h1, h2⟩ := scanNum_sound hab
        exact ⟨w, a, hw, .num h2, by rw [hs, h1]⟩
    · intro s l r h
      simp only [parseElems] at h
      split at h
      · simp at h
      rename_i j s1 hj
      obtain ⟨w, t, hw, ht, hs⟩ := ihV _ _ _ hj
      obtain ⟨w', hw', hs'⟩ := skipWs_split s1
      split at h
      · simp at h
      rename_i d t' hd
      rw [hd] at hs'
      split at h
      · rename_i hdd; subst hdd
        simp only [Option.some.injEq, Prod.mk.injEq] at h
        obtain ⟨rfl, rfl⟩ := h
        exact ⟨_, .one hw ht hw', by rw [hs, hs']; simp⟩
      split at h
      · rename_i hdd; subst hdd
        simp only [Option.map_eq_some_iff, Prod.mk.injEq, Prod.exists] at h
        obtain ⟨a, b, hab, rfl, rfl⟩ := h
        obtain ⟨t2, he, rfl⟩ := ihE _ _ _ hab
        exact ⟨_, .cons hw ht hw' he, by rw [hs, hs']; simp⟩
      · simp at h
    · intro s es r h
      obtain ⟨w0, hw0, hs0⟩ := skipWs_split s
      simp only [parseMembers] at h
      split at h
      · simp at h
      rename_i q t hq
      rw [hq] at hs0
      split at h
      rotate_left
      · simp at h
      rename_i hqq; subst hqq
      split at h
      · simp at h
      rename_i k s1 hk
      obtain ⟨ks, rfl, hks⟩ := parseStrN_sound _ _ _ _ hk
      obtain ⟨w1, hw1, hs1⟩ := skipWs_split s1
      split at h
      · simp at h
      rename_i cl s2 hcl
      rw [hcl] at hs1
      split at h
      rotate_left
      · simp at h
      rename_i hcc; subst hcc
      split at h
      · simp at h
      rename_i v s3 hv
      obtain ⟨w2, tv, hw2, htv, rfl⟩ := ihV _ _ _ hv
      obtain ⟨w3, hw3, hs3⟩ := skipWs_split s3
      split at h
      · simp at h
      rename_i d s4 hd
      rw [hd] at hs3
      split at h
      · rename_i hdd; subst hdd
        simp only [Option.some.injEq, Prod.mk.injEq] at h
        obtain ⟨rfl, rfl⟩ := h
        exact ⟨_, .one hw0 hks hw1 hw2 htv hw3, by rw [hs0, hs1, hs3]; simp⟩
      split at h
      · rename_i hdd; subst hdd
        simp only [Option.map_eq_some_iff, Prod.mk.injEq, Prod.exists] at h
        obtain ⟨a, b, hab, rfl, rfl⟩ := h
        obtain ⟨t2, he, rfl⟩ := ihM _ _ _ hab
        exact ⟨_, .cons hw0 hks hw1 hw2 htv hw3 he, by rw [hs0, hs1, hs3]; simp⟩
      · simp at h

/-! ## Completeness: everything in the grammar is read -/

theorem text_head {j : Json} {t : Str} (h : TextW mk j t) :
    ∃ c l, t = c :: l ∧ isWs c = false ∧ c ≠ ']' ∧ c ≠ '}' := by
  cases h with
  | null => exact ⟨_, _, rfl, by decide, by decide, by decide⟩
  | true => exact ⟨_, _, rfl, by decide, by decide, by decide⟩
  | false => exact ⟨_, _, rfl, by decide, by decide, by decide⟩
  | num h =>
    obtain ⟨c, l, rfl, hc⟩ := numTok_head h
    refine ⟨c, l, rfl, ?_⟩
    rcases hc with rfl | hc
    · decide
    · refine ⟨?_, ?_, ?_⟩
      · cases hw : isWs c with
        | false => rfl
        | true =>
          exfalso
          have := isWs_iff.1 hw
          simp only [List.mem_cons, List.not_mem_nil, or_false] at this
          rcases this with rfl | rfl | rfl | rfl <;> revert hc <;> decide
      · rintro rfl; revert hc; decide
      · rintro rfl; revert hc; decide
  | str _ => exact ⟨_, _, rfl, by decide, by decide, by decide⟩
  | arrNil _ => exact ⟨_, _, rfl, by decide, by decide, by decide⟩
  | arr _ => exact ⟨_, _, rfl, by decide, by decide, by decide⟩
  | objNil _ => exact ⟨_, _, rfl, by decide, by decide, by decide⟩
  | obj _ => exact ⟨_, _, rfl, by decide, by decide, by decide⟩


theorem strBody_length {s t : Str} (h : StrBody s t) : s.length ≤ t.length := by
  induction h with
  | nil => simp
  | plain _ _ _ _ ih => simpa using ih
  | esc _ _ _ ih => simp only [List.length_cons]; omega
  | unicode _ _ ih => simp only [List.length_cons, List.length_append]; omega
  | surrogates _ _ _ _ _ _ _ _ ih => simp only [List.length_cons, List.length_append]; omega

theorem parseStr_complete {s t : Str} (h : StrBody s t) (rest : Str) :
    parseStrN ((t ++ '"' :: rest).length + 1) (t ++ '"' :: rest) = some (s, rest) := by
  apply parseStrN_complete h
  have := strBody_length h
  simp only [List.length_append]; omega

theorem numEnd_cons {c : Char} (h : c ∈ [' ', '\n', '\t', '\r', ',', ']', '}']) (r : Str) :
    NumEnd (c :: r) := by
  intro x hx
  simp only [List.head?_cons, Option.some.injEq] at hx
  subst hx
  simp only [List.mem_cons, List.not_mem_nil, or_false] at h
  rcases h with rfl | rfl | rfl | rfl | rfl | rfl | rfl <;> decide

theorem numEnd_nil : NumEnd [] := by intro c h; simp at h

theorem numEnd_ws {w : Str} (h : Ws w) {r : Str} (hr : NumEnd r) : NumEnd (w ++ r) := by
  cases w with
  | nil => exact hr
  | cons c w =>
    refine numEnd_cons ?_ _
    have := h c (by simp)
    simp only [List.mem_cons, List.not_mem_nil, or_false] at this ⊢
    rcases this with h | h | h | h <;> simp [h]

theorem parse_complete {j : Json} {t : Str} (h : TextW mk j t) :
    ∀ rest n, NumEnd rest → 2 * (t ++ rest).length + 1 ≤ n → parseV mk n (t ++ rest) = some (j, rest) := by
  refine TextW.rec
    (motive_1 := fun j t _ => ∀ rest n, NumEnd rest → 2 * (t ++ rest).length + 1 ≤ n →
      parseV mk n (t ++ rest) = some (j, rest))
    (motive_2 := fun l t _ => ∀ rest n, 2 * (t ++ ']' :: rest).length + 2 ≤ n →
      parseElems mk n (t ++ ']' :: rest) = some (l, rest) ∧
      ∃ d t1, skipWs (t ++ ']' :: rest) = d :: t1 ∧ d ≠ ']')
    (motive_3 := fun es t _ => ∀ rest n, 2 * (t ++ '}' :: rest).length + 2 ≤ n →
      parseMembers mk n (t ++ '}' :: rest) = some (es, rest) ∧
      ∃ d t1, skipWs (t ++ '}' :: rest) = d :: t1 ∧ d ≠ '}')
    ?_ ?_ ?_ ?_ ?_ ?_ ?_ ?_ ?_ ?_ ?_ ?_ ?_ h
  · intro rest n _ hn
    obtain ⟨n, rfl⟩ : ∃ m, n = m + 1 := ⟨n - 1, by omega⟩
    simp [parseV, skipWs, isWs, stripLit]
  · intro rest n _ hn
    obtain ⟨n, rfl⟩ : ∃ m, n = m + 1 := ⟨n - 1, by omega⟩
    simp [parseV, skipWs, isWs, stripLit]
  · intro rest n _ hn
    obtain ⟨n, rfl⟩ : ∃ m, n = m + 1 := ⟨n - 1, by omega⟩
    simp [parseV, skipWs, isWs, stripLit]
  · intro tok ht rest n hr hn
    obtain ⟨n, rfl⟩ : ∃ m, n = m + 1 := ⟨n - 1, by omega⟩
    have hs := scanNum_complete ht hr
    obtain ⟨c, l, rfl, hw, -, -⟩ := text_head (TextW.num (mk := mk) ht)
    obtain ⟨c', l', hcl, hc⟩ := numTok_head ht
    simp only [List.cons.injEq] at hcl
    obtain ⟨rfl, rfl⟩ := hcl
    have hne : c ≠ 'n' ∧ c ≠ 't' ∧ c ≠ 'f' ∧ c ≠ '"' ∧ c ≠ '[' ∧ c ≠ '{' := by
      rcases hc with rfl | hc
      · decide
      · refine ⟨?_, ?_, ?_, ?_, ?_, ?_⟩ <;> rintro rfl <;> revert hc <;> decide
    simp only [List.cons_append] at hs ⊢
    simp only [parseV, skipWs_cons hw, hne, if_false, hs, Option.map_some]
  · intro s t hb rest n _ hn
    obtain ⟨n, rfl⟩ : ∃ m, n = m + 1 := ⟨n - 1, by omega⟩
    have := parseStr_complete hb rest
    simp only [List.cons_append, List.append_assoc, List.nil_append]
    rw [parseV, skipWs_cons (by decide)]
    simp only [this, Option.map_some, literal_flag]
    rfl
  · intro w hw rest n _ hn
    obtain ⟨n, rfl⟩ : ∃ m, n = m + 1 := ⟨n - 1, by omega⟩
    have := skipWs_append hw (']' :: rest)
    rw [skipWs_cons (by decide)] at this
    simp only [List.cons_append, List.append_assoc, List.nil_append]
    rw [parseV, skipWs_cons (by decide)]
    simp [this]
  · intro l t _ ih rest n _ hn
    obtain ⟨n, rfl⟩ : ∃ m, n = m + 1 := ⟨n - 1, by omega⟩
    simp only [List.cons_append, List.append_assoc, List.nil_append, List.length_cons] at hn ⊢
    obtain ⟨h1, d, t1, h2, h3⟩ := ih rest n (by omega)
    rw [parseV, skipWs_cons (by decide)]
    rw [← parseElems_skip, h2] at h1
    simp [h2, h3, h1]
  · intro w hw rest n _ hn
    obtain ⟨n, rfl⟩ : ∃ m, n = m + 1 := ⟨n - 1, by omega⟩
    have := skipWs_append hw ('}' :: rest)
    rw [skipWs_cons (by decide)] at this
    simp only [List.cons_append, List.append_assoc, List.nil_append]
    rw [parseV, skipWs_cons (by decide)]
    simp [this]
  · intro l t _ ih rest n _ hn
    obtain ⟨n, rfl⟩ : ∃ m, n = m + 1 := ⟨n - 1, by omega⟩
    simp only [List.cons_append, List.append_assoc, List.nil_append, List.length_cons] at hn ⊢
    obtain ⟨h1, d, t1, h2, h3⟩ := ih rest n (by omega)
    rw [parseV, skipWs_cons (by decide)]
    rw [← parseMembers_skip, h2] at h1
    simp [h2, h3, h1]
  · intro j w t w' hw ht hw' ih rest n hn
    obtain ⟨n, rfl⟩ : ∃ m, n = m + 1 := ⟨n - 1, by omega⟩
    obtain ⟨c, l, htl, hc, hc1, -⟩ := text_head ht
    have hsk : skipWs (w ++ (t ++ (w' ++ ']' :: rest))) = t ++ (w' ++ ']' :: rest) := by
      rw [skipWs_append hw, htl, List.cons_append, skipWs_cons hc]
    simp only [List.append_assoc] at hn ⊢
    have h1 := ih (w' ++ ']' :: rest) n (numEnd_ws hw' (numEnd_cons (by simp) _))
      (by simp only [List.length_append, List.length_cons] at hn ⊢; omega)
    refine ⟨?_, c, l ++ (w' ++ ']' :: rest), by rw [hsk, htl]; rfl, hc1⟩
    rw [parseElems, parseV_ws hw, h1]
    simp only
    rw [skipWs_append hw', skipWs_cons (by decide)]
    simp
  · intro j w t w' l r hw ht hw' he ih ihE rest n hn
    obtain ⟨n, rfl⟩ : ∃ m, n = m + 1 := ⟨n - 1, by omega⟩
    obtain ⟨c, l', htl, hc, hc1, -⟩ := text_head ht
    simp only [List.append_assoc, List.cons_append] at hn ⊢
    have hsk : skipWs (w ++ (t ++ (w' ++ ',' :: (r ++ ']' :: rest)))) =
        t ++ (w' ++ ',' :: (r ++ ']' :: rest)) := by
      rw [skipWs_append hw, htl, List.cons_append, skipWs_cons hc]
    have h1 := ih (w' ++ ',' :: (r ++ ']' :: rest)) n (numEnd_ws hw' (numEnd_cons (by simp) _))
      (by simp only [List.length_append, List.length_cons] at hn ⊢; omega)
    obtain ⟨h2, -⟩ := ihE rest n
      (by simp only [List.length_append, List.length_cons] at hn ⊢; omega)
    refine ⟨?_, c, l' ++ _, by rw [hsk, htl]; rfl, hc1⟩
    rw [parseElems, parseV_ws hw, h1]
    simp only
    rw [skipWs_append hw', skipWs_cons (by decide)]
    simp [h2]
  · intro k v w0 ks w1 w2 t w3 hw0 hk hw1 hw2 ht hw3 ih rest n hn
    obtain ⟨n, rfl⟩ : ∃ m, n = m + 1 := ⟨n - 1, by omega⟩
    simp only [List.append_assoc, List.cons_append] at hn ⊢
    have hsk : skipWs (w0 ++ '"' :: (ks ++ '"' :: (w1 ++ ':' :: (w2 ++ (t ++ (w3 ++ '}' :: rest)))))) =
        '"' :: (ks ++ '"' :: (w1 ++ ':' :: (w2 ++ (t ++ (w3 ++ '}' :: rest))))) := by
      rw [skipWs_append hw0, skipWs_cons (by decide)]
    have h1 := ih (w3 ++ '}' :: rest) n (numEnd_ws hw3 (numEnd_cons (by simp) _))
      (by simp only [List.length_append, List.length_cons] at hn ⊢; omega)
    refine ⟨?_, _, _, hsk, by decide⟩
    rw [parseMembers, hsk]
    simp only [if_true]
    rw [parseStr_complete hk]
    simp only
    rw [skipWs_append hw1, skipWs_cons (by decide)]
    simp only [if_true]
    rw [parseV_ws hw2, h1]
    simp only
    rw [skipWs_append hw3, skipWs_cons (by decide)]
    simp
  · intro k v w0 ks w1 w2 t w3 es r hw0 hk hw1 hw2 ht hw3 hm ih ihM rest n hn
    obtain ⟨n, rfl⟩ : ∃ m, n = m + 1 := ⟨n - 1, by omega⟩
    simp only [List.append_assoc, List.cons_append] at hn ⊢
    have hsk : skipWs (w0 ++ '"' :: (ks ++ '"' :: (w1 ++ ':' :: (w2 ++ (t ++ (w3 ++ ',' :: (r ++ '}' :: rest))))))) =
        '"' :: (ks ++ '"' :: (w1 ++ ':' :: (w2 ++ (t ++ (w3 ++ ',' :: (r ++ '}' :: rest)))))) := by
      rw [skipWs_append hw0, skipWs_cons (by decide)]
    have h1 := ih (w3 ++ ',' :: (r ++ '}' :: rest)) n (numEnd_ws hw3 (numEnd_cons (by simp) _))
      (by simp only [List.length_append, List.length_cons] at hn ⊢; omega)
    obtain ⟨h2, -⟩ := ihM rest n
      (by simp only [List.length_append, List.length_cons] at hn ⊢; omega)
    refine ⟨?_, _, _, hsk, by decide⟩
    rw [parseMembers, hsk]
    simp only [if_true]
    rw [parseStr_complete hk]
    simp only
    rw [skipWs_append hw1, skipWs_cons (by decide)]
    simp only [if_true]
    rw [parseV_ws hw2, h1]
    simp only
    rw [skipWs_append hw3, skipWs_cons (by decide)]
    simp [h2]

/-- The parser accepts exactly the grammar, and reads the tree the grammar says. -/
theorem parseWith_iff {s : Str} {j : Json} : parseWith mk s = some j ↔ DocumentW mk j s := by
  constructor
  · intro h
    unfold parseWith at h
    split at h
    · rename_i j' rest hp
      split at h
      · rename_i hr
        simp only [Option.some.injEq] at h
        subst h
        obtain ⟨w, t, hw, ht, rfl⟩ := (parse_sound _).1 _ _ _ hp
        exact ⟨w, t, rest, hw, ht, skipWs_nil_ws hr, rfl⟩
      · simp at h
    · simp at h
  · rintro ⟨w, t, w', hw, ht, hw', rfl⟩
    have hne : NumEnd w' := by
      have := numEnd_ws hw' numEnd_nil
      rwa [List.append_nil] at this
    have h1 := parse_complete ht w' (2 * (w ++ (t ++ w')).length + 1) hne
      (by simp only [List.length_append]; omega)
    unfold parseWith
    rw [parseV_ws hw, h1]
    simp [skipWs_of_ws hw']

/-- The parser accepts exactly the grammar, and reads the tree the grammar says. -/
theorem parseJson_iff {s : Str} {j : Json} : parseJson s = some j ↔ Document j s := parseWith_iff

theorem parseStruck_iff {s : Str} {j : Json} : parseStruck s = some j ↔ DocumentW struck j s := parseWith_iff

/-! ## The printer -/

mutual
/-- Printing with a given way `ps` of writing the inside of string values (the crate's own way is
`List.flatMap escChar`, see `printAs_esc`). -/
def printAs (ps : Str → Str) : Json → Str
  | .null => c!"null"
  | .bool true => c!"true"
  | .bool false => c!"false"
  | .num t => t
  | .str s => '"' :: (ps s ++ ['"'])
  | .arr l => '[' :: printElemsAs ps l
  | .obj es => '{' :: printMembersAs ps es
/-- elements -/
def printElemsAs (ps : Str → Str) : List Json → Str
  | [] => [']']
  | [j] => printAs ps j ++ [']']
  | j :: l => printAs ps j ++ ',' :: printElemsAs ps l
/-- members -/
def printMembersAs (ps : Str → Str) : List (Str × Json) → Str
  | [] => ['}']
  | [(k, v)] => printStr k ++ ':' :: (printAs ps v ++ ['}'])
  | (k, v) :: es => printStr k ++ ':' :: (printAs ps v ++ ',' :: printMembersAs ps es)
end

mutual
/-- The tree that the reading `mk` of literals gives to the text of a tree printed with `ps`. -/
def mapStr (ps : Str → Str) (mk : Bool → Str → Json) : Json → Json
  | .str s => mk ((ps s).contains '\\') s
  | .arr l => .arr (mapStrL ps mk l)
  | .obj es => .obj (mapStrM ps mk es)
  | .null => .null
  | .bool b => .bool b
  | .num t => .num t
/-- for lists -/
def mapStrL (ps : Str → Str) (mk : Bool → Str → Json) : List Json → List Json
  | [] => []
  | j :: l => mapStr ps mk j :: mapStrL ps mk l
/-- for members -/
def mapStrM (ps : Str → Str) (mk : Bool → Str → Json) : List (Str × Json) → List (Str × Json)
  | [] => []
  | (k, v) :: es => (k, mapStr ps mk v) :: mapStrM ps mk es
end

theorem mapStr_id (ps : Str → Str) (j : Json) : mapStr ps (fun _ s => .str s) j = j := by
  refine Json.rec
    (motive_1 := fun j => mapStr ps (fun _ s => .str s) j = j)
    (motive_2 := fun l => mapStrL ps (fun _ s => .str s) l = l)
    (motive_3 := fun es => mapStrM ps (fun _ s => .str s) es = es)
    (motive_4 := fun p => mapStr ps (fun _ s => .str s) p.2 = p.2)
    ?_ ?_ ?_ ?_ ?_ ?_ ?_ ?_ ?_ ?_ ?_ j <;> intros <;> simp_all [mapStr, mapStrL, mapStrM]

theorem printAs_esc (j : Json) : printAs (List.flatMap escChar) j = printJson j := by
  refine Json.rec
    (motive_1 := fun j => printAs (List.flatMap escChar) j = printJson j)
    (motive_2 := fun l => printElemsAs (List.flatMap escChar) l = printElems l)
    (motive_3 := fun es => printMembersAs (List.flatMap escChar) es = printMembers es)
    (motive_4 := fun p => printAs (List.flatMap escChar) p.2 = printJson p.2)
    ?_ ?_ ?_ ?_ ?_ ?_ ?_ ?_ ?_ ?_ ?_ j
  · rfl
  · intro b; cases b <;> rfl
  · intro t; rfl
  · intro s; rfl
  · intro l h; simp only [printAs, printJson, h]
  · intro l h; simp only [printAs, printJson, h]
  · rfl
  · intro a l h1 h2
    cases l with
    | nil => simp only [printElemsAs, printElems, h1]
    | cons b l => simp only [printElemsAs, printElems, h1, h2]
  · rfl
  · intro a l h1 h2
    obtain ⟨k, v⟩ := a
    cases l with
    | nil => simp only [printMembersAs, printMembers, h1]
    | cons b l => simp only [printMembersAs, printMembers, h1, h2]
  · intro k v h; exact h

theorem printAs_text {ps : Str → Str} (hps : ∀ s, StrBody s (ps s)) (j : Json) :
    NumsOk j → TextW mk (mapStr ps mk j) (printAs ps j) := by
  refine Json.rec
    (motive_1 := fun j => NumsOk j → TextW mk (mapStr ps mk j) (printAs ps j))
    (motive_2 := fun l => NumsOkL l → l ≠ [] → ∃ t, ElemsW mk (mapStrL ps mk l) t ∧ printElemsAs ps l = t ++ [']'])
    (motive_3 := fun es => NumsOkM es → es ≠ [] →
      ∃ t, MembersW mk (mapStrM ps mk es) t ∧ printMembersAs ps es = t ++ ['}'])
    (motive_4 := fun p => NumsOk p.2 → TextW mk (mapStr ps mk p.2) (printAs ps p.2))
    ?_ ?_ ?_ ?_ ?_ ?_ ?_ ?_ ?_ ?_ ?_ j
  · intro _; exact .null
  · intro b _; cases b
    · exact .false
    · exact .true
  · intro t h; exact .num h
  · intro s _
    exact .str (hps s)
  · intro l ih h
    cases l with
    | nil => exact .arrNil ws_nil
    | cons a l =>
      obtain ⟨t, h1, h2⟩ := ih h (by simp)
      rw [printAs, h2]
      exact .arr h1
  · intro l ih h
    cases l with
    | nil => exact .objNil ws_nil
    | cons a l =>
      obtain ⟨t, h1, h2⟩ := ih h (by simp)
      rw [printAs, h2]
      exact .obj h1
  · intro _ h; exact absurd rfl h
  · intro a l ih1 ih2 h _
    cases l with
    | nil => exact ⟨_, .one ws_nil (ih1 h.1) ws_nil, by simp [printElemsAs]⟩
    | cons b l =>
      obtain ⟨t, h1, h2⟩ := ih2 h.2 (by simp)
      exact ⟨_, .cons ws_nil (ih1 h.1) ws_nil h1, by simp [printElemsAs, h2]⟩
  · intro _ h; exact absurd rfl h
  · intro a l ih1 ih2 h _
    obtain ⟨k, v⟩ := a
    cases l with
    | nil =>
      exact ⟨_, .one ws_nil (strBody_print k) ws_nil ws_nil (ih1 h.1) ws_nil,
        by simp [printMembersAs, printStr]⟩
    | cons b l =>
      obtain ⟨t, h1, h2⟩ := ih2 h.2 (by simp)
      exact ⟨_, .cons ws_nil (strBody_print k) ws_nil ws_nil (ih1 h.1) ws_nil h1,
        by simp [printMembersAs, printStr, h2]⟩
  · intro k v ih; exact ih

theorem print_textW (j : Json) (h : NumsOk j) : TextW mk (mapStr (List.flatMap escChar) mk j) (printJson j) := by
  rw [← printAs_esc]
  exact printAs_text strBody_print j h

theorem print_text {j : Json} (h : NumsOk j) : Text j (printJson j) := by
  have := print_textW (mk := fun _ s => .str s) j h
  rwa [mapStr_id] at this

/-- What the struck reading makes of printed text. -/
theorem parseStruck_print {j : Json} (h : NumsOk j) : parseStruck (printJson j) = some (mapStr (List.flatMap escChar) struck j) :=
  parseStruck_iff.2 ⟨[], printJson j, [], ws_nil, print_textW j h, ws_nil, by simp⟩

/-- Printing then parsing is the identity. -/
theorem parseJson_print {j : Json} (h : NumsOk j) : parseJson (printJson j) = some j :=
  parseJson_iff.2 ⟨[], printJson j, [], ws_nil, print_text h, ws_nil, by simp⟩

theorem parseBytes_print {j : Json} (h : NumsOk j) : parseBytes (utf8 (printJson j)) = some j := by
  unfold parseBytes
  rw [utf8Decode_utf8]
  exact parseJson_print h

theorem text_numsOk {j : Json} {t : Str} (h : Text j t) : NumsOk j := by
  refine TextW.rec (motive_1 := fun j _ _ => NumsOk j) (motive_2 := fun l _ _ => NumsOkL l)
    (motive_3 := fun es _ _ => NumsOkM es) ?_ ?_ ?_ ?_ ?_ ?_ ?_ ?_ ?_ ?_ ?_ ?_ ?_ h <;>
    simp_all [NumsOk, NumsOkL, NumsOkM]

/-- Every tree that was read has grammatical number tokens. -/
theorem parseJson_numsOk {s : Str} {j : Json} (h : parseJson s = some j) : NumsOk j := by
  obtain ⟨_, _, _, _, ht, _, _⟩ := parseJson_iff.1 h
  exact text_numsOk ht

theorem printJson_injective {a b : Json} (ha : NumsOk a) (hb : NumsOk b)
    (h : printJson a = printJson b) : a = b := by
  have h1 := parseJson_print ha
  rw [h, parseJson_print hb] at h1
  exact (Option.some.inj h1).symm

end Verif
