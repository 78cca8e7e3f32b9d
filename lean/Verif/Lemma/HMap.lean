import Verif.Model.HMap

namespace Verif

theorem char_eq_of_toNat {a b : Char} (h : a.toNat = b.toNat) : a = b :=
  Char.ext (UInt32.toNat_inj.1 h)

theorem strLt_irrefl (s : Str) : strLt s s = false := by
  induction s with
  | nil => rfl
  | cons a s ih => simp [strLt, ih]

theorem strLt_trans {a b c : Str} (h1 : strLt a b = true) (h2 : strLt b c = true) :
    strLt a c = true := by
  induction a generalizing b c with
  | nil =>
    cases b with
    | nil => simp [strLt] at h1
    | cons y b => cases c with
      | nil => simp [strLt] at h2
      | cons z c => rfl
  | cons x a ih =>
    cases b with
    | nil => simp [strLt] at h1
    | cons y b => cases c with
      | nil => simp [strLt] at h2
      | cons z c =>
        simp only [strLt] at h1 h2 ⊢
        split at h1 <;> split at h2
        · rename_i e1 e2; subst e1; subst e2
          simp only [if_true]; exact ih h1 h2
        · rename_i e1 e2; subst e1
          simp only [e2, if_false]; exact h2
        · rename_i e1 e2; subst e2
          simp only [e1, if_false]; exact h1
        · simp only [decide_eq_true_eq] at h1 h2
          have : x ≠ z := by rintro rfl; omega
          simp only [this, if_false, decide_eq_true_eq]; omega

theorem strLt_total {a b : Str} (h : a ≠ b) (h2 : strLt a b = false) : strLt b a = true := by
  induction a generalizing b with
  | nil => cases b with
    | nil => exact absurd rfl h
    | cons y b => simp [strLt] at h2
  | cons x a ih => cases b with
    | nil => rfl
    | cons y b =>
      simp only [strLt] at h2 ⊢
      split at h2
      · rename_i e; subst e
        simp only [if_true]
        exact ih (by rintro rfl; exact h rfl) h2
      · rename_i e
        have : y ≠ x := fun h => e h.symm
        simp only [this, if_false, decide_eq_true_eq]
        simp only [decide_eq_false_iff_not] at h2
        have : x.toNat ≠ y.toNat := fun h => e (char_eq_of_toNat h)
        omega

theorem strLt_ne {a b : Str} (h : strLt a b = true) : a ≠ b := by
  rintro rfl; rw [strLt_irrefl] at h; exact absurd h (by decide)

theorem strLt_asymm {a b : Str} (h : strLt a b = true) : strLt b a = false := by
  cases hb : strLt b a with
  | false => rfl
  | true => exact absurd (strLt_trans h hb) (by simp [strLt_irrefl])

section
variable {α : Type}

theorem mem_insertEntry {k : Str} {v : α} {l : List (Str × α)} {q : Str × α}
    (h : q ∈ insertEntry k v l) : q = (k, v) ∨ q ∈ l := by
  induction l with
  | nil => simpa [insertEntry] using h
  | cons p l ih =>
    obtain ⟨k', v'⟩ := p
    simp only [insertEntry] at h
    split at h
    · simp only [List.mem_cons] at h ⊢
      rcases h with h | h
      · exact Or.inl h
      · exact Or.inr (Or.inr h)
    · split at h
      · simp only [List.mem_cons] at h ⊢
        rcases h with h | h | h
        · exact Or.inl h
        · exact Or.inr (Or.inl h)
        · exact Or.inr (Or.inr h)
      · simp only [List.mem_cons] at h ⊢
        rcases h with h | h
        · exact Or.inr (Or.inl h)
        · rcases ih h with h | h
          · exact Or.inl h
          · exact Or.inr (Or.inr h)

theorem sorted_insertEntry {k : Str} {v : α} {l : List (Str × α)} (h : SortedKeys l) :
    SortedKeys (insertEntry k v l) := by
  induction l with
  | nil => simp [insertEntry, SortedKeys]
  | cons p l ih =>
    obtain ⟨k', v'⟩ := p
    obtain ⟨h1, h2⟩ := h
    simp only [insertEntry]
    split
    · rename_i e; subst e; exact ⟨h1, h2⟩
    · rename_i hne
      split
      · rename_i hlt
        refine ⟨?_, h1, h2⟩
        intro q hq
        simp only [List.mem_cons] at hq
        rcases hq with rfl | hq
        · exact hlt
        · exact strLt_trans hlt (h1 q hq)
      · rename_i hlt
        refine ⟨?_, ih h2⟩
        intro q hq
        rcases mem_insertEntry hq with rfl | hq
        · exact strLt_total hne (by simpa using hlt)
        · exact h1 q hq

theorem lookup_none_of_lt {k : Str} {l : List (Str × α)} (h : ∀ q ∈ l, strLt k q.1 = true) :
    lookupEntry k l = none := by
  induction l with
  | nil => rfl
  | cons p l ih =>
    obtain ⟨k', v'⟩ := p
    have := strLt_ne (h (k', v') (by simp))
    simp only [lookupEntry]
    rw [if_neg this]
    exact ih (fun q hq => h q (List.mem_cons_of_mem _ hq))

theorem lookup_insertEntry (k k' : Str) (v : α) (l : List (Str × α)) :
    lookupEntry k' (insertEntry k v l) = if k' = k then some v else lookupEntry k' l := by
  induction l with
  | nil => simp [insertEntry, lookupEntry]
  | cons p l ih =>
    obtain ⟨k₁, v₁⟩ := p
    simp only [insertEntry]
    split
    · rename_i e; subst e
      simp only [lookupEntry]
      split <;> rfl
    · rename_i hne
      split
      · simp only [lookupEntry]
      · simp only [lookupEntry, ih]
        split
        · rename_i e; subst e
          simp [Ne.symm hne]
        · rfl

theorem sorted_ext {l m : List (Str × α)} (hl : SortedKeys l) (hm : SortedKeys m)
    (h : ∀ k, lookupEntry k l = lookupEntry k m) : l = m := by
  induction l generalizing m with
  | nil =>
    cases m with
    | nil => rfl
    | cons p m =>
      have := h p.1
      simp [lookupEntry] at this
  | cons p l ih =>
    obtain ⟨k, v⟩ := p
    cases m with
    | nil => have := h k; simp [lookupEntry] at this
    | cons q m =>
      obtain ⟨k', v'⟩ := q
      have hkk : k = k' := by
        apply Classical.byContradiction
        intro hne
        cases hlt : strLt k k' with
        | true =>
          have h1 := h k
          have h2 : lookupEntry k m = none := lookup_none_of_lt
            (fun q hq => strLt_trans hlt (hm.1 q hq))
          simp [lookupEntry, hne, h2] at h1
        | false =>
          have hlt' := strLt_total hne hlt
          have h1 := h k'
          have h2 : lookupEntry k' l = none := lookup_none_of_lt
            (fun q hq => strLt_trans hlt' (hl.1 q hq))
          simp [lookupEntry, Ne.symm hne, h2] at h1
      subst hkk
      have hv := h k
      simp only [lookupEntry, if_true, Option.some.injEq] at hv
      subst hv
      rw [ih hl.2 hm.2]
      intro k₁
      have h1 := h k₁
      simp only [lookupEntry] at h1
      split at h1
      · rename_i e; subst e
        rw [lookup_none_of_lt hl.1, lookup_none_of_lt hm.1]
      · exact h1

theorem sorted_foldl (l acc : List (Str × α)) (h : SortedKeys acc) :
    SortedKeys (l.foldl (fun acc p => insertEntry p.1 p.2 acc) acc) := by
  induction l generalizing acc with
  | nil => exact h
  | cons p l ih => exact ih _ (sorted_insertEntry h)

theorem sorted_entriesOf (l : List (Str × α)) : SortedKeys (entriesOf l) :=
  sorted_foldl l [] trivial

/-- the value the last entry with key `k` has -/
def lastVal (k : Str) (l : List (Str × α)) (d : Option α) : Option α :=
  l.foldl (fun acc p => if p.1 = k then some p.2 else acc) d

theorem lookup_foldl (k : Str) (l acc : List (Str × α)) :
    lookupEntry k (l.foldl (fun acc p => insertEntry p.1 p.2 acc) acc)
      = lastVal k l (lookupEntry k acc) := by
  induction l generalizing acc with
  | nil => rfl
  | cons p l ih =>
    simp only [List.foldl_cons, ih, lastVal, lookup_insertEntry, eq_comm]

theorem lookup_entriesOf (k : Str) (l : List (Str × α)) :
    lookupEntry k (entriesOf l) = lastVal k l none := lookup_foldl k l []

theorem lastVal_notMem {k : Str} {l : List (Str × α)} (h : ∀ q ∈ l, q.1 ≠ k) (d : Option α) :
    lastVal k l d = d := by
  induction l generalizing d with
  | nil => rfl
  | cons p l ih =>
    simp only [lastVal, List.foldl_cons]
    rw [if_neg (h p (by simp))]
    exact ih (fun q hq => h q (List.mem_cons_of_mem _ hq)) d

theorem lastVal_mem {k : Str} {v : α} {l : List (Str × α)} (hn : (l.map (·.1)).Nodup)
    (h : (k, v) ∈ l) (d : Option α) : lastVal k l d = some v := by
  induction l generalizing d with
  | nil => simp at h
  | cons p l ih =>
    simp only [List.map_cons, List.nodup_cons] at hn
    simp only [lastVal, List.foldl_cons]
    simp only [List.mem_cons] at h
    rcases h with h | h
    · subst h
      simp only [if_true]
      refine lastVal_notMem ?_ _
      intro q hq e
      exact hn.1 (List.mem_map.2 ⟨q, hq, e⟩)
    · have : p.1 ≠ k := fun e => hn.1 (List.mem_map.2 ⟨(k, v), h, e.symm⟩)
      rw [if_neg this]
      exact ih hn.2 h d

theorem lookup_eq_lastVal {l : List (Str × α)} (hs : SortedKeys l) (k : Str) :
    lookupEntry k l = lastVal k l none := by
  induction l with
  | nil => rfl
  | cons p l ih =>
    obtain ⟨k', v'⟩ := p
    simp only [lookupEntry, lastVal, List.foldl_cons]
    split
    · rename_i e; subst e
      simp only [if_true]
      exact (lastVal_notMem (fun q hq => (strLt_ne (hs.1 q hq)).symm) _).symm
    · rename_i hne
      rw [if_neg (Ne.symm hne)]
      exact ih hs.2

/-- Inserting the entries of a sorted list gives the list back. -/
theorem entriesOf_sorted {l : List (Str × α)} (h : SortedKeys l) : entriesOf l = l :=
  sorted_ext (sorted_entriesOf l) h
    (fun k => by rw [lookup_entriesOf, lookup_eq_lastVal h])

theorem sorted_nodup {l : List (Str × α)} (h : SortedKeys l) : (l.map (·.1)).Nodup := by
  induction l with
  | nil => simp
  | cons p l ih =>
    simp only [List.map_cons, List.nodup_cons]
    refine ⟨?_, ih h.2⟩
    intro hp
    obtain ⟨q, hq, e⟩ := List.mem_map.1 hp
    exact strLt_ne (h.1 q hq) e.symm

theorem mem_iff_lookup {l : List (Str × α)} (h : SortedKeys l) {k : Str} {v : α} :
    (k, v) ∈ l ↔ lookupEntry k l = some v := by
  induction l with
  | nil => simp [lookupEntry]
  | cons p l ih =>
    obtain ⟨k', v'⟩ := p
    simp only [lookupEntry, List.mem_cons]
    split
    · rename_i e; subst e
      constructor
      · rintro (h1 | h1)
        · simp only [Prod.mk.injEq] at h1; rw [h1.2]
        · exact absurd rfl (strLt_ne (h.1 (k, v) h1))
      · intro h1
        simp only [Option.some.injEq] at h1
        exact Or.inl (by rw [h1])
    · rename_i hne
      rw [ih h.2]
      constructor
      · rintro (h1 | h1)
        · simp only [Prod.mk.injEq] at h1; exact absurd h1.1 hne
        · exact h1
      · exact Or.inr

theorem perm_nodup_keys {l m : List (Str × α)} (h : l.Perm m) (hn : (m.map (·.1)).Nodup) :
    (l.map (·.1)).Nodup := (h.map _).nodup_iff.2 hn

/-- Inserting the entries of a map in any order gives the map back. -/
theorem entriesOf_perm {l m : List (Str × α)} (hp : l.Perm m) (h : SortedKeys m) :
    entriesOf l = m := by
  refine sorted_ext (sorted_entriesOf l) h (fun k => ?_)
  rw [lookup_entriesOf]
  have hn := perm_nodup_keys hp (sorted_nodup h)
  cases hk : lookupEntry k m with
  | some v =>
    exact lastVal_mem hn (hp.mem_iff.2 ((mem_iff_lookup h).2 hk)) none
  | none =>
    refine lastVal_notMem ?_ none
    intro q hq e
    have hm := hp.mem_iff.1 hq
    have := (mem_iff_lookup h (k := q.1) (v := q.2)).1 hm
    rw [e, hk] at this
    exact absurd this (by simp)

theorem mem_entriesOf {l : List (Str × α)} {q : Str × α} (h : q ∈ entriesOf l) : q ∈ l := by
  have : ∀ (l acc : List (Str × α)) q, q ∈ l.foldl (fun acc p => insertEntry p.1 p.2 acc) acc →
      q ∈ l ∨ q ∈ acc := by
    intro l
    induction l with
    | nil => intro acc q h; exact Or.inr h
    | cons p l ih =>
      intro acc q h
      rcases ih _ _ h with h | h
      · exact Or.inl (List.mem_cons_of_mem _ h)
      · rcases mem_insertEntry h with h | h
        · exact Or.inl (by simp [h])
        · exact Or.inr h
  rcases this l [] q h with h | h
  · exact h
  · simp at h

end

end Verif
