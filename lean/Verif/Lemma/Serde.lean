import Verif.Lemma.Value
import Verif.Model.Serde

namespace Verif
open Spec

@[simp] theorem fieldVals_nil (k : Str) : fieldVals k [] = [] := rfl

theorem fieldVals_append (k : Str) (a b : List (Str × Json)) :
    fieldVals k (a ++ b) = fieldVals k a ++ fieldVals k b := by
  induction a with
  | nil => rfl
  | cons p a ih =>
    obtain ⟨k', v⟩ := p
    simp only [List.cons_append, fieldVals, ih]
    split <;> rfl

theorem fieldVals_none {k : Str} {es : List (Str × Json)} (h : ∀ p ∈ es, p.1 ≠ k) :
    fieldVals k es = [] := by
  induction es with
  | nil => rfl
  | cons p es ih =>
    obtain ⟨k', v⟩ := p
    simp only [fieldVals]
    rw [if_neg (h (k', v) (by simp))]
    exact ih (fun q hq => h q (List.mem_cons_of_mem _ hq))

theorem mem_fieldVals {k : Str} {es : List (Str × Json)} {v : Json} :
    v ∈ fieldVals k es ↔ (k, v) ∈ es := by
  induction es with
  | nil => simp
  | cons p es ih =>
    obtain ⟨k', v'⟩ := p
    simp only [fieldVals, List.mem_cons, Prod.mk.injEq]
    split
    · rename_i e; subst e
      simp [ih]
    · rename_i e
      rw [ih]
      constructor
      · exact Or.inr
      · rintro (⟨h, _⟩ | h)
        · exact absurd h.symm e
        · exact h

@[simp] theorem fieldVals_cons_self (k : Str) (v : Json) (es : List (Str × Json)) :
    fieldVals k ((k, v) :: es) = v :: fieldVals k es := by simp [fieldVals]

theorem fieldVals_cons_ne {k k' : Str} (h : k' ≠ k) (v : Json) (es : List (Str × Json)) :
    fieldVals k ((k', v) :: es) = fieldVals k es := by simp [fieldVals, h]

theorem fieldVals_optE_ne {α : Type} {k k' : Str} (h : k' ≠ k) (e : α → Json) (o : Option α) :
    fieldVals k (optE k' e o) = [] := by
  cases o <;> simp [optE, fieldVals, h]

theorem fieldVals_optE_self {α : Type} (k : Str) (e : α → Json) (o : Option α) :
    fieldVals k (optE k e o) = (o.map e).toList := by
  cases o <;> simp [optE, fieldVals]

theorem fieldVals_vecE_ne {α : Type} {k k' : Str} (h : k' ≠ k) (e : List α → Json) (l : List α) :
    fieldVals k (vecE k' e l) = [] := by
  cases l <;> simp [vecE, fieldVals, h]

theorem mem_mapE {α : Type} {o : HOrd} {e : α → Json} {m : HMap α} {k : Str} {v : Json} :
    (k, v) ∈ mapE o e m ↔ ∃ a, (k, a) ∈ m.entries ∧ v = e a := by
  unfold mapE HOrd.here
  rw [(o.perm [] _).mem_iff, List.mem_map]
  constructor
  · rintro ⟨⟨k', a⟩, h, e⟩
    simp only [Prod.mk.injEq] at e
    obtain ⟨rfl, rfl⟩ := e
    exact ⟨a, h, rfl⟩
  · rintro ⟨a, h, rfl⟩
    exact ⟨(k, a), h, rfl⟩

theorem perm_map_exists {α β : Type} {f : α → β} {l' m : List β} (h : l'.Perm m) :
    ∀ {l : List α}, m = l.map f → ∃ r : List α, r.Perm l ∧ l' = r.map f := by
  induction h with
  | nil =>
    intro l e
    cases l with
    | nil => exact ⟨[], .refl _, rfl⟩
    | cons a l => simp at e
  | cons x _ ih =>
    intro l e
    cases l with
    | nil => simp at e
    | cons a l =>
      simp only [List.map_cons, List.cons.injEq] at e
      obtain ⟨rfl, e⟩ := e
      obtain ⟨r, hr, rfl⟩ := ih e
      exact ⟨a :: r, hr.cons a, rfl⟩
  | swap x y l₀ =>
    intro l e
    cases l with
    | nil => simp at e
    | cons a l =>
      cases l with
      | nil => simp at e
      | cons b l =>
        simp only [List.map_cons, List.cons.injEq] at e
        obtain ⟨rfl, rfl, rfl⟩ := e
        exact ⟨b :: a :: l, .swap _ _ _, rfl⟩
  | trans _ _ ih1 ih2 =>
    intro l e
    obtain ⟨r, hr, rfl⟩ := ih2 e
    obtain ⟨r', hr', rfl⟩ := ih1 rfl
    exact ⟨r', hr'.trans hr, rfl⟩

theorem decMembers_map {α : Type} {d : Json → Option α} {e : α → Json} (l : List (Str × α))
    (h : ∀ p ∈ l, d (e p.2) = some p.2) :
    decMembers d (l.map fun p => (p.1, e p.2)) = some l := by
  induction l with
  | nil => rfl
  | cons p l ih =>
    simp [decMembers, h p (by simp), ih (fun q hq => h q (List.mem_cons_of_mem _ hq))]

/-- A map written in any order is read back. -/
theorem decMembers_mapE {α : Type} {d : Json → Option α} {e : α → Json} (o : HOrd) (m : HMap α)
    (h : ∀ p ∈ m.entries, d (e p.2) = some p.2) :
    (decMembers d (mapE o e m)).map HMap.ofList = some m := by
  obtain ⟨r, hr, he⟩ := perm_map_exists (o.perm [] (m.entries.map fun p => (p.1, e p.2))) rfl
  unfold mapE HOrd.here
  rw [he, decMembers_map r (fun p hp => h p (hr.mem_iff.1 hp))]
  simp [HMap.ofList_perm hr]

theorem decAll_map {α : Type} {d : Json → Option α} {e : α → Json} (l : List α)
    (h : ∀ a ∈ l, d (e a) = some a) : decAll d (l.map e) = some l := by
  induction l with
  | nil => rfl
  | cons a l ih =>
    simp [decAll, h a (by simp), ih (fun q hq => h q (List.mem_cons_of_mem _ hq))]

@[simp] theorem decStr_str (s : Str) : decStr (.str s) = some s := rfl

@[simp] theorem decU64_enc (n : UInt64) : decU64 (encU64 n) = some n := by
  simp only [encU64, decU64]
  rw [tokNat_natDec (UInt64.toNat_lt n)]
  simp

@[simp] theorem decU8_enc (n : UInt8) : decU8 (encU8 n) = some n := by
  simp only [encU8, decU8]
  have h := UInt8.toNat_lt n
  have h2 : n.toNat < 256 := by simpa using h
  rw [tokNat_natDec (by omega)]
  simp [h2]

theorem fieldVals_filter {p : Str × Json → Bool} {k : Str} (es : List (Str × Json))
    (h : ∀ v, p (k, v) = true) : fieldVals k (es.filter p) = fieldVals k es := by
  induction es with
  | nil => rfl
  | cons q es ih =>
    obtain ⟨k', v⟩ := q
    simp only [List.filter_cons]
    split
    · simp only [fieldVals, ih]
    · rename_i hp
      simp only [fieldVals, ih]
      rw [if_neg]
      rintro rfl
      exact hp (h v)

end Verif
