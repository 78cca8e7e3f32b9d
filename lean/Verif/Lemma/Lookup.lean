import Verif.Lemma.Denotes
import Verif.Lemma.Serde

/-! # Members of normalised objects -/

namespace Verif

open Spec

theorem lastVal_fieldVals (k : Str) (es : List (Str × Json)) (d : Option Json) :
    lastVal k es d = ((fieldVals k es).getLast?).or d := by
  induction es generalizing d with
  | nil => rfl
  | cons p es ih =>
    obtain ⟨k', v⟩ := p
    have h := ih (if k' = k then some v else d)
    unfold lastVal at h ⊢
    rw [List.foldl_cons, h]
    by_cases e : k' = k
    · subst e
      rw [if_pos rfl, fieldVals_cons_self]
      cases fieldVals k' es with
      | nil => rfl
      | cons a l => rw [List.getLast?_cons_cons, List.getLast?_cons]; rfl
    · rw [if_neg e, fieldVals_cons_ne e]

theorem fieldVals_map (k : Str) (f : Json → Json) (es : List (Str × Json)) :
    fieldVals k (es.map fun p => (p.1, f p.2)) = (fieldVals k es).map f := by
  induction es with
  | nil => rfl
  | cons p es ih =>
    simp only [List.map_cons, fieldVals, ih]
    split <;> rfl

/-- Looking up a member of a normalised object. -/
theorem lookup_norm {F : Str → Option Str} {es : List (Str × Json)} {v : Json}
    (h : normJ F (.obj es) = some v) (k : Str) :
    ∃ es', v = .obj es' ∧ SortedKeys es' ∧ lookupEntry k es' = ((fieldVals k es).getLast?).bind (normJ F) := by
  simp only [normJ, Option.map_eq_some_iff] at h
  obtain ⟨es1, h1, rfl⟩ := h
  obtain ⟨hs, rfl⟩ := normM_map.1 h1
  refine ⟨_, rfl, sorted_entriesOf _, ?_⟩
  rw [lookup_entriesOf, lastVal_fieldVals, fieldVals_map k (fun j => (normJ F j).getD .null),
    List.getLast?_map, Option.or_none]
  cases hl : (fieldVals k es).getLast? with
  | none => rfl
  | some x =>
    have hm : (k, x) ∈ es := mem_fieldVals.1 (List.mem_of_getLast? hl)
    have := hs _ hm
    simp only [Option.map_some, Option.bind_some]
    obtain ⟨y, hy⟩ := Option.isSome_iff_exists.1 this
    simp only at hy
    rw [hy]
    rfl

end Verif
