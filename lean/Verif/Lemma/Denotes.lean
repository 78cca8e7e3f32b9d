import Verif.Lemma.Value
import Verif.Spec.Value

/-! # Normalisation computes the denoted value -/

namespace Verif

open Spec

theorem allDigits_iff {t : Str} : t.all isDigit = true ↔ AllDigits t := by
  rw [List.all_eq_true]
  exact ⟨fun h c hc => isDigit_iff.1 (h c hc), fun h c hc => isDigit_iff.2 (h c hc)⟩

theorem digitsVal_eq (t : Str) : digitsVal t 0 = natOfDigits t := by
  have : ∀ (t : Str) acc, digitsVal t acc =
      t.foldl (fun a c => a * 10 + (c.toNat - 48)) acc := by
    intro t
    induction t with
    | nil => intro acc; rfl
    | cons c t ih =>
      intro acc
      simp only [digitsVal, List.foldl_cons, ih, Nat.mul_comm 10]
      rfl
  exact this t 0

theorem normNum_iff {F : Str → Option Str} {t u : Str} : normNum F t = some u ↔ NumVal F t u := by
  have minus : ∀ d : Str, ¬ AllDigits ('-' :: d) := by
    intro d h
    have := h '-' (by simp)
    revert this; decide
  unfold normNum NumVal
  split
  · rename_i d
    have hint : IntTok ('-' :: d) ↔
        (d.all isDigit = true ∧ 0 < natOfDigits d ∧ natOfDigits d ≤ 2 ^ 63) := by
      unfold IntTok
      rw [allDigits_iff, ← digitsVal_eq]
      constructor
      · rintro (⟨-, h, -⟩ | ⟨d', h, hd⟩)
        · exact absurd h (minus d)
        · cases h; exact hd
      · exact fun h => .inr ⟨d, rfl, h⟩
    split
    · rename_i h
      rw [← hint] at h
      simp [h, eq_comm]
    · rename_i h
      rw [← hint] at h
      simp [h]
  · rename_i hne
    have hint : IntTok t ↔ (tokNat t).isSome := by
      unfold IntTok tokNat
      split
      · rename_i h
        rw [allDigits_iff, ← digitsVal_eq] at h
        simp only [Option.isSome_some, iff_true]
        exact .inl ⟨h.2.1, h.1, h.2.2⟩
      · rename_i h
        rw [allDigits_iff, ← digitsVal_eq] at h
        simp only [Option.isSome_none, Bool.false_eq_true, iff_false]
        rintro (⟨h1, h2, h3⟩ | ⟨d, h1, -⟩)
        · exact h ⟨h2, h1, h3⟩
        · exact hne d h1
    split
    · rename_i h
      rw [← hint] at h
      simp [h, eq_comm]
    · rename_i h
      rw [← hint] at h
      simp [h]

theorem lastVal_iff {α : Type} {k : Str} {es : List (Str × α)} {v : α} :
    lastVal k es none = some v ↔ ∃ a b, es = a ++ (k, v) :: b ∧ ∀ p ∈ b, p.1 ≠ k := by
  constructor
  · have key : ∀ (es : List (Str × α)) (d : Option α), lastVal k es d = some v →
        (∃ a b, es = a ++ (k, v) :: b ∧ ∀ p ∈ b, p.1 ≠ k) ∨ (d = some v ∧ ∀ p ∈ es, p.1 ≠ k) := by
      intro es
      induction es with
      | nil => intro d h; exact .inr ⟨h, by simp⟩
      | cons p es ih =>
        intro d h
        rcases ih _ h with ⟨a, b, rfl, hb⟩ | ⟨h1, h2⟩
        · exact .inl ⟨p :: a, b, rfl, hb⟩
        · by_cases hp : p.1 = k
          · simp only [hp, if_true] at h1
            obtain ⟨k', v'⟩ := p
            cases h1; cases hp
            exact .inl ⟨[], es, rfl, h2⟩
          · simp only [hp, if_false] at h1
            exact .inr ⟨h1, by simpa [hp] using h2⟩
    intro h
    rcases key es none h with h | ⟨h, -⟩
    · exact h
    · cases h
  · rintro ⟨a, b, rfl, hb⟩
    unfold lastVal
    rw [List.foldl_append, List.foldl_cons]
    exact (lastVal_notMem hb _).trans (by simp)

theorem normM_map {F : Str → Option Str} {es es' : List (Str × Json)} :
    normM F es = some es' ↔ (∀ p ∈ es, (normJ F p.2).isSome) ∧
      es' = es.map fun p => (p.1, (normJ F p.2).getD .null) := by
  induction es generalizing es' with
  | nil =>
    simp only [normM, Option.some.injEq, List.map_nil]
    exact ⟨fun h => ⟨by simp, h.symm⟩, fun h => h.2.symm⟩
  | cons p es ih =>
    obtain ⟨k, v⟩ := p
    simp only [normM]
    cases hv : normJ F v with
    | none => simp [hv]
    | some v' =>
      cases hm : normM F es with
      | none =>
        simp only [reduceCtorEq, false_iff, List.forall_mem_cons, not_and]
        rintro ⟨-, h⟩
        rw [(ih (es' := _)).2 ⟨h, rfl⟩] at hm
        cases hm
      | some r =>
        obtain ⟨h1, h2⟩ := ih.1 hm
        simp only [Option.some.injEq, List.forall_mem_cons, hv, Option.isSome_some, true_and,
          List.map_cons, Option.getD_some, ← h2]
        exact ⟨fun h => ⟨h1, h.symm⟩, fun h => h.2.symm⟩

theorem normL_map {F : Str → Option Str} {l l' : List Json} :
    normL F l = some l' ↔ l.length = l'.length ∧
      ∀ (i : Nat) a b, l[i]? = some a → l'[i]? = some b → normJ F a = some b := by
  induction l generalizing l' with
  | nil => cases l' <;> simp [normL]
  | cons j l ih =>
    simp only [normL]
    cases l' with
    | nil =>
      simp only [List.length_cons, List.length_nil, Nat.add_eq_zero_iff, Nat.succ_ne_self, and_false,
        false_and, iff_false]
      split <;> simp
    | cons b l' =>
      constructor
      · intro h
        split at h
        · rename_i j1 l1 e1 e2
          cases h
          obtain ⟨h1, h2⟩ := ih.1 e2
          refine ⟨by simp [h1], ?_⟩
          intro i a b ha hb
          cases i with
          | zero => simp only [List.getElem?_cons_zero, Option.some.injEq] at ha hb; rw [← ha, ← hb, e1]
          | succ i => exact h2 i a b (by simpa using ha) (by simpa using hb)
        · cases h
      · rintro ⟨h1, h2⟩
        have e1 := h2 0 j b rfl rfl
        have e2 : normL F l = some l' := ih.2 ⟨by simpa using h1, fun i a b ha hb =>
          h2 (i + 1) a b (by simpa using ha) (by simpa using hb)⟩
        rw [e1, e2]

/-- `normJ` is exactly the relation `Denotes`. -/
theorem normJ_iff_all (F : Str → Option Str) :
    (∀ j, ∀ v, normJ F j = some v ↔ Denotes F j v) ∧
    (∀ l : List Json, ∀ j ∈ l, ∀ v, normJ F j = some v ↔ Denotes F j v) ∧
    (∀ es : List (Str × Json), ∀ p ∈ es, ∀ v, normJ F p.2 = some v ↔ Denotes F p.2 v) := by
  refine Json.induct ?_ ?_ ?_ ?_ ?_ ?_ ?_ ?_ ?_ ?_
  · intro v
    constructor
    · intro h; cases h; exact .null
    · intro h; cases h; rfl
  · intro b v
    constructor
    · intro h; cases h; exact .bool b
    · intro h; cases h; rfl
  · intro t v
    simp only [normJ, Option.map_eq_some_iff]
    constructor
    · rintro ⟨u, hu, rfl⟩; exact .num (normNum_iff.1 hu)
    · intro h
      cases h with
      | num h => exact ⟨_, normNum_iff.2 h, rfl⟩
  · intro s v
    constructor
    · intro h; cases h; exact .str s
    · intro h; cases h; rfl
  · intro l ih v
    simp only [normJ, Option.map_eq_some_iff]
    constructor
    · rintro ⟨l', hl, rfl⟩
      obtain ⟨h1, h2⟩ := normL_map.1 hl
      refine .arr h1 (fun i a b ha hb => ?_)
      exact (ih a (List.mem_of_getElem? ha) b).1 (h2 i a b ha hb)
    · intro h
      cases h with
      | arr h1 h2 =>
        refine ⟨_, normL_map.2 ⟨h1, fun i a b ha hb => ?_⟩, rfl⟩
        exact (ih a (List.mem_of_getElem? ha) b).2 (h2 i a b ha hb)
  · intro es ih v
    simp only [normJ, Option.map_eq_some_iff]
    constructor
    · rintro ⟨es', hes, rfl⟩
      obtain ⟨h1, rfl⟩ := normM_map.1 hes
      refine .obj (fun v => (normJ F v).getD .null) ?_ (sorted_entriesOf _) ?_
      · intro k v hv
        obtain ⟨v', hv'⟩ := Option.isSome_iff_exists.1 (h1 _ hv)
        rw [hv']
        exact (ih _ hv v').1 hv'
      · intro k v'
        rw [mem_iff_lookup (sorted_entriesOf _), lookup_entriesOf, lastVal_iff]
        constructor
        · rintro ⟨a, b, hab, hb⟩
          obtain ⟨a1, b1, rfl, rfl, hb1⟩ := List.map_eq_append_iff.1 hab
          obtain ⟨q, b2, rfl, hq, rfl⟩ := List.map_eq_cons_iff.1 hb1
          obtain ⟨k', w⟩ := q
          simp only [Prod.mk.injEq] at hq
          obtain ⟨rfl, rfl⟩ := hq
          refine ⟨w, ⟨a1, b2, rfl, ?_⟩, rfl⟩
          intro p hp
          exact hb (p.1, (normJ F p.2).getD .null) (List.mem_map.2 ⟨p, hp, rfl⟩)
        · rintro ⟨v, ⟨a, b, rfl, hb⟩, rfl⟩
          refine ⟨_, _, List.map_append, ?_⟩
          intro p hp
          obtain ⟨q, hq, rfl⟩ := List.mem_map.1 hp
          exact hb q hq
    · intro h
      cases h with
      | obj w h1 h2 h3 =>
        rename_i es'
        have hn : ∀ p ∈ es, normJ F p.2 = some (w p.2) := fun p hp => (ih p hp _).2 (h1 p.1 p.2 hp)
        refine ⟨_, normM_map.2 ⟨fun p hp => by rw [hn p hp]; rfl, rfl⟩, ?_⟩
        congr 1
        apply sorted_ext (sorted_entriesOf _) h2
        intro k
        apply Option.ext
        intro v'
        rw [← mem_iff_lookup h2, h3, lookup_entriesOf, lastVal_iff]
        constructor
        · rintro ⟨a, b, hab, hb⟩
          obtain ⟨a1, b1, rfl, rfl, hb1⟩ := List.map_eq_append_iff.1 hab
          obtain ⟨q, b2, rfl, hq, rfl⟩ := List.map_eq_cons_iff.1 hb1
          obtain ⟨k', x⟩ := q
          simp only [Prod.mk.injEq] at hq
          obtain ⟨rfl, rfl⟩ := hq
          refine ⟨x, ⟨a1, b2, rfl, ?_⟩, ?_⟩
          · intro p hp
            exact hb (p.1, (normJ F p.2).getD .null) (List.mem_map.2 ⟨p, hp, rfl⟩)
          · rw [hn (k', x) (by simp)]; rfl
        · rintro ⟨v, ⟨a, b, rfl, hb⟩, rfl⟩
          refine ⟨a.map fun p => (p.1, (normJ F p.2).getD .null),
            b.map fun p => (p.1, (normJ F p.2).getD .null), ?_, ?_⟩
          · rw [List.map_append, List.map_cons, hn (k, v) (by simp)]; rfl
          · intro p hp
            obtain ⟨q, hq, rfl⟩ := List.mem_map.1 hp
            exact hb q hq
  · intro j hj; cases hj
  · intro j l hj hl x hx
    rcases List.mem_cons.1 hx with rfl | hx
    · exact hj
    · exact hl x hx
  · intro j hj; cases hj
  · intro k v es hv hes p hp
    rcases List.mem_cons.1 hp with rfl | hp
    · exact hv
    · exact hes p hp

theorem normJ_iff {F : Str → Option Str} {j v : Json} : normJ F j = some v ↔ Denotes F j v :=
  (normJ_iff_all F).1 j v

end Verif
