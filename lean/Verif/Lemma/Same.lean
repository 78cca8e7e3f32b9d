import Verif.Spec.Same
import Verif.Lemma.Lookup
import Verif.Lemma.Order

/-!
# Decoders do not see the order of members
-/

namespace Verif

open Spec

variable {F : Str → Option Str}

/-- Members with the same content. -/
structure SameM (F : Str → Option Str) (es es' : List (Str × Json)) : Prop where
  nodup : (es.map (·.1)).Nodup
  perm : (es.map (·.1)).Perm (es'.map (·.1))
  vals : ∀ k v v', (k, v) ∈ es → (k, v') ∈ es' → Same F v v'

/-- A decoder that gives the same result for documents with the same content. -/
def Stable (F : Str → Option Str) {α : Type} (d : Json → α) : Prop := ∀ j j', Same F j j' → d j = d j'

theorem SameM.nodup' {es es' : List (Str × Json)} (h : SameM F es es') : (es'.map (·.1)).Nodup :=
  h.perm.nodup_iff.1 h.nodup

theorem SameM.right {es es' : List (Str × Json)} (h : SameM F es es') {k : Str} {v : Json} (hm : (k, v) ∈ es) :
    ∃ v', (k, v') ∈ es' ∧ Same F v v' := by
  have : k ∈ es'.map (·.1) := h.perm.mem_iff.1 (List.mem_map.2 ⟨_, hm, rfl⟩)
  obtain ⟨⟨k', v'⟩, h1, rfl⟩ := List.mem_map.1 this
  exact ⟨v', h1, h.vals _ _ _ hm h1⟩

theorem SameM.left {es es' : List (Str × Json)} (h : SameM F es es') {k : Str} {v' : Json} (hm : (k, v') ∈ es') :
    ∃ v, (k, v) ∈ es ∧ Same F v v' := by
  have : k ∈ es.map (·.1) := h.perm.mem_iff.2 (List.mem_map.2 ⟨_, hm, rfl⟩)
  obtain ⟨⟨k', v⟩, h1, rfl⟩ := List.mem_map.1 this
  exact ⟨v, h1, h.vals _ _ _ h1 hm⟩

theorem SameM.field {es es' : List (Str × Json)} (h : SameM F es es') (k : Str) :
    (fieldVals k es = [] ∧ fieldVals k es' = []) ∨
      ∃ v v', fieldVals k es = [v] ∧ fieldVals k es' = [v'] ∧ Same F v v' := by
  by_cases hk : k ∈ es.map (·.1)
  · obtain ⟨⟨k', v⟩, h1, rfl⟩ := List.mem_map.1 hk
    obtain ⟨v', h2, h3⟩ := h.right h1
    exact .inr ⟨v, v', fieldVals_nodup h.nodup h1, fieldVals_nodup h.nodup' h2, h3⟩
  · refine .inl ⟨fieldVals_none fun p hp he => hk (List.mem_map.2 ⟨p, hp, he⟩),
      fieldVals_none fun p hp he => hk (h.perm.mem_iff.2 (List.mem_map.2 ⟨p, hp, he⟩))⟩

theorem SameM.filter {es es' : List (Str × Json)} (h : SameM F es es') (q : Str → Bool) :
    SameM F (es.filter fun p => q p.1) (es'.filter fun p => q p.1) := by
  have key : ∀ es : List (Str × Json), (es.filter fun p => q p.1).map (·.1) = (es.map (·.1)).filter q := by
    intro es
    rw [List.filter_map]
    rfl
  refine ⟨?_, ?_, fun k v v' h1 h2 => h.vals k v v' (List.mem_filter.1 h1).1 (List.mem_filter.1 h2).1⟩
  · rw [key]; exact h.nodup.filter _
  · rw [key, key]; exact h.perm.filter _

/-! ## Fields -/

theorem stable_decOpt {α : Type} {d : Json → Option α} (hd : Stable F d) : Stable F (decOpt d) := by
  intro j j' h
  have := hd j j' h
  cases h <;> simp only [decOpt] <;> first | rfl | rw [this]

theorem optField_same {α : Type} {d : Json → Option α} (hd : Stable F d) {es es' : List (Str × Json)}
    (h : SameM F es es') (k : Str) : optField d k es = optField d k es' := by
  unfold optField
  rcases h.field k with ⟨h1, h2⟩ | ⟨v, v', h1, h2, h3⟩
  · rw [h1, h2]
  · rw [h1, h2]; exact stable_decOpt hd v v' h3

theorem reqField_same {α : Type} {d : Json → Option α} (hd : Stable F d) {es es' : List (Str × Json)}
    (h : SameM F es es') (k : Str) : reqField d k es = reqField d k es' := by
  unfold reqField
  rcases h.field k with ⟨h1, h2⟩ | ⟨v, v', h1, h2, h3⟩
  · rw [h1, h2]
  · rw [h1, h2]; exact hd v v' h3

theorem dfltField_same {α : Type} {a : α} {d : Json → Option α} (hd : Stable F d) {es es' : List (Str × Json)}
    (h : SameM F es es') (k : Str) : dfltField a d k es = dfltField a d k es' := by
  unfold dfltField
  rcases h.field k with ⟨h1, h2⟩ | ⟨v, v', h1, h2, h3⟩
  · rw [h1, h2]
  · rw [h1, h2]; exact hd v v' h3

theorem mapEntries_same {α : Type} {f : List (Str × Json) → Option α}
    (hf : ∀ es es', SameM F es es' → f es = f es') : Stable F fun j => (mapEntries j).bind f := by
  intro j j' h
  cases h with
  | obj h1 h2 h3 => exact hf _ _ ⟨h1, h2, h3⟩
  | _ => rfl

theorem mem_zip_fst {fs : List Str} {l : List Json} {k : Str} {v : Json} (h : (k, v) ∈ fs.zip l) : k ∈ fs :=
  (List.of_mem_zip h).1

theorem mem_zip_nodup {fs : List Str} (hn : fs.Nodup) {l l' : List Json} {k : Str} {v v' : Json}
    (h : (k, v) ∈ fs.zip l) (h' : (k, v') ∈ fs.zip l') : ∃ i : Nat, l[i]? = some v ∧ l'[i]? = some v' := by
  induction fs generalizing l l' with
  | nil => cases h
  | cons f fs ih =>
    cases l with
    | nil => cases h
    | cons a l =>
      cases l' with
      | nil => cases h'
      | cons a' l' =>
        rw [List.nodup_cons] at hn
        simp only [List.zip_cons_cons, List.mem_cons, Prod.mk.injEq] at h h'
        rcases h with ⟨rfl, rfl⟩ | h <;> rcases h' with ⟨h1, h2⟩ | h'
        · exact ⟨0, rfl, by rw [h2]; rfl⟩
        · exact absurd (mem_zip_fst h') hn.1
        · exact absurd (h1 ▸ mem_zip_fst h) hn.1
        · obtain ⟨i, h1, h2⟩ := ih hn.2 h h'
          exact ⟨i + 1, h1, h2⟩

theorem map_fst_zip_same (fs : List Str) {l l' : List Json} (h : l.length = l'.length) :
    (fs.zip l).map (·.1) = (fs.zip l').map (·.1) := by
  induction fs generalizing l l' with
  | nil => rfl
  | cons f fs ih =>
    cases l with
    | nil => cases l' with
      | nil => rfl
      | cons a' l' => cases h
    | cons a l => cases l' with
      | nil => cases h
      | cons a' l' =>
        simp only [List.zip_cons_cons, List.map_cons, ih (by simpa using h)]

theorem map_fst_zip_sub (fs : List Str) (l : List Json) : ((fs.zip l).map (·.1)).Sublist fs := by
  induction fs generalizing l with
  | nil => simp
  | cons f fs ih =>
    cases l with
    | nil => simp
    | cons a l => exact (ih l).cons_cons f

theorem structEntries_rel {fs : List Str} (n : Nat) (hn : fs.Nodup) {j j' : Json} (h : Same F j j') :
    (structEntries fs n j = none ∧ structEntries fs n j' = none) ∨
      ∃ es es', structEntries fs n j = some es ∧ structEntries fs n j' = some es' ∧ SameM F es es' := by
  cases h with
  | obj h1 h2 h3 => exact .inr ⟨_, _, rfl, rfl, h1, h2, h3⟩
  | @arr l l' h1 h2 =>
    simp only [structEntries, h1]
    split
    · refine .inr ⟨_, _, rfl, rfl, ?_, ?_, ?_⟩
      · exact hn.sublist (map_fst_zip_sub fs l)
      · rw [map_fst_zip_same fs h1]
      · intro k v v' hv hv'
        obtain ⟨i, hi, hi'⟩ := mem_zip_nodup hn hv hv'
        exact h2 i v v' hi hi'
    · exact .inl ⟨rfl, rfl⟩
  | _ => exact .inl ⟨rfl, rfl⟩

theorem structEntries_same {α : Type} {f : List (Str × Json) → Option α} {fs : List Str} (n : Nat)
    (hn : fs.Nodup) (hf : ∀ es es', SameM F es es' → f es = f es') :
    Stable F fun j => (structEntries fs n j).bind f := by
  intro j j' h
  rcases structEntries_rel n hn h with ⟨h1, h2⟩ | ⟨es, es', h1, h2, h3⟩
  · simp only [h1, h2]
  · simp only [h1, h2]; exact hf _ _ h3

/-! ## Values -/

theorem decMembers_some {α : Type} {d : Json → Option α} {es : List (Str × Json)} {r : List (Str × α)}
    (h : decMembers d es = some r) : r.map (·.1) = es.map (·.1) ∧
      ∀ k a, (k, a) ∈ r ↔ ∃ v, (k, v) ∈ es ∧ d v = some a := by
  induction es generalizing r with
  | nil =>
    cases h
    simp
  | cons p es ih =>
    obtain ⟨k, v⟩ := p
    simp only [decMembers] at h
    split at h
    · rename_i a r' ha hr
      cases h
      obtain ⟨h1, h2⟩ := ih hr
      refine ⟨by simp [h1], fun k' a' => ?_⟩
      simp only [List.mem_cons, Prod.mk.injEq, h2]
      constructor
      · rintro (⟨rfl, rfl⟩ | ⟨v', h3, h4⟩)
        · exact ⟨v, .inl ⟨rfl, rfl⟩, ha⟩
        · exact ⟨v', .inr h3, h4⟩
      · rintro ⟨v', ⟨rfl, rfl⟩ | h3, h4⟩
        · rw [ha] at h4; exact .inl ⟨rfl, (Option.some.inj h4).symm⟩
        · exact .inr ⟨v', h3, h4⟩
    · cases h

theorem decMembers_isSome {α : Type} {d : Json → Option α} {es : List (Str × Json)} :
    (decMembers d es).isSome ↔ ∀ k v, (k, v) ∈ es → (d v).isSome := by
  induction es with
  | nil => simp [decMembers]
  | cons p es ih =>
    obtain ⟨k, v⟩ := p
    simp only [decMembers]
    constructor
    · intro h
      split at h
      · rename_i a r ha hr
        intro k' v' hm
        rcases List.mem_cons.1 hm with hm | hm
        · cases hm; rw [ha]; rfl
        · exact ih.1 (by rw [hr]; rfl) k' v' hm
      · cases h
    · intro h
      obtain ⟨a, ha⟩ := Option.isSome_iff_exists.1 (h k v (by simp))
      obtain ⟨r, hr⟩ := Option.isSome_iff_exists.1 (ih.2 fun k' v' hm => h k' v' (List.mem_cons_of_mem _ hm))
      rw [ha, hr]
      rfl

theorem entriesOf_ext {α : Type} {r r' : List (Str × α)} (hn : (r.map (·.1)).Nodup) (hn' : (r'.map (·.1)).Nodup)
    (h : ∀ k a, (k, a) ∈ r ↔ (k, a) ∈ r') : entriesOf r = entriesOf r' := by
  refine sorted_ext (sorted_entriesOf _) (sorted_entriesOf _) fun k => ?_
  rw [lookup_entriesOf, lookup_entriesOf]
  by_cases hk : k ∈ r.map (·.1)
  · obtain ⟨⟨k', a⟩, h1, rfl⟩ := List.mem_map.1 hk
    rw [lastVal_mem hn h1, lastVal_mem hn' ((h _ _).1 h1)]
  · rw [lastVal_notMem fun q hq he => hk (List.mem_map.2 ⟨q, hq, he⟩),
      lastVal_notMem fun q hq he => hk (List.mem_map.2 ⟨q, (h q.1 q.2).2 hq, he⟩)]

/-- Decoded members as a map. -/
theorem decMembers_same {α : Type} {d : Json → Option α} {es es' : List (Str × Json)}
    (hn : (es.map (·.1)).Nodup) (hp : (es.map (·.1)).Perm (es'.map (·.1)))
    (hv : ∀ k v v', (k, v) ∈ es → (k, v') ∈ es' → d v = d v') :
    (decMembers d es).map entriesOf = (decMembers d es').map entriesOf := by
  have hn' := hp.nodup_iff.1 hn
  have hr : ∀ k v, (k, v) ∈ es → ∃ v', (k, v') ∈ es' := by
    intro k v hm
    obtain ⟨⟨k', v'⟩, h1, rfl⟩ := List.mem_map.1 (hp.mem_iff.1 (List.mem_map.2 ⟨_, hm, rfl⟩))
    exact ⟨v', h1⟩
  have hl : ∀ k v, (k, v) ∈ es' → ∃ v', (k, v') ∈ es := by
    intro k v hm
    obtain ⟨⟨k', v'⟩, h1, rfl⟩ := List.mem_map.1 (hp.mem_iff.2 (List.mem_map.2 ⟨_, hm, rfl⟩))
    exact ⟨v', h1⟩
  cases hd : decMembers d es with
  | none =>
    cases hd' : decMembers d es' with
    | none => rfl
    | some r' =>
      exfalso
      have h1 := decMembers_isSome.1 (show (decMembers d es').isSome from by rw [hd']; rfl)
      have : (decMembers d es).isSome := decMembers_isSome.2 fun k v hm => by
        obtain ⟨v', h2⟩ := hr k v hm
        rw [hv k v v' hm h2]
        exact h1 k v' h2
      rw [hd] at this
      cases this
  | some r =>
    cases hd' : decMembers d es' with
    | none =>
      exfalso
      have h1 := decMembers_isSome.1 (show (decMembers d es).isSome from by rw [hd]; rfl)
      have : (decMembers d es').isSome := decMembers_isSome.2 fun k v hm => by
        obtain ⟨v', h2⟩ := hl k v hm
        rw [← hv k v' v h2 hm]
        exact h1 k v' h2
      rw [hd'] at this
      cases this
    | some r' =>
      obtain ⟨h1, h2⟩ := decMembers_some hd
      obtain ⟨h1', h2'⟩ := decMembers_some hd'
      refine congrArg some (entriesOf_ext (h1 ▸ hn) (h1' ▸ hn') fun k a => ?_)
      rw [h2, h2']
      constructor
      · rintro ⟨v, hm, ha⟩
        obtain ⟨v', hm'⟩ := hr k v hm
        exact ⟨v', hm', by rw [← hv k v v' hm hm', ha]⟩
      · rintro ⟨v', hm', ha⟩
        obtain ⟨v, hm⟩ := hl k v' hm'
        exact ⟨v, hm, by rw [hv k v v' hm hm', ha]⟩

theorem decMembers_hmap {α β : Type} {d : Json → Option α} {es es' : List (Str × Json)} (hd : Stable F d)
    (h : SameM F es es') (f : HMap α → β) :
    ((decMembers d es).map fun r => f (HMap.ofList r)) = (decMembers d es').map fun r => f (HMap.ofList r) := by
  have := decMembers_same (d := d) h.nodup h.perm fun k v v' h1 h2 => hd v v' (h.vals k v v' h1 h2)
  cases h1 : decMembers d es <;> cases h2 : decMembers d es' <;> rw [h1, h2] at this <;>
    simp only [Option.map_some, Option.map_none, Option.some.injEq, reduceCtorEq] at this ⊢
  exact congrArg f (HMap.ext' this)

theorem stable_decMap {α : Type} {d : Json → Option α} (hd : Stable F d) : Stable F (decMap d) := by
  intro j j' h
  cases h with
  | obj h1 h2 h3 => exact decMembers_hmap hd ⟨h1, h2, h3⟩ id
  | _ => rfl

theorem decAll_same {α : Type} {d : Json → Option α} {l l' : List Json} (hl : l.length = l'.length)
    (h : ∀ (i : Nat) a b, l[i]? = some a → l'[i]? = some b → d a = d b) : decAll d l = decAll d l' := by
  induction l generalizing l' with
  | nil => cases l' with
    | nil => rfl
    | cons a l' => cases hl
  | cons a l ih => cases l' with
    | nil => cases hl
    | cons a' l' =>
      simp only [decAll]
      rw [h 0 a a' rfl rfl, ih (by simpa using hl) fun i x y hx hy => h (i + 1) x y hx hy]

theorem stable_decVec {α : Type} {d : Json → Option α} (hd : Stable F d) : Stable F (decVec d) := by
  intro j j' h
  cases h with
  | arr h1 h2 => exact decAll_same h1 fun i a b ha hb => hd a b (h2 i a b ha hb)
  | _ => rfl

theorem stable_decStr : Stable F decStr := by
  intro j j' h
  cases h <;> rfl

theorem tokNat_float {t : Str} (h : ¬ IntTok t) : tokNat t = none := by
  unfold tokNat
  rw [if_neg]
  rintro ⟨h1, h2, h3⟩
  exact h (.inl ⟨h2, allDigits_iff.1 h1, by rw [digitsVal_eq]; exact h3⟩)

theorem normNum_float {t : Str} (h : ¬ IntTok t) : normNum F t = F t := by
  cases hn : normNum F t with
  | none =>
    cases hf : F t with
    | none => rfl
    | some u => rw [(normNum_iff (F := F) (t := t) (u := u)).2 (.inr ⟨h, hf⟩)] at hn; cases hn
  | some u =>
    rcases normNum_iff.1 hn with ⟨h1, -⟩ | ⟨-, h2⟩
    · exact absurd h1 h
    · exact h2.symm

theorem stable_decU64 : Stable F decU64 := by
  intro j j' h
  cases h with
  | float h1 h2 h3 => simp only [decU64, tokNat_float h1, tokNat_float h2]
  | _ => rfl

theorem stable_decU8 : Stable F decU8 := by
  intro j j' h
  cases h with
  | float h1 h2 h3 => simp only [decU8, tokNat_float h1, tokNat_float h2]
  | _ => rfl

theorem stable_decLabel {α : Type} (f : Str → Option α) : Stable F (decLabel f) := by
  intro j j' h
  cases h with
  | @obj es es' h1 h2 h3 =>
    have hl := h2.length_eq
    simp only [List.length_map] at hl
    match es, es', hl with
    | [], [], _ => rfl
    | [(k, v)], [(k', v')], _ =>
      have hk : k = k' := by simpa using h2
      subst hk
      have := h3 k v v' (by simp) (by simp)
      cases this <;> rfl
    | a :: b :: l, a' :: b' :: l', _ => simp [decLabel]
  | _ => rfl

theorem normL_eq (l : List Json) : normL F l = decAll (normJ F) l := by
  induction l with
  | nil => rfl
  | cons j l ih => simp only [normL, decAll, ih]; cases normJ F j <;> cases decAll (normJ F) l <;> rfl

theorem normM_eq (es : List (Str × Json)) : normM F es = decMembers (normJ F) es := by
  induction es with
  | nil => rfl
  | cons p es ih => simp only [normM, decMembers, ih]; cases normJ F p.2 <;> cases decMembers (normJ F) es <;> rfl

theorem stable_normJ : Stable F (normJ F) := by
  intro j j' h
  induction h with
  | null | bool | str | num => rfl
  | float h1 h2 h3 => simp only [normJ, normNum_float h1, normNum_float h2, h3]
  | arr h1 h2 ih =>
    simp only [normJ, normL_eq]
    rw [decAll_same h1 fun i a b ha hb => ih i a b ha hb]
  | obj h1 h2 h3 ih =>
    simp only [normJ, normM_eq]
    have := decMembers_same (d := normJ F) h1 h2 ih
    rename_i es es'
    cases h4 : decMembers (normJ F) es <;> cases h5 : decMembers (normJ F) es' <;> rw [h4, h5] at this <;>
      simp only [Option.map_some, Option.map_none, Option.some.injEq, reduceCtorEq] at this ⊢
    rw [this]

theorem depthM_le {es : List (Str × Json)} {n : Nat} :
    Json.depth.depthM es ≤ n ↔ ∀ k v, (k, v) ∈ es → v.depth ≤ n := by
  induction es with
  | nil => simp [Json.depth.depthM]
  | cons p es ih =>
    obtain ⟨k, v⟩ := p
    simp only [Json.depth.depthM, Nat.max_le, ih]
    constructor
    · rintro ⟨h1, h2⟩ k' v' hm
      rcases List.mem_cons.1 hm with hm | hm
      · cases hm; exact h1
      · exact h2 k' v' hm
    · intro h
      exact ⟨h k v (by simp), fun k' v' hm => h k' v' (List.mem_cons_of_mem _ hm)⟩

theorem depthL_same {l l' : List Json} (hl : l.length = l'.length)
    (h : ∀ (i : Nat) a b, l[i]? = some a → l'[i]? = some b → a.depth = b.depth) :
    Json.depth.depthL l = Json.depth.depthL l' := by
  induction l generalizing l' with
  | nil => cases l' with
    | nil => rfl
    | cons a l' => cases hl
  | cons a l ih => cases l' with
    | nil => cases hl
    | cons a' l' =>
      simp only [Json.depth.depthL]
      rw [h 0 a a' rfl rfl, ih (by simpa using hl) fun i x y hx hy => h (i + 1) x y hx hy]

theorem stable_depth : Stable F Json.depth := by
  intro j j' h
  induction h with
  | null | bool | str | num => rfl
  | float => rfl
  | arr h1 h2 ih => simp only [Json.depth, depthL_same h1 ih]
  | @obj es es' h1 h2 h3 ih =>
    have hs : SameM F es es' := ⟨h1, h2, h3⟩
    simp only [Json.depth]
    congr 1
    apply Nat.le_antisymm
    · refine depthM_le.2 fun k v hm => ?_
      obtain ⟨v', hm', -⟩ := hs.right hm
      rw [ih k v v' hm hm']
      exact depthM_le.1 (Nat.le_refl _) k v' hm'
    · refine depthM_le.2 fun k v' hm' => ?_
      obtain ⟨v, hm, -⟩ := hs.left hm'
      rw [← ih k v v' hm hm']
      exact depthM_le.1 (Nat.le_refl _) k v hm

theorem stable_toValue (n : Nat) : Stable F (toValue F n) := by
  intro j j' h
  unfold toValue
  rw [stable_depth j j' h, stable_normJ j j' h]

theorem buffered_same {es es' : List (Str × Json)} (h : SameM F es es') : buffered F es = buffered F es' := by
  unfold buffered
  rw [Bool.eq_iff_iff, List.all_eq_true, List.all_eq_true]
  constructor
  · rintro ha ⟨k, v'⟩ hm
    obtain ⟨v, h1, h2⟩ := h.left hm
    have := ha _ h1
    simp only [stable_toValue 1 v v' h2] at this
    exact this
  · rintro ha ⟨k, v⟩ hm
    obtain ⟨v', h1, h2⟩ := h.right hm
    have := ha _ h1
    simp only [← stable_toValue 1 v v' h2] at this
    exact this

/-! ## Structs -/

theorem stable_decEpk : Stable F decEpk := by
  refine structEntries_same 4 (by decide) fun es es' h => ?_
  simp only [reqField_same stable_decStr h, optField_same stable_decStr h]

theorem stable_decKeyOps : Stable F decKeyOps := stable_decLabel _

theorem stable_decKeyAlgorithm : Stable F decKeyAlgorithm := stable_decLabel _

theorem stable_decMessageType : Stable F decMessageType := stable_decLabel _

theorem decMembers_bind {α β : Type} {d : Json → Option α} {es es' : List (Str × Json)} (hd : Stable F d)
    (h : SameM F es es') (f : HMap α → β) :
    ((decMembers d es).bind fun r => some (f (HMap.ofList r))) =
      (decMembers d es').bind fun r => some (f (HMap.ofList r)) := by
  have := decMembers_hmap hd h f
  cases h1 : decMembers d es <;> cases h2 : decMembers d es' <;> rw [h1, h2] at this <;> exact this

theorem stable_decJwk : Stable F decJwk := by
  refine mapEntries_same fun es es' h => ?_
  simp only [reqField_same (stable_decVec stable_decKeyOps) h, reqField_same stable_decKeyAlgorithm h,
    optField_same stable_decStr h, optField_same stable_decEpk h, Option.bind_eq_bind]
  repeat refine congrArg (Option.bind _) (funext fun _ => ?_)
  exact decMembers_bind stable_decStr (h.filter fun k => !jwkKeys.contains k)
    (Jwk.mk _ _ _ _ _ _ _)

theorem stable_decPrior : Stable F decPrior := by
  refine structEntries_same 2 (by decide) fun es es' h => ?_
  simp only [reqField_same stable_decStr h, optField_same stable_decStr h]

theorem stable_decThread : Stable F decThread := by
  refine structEntries_same 5 (by decide) fun es es' h => ?_
  simp only [reqField_same stable_decStr h, optField_same stable_decStr h, optField_same stable_decU64 h,
    optField_same (stable_decMap stable_decU64) h]

theorem decJwmE_same {es es' : List (Str × Json)} (h : SameM F es es') : decJwmE es = decJwmE es' := by
  simp only [decJwmE, reqField_same stable_decMessageType h, optField_same stable_decStr h,
    optField_same stable_decJwk h]

theorem stable_decJwm : Stable F decJwm :=
  structEntries_same 9 (by decide) fun _ _ h => decJwmE_same h

theorem decDidcommE_same {es es' : List (Str × Json)} (h : SameM F es es') : decDidcommE es = decDidcommE es' := by
  simp only [decDidcommE, reqField_same stable_decStr h, optField_same stable_decStr h,
    reqField_same (stable_decVec stable_decStr) h, optField_same stable_decU64 h, optField_same stable_decPrior h,
    optField_same stable_decThread h, Option.bind_eq_bind]
  repeat refine congrArg (Option.bind _) (funext fun _ => ?_)
  exact decMembers_bind stable_decStr (h.filter fun k => !didcommKeys.contains k)
    (DidCommHeader.mk _ _ _ _ _ _ _ _ _ _)

theorem decRecipientE_same {es es' : List (Str × Json)} (h : SameM F es es') :
    decRecipientE es = decRecipientE es' := by
  simp only [decRecipientE, reqField_same stable_decStr h, reqField_same stable_decJwk h]

theorem stable_decRecipient : Stable F decRecipient :=
  structEntries_same 2 (by decide) fun _ _ h => decRecipientE_same h

theorem stable_decAttachmentData : Stable F decAttachmentData := by
  refine structEntries_same 5 (by decide) fun es es' h => ?_
  simp only [optField_same stable_decStr h, dfltField_same (stable_decVec stable_decStr) h]

theorem stable_decAttachment : Stable F decAttachment := by
  refine structEntries_same 8 (by decide) fun es es' h => ?_
  simp only [optField_same stable_decStr h, optField_same stable_decU64 h, reqField_same stable_decAttachmentData h]

/-- Messages. -/
theorem stable_decMessage : Stable F (decMessage F) := by
  refine mapEntries_same fun es es' h => ?_
  have hf := h.filter fun k => !messageKeys.contains k
  simp only [optField_same (stable_decVec stable_decRecipient) h, reqField_same (stable_toValue 1) h,
    dfltField_same (stable_decVec stable_decAttachment) h, buffered_same hf, decJwmE_same hf,
    decDidcommE_same (hf.filter fun k => !jwmKeys.contains k)]

theorem stable_decHeaderB64 : Stable F decHeaderB64 := by
  intro j j' h
  cases h <;> rfl

theorem stable_decBufferB64 : Stable F decBufferB64 := by
  intro j j' h
  cases h <;> rfl

theorem decSignatureE_same {es es' : List (Str × Json)} (h : SameM F es es') :
    decSignatureE es = decSignatureE es' := by
  simp only [decSignatureE, dfltField_same stable_decHeaderB64 h, optField_same stable_decJwm h,
    dfltField_same stable_decBufferB64 h]

theorem stable_decSignature : Stable F decSignature :=
  structEntries_same 2 (by decide) fun _ _ h => decSignatureE_same h

/-- JWE envelopes. -/
theorem stable_decJwe : Stable F (decJwe F) := by
  refine mapEntries_same fun es es' h => ?_
  have hf := h.filter fun k => !jweKeys.contains k
  simp only [dfltField_same stable_decHeaderB64 h, optField_same stable_decJwm h,
    optField_same (stable_decVec stable_decRecipient) h, reqField_same stable_decStr h,
    optField_same stable_decStr h, buffered_same hf, decRecipientE_same hf]

/-- JWS envelopes. -/
theorem stable_decJws : Stable F (decJws F) := by
  refine mapEntries_same fun es es' h => ?_
  have hf := h.filter fun k => !jwsKeys.contains k
  simp only [reqField_same stable_decStr h, optField_same (stable_decVec stable_decSignature) h,
    buffered_same hf, decSignatureE_same hf]

theorem stable_decMediated : Stable F decMediated := by
  refine structEntries_same 2 (by decide) fun es es' h => ?_
  simp only [reqField_same stable_decStr h, reqField_same (stable_decVec stable_decU8) h]

/-! ## Canonical form -/

/-- The value of a document without repeated names has the same content. -/
theorem same_normJ (hF : FloatLaw F) {j v : Json} (hd : Distinct j) (h : normJ F j = some v) (hs : NumsStable F v) :
    Same F j v := by
  induction hd generalizing v with
  | null => cases h; exact .null
  | bool b => cases h; exact .bool b
  | str s => cases h; exact .str s
  | num t =>
    simp only [normJ, Option.map_eq_some_iff] at h
    obtain ⟨u, h1, rfl⟩ := h
    rcases normNum_iff.1 h1 with ⟨-, rfl⟩ | ⟨h2, h3⟩
    · exact .num u
    · obtain ⟨-, h4⟩ := hF _ _ h3
      refine .float h2 h4 ?_
      rcases normNum_iff.1 hs with ⟨h5, -⟩ | ⟨-, h5⟩
      · exact absurd h5 h4
      · rw [h3, h5]
  | arr hl ih =>
    simp only [normJ, Option.map_eq_some_iff] at h
    obtain ⟨l', h1, rfl⟩ := h
    obtain ⟨h2, h3⟩ := normL_map.1 h1
    exact .arr h2 fun i a b ha hb => ih a (List.mem_of_getElem? ha) (h3 i a b ha hb)
      (numsStableL_iff.1 hs b (List.mem_of_getElem? hb))
  | @obj es hn hl ih =>
    simp only [normJ, Option.map_eq_some_iff, normM_eq] at h
    obtain ⟨r, h1, rfl⟩ := h
    obtain ⟨h2, h3⟩ := decMembers_some h1
    have hst := numsStableM_iff.1 hs
    have hs := sorted_entriesOf r
    have hmem : ∀ k a, (k, a) ∈ entriesOf r ↔ (k, a) ∈ r := by
      intro k a
      refine ⟨fun h => mem_entriesOf h, fun h => ?_⟩
      rw [mem_iff_lookup hs, lookup_entriesOf, lastVal_mem (h2 ▸ hn) h]
    refine .obj hn ?_ ?_
    · refine (List.perm_ext_iff_of_nodup hn (sorted_nodup hs)).2 fun k => ?_
      rw [← h2]
      simp only [List.mem_map]
      constructor
      · rintro ⟨⟨k', a⟩, hm, rfl⟩
        exact ⟨_, (hmem _ _).2 hm, rfl⟩
      · rintro ⟨⟨k', a⟩, hm, rfl⟩
        exact ⟨_, (hmem _ _).1 hm, rfl⟩
    · intro k v v' hm hm'
      obtain ⟨w, hw, hv⟩ := (h3 k v').1 ((hmem k v').1 hm')
      have : v = w := by
        have h4 := lastVal_mem hn hm none
        have h5 := lastVal_mem hn hw none
        rw [h4] at h5
        exact Option.some.inj h5
      subst this
      exact ih k v hm hv (hst _ hm')

theorem same_refl {j : Json} (hd : Distinct j) : Same F j j := by
  induction hd with
  | null => exact .null
  | bool b => exact .bool b
  | str s => exact .str s
  | num t => exact .num t
  | arr hl ih =>
    refine .arr rfl fun i a b ha hb => ?_
    rw [ha] at hb
    cases hb
    exact ih a (List.mem_of_getElem? ha)
  | obj hn hl ih =>
    refine .obj hn (List.Perm.refl _) fun k v v' hm hm' => ?_
    have h4 := lastVal_mem hn hm none
    rw [lastVal_mem hn hm' none] at h4
    cases h4
    exact ih k v hm

/-- Values have distinct member names. -/
theorem canon_distinct {j : Json} (h : Canon F j) : Distinct j := by
  refine (Json.induct (M := fun j => Canon F j → Distinct j) (ML := fun l => CanonL F l → ∀ a ∈ l, Distinct a)
    (MM := fun es => CanonM F es → ∀ k v, (k, v) ∈ es → Distinct v) (fun _ => .null) (fun b _ => .bool b)
    (fun t _ => .num t) (fun s _ => .str s) (fun l ih h => .arr (ih h))
    (fun es ih h => .obj (sorted_nodup h.1) (ih h.2)) (fun _ a ha => nomatch ha) ?_ (fun _ _ _ ha => nomatch ha) ?_).1 j h
  · intro j l h1 h2 h a ha
    rcases List.mem_cons.1 ha with rfl | ha
    · exact h1 h.1
    · exact h2 h.2 a ha
  · intro k v l h1 h2 h k' v' ha
    rcases List.mem_cons.1 ha with ha | ha
    · cases ha; exact h1 h.1
    · exact h2 h.2 k' v' ha

end Verif
