import Verif.Lemma.Algo.Accuracy
import Verif.Spec.Near

/-! # Documents that are read several times -/

namespace Verif.Algo

open Verif.Spec (IntTok NearValue MidNum AllNums Readings Decimal decimalVal)

theorem insertEntry_forall₂ {R : Json → Json → Prop} {k : Str} {v w : Json} {l l' : List (Str × Json)} (hv : R v w)
    (h : List.Forall₂ (fun p q => p.1 = q.1 ∧ R p.2 q.2) l l') :
    List.Forall₂ (fun p q : Str × Json => p.1 = q.1 ∧ R p.2 q.2) (insertEntry k v l) (insertEntry k w l') := by
  induction h with
  | nil => exact .cons ⟨rfl, hv⟩ .nil
  | @cons p q l l' hpq ht ih =>
    obtain ⟨k1, v1⟩ := p
    obtain ⟨k2, v2⟩ := q
    obtain ⟨rfl, hr⟩ := hpq
    simp only [insertEntry]
    split
    · exact .cons ⟨rfl, hv⟩ ht
    · split
      · exact .cons ⟨rfl, hv⟩ (.cons ⟨rfl, hr⟩ ht)
      · exact .cons ⟨rfl, hr⟩ ih

theorem entriesOf_forall₂ {R : Json → Json → Prop} {l l' : List (Str × Json)}
    (h : List.Forall₂ (fun p q => p.1 = q.1 ∧ R p.2 q.2) l l') :
    List.Forall₂ (fun p q : Str × Json => p.1 = q.1 ∧ R p.2 q.2) (entriesOf l) (entriesOf l') := by
  unfold entriesOf
  have : ∀ acc acc' : List (Str × Json), List.Forall₂ (fun p q : Str × Json => p.1 = q.1 ∧ R p.2 q.2) acc acc' →
      List.Forall₂ (fun p q : Str × Json => p.1 = q.1 ∧ R p.2 q.2) (l.foldl (fun acc p => insertEntry p.1 p.2 acc) acc)
        (l'.foldl (fun acc p => insertEntry p.1 p.2 acc) acc') := by
    induction h with
    | nil => intro acc acc' ha; exact ha
    | @cons p q l l' hpq _ ih =>
      intro acc acc' ha
      rw [List.foldl_cons, List.foldl_cons, hpq.1]
      exact ih _ _ (insertEntry_forall₂ hpq.2 ha)
  exact this [] [] .nil

theorem normM_forall₂ {F : Str → Option Str} {l l' : List (Str × Json)} :
    normM F l = some l' ↔ List.Forall₂ (fun p q => p.1 = q.1 ∧ normJ F p.2 = some q.2) l l' := by
  induction l generalizing l' with
  | nil =>
    simp only [normM, Option.some.injEq]
    constructor
    · rintro rfl; exact .nil
    · intro h; cases h; rfl
  | cons p l ih =>
    obtain ⟨k, v⟩ := p
    simp only [normM]
    constructor
    · intro h
      split at h
      · next v' l1 e1 e2 =>
        obtain rfl := Option.some.inj h
        exact .cons ⟨rfl, e1⟩ (ih.1 e2)
      · cases h
    · intro h
      cases h with
      | @cons _ q _ l1 h1 h2 =>
        obtain ⟨k2, v2⟩ := q
        obtain ⟨rfl, h1⟩ := h1
        simp only at h1
        rw [h1, ih.2 h2]

theorem normM_entriesOf {F : Str → Option Str} {l l' : List (Str × Json)} (h : normM F l = some l') :
    normM F (entriesOf l) = some (entriesOf l') :=
  normM_forall₂.2 (entriesOf_forall₂ (R := fun a b => normJ F a = some b) (normM_forall₂.1 h))

/-- One reading after the other. -/
theorem normJ_compose {F G H : Str → Option Str} (hF : ∀ t u, F t = some u → ¬ IntTok u)
    (hH : ∀ t, H t = (F t).bind G) :
    (∀ j b, normJ H j = some b → ∃ v, normJ F j = some v ∧ normJ G v = some b) ∧
    (∀ (l : List Json) b, normL H l = some b → ∃ v, normL F l = some v ∧ normL G v = some b) ∧
    (∀ (es : List (Str × Json)) b, normM H es = some b → ∃ v, normM F es = some v ∧ normM G v = some b) := by
  refine Json.induct ?_ ?_ ?_ ?_ ?_ ?_ ?_ ?_ ?_ ?_
  · intro b h; exact ⟨.null, rfl, h⟩
  · intro x b h; exact ⟨.bool x, rfl, h⟩
  · intro t b h
    obtain ⟨u, hu, rfl⟩ := Option.map_eq_some_iff.1 h
    rcases normNum_iff.1 hu with ⟨h1, rfl⟩ | ⟨h1, h2⟩
    · exact ⟨.num u, by simp only [normJ, normNum_iff.2 (.inl ⟨h1, rfl⟩ : Spec.NumVal F u u), Option.map_some],
        by simp only [normJ, normNum_iff.2 (.inl ⟨h1, rfl⟩ : Spec.NumVal G u u), Option.map_some]⟩
    · rw [hH] at h2
      obtain ⟨w, h3, h4⟩ := Option.bind_eq_some_iff.1 h2
      exact ⟨.num w, by simp only [normJ, normNum_iff.2 (.inr ⟨h1, h3⟩ : Spec.NumVal F t w), Option.map_some],
        by simp only [normJ, normNum_iff.2 (.inr ⟨hF _ _ h3, h4⟩ : Spec.NumVal G w u), Option.map_some]⟩
  · intro x b h; exact ⟨.str x, rfl, h⟩
  · intro l ih b h
    obtain ⟨l', h1, rfl⟩ := Option.map_eq_some_iff.1 h
    obtain ⟨v, h2, h3⟩ := ih _ h1
    exact ⟨.arr v, by simp only [normJ, h2, Option.map_some], by simp only [normJ, h3, Option.map_some]⟩
  · intro es ih b h
    obtain ⟨es', h1, rfl⟩ := Option.map_eq_some_iff.1 h
    obtain ⟨v, h2, h3⟩ := ih _ h1
    refine ⟨.obj (entriesOf v), by simp only [normJ, h2, Option.map_some], ?_⟩
    simp only [normJ, normM_entriesOf h3, Option.map_some, entriesOf_sorted (sorted_entriesOf es')]
  · intro b h; exact ⟨[], rfl, h⟩
  · intro j l ih1 ih2 b h
    simp only [normL] at h
    split at h
    · next b1 b2 e1 e2 =>
      obtain rfl := Option.some.inj h
      obtain ⟨v, h1, h2⟩ := ih1 _ e1
      obtain ⟨w, h3, h4⟩ := ih2 _ e2
      exact ⟨v :: w, by simp [normL, h1, h3], by simp [normL, h2, h4]⟩
    · cases h
  · intro b h; exact ⟨[], rfl, h⟩
  · intro k j l ih1 ih2 b h
    simp only [normM] at h
    split at h
    · next b1 b2 e1 e2 =>
      obtain rfl := Option.some.inj h
      obtain ⟨v, h1, h2⟩ := ih1 _ e1
      obtain ⟨w, h3, h4⟩ := ih2 _ e2
      exact ⟨(k, v) :: w, by simp [normM, h1, h3], by simp [normM, h2, h4]⟩
    · cases h

theorem normJ_readings {n : Nat} {j b : Json} (hn : 0 < n) (h : normJ (times n) j = some b) : Readings f64Text n j b := by
  obtain ⟨n, rfl⟩ := Nat.exists_eq_succ_of_ne_zero (by omega : n ≠ 0)
  clear hn
  induction n generalizing j with
  | zero =>
    have : times 1 = f64Text := by
      funext t
      simp only [times]
      cases f64Text t <;> rfl
    rw [this] at h
    exact .succ (normJ_iff.1 h) (.zero _)
  | succ n ih =>
    obtain ⟨v, h1, h2⟩ := (normJ_compose (F := f64Text) (G := times (n + 1)) (H := times (n + 1 + 1))
      (fun t u h => (f64Text_decimal h).2) (fun t => rfl)).1 j b h
    exact .succ (normJ_iff.1 h1) (ih h2)

theorem normJ_all {p : Str → Prop} {F G : Str → Option Str} (hp : ∀ t, p t → ∃ u, normNum F t = some u ∧ normNum G t = some u) :
    (∀ j, AllNums p j → ∃ v, normJ F j = some v ∧ normJ G j = some v) ∧
    (∀ l : List Json, (∀ a ∈ l, AllNums p a) → ∃ v, normL F l = some v ∧ normL G l = some v) ∧
    (∀ es : List (Str × Json), (∀ k v, (k, v) ∈ es → AllNums p v) → ∃ v, normM F es = some v ∧ normM G es = some v) := by
  refine Json.induct ?_ ?_ ?_ ?_ ?_ ?_ ?_ ?_ ?_ ?_
  · intro _; exact ⟨_, rfl, rfl⟩
  · intro _ _; exact ⟨_, rfl, rfl⟩
  · intro t h
    cases h with
    | num h =>
      obtain ⟨u, h1, h2⟩ := hp t h
      exact ⟨.num u, by simp [normJ, h1], by simp [normJ, h2]⟩
  · intro _ _; exact ⟨_, rfl, rfl⟩
  · intro l ih h
    cases h with
    | arr h =>
      obtain ⟨v, h1, h2⟩ := ih h
      exact ⟨.arr v, by simp [normJ, h1], by simp [normJ, h2]⟩
  · intro es ih h
    cases h with
    | obj h =>
      obtain ⟨v, h1, h2⟩ := ih h
      exact ⟨.obj (entriesOf v), by simp [normJ, h1], by simp [normJ, h2]⟩
  · intro _; exact ⟨_, rfl, rfl⟩
  · intro j l ih1 ih2 h
    obtain ⟨v, h1, h2⟩ := ih1 (h j (by simp))
    obtain ⟨w, h4, h5⟩ := ih2 fun a ha => h a (by simp [ha])
    exact ⟨v :: w, by simp [normL, h1, h4], by simp [normL, h2, h5]⟩
  · intro _; exact ⟨_, rfl, rfl⟩
  · intro k j l ih1 ih2 h
    obtain ⟨v, h1, h2⟩ := ih1 (h k j (by simp))
    obtain ⟨w, h4, h5⟩ := ih2 fun k' a ha => h k' a (by simp [ha])
    exact ⟨(k, v) :: w, by simp [normM, h1, h4], by simp [normM, h2, h5]⟩

open Classical in
/-- What is printed after `n` readings, cut down to numbers that are near the first. -/
noncomputable def near (n : Nat) (t : Str) : Option Str :=
  match times n t with
  | some u => if NearValue ((n : ℚ) / 2 ^ 49) t u then some u else none
  | none => none

theorem near_near {n : Nat} {t u : Str} (h : near n t = some u) : NearValue ((n : ℚ) / 2 ^ 49) t u := by
  unfold near at h
  split at h
  · split at h
    · obtain rfl := Option.some.inj h
      assumption
    · cases h
  · cases h

theorem Within.abs {d r v : ℚ} (hr : 0 ≤ r) (h : Within d r v) (neg : Bool) :
    |(if neg = true then -1 else 1) * v - (if neg = true then -1 else 1) * r| ≤ d * |(if neg = true then -1 else 1) * r| := by
  obtain ⟨h1, h2⟩ := h
  have h3 : |v - r| ≤ d * r := by
    rw [abs_le]
    constructor <;> linarith
  cases neg with
  | false =>
    simp only [Bool.false_eq_true, if_false, one_mul]
    rwa [abs_of_nonneg hr]
  | true =>
    simp only [if_true]
    rw [← mul_sub, abs_mul, abs_mul, abs_of_nonneg hr]
    simpa using h3

theorem normNum_mid {n : Nat} (hn : n ≤ 2 ^ 48) {t : Str} (h : MidNum t) :
    ∃ u, normNum (times n) t = some u ∧ normNum (near n) t = some u := by
  by_cases hi : IntTok t
  · exact ⟨t, normNum_iff.2 (.inl ⟨hi, rfl⟩), normNum_iff.2 (.inl ⟨hi, rfl⟩)⟩
  · rcases h with h | ⟨neg, s, e, hd, hl, hm⟩
    · exact absurd h hi
    · obtain ⟨u, s', e', h1, h2, h3⟩ := times_mid n hd hl hn hm
      refine ⟨u, normNum_iff.2 (.inr ⟨hi, h1⟩), normNum_iff.2 (.inr ⟨hi, ?_⟩)⟩
      unfold near
      rw [h1]
      simp only
      exact if_pos ⟨neg, s, e, s', e', hd, h2, h3.abs (by positivity) neg⟩

/-- A document whose numbers are neither very small nor very large can be read many times, and its numbers stay near. -/
theorem read_mid {n : Nat} (h0 : 0 < n) (hn : n ≤ 2 ^ 48) {j : Json} (h : AllNums MidNum j) :
    ∃ v, Readings f64Text n j v ∧ Spec.Denotes (near n) j v := by
  obtain ⟨v, h1, h2⟩ := (normJ_all fun t ht => normNum_mid hn ht).1 j h
  exact ⟨v, normJ_readings h0 h1, normJ_iff.1 h2⟩

end Verif.Algo
