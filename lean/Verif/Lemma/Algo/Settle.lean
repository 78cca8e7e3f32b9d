import Mathlib.Data.Fintype.Pigeonhole
import Mathlib.Data.Finite.Prod
import Mathlib.Data.Set.Finite.Lattice
import Mathlib.Order.Interval.Finset.Nat
import Mathlib.Data.Int.Interval
import Verif.Lemma.Algo.Again

/-!
# Repeated reading is periodic
-/

namespace Verif.Algo

open Verif.Spec (Readings)

theorem formatF64_finite : (Set.range fun t => (readF64 t).bind formatF64).Finite := by
  have h : ((fun p : Nat × Int => formatF64 ⟨p.1, p.2⟩) '' (Set.Iio (2 ^ 53) ×ˢ Set.Icc (-1074) 971) ∪
      {none, some c!"0.0"}).Finite :=
    ((Set.Finite.prod (Set.finite_Iio _) (Set.finite_Icc _ _)).image _).union (Set.toFinite _)
  refine h.subset ?_
  rintro _ ⟨t, rfl⟩
  simp only
  cases hx : readF64 t with
  | none => exact .inr (.inl rfl)
  | some x =>
    rcases readF64_norm hx with h0 | hn
    · right; right
      show formatF64 x = _
      unfold formatF64
      rw [if_pos h0]
    · exact .inl ⟨(x.m, x.e), ⟨hn.small, hn.min, hn.max⟩, rfl⟩

/-- Finitely many texts are printed. -/
theorem f64Text_finite : (Set.range f64Text).Finite := by
  refine (formatF64_finite.union (formatF64_finite.image fun o => o.map ('-' :: ·))).subset ?_
  rintro _ ⟨t, rfl⟩
  unfold f64Text
  split
  · next t => exact .inr ⟨_, ⟨t, rfl⟩, rfl⟩
  · exact .inl ⟨_, rfl⟩

theorem times_succ (n : Nat) (t : Str) : times (n + 1) t = (times n t).bind f64Text := by
  induction n generalizing t with
  | zero =>
    simp only [times, Option.bind_some]
    cases f64Text t <;> rfl
  | succ n ih =>
    rw [times]
    cases h : f64Text t with
    | none => simp only [times, h, Option.bind_none]
    | some u => rw [Option.bind_some, ih, times, h, Option.bind_some]

/-- From some number of readings on, what is printed comes again after a fixed number of further readings. -/
theorem times_periodic : ∃ N p, 0 < N ∧ 0 < p ∧ times N = times (N + p) := by
  let S : Set (Option Str) := Set.range f64Text ∪ {none}
  have hS : S.Finite := f64Text_finite.union (Set.finite_singleton _)
  have : Finite S := hS
  let g : S → S := fun o => ⟨o.1.bind f64Text, by
    cases h : o.1 with
    | none => exact .inr rfl
    | some u => exact .inl ⟨u, rfl⟩⟩
  have hg : ∀ n t, ((g^[n]) ⟨f64Text t, .inl ⟨t, rfl⟩⟩).1 = times (n + 1) t := by
    intro n t
    induction n with
    | zero =>
      show f64Text t = (f64Text t).bind some
      cases f64Text t <;> rfl
    | succ n ih => rw [Function.iterate_succ_apply', times_succ, ← ih]
  obtain ⟨i, j, hij, h⟩ := Finite.exists_ne_map_eq_of_infinite fun n : Nat => g^[n]
  have key : ∀ {i j : Nat}, i < j → g^[i] = g^[j] → ∃ N p, 0 < N ∧ 0 < p ∧ times N = times (N + p) := by
    intro i j hij h
    refine ⟨i + 1, j - i, by omega, by omega, funext fun t => ?_⟩
    rw [← hg, h, hg, show i + 1 + (j - i) = j + 1 by omega]
  rcases Nat.lt_or_gt_of_ne hij with h1 | h1
  · exact key h1 h
  · exact key h1 h.symm

theorem readings_unique {n : Nat} {j v w : Json} (h : Readings f64Text n j v) (h' : Readings f64Text n j w) : v = w := by
  induction h with
  | zero => cases h'; rfl
  | succ h1 _ ih =>
    cases h' with
    | succ h2 h3 =>
      have := normJ_iff.2 h1
      rw [normJ_iff.2 h2] at this
      obtain rfl := Option.some.inj this
      exact ih h3

theorem readings_of_seq {a : Nat → Json} (h : ∀ i, Spec.Denotes f64Text (a i) (a (i + 1))) (n i : Nat) :
    Readings f64Text n (a i) (a (i + n)) := by
  induction n generalizing i with
  | zero => exact .zero _
  | succ n ih =>
    have := ih (i + 1)
    rw [show i + 1 + n = i + (n + 1) by omega] at this
    exact .succ (h i) this

/-- The same of documents, with the same numbers for all of them. -/
theorem read_periodic : ∃ N p, 0 < p ∧ ∀ a : Nat → Json, (∀ i, Spec.Denotes f64Text (a i) (a (i + 1))) →
    ∀ i, N ≤ i → a (i + p) = a i := by
  obtain ⟨N, p, h0, hp, he⟩ := times_periodic
  refine ⟨N, p, hp, fun a ha => ?_⟩
  have key : ∀ n, 0 < n → normJ (times n) (a 0) = some (a n) := by
    intro n hn
    obtain ⟨n, rfl⟩ := Nat.exists_eq_succ_of_ne_zero (by omega : n ≠ 0)
    obtain ⟨w, hw⟩ := (normJ_defined (F := f64Text) (G := times (n + 1)) fun t u h => by
      obtain ⟨w, h1, -⟩ := times_again n h
      exact ⟨w, by simp only [times, h, Option.bind_some, h1]⟩).1 _ _ (normJ_iff.2 (ha 0))
    have := readings_of_seq ha (n + 1) 0
    rw [Nat.zero_add] at this
    rw [hw, readings_unique (normJ_readings (by omega) hw) this]
  have h1 : a (N + p) = a N := by
    have h2 := key N h0
    rw [he, key (N + p) (by omega)] at h2
    exact Option.some.inj h2
  intro i hi
  obtain ⟨k, rfl⟩ := Nat.exists_eq_add_of_le hi
  have h2 := readings_of_seq ha k (N + p)
  rw [h1] at h2
  rw [show N + k + p = N + p + k by omega]
  exact readings_unique h2 (readings_of_seq ha k N)

end Verif.Algo
