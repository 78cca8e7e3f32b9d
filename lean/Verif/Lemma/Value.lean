import Verif.Lemma.Json
import Verif.Lemma.HMap
import Verif.Model.Value

namespace Verif
open Spec

/-! ## Induction on trees -/

theorem Json.induct {M : Json → Prop} {ML : List Json → Prop} {MM : List (Str × Json) → Prop}
    (null : M .null) (bool : ∀ b, M (.bool b)) (num : ∀ t, M (.num t)) (str : ∀ s, M (.str s))
    (arr : ∀ l, ML l → M (.arr l)) (obj : ∀ es, MM es → M (.obj es))
    (nilL : ML []) (consL : ∀ j l, M j → ML l → ML (j :: l))
    (nilM : MM []) (consM : ∀ k v l, M v → MM l → MM ((k, v) :: l)) :
    (∀ j, M j) ∧ (∀ l, ML l) ∧ (∀ l, MM l) := by
  have h : ∀ j, M j := fun j => Json.rec (motive_1 := M) (motive_2 := ML) (motive_3 := MM)
    (motive_4 := fun p => M p.2) null bool num str arr obj nilL consL nilM
    (fun p l hp hl => consM p.1 p.2 l hp hl) (fun _ _ h => h) j
  refine ⟨h, ?_, ?_⟩
  · intro l
    induction l with
    | nil => exact nilL
    | cons j l ih => exact consL j l (h j) ih
  · intro l
    induction l with
    | nil => exact nilM
    | cons p l ih => exact consM p.1 p.2 l (h p.2) ih

/-! ## Decimal numbers -/

theorem decDigit_toNat {d : Nat} (h : d < 10) : (decDigit d).toNat = 48 + d := by
  unfold decDigit
  rw [toNat_ofNat_char (by omega)]

theorem natOfDigits_append (a : Str) (c : Char) :
    natOfDigits (a ++ [c]) = natOfDigits a * 10 + (c.toNat - 48) := by
  simp [natOfDigits, List.foldl_append]

theorem decN_spec (f n : Nat) (h : n < f) :
    (decN f n).all isDigit = true ∧ decN f n ≠ [] ∧ natOfDigits (decN f n) = n ∧
      (decN f n = ['0'] ∨ (decN f n).head? ≠ some '0') := by
  induction f generalizing n with
  | zero => omega
  | succ f ih =>
    simp only [decN]
    split
    · rename_i hn
      have hd := decDigit_toNat hn
      refine ⟨?_, by simp, ?_, ?_⟩
      · simp only [List.all_cons, List.all_nil, Bool.and_true, isDigit, hd, Bool.and_eq_true,
          decide_eq_true_eq]
        omega
      · simp [natOfDigits, hd]
      · by_cases h0 : n = 0
        · subst h0; left; rfl
        · right
          simp only [List.head?_cons, ne_eq, Option.some.injEq]
          intro e
          rw [e] at hd
          have : '0'.toNat = 48 := rfl
          omega
    · rename_i hn
      have hm : n % 10 < 10 := Nat.mod_lt _ (by omega)
      have hd := decDigit_toNat hm
      obtain ⟨h1, h2, h3, h4⟩ := ih (n / 10) (by omega)
      refine ⟨?_, by simp, ?_, ?_⟩
      · simp only [List.all_append, h1, List.all_cons, List.all_nil, Bool.and_true, isDigit, hd,
          Bool.and_eq_true, decide_eq_true_eq, true_and]
        omega
      · rw [natOfDigits_append, h3, hd]
        omega
      · right
        cases hc : decN f (n / 10) with
        | nil => exact absurd hc h2
        | cons c t =>
          rw [hc] at h3 h4
          simp only [List.cons_append, List.head?_cons, ne_eq, Option.some.injEq]
          rintro rfl
          rcases h4 with h4 | h4
          · simp only [List.cons.injEq, true_and] at h4
            subst h4
            have : natOfDigits ['0'] = 0 := rfl
            omega
          · exact h4 rfl

theorem natDec_digits (n : Nat) : (natDec n).all isDigit = true := (decN_spec (n + 1) n (by omega)).1
theorem natDec_ne_nil (n : Nat) : natDec n ≠ [] := (decN_spec (n + 1) n (by omega)).2.1
theorem natOfDigits_natDec (n : Nat) : natOfDigits (natDec n) = n :=
  (decN_spec (n + 1) n (by omega)).2.2.1

theorem tokNat_natDec {n : Nat} (h : n < 2 ^ 64) : tokNat (natDec n) = some n := by
  unfold tokNat
  rw [natOfDigits_natDec, if_pos ⟨natDec_digits n, natDec_ne_nil n, h⟩]

theorem tokNat_lt {t : Str} {n : Nat} (h : tokNat t = some n) : n < 2 ^ 64 := by
  unfold tokNat at h
  split at h
  · rename_i hc
    simp only [Option.some.injEq] at h
    rw [← h]; exact hc.2.2
  · simp at h

theorem numTok_digits {d : Str} (h : d.all isDigit = true) (hne : d ≠ [])
    (h0 : d = ['0'] ∨ d.head? ≠ some '0') : NumTok d := by
  refine ⟨[], d, [], [], by simp, Or.inl rfl, ?_, Or.inl rfl, Or.inl rfl⟩
  rcases h0 with h0 | h0
  · exact Or.inl h0
  · refine Or.inr ⟨⟨hne, ?_⟩, h0⟩
    intro c hc
    exact isDigit_iff.1 (List.all_eq_true.1 h c hc)

theorem numTok_natDec (n : Nat) : NumTok (natDec n) :=
  numTok_digits (natDec_digits n) (natDec_ne_nil n) (decN_spec (n + 1) n (by omega)).2.2.2

/-! ## Normalisation -/

section
variable {F : Str → Option Str}

theorem normNum_tok (hF : ∀ t u, F t = some u → NumTok u) {t u : Str} (ht : NumTok t)
    (h : normNum F t = some u) : NumTok u := by
  unfold normNum at h
  split at h
  · split at h
    · simp only [Option.some.injEq] at h; rw [← h]; exact ht
    · exact hF _ _ h
  · split at h
    · simp only [Option.some.injEq] at h; rw [← h]; exact ht
    · exact hF _ _ h

theorem canonM_iff {es : List (Str × Json)} : CanonM F es ↔ ∀ p ∈ es, Canon F p.2 := by
  induction es with
  | nil => simp [CanonM]
  | cons p es ih => obtain ⟨k, v⟩ := p; simp [CanonM, ih]

theorem canonL_iff {l : List Json} : CanonL F l ↔ ∀ j ∈ l, Canon F j := by
  induction l with
  | nil => simp [CanonL]
  | cons p es ih => simp [CanonL, ih]

theorem numsOkM_iff {es : List (Str × Json)} : NumsOkM es ↔ ∀ p ∈ es, NumsOk p.2 := by
  induction es with
  | nil => simp [NumsOkM]
  | cons p es ih => obtain ⟨k, v⟩ := p; simp [NumsOkM, ih]

theorem numsOkL_iff {l : List Json} : NumsOkL l ↔ ∀ j ∈ l, NumsOk j := by
  induction l with
  | nil => simp [NumsOkL]
  | cons p es ih => simp [NumsOkL, ih]

theorem numsStableL_iff {l : List Json} : NumsStableL F l ↔ ∀ j ∈ l, NumsStable F j := by
  induction l with
  | nil => simp [NumsStableL]
  | cons p es ih => simp [NumsStableL, ih]

theorem numsStableM_iff {es : List (Str × Json)} : NumsStableM F es ↔ ∀ p ∈ es, NumsStable F p.2 := by
  induction es with
  | nil => simp [NumsStableM]
  | cons p es ih => obtain ⟨k, v⟩ := p; simp [NumsStableM, ih]

theorem depthM_le_iff {es : List (Str × Json)} {n : Nat} :
    Json.depth.depthM es ≤ n ↔ ∀ p ∈ es, p.2.depth ≤ n := by
  induction es with
  | nil => simp [Json.depth.depthM]
  | cons p es ih =>
    obtain ⟨k, v⟩ := p
    simp only [Json.depth.depthM, List.mem_cons, forall_eq_or_imp, ← ih]
    omega

theorem normJ_canon_all : (∀ j, Canon F j → normJ F j = some j) ∧
    (∀ l, CanonL F l → normL F l = some l) ∧ (∀ es, CanonM F es → normM F es = some es) := by
  refine Json.induct ?_ ?_ ?_ ?_ ?_ ?_ ?_ ?_ ?_ ?_
  · intro _; rfl
  · intro _ _; rfl
  · intro t h; simp only [Canon] at h; simp [normJ, h]
  · intro _ _; rfl
  · intro l ih h; simp only [Canon] at h; simp [normJ, ih h]
  · intro es ih h
    simp only [Canon] at h
    simp [normJ, ih h.2, entriesOf_sorted h.1]
  · intro _; rfl
  · intro j l ih1 ih2 h; simp only [CanonL] at h; simp [normL, ih1 h.1, ih2 h.2]
  · intro _; rfl
  · intro k v l ih1 ih2 h; simp only [CanonM] at h; simp [normM, ih1 h.1, ih2 h.2]

/-- A canonical tree is its own normal form. -/
theorem normJ_canon {j : Json} (h : Canon F j) : normJ F j = some j := normJ_canon_all.1 j h

mutual
/-- Canonical values have stable numbers. -/
theorem canon_stable : ∀ {j : Json}, Canon F j → NumsStable F j
  | .num _, h => h
  | .arr _, h => canon_stableL h
  | .obj _, h => canon_stableM h.2
  | .null, _ => trivial
  | .bool _, _ => trivial
  | .str _, _ => trivial
theorem canon_stableL : ∀ {l : List Json}, CanonL F l → NumsStableL F l
  | [], _ => trivial
  | _ :: _, h => ⟨canon_stable h.1, canon_stableL h.2⟩
theorem canon_stableM : ∀ {l : List (Str × Json)}, CanonM F l → NumsStableM F l
  | [], _ => trivial
  | (_, _) :: _, h => ⟨canon_stable h.1, canon_stableM h.2⟩
end

theorem normJ_sound_all (hF : ∀ t u, F t = some u → NumTok u) :
    (∀ j, ∀ j', normJ F j = some j' →
      (NumsStable F j' → Canon F j') ∧ (NumsOk j → NumsOk j') ∧ j'.depth ≤ j.depth) ∧
    (∀ l, ∀ l', normL F l = some l' →
      (NumsStableL F l' → CanonL F l') ∧ (NumsOkL l → NumsOkL l') ∧
        Json.depth.depthL l' ≤ Json.depth.depthL l) ∧
    (∀ es, ∀ es', normM F es = some es' →
      (∀ p ∈ es', NumsStable F p.2 → Canon F p.2) ∧ (NumsOkM es → NumsOkM es') ∧
        Json.depth.depthM es' ≤ Json.depth.depthM es) := by
  refine Json.induct ?_ ?_ ?_ ?_ ?_ ?_ ?_ ?_ ?_ ?_
  · intro j' h; simp only [normJ, Option.some.injEq] at h; subst h; simp [Canon, NumsOk]
  · intro b j' h; simp only [normJ, Option.some.injEq] at h; subst h; simp [Canon, NumsOk, Json.depth]
  · intro t j' h
    simp only [normJ, Option.map_eq_some_iff] at h
    obtain ⟨u, hu, rfl⟩ := h
    refine ⟨fun h => h, fun h => normNum_tok hF h hu, by simp [Json.depth]⟩
  · intro s j' h; simp only [normJ, Option.some.injEq] at h; subst h; simp [Canon, NumsOk, Json.depth]
  · intro l ih j' h
    simp only [normJ, Option.map_eq_some_iff] at h
    obtain ⟨u, hu, rfl⟩ := h
    obtain ⟨h1, h2, h3⟩ := ih u hu
    exact ⟨h1, h2, by simp only [Json.depth]; omega⟩
  · intro es ih j' h
    simp only [normJ, Option.map_eq_some_iff] at h
    obtain ⟨u, hu, rfl⟩ := h
    obtain ⟨h1, h2, h3⟩ := ih u hu
    refine ⟨?_, ?_, ?_⟩
    · intro hs
      simp only [NumsStable, numsStableM_iff] at hs
      refine ⟨sorted_entriesOf u, canonM_iff.2 ?_⟩
      intro p hp
      exact h1 p (mem_entriesOf hp) (hs p hp)
    · intro hn
      simp only [NumsOk] at hn ⊢
      exact numsOkM_iff.2 (fun p hp => numsOkM_iff.1 (h2 hn) p (mem_entriesOf hp))
    · simp only [Json.depth]
      have : Json.depth.depthM (entriesOf u) ≤ Json.depth.depthM u :=
        depthM_le_iff.2 (fun p hp => depthM_le_iff.1 (Nat.le_refl _) p (mem_entriesOf hp))
      omega
  · intro l' h; simp only [normL, Option.some.injEq] at h; subst h; simp [CanonL]
  · intro j l ih1 ih2 l' h
    simp only [normL] at h
    split at h
    · rename_i j1 l1 e1 e2
      simp only [Option.some.injEq] at h
      subst h
      obtain ⟨a1, a2, a3⟩ := ih1 _ e1
      obtain ⟨b1, b2, b3⟩ := ih2 _ e2
      refine ⟨fun h => ⟨a1 h.1, b1 h.2⟩, fun h => ⟨a2 h.1, b2 h.2⟩, ?_⟩
      simp only [Json.depth.depthL]; omega
    · simp at h
  · intro l' h; simp only [normM, Option.some.injEq] at h; subst h; simp
  · intro k v l ih1 ih2 l' h
    simp only [normM] at h
    split at h
    · rename_i j1 l1 e1 e2
      simp only [Option.some.injEq] at h
      subst h
      obtain ⟨a1, a2, a3⟩ := ih1 _ e1
      obtain ⟨b1, b2, b3⟩ := ih2 _ e2
      refine ⟨?_, fun h => ⟨a2 h.1, b2 h.2⟩, ?_⟩
      · intro p hp
        simp only [List.mem_cons] at hp
        rcases hp with rfl | hp
        · exact a1
        · exact b1 p hp
      · simp only [Json.depth.depthM]; omega
    · simp at h

theorem normJ_canonical (hF : ∀ t u, F t = some u → NumTok u) {j j' : Json} (h : normJ F j = some j')
    (hs : NumsStable F j') : Canon F j' := ((normJ_sound_all hF).1 j j' h).1 hs

theorem normJ_numsOk (hF : ∀ t u, F t = some u → NumTok u) {j j' : Json} (h : normJ F j = some j')
    (hs : NumsOk j) : NumsOk j' := ((normJ_sound_all hF).1 j j' h).2.1 hs

theorem normJ_depth (hF : ∀ t u, F t = some u → NumTok u) {j j' : Json} (h : normJ F j = some j') :
    j'.depth ≤ j.depth := ((normJ_sound_all hF).1 j j' h).2.2

end

end Verif
