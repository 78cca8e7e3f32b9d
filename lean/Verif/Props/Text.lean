import Verif.Lemma.Regex
import Verif.Lemma.Decode
import Verif.Lemma.Nice
import Verif.Model.Attachment

/-!
# DID extraction and problem codes

C46, C47 and C59.
-/

namespace Verif

open Spec

/-! ## C46 -/

theorem mem_splits {s x y : Str} : (x, y) ∈ splits s ↔ s = x ++ y := by
  induction s generalizing x y with
  | nil =>
    simp only [splits, List.mem_singleton, Prod.mk.injEq]
    constructor
    · rintro ⟨rfl, rfl⟩; rfl
    · intro h; exact List.append_eq_nil_iff.1 h.symm
  | cons c s ih =>
    simp only [splits, List.mem_cons, Prod.mk.injEq, List.mem_map, Prod.exists]
    constructor
    · rintro (⟨rfl, rfl⟩ | ⟨u, v, h, rfl, rfl⟩)
      · rfl
      · rw [ih.1 h]; rfl
    · intro h
      cases x with
      | nil => exact .inl ⟨rfl, h.symm⟩
      | cons d x =>
        rw [List.cons_append, List.cons.injEq] at h
        obtain ⟨rfl, h⟩ := h
        exact .inr ⟨x, y, ih.2 h, rfl, rfl⟩

/-- The characters that begin path, query and fragment. -/
def isDelim (c : Char) : Bool := c == '/' || c == '?' || c == '#'

theorem lower_not_delim {c : Char} (h : 'a' ≤ c ∧ c ≤ 'z') : isDelim c = false := by
  simp only [isDelim, Bool.or_eq_false_iff, beq_eq_false_iff_ne]
  refine ⟨⟨?_, ?_⟩, ?_⟩ <;> rintro rfl <;> revert h <;> decide

theorem did_no_delim {d : Str} (h : IsDid d) : ∀ c ∈ d, isDelim c = false := by
  obtain ⟨m, parts, i, rfl, -, hm, hp, -, hi⟩ := h
  intro c hc
  simp only [List.mem_append, List.mem_cons, List.not_mem_nil, or_false, List.mem_flatten, List.mem_map] at hc
  rcases hc with hc | hc | rfl | ⟨_, ⟨p, hpp, rfl⟩, hc⟩ | hc
  · rcases hc with rfl | rfl | rfl | rfl <;> rfl
  · exact lower_not_delim (hm c hc)
  · rfl
  · rcases List.mem_append.1 hc with hc | hc
    · exact lower_not_delim (hp p hpp c hc)
    · rw [List.mem_singleton.1 hc]; rfl
  · rcases hi c hc with h | h | h | h
    · exact lower_not_delim h
    · simp only [isDelim, Bool.or_eq_false_iff, beq_eq_false_iff_ne]
      refine ⟨⟨?_, ?_⟩, ?_⟩ <;> rintro rfl <;> revert h <;> decide
    · simp only [isDelim, Bool.or_eq_false_iff, beq_eq_false_iff_ne]
      refine ⟨⟨?_, ?_⟩, ?_⟩ <;> rintro rfl <;> revert h <;> decide
    · simp only [List.mem_cons, List.not_mem_nil, or_false] at h
      rcases h with rfl | rfl | rfl | rfl <;> rfl

theorem tail_delim {t : Str} (h : IsUrlTail t) : ∀ c s, t = c :: s → isDelim c = true := by
  obtain ⟨p, q, f, rfl, hp, hq, hf⟩ := h
  intro c s hs
  rcases hp with rfl | ⟨x, rfl, -⟩
  · rcases hq with rfl | ⟨x, rfl, -⟩
    · rcases hf with rfl | ⟨x, rfl, -⟩
      · cases hs
      · rw [← (List.cons.inj hs).1]; rfl
    · rw [← (List.cons.inj hs).1]; rfl
  · rw [← (List.cons.inj hs).1]; rfl

/-- There is at most one way to read a text as a DID followed by path, query and fragment. -/
theorem didSplit_unique {d d' t t' : Str} (hd : IsDid d) (hd' : IsDid d') (ht : IsUrlTail t)
    (ht' : IsUrlTail t') (h : d ++ t = d' ++ t') : d = d' ∧ t = t' := by
  have key : ∀ {d d' t t' x : Str}, IsDid d' → IsUrlTail t → d' = d ++ x → t = x ++ t' → x = [] := by
    intro d d' t t' x hd' ht h1 h2
    cases x with
    | nil => rfl
    | cons c x =>
      have h3 := tail_delim ht c (x ++ t') h2
      have h4 := did_no_delim hd' c (by rw [h1]; simp)
      rw [h3] at h4
      cases h4
  rcases List.append_eq_append_iff.1 h with ⟨x, h1, h2⟩ | ⟨x, h1, h2⟩
  · obtain rfl := key hd' ht h1 h2
    simp_all
  · obtain rfl := key hd ht' h1 h2
    simp_all

theorem didOfUrl_cases (url : Str) :
    (∃ t, IsDid (didOfUrl url) ∧ IsUrlTail t ∧ url = didOfUrl url ++ t) ∨
      (didOfUrl url = [] ∧ ¬ ∃ d t, IsDid d ∧ IsUrlTail t ∧ url = d ++ t) := by
  unfold didOfUrl
  split
  · rename_i p hp
    obtain ⟨d, t⟩ := p
    have h1 := List.find?_some hp
    have h2 := mem_splits.1 (List.mem_of_find?_eq_some hp)
    simp only [Bool.and_eq_true, didRe_iff, didTailRe_iff] at h1
    exact .inl ⟨t, h1.1, h1.2, h2⟩
  · rename_i hp
    rw [List.find?_eq_none] at hp
    refine .inr ⟨rfl, ?_⟩
    rintro ⟨d, t, h1, h2, rfl⟩
    have := hp (d, t) (mem_splits.2 rfl)
    simp only [Bool.and_eq_true, didRe_iff, didTailRe_iff] at this
    exact this ⟨h1, h2⟩

/-- C46.  The label of a DID followed by path, query and fragment is exactly the DID. -/
theorem C46_extract (d t : Str) (hd : IsDid d) (ht : IsUrlTail t) : didOfUrl (d ++ t) = d := by
  rcases didOfUrl_cases (d ++ t) with ⟨t', h1, h2, h3⟩ | ⟨-, h⟩
  · exact (didSplit_unique hd h1 ht h2 h3).1.symm
  · exact absurd ⟨d, t, hd, ht, rfl⟩ h

/-- C46.  For any other text it is empty. -/
theorem C46_malformed (url : Str) (h : ¬ ∃ d t, IsDid d ∧ IsUrlTail t ∧ url = d ++ t) :
    didOfUrl url = [] := by
  rcases didOfUrl_cases url with ⟨t, h1, h2, h3⟩ | ⟨h, -⟩
  · exact absurd ⟨_, t, h1, h2, h3⟩ h
  · exact h

/-- C46.  It is always a prefix of the input. -/
theorem C46_prefix (url : Str) : didOfUrl url <+: url := by
  rcases didOfUrl_cases url with ⟨t, -, -, h⟩ | ⟨h, -⟩
  · exact ⟨t, h.symm⟩
  · rw [h]; exact List.nil_prefix

theorem tail_nil : IsUrlTail [] := ⟨[], [], [], rfl, .inl rfl, .inl rfl, .inl rfl⟩

/-- C46.  Extraction is idempotent. -/
theorem C46_idempotent (url : Str) : didOfUrl (didOfUrl url) = didOfUrl url := by
  rcases didOfUrl_cases url with ⟨t, h, -, -⟩ | ⟨h, -⟩
  · have := C46_extract (didOfUrl url) [] h tail_nil
    rwa [List.append_nil] at this
  · rw [h]; rfl

/-- C46: a DID URL with all parts. -/
example : didOfUrl c!"did:web:sub:example.com/a/b?q=1/2#f?#" = c!"did:web:sub:example.com" :=
  C46_extract c!"did:web:sub:example.com" c!"/a/b?q=1/2#f?#"
    ⟨c!"web", [c!"sub"], c!"example.com", rfl, by decide, by decide, by decide, by decide, by decide⟩
    ⟨c!"/a/b", c!"?q=1/2", c!"#f?#", rfl, .inr ⟨c!"a/b", rfl, by decide, by decide⟩,
      .inr ⟨c!"q=1/2", rfl, by decide⟩, .inr ⟨c!"f?#", rfl, by decide⟩⟩

/-! ## C59: DIDs outside the pattern -/

/-- A DID of the DID Core syntax (https://www.w3.org/TR/did-core/#did-syntax, without percent encoding):
`did:`, a method name of lower case letters and digits, `:`, and identifier parts of letters, digits, `.`,
`-`, `_`, separated by `:`, the last one not empty. -/
def Spec.IsCoreDid (d : Str) : Prop :=
  ∃ (method : Str) (parts : List Str) (ident : Str),
    d = c!"did:" ++ (method ++ (':' :: ((parts.map fun p => p ++ [':']).flatten ++ ident))) ∧
    method ≠ [] ∧ (∀ c ∈ method, ('a' ≤ c ∧ c ≤ 'z') ∨ ('0' ≤ c ∧ c ≤ '9')) ∧ ident ≠ [] ∧
    ∀ p ∈ ident :: parts, ∀ c ∈ p, ('a' ≤ c ∧ c ≤ 'z') ∨ ('A' ≤ c ∧ c ≤ 'Z') ∨ ('0' ≤ c ∧ c ≤ '9') ∨
      c ∈ c!".-_"

/-- C59 fails: there are valid DIDs, with a digit in the method name or with a `:` after anything but lower
case letters, whose label is empty. -/
theorem C59_core_did_violated :
    (IsCoreDid c!"did:3:abc" ∧ didOfUrl c!"did:3:abc" = []) ∧
      (IsCoreDid c!"did:web:example.com:user" ∧ didOfUrl c!"did:web:example.com:user" = []) ∧
      (IsCoreDid c!"did:ethr:0x1:abc" ∧ didOfUrl c!"did:ethr:0x1:abc" = []) := by
  refine ⟨⟨⟨c!"3", [], c!"abc", rfl, by decide, by decide, by decide, by decide⟩, by decide⟩,
    ⟨⟨c!"web", [c!"example.com"], c!"user", rfl, by decide, by decide, by decide, by decide⟩, by decide⟩,
    ⟨⟨c!"ethr", [c!"0x1"], c!"abc", rfl, by decide, by decide, by decide, by decide⟩, by decide⟩⟩

/-- C59, what holds: a valid DID whose method name and name parts are lower case letters is its own
label. -/
theorem C59_lower_did_partial (method : Str) (parts : List Str) (ident : Str) (hm : method ≠ [])
    (hl : ∀ p ∈ method :: parts, ∀ c ∈ p, 'a' ≤ c ∧ c ≤ 'z') (hi : ident ≠ [])
    (hc : ∀ c ∈ ident, ('a' ≤ c ∧ c ≤ 'z') ∨ ('A' ≤ c ∧ c ≤ 'Z') ∨ ('0' ≤ c ∧ c ≤ '9') ∨ c ∈ c!".-_") :
    let d := c!"did:" ++ (method ++ (':' :: ((parts.map fun p => p ++ [':']).flatten ++ ident)))
    IsCoreDid d ∧ didOfUrl d = d := by
  intro d
  have hp : ∀ p ∈ parts, ∀ c ∈ p, 'a' ≤ c ∧ c ≤ 'z' := fun p hp => hl p (by simp [hp])
  refine ⟨⟨method, parts, ident, rfl, hm, fun c hc => .inl (hl method (by simp) c hc), hi, ?_⟩, ?_⟩
  · intro p hpm c hcm
    rcases List.mem_cons.1 hpm with rfl | hpm
    · exact hc c hcm
    · exact .inl (hp p hpm c hcm)
  · have := C46_extract d [] ⟨method, parts, ident, rfl, hm, hl method (by simp), hp, hi, fun c hcm => ?_⟩ tail_nil
    · rwa [List.append_nil] at this
    · rcases hc c hcm with h | h | h | h
      · exact .inl h
      · exact .inr (.inl h)
      · exact .inr (.inr (.inl h))
      · refine .inr (.inr (.inr ?_))
        revert h
        simp only [List.mem_cons, List.not_mem_nil, or_false]
        rintro (h | h | h) <;> simp [h]

theorem colon_split {a b x y : Str} (ha : ':' ∉ a) (hb : ':' ∉ b) (h : a ++ ':' :: x = b ++ ':' :: y) : a = b ∧ x = y := by
  induction a generalizing b with
  | nil =>
    cases b with
    | nil => exact ⟨rfl, (List.cons.inj h).2⟩
    | cons c b =>
      exact absurd (List.mem_cons.2 (.inl (List.cons.inj h).1)) hb
  | cons c a ih =>
    cases b with
    | nil => exact absurd (List.mem_cons.2 (.inl (List.cons.inj h).1.symm)) ha
    | cons d b =>
      obtain ⟨h1, h2⟩ := List.cons.inj h
      obtain ⟨h3, h4⟩ := ih (fun hc => ha (List.mem_cons.2 (.inr hc))) (fun hc => hb (List.mem_cons.2 (.inr hc))) h2
      exact ⟨by rw [h1, h3], h4⟩

theorem parts_split {ps qs : List Str} {i j : Str} (hp : ∀ p ∈ i :: ps, ':' ∉ p) (hq : ∀ p ∈ j :: qs, ':' ∉ p)
    (h : (ps.map fun p => p ++ [':']).flatten ++ i = (qs.map fun p => p ++ [':']).flatten ++ j) : ps = qs ∧ i = j := by
  induction ps generalizing qs with
  | nil =>
    cases qs with
    | nil => exact ⟨rfl, h⟩
    | cons q qs =>
      refine absurd ?_ (hp i (by simp))
      simp only [List.map_nil, List.flatten_nil, List.nil_append] at h
      rw [h]
      simp
  | cons p ps ih =>
    cases qs with
    | nil =>
      refine absurd ?_ (hq j (by simp))
      simp only [List.map_nil, List.flatten_nil, List.nil_append] at h
      rw [← h]
      simp
    | cons q qs =>
      simp only [List.map_cons, List.flatten_cons, List.append_assoc, List.singleton_append] at h
      obtain ⟨h1, h2⟩ := colon_split (hp p (by simp)) (hq q (by simp)) h
      obtain ⟨h3, h4⟩ := ih (fun x hx => hp x (by
        rcases List.mem_cons.1 hx with rfl | hx <;> simp [*])) (fun x hx => hq x (by
        rcases List.mem_cons.1 hx with rfl | hx <;> simp [*])) h2
      exact ⟨by rw [h1, h3], h4⟩

theorem no_colon {p : Char → Prop} {s : Str} (h : ∀ c ∈ s, p c) (hp : ¬p ':') : ':' ∉ s := fun hc => hp (h _ hc)

/-- C59, exactly: a valid DID, given by its method name and parts, is its own label if and only if the method name and all
parts but the last are lower case letters.  Otherwise its label is empty. -/
theorem C59_exact_partial (method : Str) (parts : List Str) (ident : Str) (hm : method ≠ [])
    (hml : ∀ c ∈ method, ('a' ≤ c ∧ c ≤ 'z') ∨ ('0' ≤ c ∧ c ≤ '9')) (hi : ident ≠ [])
    (hc : ∀ p ∈ ident :: parts, ∀ c ∈ p, ('a' ≤ c ∧ c ≤ 'z') ∨ ('A' ≤ c ∧ c ≤ 'Z') ∨ ('0' ≤ c ∧ c ≤ '9') ∨ c ∈ c!".-_") :
    let d := c!"did:" ++ (method ++ (':' :: ((parts.map fun p => p ++ [':']).flatten ++ ident)))
    (didOfUrl d = d ↔ ∀ p ∈ method :: parts, ∀ c ∈ p, 'a' ≤ c ∧ c ≤ 'z') ∧
      (didOfUrl d = [] ↔ ¬ ∀ p ∈ method :: parts, ∀ c ∈ p, 'a' ≤ c ∧ c ≤ 'z') := by
  intro d
  have key : ∀ e t, IsDid e → IsUrlTail t → d = e ++ t →
      (∀ p ∈ method :: parts, ∀ c ∈ p, 'a' ≤ c ∧ c ≤ 'z') ∧ e = d := by
    intro e t he ht h
    have ht0 : t = [] := by
      cases t with
      | nil => rfl
      | cons c t =>
        have h1 := tail_delim ht c t rfl
        have h2 : c ∈ d := by rw [h]; simp
        have h3 : isDelim c = false := by
          simp only [d, List.mem_append, List.mem_cons, List.mem_flatten, List.mem_map] at h2
          have hcore : ∀ c, (('a' ≤ c ∧ c ≤ 'z') ∨ ('A' ≤ c ∧ c ≤ 'Z') ∨ ('0' ≤ c ∧ c ≤ '9') ∨ c ∈ c!".-_") →
              isDelim c = false := by
            intro c h
            simp only [isDelim, Bool.or_eq_false_iff, beq_eq_false_iff_ne]
            refine ⟨⟨?_, ?_⟩, ?_⟩ <;> rintro rfl <;> revert h <;> decide
          rcases h2 with h2 | h2 | rfl | ⟨l, ⟨p, hp, rfl⟩, h2⟩ | h2
          · simp only [List.not_mem_nil, or_false] at h2
            rcases h2 with rfl | rfl | rfl | rfl <;> rfl
          · rcases hml c h2 with h | h
            · exact hcore c (.inl h)
            · exact hcore c (.inr (.inr (.inl h)))
          · rfl
          · rw [List.mem_append, List.mem_singleton] at h2
            rcases h2 with h2 | rfl
            · exact hcore c (hc p (by simp [hp]) c h2)
            · rfl
          · exact hcore c (hc ident (by simp) c h2)
        rw [h1] at h3
        cases h3
    subst ht0
    rw [List.append_nil] at h
    refine ⟨?_, h.symm⟩
    obtain ⟨m', ps', i', rfl, -, hm', hp', -, hi'⟩ := he
    have h := List.append_cancel_left h
    obtain ⟨h1, h2⟩ := colon_split (no_colon hml (by decide)) (no_colon hm' (by decide)) h
    obtain ⟨h3, -⟩ := parts_split (fun p hp => no_colon (hc p hp) (by decide)) (by
      intro p hp
      rcases List.mem_cons.1 hp with rfl | hp
      · exact no_colon hi' (by decide)
      · exact no_colon (hp' p hp) (by decide)) h2
    subst h1 h3
    intro p hp
    rcases List.mem_cons.1 hp with rfl | hp
    · exact hm'
    · exact hp' p hp
  have hd : d ≠ [] := by simp [d]
  have hback : (∀ p ∈ method :: parts, ∀ c ∈ p, 'a' ≤ c ∧ c ≤ 'z') → didOfUrl d = d := fun h =>
    (C59_lower_did_partial method parts ident hm h hi (hc ident (by simp))).2
  rcases didOfUrl_cases d with ⟨t, h1, h2, h3⟩ | ⟨h1, h2⟩
  · obtain ⟨h4, h5⟩ := key _ t h1 h2 h3
    exact ⟨⟨fun _ => h4, hback⟩, ⟨fun h => absurd (h5.symm.trans h) hd, fun h => absurd h4 h⟩⟩
  · refine ⟨⟨fun h => absurd (h.symm.trans h1) hd, hback⟩, ⟨fun _ h => hd ((hback h).symm.trans h1), fun _ => h1⟩⟩

example : didOfUrl c!"did:web:example.com:user" = [] :=
  (C59_exact_partial c!"web" [c!"example.com"] c!"user" (by decide) (by decide) (by decide) (by decide)).2.2 (by decide)

example : didOfUrl c!"did:key:z6Mk" = c!"did:key:z6Mk" :=
  (C59_lower_did_partial c!"key" [] c!"z6Mk" (by decide) (by decide) (by decide) (by decide)).2

/-! ## C47 -/

theorem isAlpha_iff {c : Char} : isAlpha c = true ↔ ('a' ≤ c ∧ c ≤ 'z') ∨ ('A' ≤ c ∧ c ≤ 'Z') := by
  simp only [isAlpha, Bool.or_eq_true, isLower_iff, isUpper_iff]

instance (d : Str) : Decidable (IsDescriptor d) := by unfold IsDescriptor; infer_instance

/-- Letters and hyphens. -/
def isDescChar (c : Char) : Bool := isAlpha c || c == '-'

theorem isDescriptor_iff {d : Str} : IsDescriptor d ↔ ∀ c ∈ d, isDescChar c = true := by
  unfold IsDescriptor isDescChar
  simp only [Bool.or_eq_true, isAlpha_iff, beq_iff_eq, or_assoc]

theorem mem_dropWhile_all {p q : Char → Bool} {d : Str} (h : ∀ c ∈ d, p c = true) : ∀ c ∈ d.dropWhile q, p c = true :=
  fun c hc => h c ((List.dropWhile_suffix q).subset hc)

/-- The part of a problem code after the scope. -/
theorem descriptors_iff {r : Str} :
    (∃ d1 s1 d2 s2 d3, r = d1 ++ (s1 ++ (d2 ++ (s2 ++ d3))) ∧ (∀ c ∈ d1, isAlpha c = true) ∧
      (s1 = [] ∨ s1 = ['.']) ∧ (∀ c ∈ d2, isDescChar c = true) ∧ (s2 = [] ∨ s2 = ['.']) ∧
      ∀ c ∈ d3, isDescChar c = true) ↔
    ∃ (d : Str) (more : List Str), r = d ++ (more.map fun x => '.' :: x).flatten ∧ IsDescriptor d ∧
      (∀ x ∈ more, IsDescriptor x) ∧ more.length ≤ 2 ∧ (more.length = 2 → '-' ∉ d) := by
  simp only [isDescriptor_iff]
  have al : ∀ {d : Str}, (∀ c ∈ d, isAlpha c = true) → ∀ c ∈ d, isDescChar c = true := by
    intro d h c hc
    simp [isDescChar, h c hc]
  have ap : ∀ {d e : Str}, (∀ c ∈ d, isDescChar c = true) → (∀ c ∈ e, isDescChar c = true) →
      ∀ c ∈ d ++ e, isDescChar c = true := by
    intro d e h1 h2 c hc
    rcases List.mem_append.1 hc with h | h
    · exact h1 c h
    · exact h2 c h
  constructor
  · rintro ⟨d1, s1, d2, s2, d3, rfl, h1, rfl | rfl, h2, rfl | rfl, h3⟩
    · exact ⟨d1 ++ (d2 ++ d3), [], by simp, ap (al h1) (ap h2 h3), by simp, by simp, by simp⟩
    · exact ⟨d1 ++ d2, [d3], by simp, ap (al h1) h2, by simpa using h3, by simp, by simp⟩
    · exact ⟨d1, [d2 ++ d3], by simp, al h1, by simpa using ap h2 h3, by simp, by simp⟩
    · refine ⟨d1, [d2, d3], by simp, al h1, ?_, by simp, ?_⟩
      · intro x hx
        simp only [List.mem_cons, List.not_mem_nil, or_false] at hx
        rcases hx with rfl | rfl
        · exact h2
        · exact h3
      · intro _ hd
        have := h1 _ hd
        revert this; decide
  · rintro ⟨d, more, rfl, hd, hm, hl, h2⟩
    have tw : ∀ c ∈ d.takeWhile isAlpha, isAlpha c = true := fun c hc => List.all_eq_true.1 (List.all_takeWhile) c hc
    have dw : ∀ c ∈ d.dropWhile isAlpha, isDescChar c = true := mem_dropWhile_all hd
    match more, hm, hl, h2 with
    | [], _, _, _ =>
      exact ⟨d.takeWhile isAlpha, [], d.dropWhile isAlpha, [], [], by simp, tw, .inl rfl, dw, .inl rfl, by simp⟩
    | [x], hm, _, _ =>
      exact ⟨d.takeWhile isAlpha, [], d.dropWhile isAlpha, ['.'], x, by simp [← List.append_assoc], tw, .inl rfl, dw, .inr rfl,
        hm x (by simp)⟩
    | [x, y], hm, _, h2 =>
      refine ⟨d, ['.'], x, ['.'], y, by simp, ?_, .inr rfl, hm x (by simp), .inr rfl, hm y (by simp)⟩
      intro c hc
      have := hd c hc
      simp only [isDescChar, Bool.or_eq_true, beq_iff_eq] at this
      rcases this with h | rfl
      · exact h
      · exact absurd hc (h2 rfl)
    | _ :: _ :: _ :: _, _, hl, _ => simp at hl

theorem problemRe_iff {s : Str} : problemRe.accepts s = true ↔ IsProblemCode s := by
  rw [accepts_iff]
  unfold problemRe IsProblemCode
  have e : ∀ x : Str, Matches (.opt (.chr '.')) x ↔ (x = [] ∨ x = ['.']) := by
    intro x; rw [matches_opt, matches_chr]
  have lo : ∀ c : Char, (isLower c || isDigit c) = true ↔ ('a' ≤ c ∧ c ≤ 'z') ∨ ('0' ≤ c ∧ c ≤ '9') := by
    intro c; simp only [Bool.or_eq_true, isLower_iff, isDigit_range]
  rw [matches_seq]
  constructor
  · rintro ⟨a, y, rfl, ha, h⟩
    obtain ⟨c, rfl, hc⟩ := matches_cls.1 ha
    rw [matches_seq] at h
    obtain ⟨b, y, rfl, hb, h⟩ := h
    rw [matches_chr.1 hb]
    rw [matches_seq] at h
    obtain ⟨sc, y, rfl, hs, h⟩ := h
    rw [matches_seq] at hs
    obtain ⟨u, v, rfl, hu, hv⟩ := hs
    obtain ⟨u, rfl, hu'⟩ := matches_cls.1 hu
    obtain ⟨hv1, hv2⟩ := matches_upTo_cls.1 hv
    rw [matches_seq] at h
    obtain ⟨dot, r, rfl, hdot, h⟩ := h
    rw [matches_chr.1 hdot]
    have hr := descriptors_iff.1 (show ∃ d1 s1 d2 s2 d3, r = d1 ++ (s1 ++ (d2 ++ (s2 ++ d3))) ∧ _ from by
      simp only [matches_seq, matches_star_cls, e] at h
      obtain ⟨d1, _, rfl, h1, s1, _, rfl, hs1, d2, _, rfl, h2, s2, d3, rfl, hs2, h3⟩ := h
      exact ⟨d1, s1, d2, s2, d3, rfl, h1, hs1, h2, hs2, h3⟩)
    obtain ⟨d, more, rfl, hd, hm, hl, h2⟩ := hr
    refine ⟨c, u :: v, d, more, rfl, ?_, by simp, by simpa using hv1, ?_, hd, hm, hl, h2⟩
    · simp only [Bool.or_eq_true, beq_iff_eq] at hc
      rcases hc with (rfl | rfl) | rfl <;> decide
    · intro x hx
      rcases List.mem_cons.1 hx with rfl | hx
      · exact (lo _).1 hu'
      · exact (lo _).1 (hv2 x hx)
  · rintro ⟨c, sc, d, more, rfl, hc, hl1, hl32, hs, hd, hm, hl, h2⟩
    obtain ⟨d1, s1, d2, s2, d3, hr, h1, hs1, h2, hs2, h3⟩ := descriptors_iff.2 ⟨d, more, rfl, hd, hm, hl, h2⟩
    cases sc with
    | nil => simp at hl1
    | cons u v =>
      refine ⟨[c], _, rfl, matches_cls.2 ⟨c, rfl, ?_⟩, ?_⟩
      · simp only [List.mem_cons, List.not_mem_nil, or_false] at hc
        rcases hc with rfl | rfl | rfl <;> rfl
      · rw [hr]
        refine matches_seq.2 ⟨['.'], _, rfl, matches_chr.2 rfl, matches_seq.2 ⟨u :: v, _, rfl,
          matches_seq.2 ⟨[u], v, rfl, matches_cls.2 ⟨u, rfl, (lo u).2 (hs u (by simp))⟩, matches_upTo_cls.2
            ⟨by simpa using hl32, fun x hx => (lo x).2 (hs x (by simp [hx]))⟩⟩,
          matches_seq.2 ⟨['.'], _, rfl, matches_chr.2 rfl, ?_⟩⟩⟩
        simp only [matches_seq, matches_star_cls, e]
        exact ⟨d1, _, rfl, h1, s1, _, rfl, hs1, d2, _, rfl, h2, s2, d3, rfl, hs2, h3⟩

/-- C47.  Exactly the codes of the grammar are accepted, and the problem has the given code and nothing
else. -/
theorem C47_from_code (code : Str) (p : Problem) :
    Problem.fromCode code = .ok p ↔
      IsProblemCode code ∧ p.code = code ∧ p.comment = none ∧ p.args = [] ∧ p.escalateTo = none := by
  unfold Problem.fromCode
  by_cases h : IsProblemCode code
  · rw [if_pos (problemRe_iff.2 h)]
    simp only [Res.ok.injEq, h, true_and]
    constructor
    · rintro rfl; exact ⟨rfl, rfl, rfl, rfl⟩
    · rintro ⟨h1, h2, h3, h4⟩
      cases p
      simp_all [Problem.dflt]
  · rw [if_neg (fun h' => h (problemRe_iff.1 h'))]
    simp [h]

/-- C47.  The sorter `|` is accepted. -/
theorem C47_bar_accepted : ∃ p, Problem.fromCode c!"|.p.x" = .ok p :=
  ⟨{ Problem.dflt with code := c!"|.p.x" }, (C47_from_code _ _).2
    ⟨⟨'|', c!"p", c!"x", [], rfl, by decide, by decide, by decide, by decide, by decide, by decide, by decide,
      by decide⟩, rfl, rfl, rfl, rfl⟩⟩

/-- C47.  The code of a known problem is not a problem code, for none of them. -/
theorem C47_known_rejected (k : KnownProblem) (p : Problem) :
    Problem.fromCode (Problem.fromKnown k).code ≠ .ok p := by
  intro h
  obtain ⟨c, sc, d, more, hs, hc, -⟩ := ((C47_from_code _ _).1 h).1
  have : c = '"' := by
    have := congrArg List.head? hs
    exact (Option.some.inj this).symm
  subst this
  revert hc; decide

example : ∃ p, Problem.fromCode c!"e.p.xfer.cant-use-endpoint" = .ok p :=
  ⟨{ Problem.dflt with code := c!"e.p.xfer.cant-use-endpoint" }, (C47_from_code _ _).2
    ⟨⟨'e', c!"p", c!"xfer", [c!"cant-use-endpoint"], rfl, by decide, by decide, by decide, by decide, by decide, by decide,
      by decide, by decide⟩, rfl, rfl, rfl, rfl⟩⟩

/-- C47: three descriptors with a hyphen in the first are rejected. -/
example (p : Problem) : Problem.fromCode c!"e.p.me-res.a.b" ≠ .ok p := by
  simp [show Problem.fromCode c!"e.p.me-res.a.b" = .err (.generic "Code badly formatted for this problem") from by decide]

end Verif
