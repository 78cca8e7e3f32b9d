import Verif.Props.Text

/-!
# Rotation claims, problem reports and names of algorithms

C76 (texts of rotation claims and problems), C78 (`to_string` of the enums).
-/

namespace Verif

open Spec

/-- The members named `k`. -/
def Spec.named (k : Str) (es : List (Str × Json)) : List Json := (es.filter fun p => p.1 = k).map (·.2)

theorem named_eq (k : Str) (es : List (Str × Json)) : named k es = fieldVals k es := by
  induction es with
  | nil => rfl
  | cons p es ih =>
    unfold named at ih ⊢
    by_cases h : p.1 = k
    · simp [fieldVals, h, ih]
    · simp [fieldVals, h, ih]

/-- Optional texts: absent, `null`, or a string. -/
def Spec.OptText (l : List Json) (v : Option Str) : Prop :=
  v = none ∧ (l = [] ∨ l = [.null]) ∨ ∃ s, v = some s ∧ l = [.str s]

/-- What documents say which rotation claims: an object with exactly one `iss` and at most one `sub`, or an
array of `sub` and `iss`. -/
def Spec.ClaimsDoc (j : Json) (c : PriorClaims) : Prop :=
  (∃ es, j = .obj es ∧ named c!"iss" es = [.str c.iss] ∧ OptText (named c!"sub" es) c.sub) ∨
    ∃ v, j = .arr [v, .str c.iss] ∧ OptText [v] c.sub

theorem reqField_str {k : Str} {es : List (Str × Json)} {s : Str} :
    reqField decStr k es = some s ↔ named k es = [.str s] := by
  rw [named_eq]
  unfold reqField
  split
  · rename_i v h
    rw [h]
    cases v <;> simp [decStr]
  · rename_i h
    constructor
    · intro h'; cases h'
    · intro h'; exact absurd h' (h _)

theorem optField_str {k : Str} {es : List (Str × Json)} {v : Option Str} :
    optField decStr k es = some v ↔ OptText (named k es) v := by
  rw [named_eq]
  unfold optField OptText
  split
  · rename_i h
    rw [h]
    constructor
    · intro h'; cases h'; exact .inl ⟨rfl, .inl rfl⟩
    · rintro (⟨rfl, -⟩ | ⟨s, -, h'⟩)
      · rfl
      · cases h'
  · rename_i x h
    rw [h]
    cases x <;> simp [decOpt, decStr, eq_comm]
  · rename_i h1 h2
    constructor
    · intro h; cases h
    · rintro (⟨-, h | h⟩ | ⟨s, -, h⟩)
      · exact absurd h h1
      · exact absurd h (h2 _)
      · exact absurd h (h2 _)

/-- C76.  `from_str` of rotation claims, exactly. -/
theorem C76_claims_iff (s : Str) (c : PriorClaims) :
    PriorClaims.ofStr s = .ok c ↔ ∃ j, Document j s ∧ ClaimsDoc j c := by
  unfold PriorClaims.ofStr
  rw [Res.ofOpt_eq_ok, Option.bind_eq_some_iff]
  refine exists_congr fun j => and_congr parseJson_iff ?_
  unfold decPrior ClaimsDoc
  simp only [Option.bind_eq_bind, Option.bind_eq_some_iff, Option.pure_def, Option.some.injEq, reqField_str,
    optField_str]
  constructor
  · rintro ⟨es, h1, v, h2, i, h3, rfl⟩
    cases j with
    | obj es' => cases h1; exact .inl ⟨_, rfl, h3, h2⟩
    | arr l =>
      simp only [structEntries, List.length_cons, List.length_nil] at h1
      split at h1
      · rename_i hl
        cases h1
        match l, hl with
        | [a, b], _ =>
          simp [named] at h2 h3
          exact .inr ⟨a, by rw [h3], h2⟩
      · cases h1
    | _ => cases h1
  · rintro (⟨es, rfl, h1, h2⟩ | ⟨v, rfl, h2⟩)
    · exact ⟨es, rfl, _, h2, _, h1, rfl⟩
    · exact ⟨_, rfl, c.sub, by simpa [named] using h2, c.iss, by simp [named], rfl⟩

/-- C76.  The same from bytes. -/
theorem C76_claims_bytes (b : Bytes) (c : PriorClaims) :
    PriorClaims.ofBytes b = .ok c ↔ ∃ s j, b = utf8 s ∧ Document j s ∧ ClaimsDoc j c := by
  unfold PriorClaims.ofBytes
  cases h : utf8Decode b with
  | none =>
    constructor
    · intro h'; cases h'
    · rintro ⟨s, j, rfl, -⟩
      rw [utf8Decode_utf8] at h
      cases h
  | some s =>
    rw [C76_claims_iff]
    obtain rfl := utf8Decode_eq_some.1 h
    constructor
    · rintro ⟨j, h1, h2⟩; exact ⟨s, j, rfl, h1, h2⟩
    · rintro ⟨s', j, h1, h2, h3⟩
      rw [h1, utf8Decode_utf8] at h
      cases h
      exact ⟨j, h2, h3⟩

/-- C76.  What is written for claims is read as these claims. -/
theorem C76_claims_roundtrip (c : PriorClaims) : PriorClaims.ofStr (printJson (encPrior c)) = .ok c ∧
    PriorClaims.ofBytes (utf8 (printJson (encPrior c))) = .ok c := by
  have hn : NumsOk (encPrior c) := by
    unfold encPrior
    cases c.sub <;> simp [NumsOk, NumsOkM, encOpt]
  have h : PriorClaims.ofStr (printJson (encPrior c)) = .ok c := by
    unfold PriorClaims.ofStr
    rw [parseJson_print hn, Option.bind_some, decPrior_enc]
    rfl
  refine ⟨h, ?_⟩
  unfold PriorClaims.ofBytes
  rw [utf8Decode_utf8]
  exact h

/-- C76.  What is written for a problem is read as that problem, whatever its code. -/
theorem C76_problem_roundtrip (p : Problem) :
    (parseJson (printJson (encProblem p))).bind decProblem = some p := by
  have hn : NumsOk (encProblem p) := by
    have : ∀ l : List Str, NumsOkL (l.map Json.str) := by
      intro l
      induction l with
      | nil => trivial
      | cons a l ih => exact ⟨trivial, ih⟩
    unfold encProblem
    cases p.comment <;> cases p.escalateTo <;> simp [NumsOk, NumsOkM, encOpt, this]
  have hd : ∀ l : List Str, decVec decStr (.arr (l.map Json.str)) = some l := by
    intro l
    simp only [decVec]
    induction l with
    | nil => rfl
    | cons a l ih => simp only [List.map_cons, decAll, decStr, ih]
  rw [parseJson_print hn, Option.bind_some]
  unfold decProblem encProblem
  simp only [structEntries, Option.bind_eq_bind, Option.bind_some, reqField, optField, fieldVals]
  obtain ⟨a, b, c, d⟩ := p
  cases b <;> cases d <;> simp [encOpt, decOpt, decStr, hd]

/-- C76: claims with and without `sub`, in both shapes. -/
example : ClaimsDoc (.obj [(c!"iss", .str c!"did:old"), (c!"x", .null)]) ⟨none, c!"did:old"⟩ ∧
    ClaimsDoc (.arr [.str c!"did:new", .str c!"did:old"]) ⟨some c!"did:new", c!"did:old"⟩ :=
  ⟨.inl ⟨_, rfl, by decide, .inl ⟨rfl, .inl (by decide)⟩⟩, .inr ⟨_, rfl, .inr ⟨_, rfl, rfl⟩⟩⟩

/-! ## C78 -/

/-- C78, as written, is false for every algorithm and every known problem: `to_string` puts the name in
quotes; the result is neither read as an algorithm by serde nor accepted as `alg` of an envelope or
signature, nor as a problem code. -/
theorem C78_to_string_violated :
    (∀ a : KeyAlgorithm, a.toString = '"' :: (a.label ++ c!"\"") ∧ a.toString ≠ a.label ∧
      decKeyAlgorithm (.str a.toString) = none ∧ (∀ c, CryptoAlg.ofStr a.toString ≠ .ok c) ∧
      ∀ c, SignAlg.ofStr a.toString ≠ .ok c) ∧
    ∀ (k : KnownProblem), (Problem.fromKnown k).code = '"' :: (k.label ++ c!"\"") ∧
      ∀ p, Problem.fromCode (Problem.fromKnown k).code ≠ .ok p := by
  refine ⟨fun a => ⟨?_, ?_, ?_, ?_, ?_⟩, fun k => ⟨?_, C47_known_rejected k⟩⟩
  · cases a <;> decide
  · cases a <;> decide
  · cases a <;> decide
  · intro c; cases a <;> cases c <;> decide
  · intro c; cases a <;> cases c <;> decide
  · cases k <;> decide

/-- C78, what holds: `to_string` is the JSON text of the name, reading it as JSON gives the algorithm
back. -/
theorem C78_to_string_partial (a : KeyAlgorithm) :
    (parseJson a.toString).bind decKeyAlgorithm = some a := by
  unfold KeyAlgorithm.toString
  rw [parseJson_print (by trivial), Option.bind_some]
  cases a <;> decide

end Verif
