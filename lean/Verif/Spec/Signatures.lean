import Verif.Spec.JsonText

/-!
# Specification: where the signatures of a JWS stand

RFC 7515 section 7.2: the member `signature` of the document (flattened form), and the members `signature`
of the elements of `signatures` (general form).  The derived deserializer also takes an element written as
an array, whose third entry is the signature.
-/

namespace Verif.Spec

/-- `v` stands at the place of a signature in the document `j`. -/
def SignatureAt (j v : Json) : Prop :=
  ∃ es, j = .obj es ∧ ((c!"signature", v) ∈ es ∨
    ∃ l x, (c!"signatures", .arr l) ∈ es ∧ x ∈ l ∧
      ((∃ es', x = .obj es' ∧ (c!"signature", v) ∈ es') ∨ ∃ l', x = .arr l' ∧ l'[2]? = some v))

/-- No signature of the text is written with escapes: none is struck out in the reading of
`Spec.struck`. -/
def SignaturesPlain (s : List Char) : Prop :=
  ∀ jm, DocumentW struck jm s → ∀ v, SignatureAt jm v → v ≠ .bool false

end Verif.Spec
