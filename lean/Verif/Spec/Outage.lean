import Verif.Model.Resolver

/-!
# Answers that are of use
-/

namespace Verif.Spec

open Verif

/-- Answer number `n` about a DID is a document with a key for key agreement. -/
def Answered (A : Answers) (n : Nat) (did : Str) : Prop :=
  ∃ d k, A n did = some d ∧ d.keyFor c!"X25519" = some k

end Verif.Spec
