import Verif.Spec.Value

/-!
# Documents with the same content

Two parsed documents have the same content if they differ only in the order of the members of objects and
in the way floats are written.  Member names are distinct in every object.
-/

namespace Verif.Spec

open Verif

/-- Same content. -/
inductive Same (F : Str → Option Str) : Json → Json → Prop
  | null : Same F .null .null
  | bool (b) : Same F (.bool b) (.bool b)
  | str (s) : Same F (.str s) (.str s)
  | num (t) : Same F (.num t) (.num t)
  | float {t u} : ¬ IntTok t → ¬ IntTok u → F t = F u → Same F (.num t) (.num u)
  | arr {l l'} : l.length = l'.length →
      (∀ (i : Nat) a b, l[i]? = some a → l'[i]? = some b → Same F a b) → Same F (.arr l) (.arr l')
  | obj {es es'} : (es.map (·.1)).Nodup → (es.map (·.1)).Perm (es'.map (·.1)) →
      (∀ k v v', (k, v) ∈ es → (k, v') ∈ es' → Same F v v') → Same F (.obj es) (.obj es')

/-- Member names are distinct in every object of the document. -/
inductive Distinct : Json → Prop
  | null : Distinct .null
  | bool (b) : Distinct (.bool b)
  | str (s) : Distinct (.str s)
  | num (t) : Distinct (.num t)
  | arr {l} : (∀ a ∈ l, Distinct a) → Distinct (.arr l)
  | obj {es} : (es.map (·.1)).Nodup → (∀ k v, (k, v) ∈ es → Distinct v) → Distinct (.obj es)

/-- Floats are printed as number tokens that are not integers. -/
def FloatLaw (F : Str → Option Str) : Prop :=
  ∀ t u, F t = some u → NumTok u ∧ ¬ IntTok u

end Verif.Spec
