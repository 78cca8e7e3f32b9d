import Verif.Model.Json
import Verif.Model.HMap
import Verif.Spec.JsonText

/-!
# What value a JSON document denotes

A relation between a parsed document and a JSON value in canonical form: of several members with the
same name the last one counts, members are ordered by name, integers keep their digits, other numbers
are formatted by the float code `F`.  Independent of the functions of the model.
-/

namespace Verif.Spec

open Verif

/-- Value of a digit string. -/
def digitsVal : List Char → Nat → Nat
  | [], acc => acc
  | c :: t, acc => digitsVal t (10 * acc + (c.toNat - '0'.toNat))

/-- Only digits. -/
def AllDigits (t : List Char) : Prop := ∀ c ∈ t, '0'.toNat ≤ c.toNat ∧ c.toNat ≤ '9'.toNat

/-- Tokens kept as integers: below 2^64, or negative and not below -2^63. -/
def IntTok (t : Str) : Prop :=
  (t ≠ [] ∧ AllDigits t ∧ digitsVal t 0 < 2 ^ 64) ∨
  ∃ d, t = '-' :: d ∧ AllDigits d ∧ 0 < digitsVal d 0 ∧ digitsVal d 0 ≤ 2 ^ 63

/-- `u` is the number written for the token `t`. -/
def NumVal (F : Str → Option Str) (t u : Str) : Prop :=
  IntTok t ∧ u = t ∨ ¬ IntTok t ∧ F t = some u

/-- `v` is the last member named `k`. -/
def LastMember (k : Str) (es : List (Str × Json)) (v : Json) : Prop :=
  ∃ a b, es = a ++ (k, v) :: b ∧ ∀ p ∈ b, p.1 ≠ k

/-- The document `j` denotes the value `v`. -/
inductive Denotes (F : Str → Option Str) : Json → Json → Prop
  | null : Denotes F .null .null
  | bool (b) : Denotes F (.bool b) (.bool b)
  | str (s) : Denotes F (.str s) (.str s)
  | num {t u} : NumVal F t u → Denotes F (.num t) (.num u)
  | arr {l l'} : l.length = l'.length →
      (∀ (i : Nat) a b, l[i]? = some a → l'[i]? = some b → Denotes F a b) → Denotes F (.arr l) (.arr l')
  | obj {es es'} (w : Json → Json) : (∀ k v, (k, v) ∈ es → Denotes F v (w v)) → SortedKeys es' →
      (∀ k v', (k, v') ∈ es' ↔ ∃ v, LastMember k es v ∧ v' = w v) → Denotes F (.obj es) (.obj es')

end Verif.Spec
