import Verif.Spec.Near

/-!
# Numbers that are too large or too small
-/

namespace Verif.Spec

/-- A number of at least 1.8 * 10^308, with any exponent; written with fewer than 2^29 characters. -/
def BigNum (t : List Char) : Prop :=
  ∃ neg s e, Decimal t neg s e ∧ t.length < 2 ^ 29 ∧ 18 * 10 ^ (307 : Int) ≤ (s : ℚ) * 10 ^ e

/-- A number that is not zero and at most 2.4 * 10^-324, with any exponent; written with fewer than 2^29 characters. -/
def TinyNum (t : List Char) : Prop :=
  ∃ neg s e, Decimal t neg s e ∧ t.length < 2 ^ 29 ∧ 0 < s ∧ (s : ℚ) * 10 ^ e ≤ 24 * 10 ^ (-325 : Int)

/-- Integers of 64 bits, and numbers whose size is from 2.5 * 10^-324 up to 1.79 * 10^308, or which are zero; written with fewer
than 2^29 characters. -/
def KeptNum (t : List Char) : Prop :=
  IntTok t ∨ ∃ neg s e, Decimal t neg s e ∧ t.length < 2 ^ 29 ∧
    (s = 0 ∧ -2 ^ 30 ≤ e ∧ e ≤ 2 ^ 30 ∨
      25 * 10 ^ (-325 : Int) ≤ (s : ℚ) * 10 ^ e ∧ (s : ℚ) * 10 ^ e ≤ 179 * 10 ^ (306 : Int))

/-- `u` is a number of value zero. -/
def ZeroNum (u : List Char) : Prop := ∃ neg e, Decimal u neg 0 e

/-- Some number of the document is such, wherever it stands. -/
inductive SomeNum (p : List Char → Prop) : Json → Prop
  | num {t} : p t → SomeNum p (.num t)
  | arr {l a} : a ∈ l → SomeNum p a → SomeNum p (.arr l)
  | obj {es k v} : (k, v) ∈ es → SomeNum p v → SomeNum p (.obj es)

end Verif.Spec
