import Verif.Spec.Number
import Mathlib.Algebra.Order.Ring.Abs

/-!
# Numbers that are nearly the same
-/

namespace Verif.Spec

/-- `t` and `u` are numbers, and the value of `u` differs from that of `t` by at most the part `d` of it. -/
def NearValue (d : ℚ) (t u : List Char) : Prop :=
  ∃ neg s e s' e', Decimal t neg s e ∧ Decimal u neg s' e' ∧
    |decimalVal neg s' e' - decimalVal neg s e| ≤ d * |decimalVal neg s e|

/-- Integers of 64 bits, and numbers whose size is from 10^-285 up to 10^299, or which are zero; written with fewer than
2^29 characters. -/
def MidNum (t : List Char) : Prop :=
  IntTok t ∨ ∃ neg s e, Decimal t neg s e ∧ t.length < 2 ^ 29 ∧
    (s = 0 ∧ -2 ^ 30 ≤ e ∧ e ≤ 2 ^ 30 ∨ 10 ^ (-285 : Int) ≤ (s : ℚ) * 10 ^ e ∧ (s : ℚ) * 10 ^ e ≤ 10 ^ (299 : Int))

/-- All numbers of the document are such. -/
inductive AllNums (p : List Char → Prop) : Json → Prop
  | null : AllNums p .null
  | bool (b) : AllNums p (.bool b)
  | str (s) : AllNums p (.str s)
  | num {t} : p t → AllNums p (.num t)
  | arr {l} : (∀ a ∈ l, AllNums p a) → AllNums p (.arr l)
  | obj {es} : (∀ k v, (k, v) ∈ es → AllNums p v) → AllNums p (.obj es)

/-- `v` is what is read after `n` readings, each of what was printed after the one before. -/
inductive Readings (F : Str → Option Str) : Nat → Json → Json → Prop
  | zero (j) : Readings F 0 j j
  | succ {n j v w} : Denotes F j v → Readings F n v w → Readings F (n + 1) j w

end Verif.Spec
