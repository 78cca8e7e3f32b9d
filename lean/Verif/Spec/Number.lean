import Verif.Spec.Value
import Mathlib.Algebra.Order.Field.Rat

/-!
# The value of a number

What a number in a JSON text stands for (RFC 8259, section 6): digits, a point and a power of ten.
-/

namespace Verif.Spec

/-- `t` is written with the digits of `s`, and stands for `s * 10 ^ e`, or its negative. -/
def Decimal (t : List Char) (neg : Bool) (s : Nat) (e : Int) : Prop :=
  ∃ int fd frac ex, ∃ x : Int, t = (if neg = true then ['-'] else []) ++ (int ++ (frac ++ ex)) ∧
    Digits int ∧ (int = ['0'] ∨ int.head? ≠ some '0') ∧
    (frac = [] ∧ fd = [] ∨ Digits fd ∧ frac = '.' :: fd) ∧
    (ex = [] ∧ x = 0 ∨ ∃ c d, (c = 'e' ∨ c = 'E') ∧ Digits d ∧
      (ex = c :: d ∧ x = digitsVal d 0 ∨ ex = c :: '+' :: d ∧ x = digitsVal d 0 ∨ ex = c :: '-' :: d ∧ x = -(digitsVal d 0 : Int))) ∧
    s = digitsVal (int ++ fd) 0 ∧ e = x - fd.length

/-- The value of the number. -/
def decimalVal (neg : Bool) (s : Nat) (e : Int) : ℚ := (if neg = true then -1 else 1) * (s * 10 ^ e)

/-- `t` and `u` are numbers of the same value. -/
def SameValue (t u : List Char) : Prop :=
  ∃ neg s e neg' s' e', Decimal t neg s e ∧ Decimal u neg' s' e' ∧ decimalVal neg s e = decimalVal neg' s' e'

/-- Integers of 64 bits, and numbers of at most 15 digits whose last digit stands at most 22 places behind and 7 places
before the point, except those from 10^15 up to 10^16. -/
def ShortNum (t : List Char) : Prop :=
  IntTok t ∨ ∃ neg s e, Decimal t neg s e ∧ t.length < 2 ^ 30 ∧ s < 10 ^ 15 ∧ -22 ≤ e ∧ e ≤ 7 ∧
    ((s : ℚ) * 10 ^ e < 10 ^ 15 ∨ 10 ^ 16 ≤ (s : ℚ) * 10 ^ e)

/-- All numbers of the document are such. -/
inductive ShortNums : Json → Prop
  | null : ShortNums .null
  | bool (b) : ShortNums (.bool b)
  | str (s) : ShortNums (.str s)
  | num {t} : ShortNum t → ShortNums (.num t)
  | arr {l} : (∀ a ∈ l, ShortNums a) → ShortNums (.arr l)
  | obj {es} : (∀ k v, (k, v) ∈ es → ShortNums v) → ShortNums (.obj es)

end Verif.Spec
