import Verif.Spec.Near

/-!
# Comparing numbers by their values
-/

namespace Verif.Spec

/-- `t` and `u` are numbers, and that of `t` is the smaller one. -/
def LessValue (t u : List Char) : Prop :=
  ∃ neg s e neg' s' e', Decimal t neg s e ∧ Decimal u neg' s' e' ∧ decimalVal neg s e < decimalVal neg' s' e'

/-- `t` and `u` are numbers, and that of `t` is not the larger one. -/
def AtMostValue (t u : List Char) : Prop :=
  ∃ neg s e neg' s' e', Decimal t neg s e ∧ Decimal u neg' s' e' ∧ decimalVal neg s e ≤ decimalVal neg' s' e'

/-- `t` and `u` are numbers, and that of `t` is smaller by more than the part `d` of their sizes. -/
def FarBelow (d : ℚ) (t u : List Char) : Prop :=
  ∃ neg s e neg' s' e', Decimal t neg s e ∧ Decimal u neg' s' e' ∧
    d * (|decimalVal neg s e| + |decimalVal neg' s' e'|) < decimalVal neg' s' e' - decimalVal neg s e

/-- `t` and `u` are numbers whose last digits stand at the same place, which is not that before the point, with digits that
fit 64 bits; and that of `t` is not the larger one. -/
def AlignedAtMost (t u : List Char) : Prop :=
  ∃ neg s neg' s' e, Decimal t neg s e ∧ Decimal u neg' s' e ∧ e ≠ 0 ∧ -2 ^ 30 ≤ e ∧ e ≤ 2 ^ 30 ∧ s < 2 ^ 64 ∧
    s' < 2 ^ 64 ∧ t.length < 2 ^ 29 ∧ u.length < 2 ^ 29 ∧ decimalVal neg s e ≤ decimalVal neg' s' e

end Verif.Spec
