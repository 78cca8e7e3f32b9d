import Verif.Spec.JsonText

/-! # Specification: hexadecimal texts -/

namespace Verif.Spec

/-- `HexText s bs`: `s` writes each byte of `bs` as two hexadecimal digits of either letter case,
high digit first. -/
inductive HexText : List Char → List UInt8 → Prop
  | nil : HexText [] []
  | cons {a b x y s bs} {n : UInt8} : (a, x) ∈ hexTable → (b, y) ∈ hexTable → n.toNat = 16 * x + y →
      HexText s bs → HexText (a :: b :: s) (n :: bs)

end Verif.Spec
