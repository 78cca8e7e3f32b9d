import Verif.Model.Algo.X25519
import Mathlib.Data.Nat.Digits.Defs
import Mathlib.Data.ZMod.Basic

/-!
# Specification: weak public keys of X25519
-/

namespace Verif.Spec

/-- The number a public key stands for (RFC 7748, section 5): its bytes, the lowest first, without the highest bit. -/
def keyNumber (pk : List UInt8) : Nat := Nat.ofDigits 256 (pk.map UInt8.toNat) % 2 ^ 255

/-- The seven numbers below `2 ^ 255` that stand for points of small order: zero, one, minus one, the coordinates of the
points of order eight, and zero and one once more with the prime `2 ^ 255 - 19` added. -/
def weakNumbers : List Nat :=
  [0, 1, 325606250916557431795983626356110631294008115727848805560023387167927233504,
    39382357235489614581723060781553021112529911719440698176882885853963445705823, 2 ^ 255 - 20, 2 ^ 255 - 19, 2 ^ 255 - 18]

/-- A public key that stands for one of them. -/
def WeakKey (pk : List UInt8) : Prop := keyNumber pk ∈ weakNumbers

instance (pk : List UInt8) : Decidable (WeakKey pk) := by unfold WeakKey; infer_instance

/-- The keys of 32 bytes that stand for one of them: each with the highest bit clear and set. -/
def weakKeys : List (List UInt8) := (weakNumbers ++ weakNumbers.map (· + 2 ^ 255)).map (Algo.leBytes 32)

/-- The number is a coordinate of a point of Curve25519 (RFC 7748, section 4.1), and not of its twist. -/
def OnCurve (pk : List UInt8) : Prop :=
  ∃ y : ZMod (2 ^ 255 - 19), y ^ 2 = (keyNumber pk : ZMod (2 ^ 255 - 19)) ^ 3 + 486662 * (keyNumber pk : ZMod (2 ^ 255 - 19)) ^ 2 +
    (keyNumber pk : ZMod (2 ^ 255 - 19))

end Verif.Spec
