import Mathlib.Data.ZMod.Basic
import Verif.Model.Algo.Ed25519

/-! # Keys and signatures for EdDSA, as RFC 8032 has it -/

namespace Verif.Spec

/-- The public key of a secret (RFC 8032, section 5.1.5). -/
def edPublic (sk : Bytes) : Bytes := Algo.edCompress (Algo.edMul (Algo.edScalar sk) Algo.edBase)

/-- The 32 bytes are a point (RFC 8032, section 5.1.3, without the requirement that the number is reduced): some `x`
goes with the number of the low 255 bits. -/
def EdPoint (b : Bytes) : Prop :=
  b.length = 32 ∧ ∃ x, (x * x * (Algo.edD * ((Algo.leNat b % 2 ^ 255) * (Algo.leNat b % 2 ^ 255)) + 1) + 1) % Algo.p25519 =
    (Algo.leNat b % 2 ^ 255) * (Algo.leNat b % 2 ^ 255) % Algo.p25519

/-- The public key that is the neutral element. -/
def edNeutral : Bytes := 1 :: List.replicate 31 0

/-- The four ways in which the neutral element is written: the number may be reduced or not, and the sign of zero may be
either. -/
def edNeutrals : List Bytes :=
  [Algo.leBytes 32 1, Algo.leBytes 32 (2 ^ 255 + 1), Algo.leBytes 32 (Algo.p25519 + 1),
    Algo.leBytes 32 (2 ^ 255 + Algo.p25519 + 1)]

/-- A public key that is a point of small order: eight times it is the neutral element. -/
def EdWeak (pk : Bytes) : Prop := ∃ a, Algo.edDecompress pk = some a ∧ Algo.edMul 8 a = (0, 1)

/-- A signature from a number that is no secret. -/
def edFree (s : Nat) : Bytes := Algo.edCompress (Algo.edMul s Algo.edBase) ++ Algo.leBytes 32 s

/-- A signature made with a scalar, a public key and a nonce (RFC 8032, section 5.1.6, steps 3 to 6). -/
def edForge (e : Nat) (pk : Bytes) (r : Nat) (m : Bytes) : Bytes :=
  let rb := Algo.edCompress (Algo.edMul r Algo.edBase)
  rb ++ Algo.leBytes 32 ((r + Algo.edHash (rb ++ pk ++ m) * e) % Algo.edL)

/-- The scalar from two signatures of one message under two public halves: the difference of the second halves, by the
difference of the hashes. -/
def edRecover (pk pk' m sig sig' : Bytes) : Nat :=
  (((Algo.leNat (sig.drop 32) : ZMod Algo.edL) - (Algo.leNat (sig'.drop 32) : ZMod Algo.edL)) *
    ((Algo.edHash (sig.take 32 ++ pk ++ m) : ZMod Algo.edL) - (Algo.edHash (sig'.take 32 ++ pk' ++ m) : ZMod Algo.edL))⁻¹).val

/-- The scalar from two signatures of two messages under one public key with the same first half. -/
def edExtract (pk m m' sig sig' : Bytes) : Nat :=
  (((Algo.leNat (sig.drop 32) : ZMod Algo.edL) - (Algo.leNat (sig'.drop 32) : ZMod Algo.edL)) *
    ((Algo.edHash (sig.take 32 ++ pk ++ m) : ZMod Algo.edL) - (Algo.edHash (sig'.take 32 ++ pk ++ m') : ZMod Algo.edL))⁻¹).val

end Verif.Spec
