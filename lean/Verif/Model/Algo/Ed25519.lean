import Verif.Model.Algo.Sha512
import Verif.Model.Algo.X25519

/-!
# Ed25519

The signatures of the crate `ed25519-dalek` 1.0 that `src/crypto/signer.rs:30-37,69-76` calls, written down from
RFC 8032, section 5.1, with the checks of that crate.
-/

namespace Verif.Algo

/-- The constant of the curve (RFC 8032, section 5.1; used for `src/crypto/signer.rs:34,74`). -/
def edD : Nat := 37095705934669439343138083508754565189542113879843219016388785533085940283555

/-- The order of the base point (RFC 8032, section 5.1; used for `src/crypto/signer.rs:34,74`). -/
def edL : Nat := 2 ^ 252 + 27742317777372353535851937790883648493

/-- A square root of minus one (RFC 8032, section 5.1.3; used for `src/crypto/signer.rs:33,72`). -/
def edI : Nat := 19681161376707505956807079304988542015446066515923890162744021073123829784752

/-- The inverse in the field (RFC 8032, section 5.1; used for `src/crypto/signer.rs:34,74`). -/
def fInv (a : Nat) : Nat := fPow a (p25519 - 2) 255

/-- The sum of two points (RFC 8032, section 5.1.4, in affine coordinates; used for `src/crypto/signer.rs:34,74`). -/
def edAdd (p q : Nat × Nat) : Nat × Nat :=
  let t := fMul (fMul (fMul (fMul edD p.1) q.1) p.2) q.2
  (fMul (fAdd (fMul p.1 q.2) (fMul q.1 p.2)) (fInv (fAdd 1 t)),
   fMul (fAdd (fMul p.2 q.2) (fMul p.1 q.1)) (fInv (fSub 1 t)))

/-- The multiple by the `n` low bits of a scalar, most significant first, from `acc` on (RFC 8032, section 5.1.4;
used for `src/crypto/signer.rs:34,74`). -/
def edMulFrom (k : Nat) (q : Nat × Nat) : Nat → Nat × Nat → Nat × Nat
  | 0, acc => acc
  | n + 1, acc =>
    let d := edAdd acc acc
    edMulFrom k q n (if k >>> n % 2 = 1 then edAdd d q else d)

/-- The multiple of a point (RFC 8032, section 5.1.4; used for `src/crypto/signer.rs:34,74`). -/
def edMul (k : Nat) (q : Nat × Nat) : Nat × Nat := edMulFrom k q 256 (0, 1)

/-- The negative of a point (RFC 8032, section 5.1.4; used for `src/crypto/signer.rs:74`). -/
def edNeg (p : Nat × Nat) : Nat × Nat := (fSub 0 p.1, p.2)

/-- The base point (RFC 8032, section 5.1; used for `src/crypto/signer.rs:34,74`). -/
def edBase : Nat × Nat :=
  (15112221349535400772501151409588531511454012693041857206046113283949847762202,
   46316835694926478169428394003475163141307993866256225615783033603165251855960)

/-- A point as bytes (RFC 8032, section 5.1.2; used for `src/crypto/signer.rs:34,74`). -/
def edCompress (p : Nat × Nat) : Bytes := leBytes 32 (p.2 + p.1 % 2 * 2 ^ 255)

/-- A point from 32 bytes (RFC 8032, section 5.1.3; `CompressedEdwardsY::decompress`, called for
`src/crypto/signer.rs:33,72`).  As in the crate the second coordinate is taken modulo the prime and zero may have a
sign. -/
def edDecompress (b : Bytes) : Option (Nat × Nat) :=
  if b.length ≠ 32 then none
  else
    let y := leNat b % 2 ^ 255 % p25519
    let yy := fMul y y
    let w := fMul (fSub yy 1) (fInv (fAdd (fMul edD yy) 1))
    let x := fPow w ((p25519 + 3) / 8) 255
    let x := if fMul x x = w then x else fMul x edI
    if fMul x x = w then some (if x % 2 = leNat b / 2 ^ 255 then x else fSub 0 x, y) else none

/-- A hash as a scalar (RFC 8032, section 5.1.6; used for `src/crypto/signer.rs:34,74`). -/
def edHash (b : Bytes) : Nat := leNat (sha512 b) % edL

/-- The secret scalar (RFC 8032, section 5.1.5; used for `src/crypto/signer.rs:34`). -/
def edScalar (sk : Bytes) : Nat := clamp ((sha512 sk).take 32)

/-- A signature of a message (RFC 8032, section 5.1.6; `Keypair::from_bytes` and `Keypair::sign`, called at
`src/crypto/signer.rs:33-34`): the key is a secret followed by a public key, which is only checked to be one. -/
def edSign (key m : Bytes) : Option Bytes :=
  if key.length ≠ 64 then none
  else
    let sk := key.take 32
    let pk := key.drop 32
    match edDecompress pk with
    | none => none
    | some _ =>
      let r := edHash ((sha512 sk).drop 32 ++ m)
      let rb := edCompress (edMul r edBase)
      let k := edHash (rb ++ pk ++ m)
      some (rb ++ leBytes 32 ((r + k * edScalar sk) % edL))

/-- Verification: public key, message, signature; `none` if the key or the signature is malformed (RFC 8032, section
5.1.7; `PublicKey::from_bytes`, `Signature::try_from` and `PublicKey::verify`, called at
`src/crypto/signer.rs:72-74`).  The second half of the signature must be less than the order. -/
def edVerify (pk m sig : Bytes) : Option Bool :=
  match edDecompress pk with
  | none => none
  | some a =>
    let s := leNat (sig.drop 32)
    if sig.length ≠ 64 ∨ 2 ^ 253 ≤ s then none
    else if edL ≤ s then some false
    else
      let rb := sig.take 32
      let k := edHash (rb ++ pk ++ m)
      some (edCompress (edAdd (edMul k (edNeg a)) (edMul s edBase)) == rb)

end Verif.Algo
