import Verif.Model.Algo.Ecdsa
import Verif.Model.Crypto

/-! # Public keys for ECDSA, as the standards have it (SEC 1, sections 2.3.3 and 3.2.1) -/

namespace Verif.Spec

/-- The public key of a secret: the short form of the point, or the long one. -/
def ecPublic (c : Algo.Curve) (short : Bool) (sk : Bytes) : Option Bytes :=
  match c.ofSecret sk with
  | none => none
  | some d =>
    match c.mul d c.base with
    | none => none
    | some (x, y) =>
      some (if short then (if y % 2 = 0 then 2 else 3) :: Algo.beBytes 32 x
        else 4 :: Algo.beBytes 32 x ++ Algo.beBytes 32 y)

/-- The curve of an algorithm (RFC 7518, section 3.4, and RFC 8812, section 3.2). -/
def curveOf : SignAlg → Option Algo.Curve
  | .edDsa => none
  | .es256 => some Algo.p256
  | .es256k => some Algo.k256

/-- The other signature with the same first half: the second half negated modulo the order. -/
def mirror (c : Algo.Curve) (sig : Bytes) : Bytes :=
  sig.take 32 ++ Algo.beBytes 32 (c.n - Algo.beNat (sig.drop 32))

/-- Another public key, in the short form, from a public key, a message and its signature: the point `-Q - (2 z / r) G`
for the point `Q`, the hash `z` of the message and the first half `r` of the signature. -/
def otherKey (c : Algo.Curve) (pk b sig : Bytes) : Option Bytes :=
  match c.ofSec1 pk with
  | none => none
  | some (x, y) =>
    let w := 2 * Algo.Curve.hash b * Algo.invMod c.n (Algo.beNat (sig.take 32)) % c.n
    match c.add (some (x, (c.p - y) % c.p)) (c.mul ((c.n - w) % c.n) c.base) with
    | none => none
    | some (x', y') => some ((if y' % 2 = 0 then 2 else 3) :: Algo.beBytes 32 x')

/-- The two numbers that are computed from two messages, their signatures and the first half `r` that these share: for the
hashes `z`, `z'` and the second halves `s`, `s'`, the solutions `d` of `s' (z + r d) = s (z' + r d)` and of
`s' (z + r d) = - s (z' + r d)`. -/
def sharedSecrets (c : Algo.Curve) (b b' sig sig' : Bytes) : List Nat :=
  let z := Algo.beNat (Algo.sha256 b)
  let z' := Algo.beNat (Algo.sha256 b')
  let r := Algo.beNat (sig.take 32)
  let s := Algo.beNat (sig.drop 32)
  let s' := Algo.beNat (sig'.drop 32)
  [(s * z' + (c.n - s') * z) * Algo.invMod c.n (r * (s' + (c.n - s))) % c.n,
    ((c.n - s) * z' + (c.n - s') * z) * Algo.invMod c.n (r * (s' + s)) % c.n]

end Verif.Spec
