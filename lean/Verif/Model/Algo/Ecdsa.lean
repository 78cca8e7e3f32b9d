import Verif.Model.Algo.Aes
import Verif.Model.Algo.Sha256

/-!
# ECDSA on P-256 and secp256k1

The signatures of the crates `p256` 0.9 and `k256` 0.9 that `src/crypto/signer.rs:38-54,77-92` call, written down
from SEC 1, version 2.0, FIPS 186-4 and SEC 2.
-/

namespace Verif.Algo

/-- A curve `y² = x³ + a x + b` modulo `p` with a base point of order `n` (SEC 2, section 2; used for
`src/crypto/signer.rs:38-54,77-92`). -/
structure Curve where
  p : Nat
  a : Nat
  b : Nat
  gx : Nat
  gy : Nat
  n : Nat

/-- P-256, also `secp256r1` (SEC 2, section 2.4.2; used for `src/crypto/signer.rs:38-45,77-84`). -/
def p256 : Curve where
  p := 0xffffffff00000001000000000000000000000000ffffffffffffffffffffffff
  a := 0xffffffff00000001000000000000000000000000fffffffffffffffffffffffc
  b := 0x5ac635d8aa3a93e7b3ebbd55769886bc651d06b0cc53b0f63bce3c3e27d2604b
  gx := 0x6b17d1f2e12c4247f8bce6e563a440f277037d812deb33a0f4a13945d898c296
  gy := 0x4fe342e2fe1a7f9b8ee7eb4a7c0f9e162bce33576b315ececbb6406837bf51f5
  n := 0xffffffff00000000ffffffffffffffffbce6faada7179e84f3b9cac2fc632551

/-- secp256k1 (SEC 2, section 2.4.1; used for `src/crypto/signer.rs:46-54,85-92`). -/
def k256 : Curve where
  p := 0xfffffffffffffffffffffffffffffffffffffffffffffffffffffffefffffc2f
  a := 0
  b := 7
  gx := 0x79be667ef9dcbbac55a06295ce870b07029bfcdb2dce28d959f2815b16f81798
  gy := 0x483ada7726a3c4655da4fbfc0e1108a8fd17b448a68554199c47d08ffb10d4b8
  n := 0xfffffffffffffffffffffffffffffffebaaedce6af48a03bbfd25e8cd0364141

/-- A power modulo `m` by the `n` low bits of the exponent (SEC 1, section 2.1; used for
`src/crypto/signer.rs:42,51,82,90`). -/
def expMod (m a e : Nat) : Nat → Nat
  | 0 => 1
  | n + 1 =>
    let r := expMod m a (e / 2) n
    if e % 2 = 1 then r * r % m * a % m else r * r % m

/-- The inverse modulo a prime of 256 bits (SEC 1, section 2.1; used for `src/crypto/signer.rs:42,51,82,90`). -/
def invMod (m a : Nat) : Nat := expMod m a (m - 2) 256

/-- The difference modulo `m` (SEC 1, section 2.1; used for `src/crypto/signer.rs:42,51,82,90`). -/
def subMod (m a b : Nat) : Nat := (a + (m - b % m)) % m

/-- A point in affine coordinates, `none` at infinity (SEC 1, section 2.2; used for `src/crypto/signer.rs:42,51,82,90`). -/
abbrev Pt := Option (Nat × Nat)

namespace Curve

/-- The sum of two points (SEC 1, section 2.2.1; used for `src/crypto/signer.rs:42,51,82,90`). -/
def add (c : Curve) : Pt → Pt → Pt
  | none, q => q
  | some p, none => some p
  | some (x1, y1), some (x2, y2) =>
    if x1 = x2 ∧ (y1 + y2) % c.p = 0 then none
    else
      let l :=
        if x1 = x2 then (3 * x1 * x1 + c.a) * invMod c.p (2 * y1 % c.p) % c.p
        else subMod c.p y1 y2 * invMod c.p (subMod c.p x1 x2) % c.p
      let x3 := subMod c.p (subMod c.p (l * l) x1) x2
      some (x3, subMod c.p (l * subMod c.p x1 x3) y1)

/-- The multiple by the `n` low bits of a scalar, most significant first, from `acc` on (SEC 1, section 2.2.1; used
for `src/crypto/signer.rs:42,51,82,90`). -/
def mulFrom (c : Curve) (k : Nat) (q : Pt) : Nat → Pt → Pt
  | 0, acc => acc
  | n + 1, acc =>
    let d := c.add acc acc
    mulFrom c k q n (if k >>> n % 2 = 1 then c.add d q else d)

/-- The multiple of a point (SEC 1, section 2.2.1; used for `src/crypto/signer.rs:42,51,82,90`). -/
def mul (c : Curve) (k : Nat) (q : Pt) : Pt := c.mulFrom k q 256 none

/-- The base point (SEC 2, section 2; used for `src/crypto/signer.rs:42,51,82,90`). -/
def base (c : Curve) : Pt := some (c.gx, c.gy)

/-- The right-hand side of the equation of the curve (SEC 1, section 2.2.1; used for `src/crypto/signer.rs:80,88`). -/
def rhs (c : Curve) (x : Nat) : Nat := (x * x * x + c.a * x + c.b) % c.p

/-- A point from its bytes, in the long and the short form (`VerifyingKey::from_sec1_bytes`, SEC 1, section 2.3.4;
called at `src/crypto/signer.rs:80,88`); both primes are 3 modulo 4.  Simplified: no other form is read. -/
def ofSec1 (c : Curve) : Bytes → Pt
  | [] => none
  | t :: b =>
    let x := beNat (b.take 32)
    if t = 4 ∧ b.length = 64 then
      let y := beNat (b.drop 32)
      if x < c.p ∧ y < c.p ∧ y * y % c.p = c.rhs x then some (x, y) else none
    else if (t = 2 ∨ t = 3) ∧ b.length = 32 then
      let y := expMod c.p (c.rhs x) ((c.p + 1) / 4) 256
      if x < c.p ∧ y * y % c.p = c.rhs x then some (x, if y % 2 = t.toNat % 2 then y else (c.p - y) % c.p) else none
    else none

/-- The hash of a message as a number (SEC 1, section 4.1.3; called at `src/crypto/signer.rs:42,51`). -/
def hash (m : Bytes) : Nat := beNat (sha256 m)

/-- A secret key from its bytes (`SigningKey::from_bytes`, called at `src/crypto/signer.rs:41,50`). -/
def ofSecret (c : Curve) (sk : Bytes) : Option Nat :=
  if sk.length = 32 ∧ 0 < beNat sk ∧ beNat sk < c.n then some (beNat sk) else none

/-- A signature with the nonce `k`, as numbers (SEC 1, section 4.1.3; called at `src/crypto/signer.rs:42,51`). -/
def signWith (c : Curve) (d k z : Nat) : Option (Nat × Nat) :=
  match c.mul k c.base with
  | none => none
  | some (x, _) =>
    let r := x % c.n
    let s := invMod c.n k * (z + r * d) % c.n
    if r = 0 ∨ s = 0 then none else some (r, s)

/-- A signature of a message: whether only the smaller of `s` and `-s` is made and taken (`k256` does, `p256` does
not), the source of nonces, secret, message (called at `src/crypto/signer.rs:38-54`).  Simplified: the source
of nonces is arbitrary (RFC 6979 in the crates); for a nonce without signature the crates panic, here there is
none. -/
def sign (c : Curve) (low : Bool) (nonce : Bytes → Bytes → Nat) (sk m : Bytes) : Option Bytes :=
  match c.ofSecret sk with
  | none => none
  | some d =>
    match c.signWith d (1 + nonce sk m % (c.n - 1)) (hash m) with
    | none => none
    | some (r, s) => some (beBytes 32 r ++ beBytes 32 (if low && c.n / 2 < s then c.n - s else s))

/-- A signature from its bytes (`Signature::try_from`, called at `src/crypto/signer.rs:81,89`). -/
def ofSignature (c : Curve) (sig : Bytes) : Option (Nat × Nat) :=
  let r := beNat (sig.take 32)
  let s := beNat (sig.drop 32)
  if sig.length = 64 ∧ 0 < r ∧ r < c.n ∧ 0 < s ∧ s < c.n then some (r, s) else none

/-- Whether the numbers are a signature for a point (SEC 1, section 4.1.4; called at `src/crypto/signer.rs:82,90`). -/
def verifyWith (c : Curve) (q : Pt) (z r s : Nat) : Bool :=
  let w := invMod c.n s
  match c.add (c.mul (z * w % c.n) c.base) (c.mul (r * w % c.n) q) with
  | none => false
  | some (x, _) => x % c.n == r

/-- Verification: as for `sign`, then public key, message, signature; `none` if the key or the signature is
malformed (called at `src/crypto/signer.rs:77-92`). -/
def verify (c : Curve) (low : Bool) (pk m sig : Bytes) : Option Bool :=
  match c.ofSec1 pk with
  | none => none
  | some q =>
    match c.ofSignature sig with
    | none => none
    | some (r, s) => some (!(low && decide (c.n / 2 < s)) && c.verifyWith (some q) (hash m) r s)

end Curve

end Verif.Algo
