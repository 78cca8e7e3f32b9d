import Verif.Model.Algo.ChaChaPoly

/-!
# X25519

The key agreement of the crate `x25519-dalek` 1.1 that `src/messages/helpers/encryption.rs:55,139,365-368` and
`src/messages/helpers/receive.rs:84-87` call, written down from RFC 7748, section 5.
-/

namespace Verif.Algo

/-- The prime of Curve25519 (RFC 7748, section 4.1; used for `src/messages/helpers/encryption.rs:55`). -/
def p25519 : Nat := 2 ^ 255 - 19

/-- Addition in the field (RFC 7748, section 5; used for `src/messages/helpers/encryption.rs:55`). -/
def fAdd (a b : Nat) : Nat := (a + b) % p25519

/-- Subtraction in the field (RFC 7748, section 5; used for `src/messages/helpers/encryption.rs:55`). -/
def fSub (a b : Nat) : Nat := (a + (p25519 - b % p25519)) % p25519

/-- Multiplication in the field (RFC 7748, section 5; used for `src/messages/helpers/encryption.rs:55`). -/
def fMul (a b : Nat) : Nat := a * b % p25519

/-- A power in the field by the `n` low bits of the exponent, most significant first (RFC 7748, section 5; used
for `src/messages/helpers/encryption.rs:55`). -/
def fPow (a e : Nat) : Nat → Nat
  | 0 => 1
  | n + 1 =>
    let r := fPow a (e / 2) n
    if e % 2 = 1 then fMul (fMul r r) a else fMul r r

/-- The two points of the ladder (RFC 7748, section 5; used for `src/messages/helpers/encryption.rs:55`). -/
structure Ladder where
  x2 : Nat
  z2 : Nat
  x3 : Nat
  z3 : Nat

/-- The points exchanged (RFC 7748, section 5; used for `src/messages/helpers/encryption.rs:55`). -/
def Ladder.swap (s : Ladder) : Ladder := ⟨s.x3, s.z3, s.x2, s.z2⟩

/-- One point doubled, the other added (RFC 7748, section 5; used for `src/messages/helpers/encryption.rs:55`). -/
def Ladder.step (u : Nat) (s : Ladder) : Ladder :=
  let a := fAdd s.x2 s.z2
  let aa := fMul a a
  let b := fSub s.x2 s.z2
  let bb := fMul b b
  let e := fSub aa bb
  let c := fAdd s.x3 s.z3
  let d := fSub s.x3 s.z3
  let da := fMul d a
  let cb := fMul c b
  let x3 := fAdd da cb
  let z3 := fSub da cb
  ⟨fMul aa bb, fMul e (fAdd aa (fMul 121665 e)), fMul x3 x3, fMul u (fMul z3 z3)⟩

/-- The ladder over the `n` low bits of the scalar, most significant first.  RFC 7748 exchanges the points when
the bit changes; here they are exchanged before and after the step for a bit that is set, which is the same
(RFC 7748, section 5; used for `src/messages/helpers/encryption.rs:55`). -/
def ladder (u k : Nat) : Nat → Ladder → Ladder
  | 0, s => s
  | n + 1, s => ladder u k n (if k >>> n % 2 = 1 then (s.swap.step u).swap else s.step u)

/-- The u-coordinate of the product (RFC 7748, section 5; used for `src/messages/helpers/encryption.rs:55`). -/
def montMul (k u : Nat) : Nat :=
  let s := ladder u k 255 ⟨1, 0, u, 1⟩
  fMul s.x2 (fPow s.z2 (p25519 - 2) 255)

/-- The scalar of a secret (`decodeScalar25519`, RFC 7748, section 5; used for
`src/messages/helpers/encryption.rs:55`). -/
def clamp (sk : Bytes) : Nat := leNat sk % 2 ^ 254 / 8 * 8 + 2 ^ 254

/-- The coordinate of a public key (`decodeUCoordinate`, RFC 7748, section 5; used for
`src/messages/helpers/encryption.rs:54`). -/
def uCoord (pk : Bytes) : Nat := leNat pk % 2 ^ 255 % p25519

/-- X25519, called at `src/messages/helpers/encryption.rs:55,365-368` and `src/messages/helpers/receive.rs:84-87`:
secret, public key. -/
def x25519 (sk pk : Bytes) : Bytes := leBytes 32 (montMul (clamp sk) (uCoord pk))

/-- The public key of a secret, called at `src/messages/helpers/encryption.rs:139`. -/
def x25519Pub (sk : Bytes) : Bytes := leBytes 32 (montMul (clamp sk) 9)

end Verif.Algo
