import Verif.Model.Algo.Prims

/-!
# did:key

What the crate `ddoresolver-rs` 0.4 answers for the DIDs of the method `key`, written down from the did:key method and
multibase and multicodec, on which it relies; called at `src/messages/helpers/encryption.rs:354-357` and
`src/messages/helpers/receive.rs:72-75`.  The private keys that `utilities/src/lib.rs:14-45` pairs with DIDs confirm the
conversion (`Props/DidKey.lean`).
-/

namespace Verif.Algo

/-- The digits of base58 in the order of their values (multibase, `z`; used for
`src/messages/helpers/encryption.rs:354`). -/
def b58Alphabet : Str := c!"123456789ABCDEFGHJKLMNPQRSTUVWXYZabcdefghijkmnopqrstuvwxyz"

/-- The value of a digit (multibase; used for `src/messages/helpers/encryption.rs:354`). -/
def b58Digit (c : Char) : Option Nat := b58Alphabet.findIdx? (· == c)

/-- The number of digits, most significant first (multibase; used for `src/messages/helpers/encryption.rs:354`). -/
def ofBase (b : Nat) (ds : List Nat) : Nat := ds.foldl (fun n d => n * b + d) 0

/-- At most `f` digits of a number, least significant first (multibase; used for
`src/messages/helpers/encryption.rs:354`). -/
def toBase (b : Nat) : Nat → Nat → List Nat
  | 0, _ => []
  | f + 1, n => if n = 0 then [] else n % b :: toBase b f (n / b)

/-- Bytes from base58: a leading `1` is a zero byte, the rest is a number (multibase; used for
`src/messages/helpers/encryption.rs:354`). -/
def b58Decode (s : Str) : Option Bytes :=
  (s.mapM b58Digit).map fun ds =>
    ((ds.takeWhile (· == 0)) ++ (toBase 256 ds.length (ofBase 58 ds)).reverse).map UInt8.ofNat

/-- The bytes in a DID of the method `key` (did:key, "Format"; used for `src/messages/helpers/encryption.rs:354`). -/
def didKeyBytes (did : Str) : Option Bytes :=
  if did.take 9 = c!"did:key:z" then b58Decode (did.drop 9) else none

/-- The X25519 key of an Ed25519 key: the point on the Montgomery curve (RFC 7748, section 4.1;
`EdwardsPoint::to_montgomery`; used for `src/messages/helpers/encryption.rs:357`). -/
def edToX (pk : Bytes) : Option Bytes :=
  (edDecompress pk).map fun p => leBytes 32 (fMul (fAdd 1 p.2) (fInv (fSub 1 p.2)))

/-- The key for X25519 of a DID of the method `key`: of a key that multicodec names `ed25519-pub` or `x25519-pub`
(`find_public_key_for_curve("X25519")`, called at `src/messages/helpers/encryption.rs:357` and
`src/messages/helpers/receive.rs:75`). -/
def didKeyX (did : Str) : Option Bytes :=
  match didKeyBytes did with
  | some (0xed :: 0x01 :: k) => edToX k
  | some (0xec :: 0x01 :: k) => if k.length = 32 then some k else none
  | _ => none

end Verif.Algo

namespace Verif

/-- `P` with the keys for X25519 that DIDs of the method `key` stand for (`src/messages/helpers/encryption.rs:354-357`,
`src/messages/helpers/receive.rs:72-75`).  Other DIDs, other curves and the names of keys remain those of `P`. -/
def Prims.didKey (P : Prims) : Prims :=
  { P with
    resolve := fun did => match Algo.didKeyX did with
      | some k => some
        { keyFor := fun c => if c = c!"X25519" then some k else (P.resolve did).bind fun d => d.keyFor c
          keyIdFor := fun c => (P.resolve did).bind fun d => d.keyIdFor c }
      | none => P.resolve did }

end Verif
