import Verif.Spec.EdKey
import Verif.Model.Algo.DidKey

/-! # DIDs of the method `key`, as they are made -/

namespace Verif.Spec

/-- The number of bytes, most significant first. -/
def bytesNat (b : Bytes) : Nat := b.foldl (fun n x => 256 * n + x.toNat) 0

/-- The digits of a number in base 58, least significant first. -/
def digits58 (n : Nat) : List Nat := if h : n = 0 then [] else n % 58 :: digits58 (n / 58)
  termination_by n
  decreasing_by exact Nat.div_lt_self (Nat.pos_of_ne_zero h) (by decide)

/-- Base58: a `1` for each leading zero byte, then the number of the bytes in base 58. -/
def b58Encode (b : Bytes) : Str :=
  List.replicate (b.takeWhile (· == 0)).length '1' ++
    (digits58 (bytesNat b)).reverse.map fun d => Algo.b58Alphabet.getD d '1'

/-- The DID of an Ed25519 key. -/
def didOfEd (pk : Bytes) : Str := c!"did:key:z" ++ b58Encode ([0xed, 0x01] ++ pk)

/-- The DID of an X25519 key. -/
def didOfX (pk : Bytes) : Str := c!"did:key:z" ++ b58Encode ([0xec, 0x01] ++ pk)

/-- The X25519 secret of an Ed25519 secret. -/
def xOfEd (sk : Bytes) : Bytes := (Algo.sha512 sk).take 32

/-- The private key for X25519 belongs to the DID: the DID is made of its public key, or of an Ed25519 key that is the
same point. -/
def Owns (did : Str) (xsk : Bytes) : Prop :=
  did = didOfX (Algo.x25519Pub xsk) ∨ ∃ pk, did = didOfEd pk ∧ Algo.edToX pk = some (Algo.x25519Pub xsk)

end Verif.Spec
