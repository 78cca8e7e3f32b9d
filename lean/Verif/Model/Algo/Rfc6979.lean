import Verif.Model.Algo.Prims

/-!
# The nonces of ES256 and ES256K

The crates `p256` 0.9 and `k256` 0.9 that `src/crypto/signer.rs:38-54` call take the nonce of a signature from the secret key
and the hash of the message, by the generator of RFC 6979, section 3.2, with HMAC (RFC 2104) of SHA-256.
-/

namespace Verif.Algo

/-- A key of HMAC as a block with every byte changed by `x` (RFC 2104, section 2; used for `src/crypto/signer.rs:42,51`). -/
def hmacPad (x : UInt8) (key : Bytes) : Bytes :=
  let k := if 64 < key.length then sha256 key else key
  (k ++ List.replicate (64 - k.length) 0).map (· ^^^ x)

/-- HMAC with SHA-256 (RFC 2104, section 2; used for `src/crypto/signer.rs:42,51`). -/
def hmac (key m : Bytes) : Bytes := sha256 (hmacPad 0x5c key ++ sha256 (hmacPad 0x36 key ++ m))

/-- The state of the generator: key and value (RFC 6979, section 3.2; used for `src/crypto/signer.rs:42,51`). -/
abbrev Drbg := Bytes × Bytes

/-- One update of the state with data (RFC 6979, section 3.2, steps d to g; used for `src/crypto/signer.rs:42,51`). -/
def drbgStep (s : Drbg) (data : Bytes) : Drbg :=
  let k := hmac s.1 (s.2 ++ data)
  (k, hmac k s.2)

/-- The state for a secret and a hash (RFC 6979, section 3.2, steps b to g; used for `src/crypto/signer.rs:42,51`). -/
def drbgInit (x h : Bytes) : Drbg :=
  drbgStep (drbgStep (List.replicate 32 0, List.replicate 32 1) (0 :: x ++ h)) (1 :: x ++ h)

/-- The first value from a state on that is a nonce; without end if there is none (RFC 6979, section 3.2, step h; used
for `src/crypto/signer.rs:42,51`). -/
def drbgNonce (n : Nat) (s : Drbg) : Option Nat :=
  let v := hmac s.1 s.2
  if 0 < beNat v ∧ beNat v < n then some (beNat v) else drbgNonce n (drbgStep (s.1, v) [0])
partial_fixpoint

namespace Curve

/-- The nonce for a secret and a message: secret and hash go in as 32 bytes, the hash modulo the order of the curve
(`rfc6979::generate_k`, called at `src/crypto/signer.rs:42,51`). -/
def nonceOf (c : Curve) (d : Nat) (m : Bytes) : Option Nat :=
  drbgNonce c.n (drbgInit (beBytes 32 d) (beBytes 32 (hash m % c.n)))

/-- A signature of a message, as the crates make it (called at `src/crypto/signer.rs:38-54`). -/
def signDet (c : Curve) (low : Bool) (sk m : Bytes) : Option Bytes :=
  match c.ofSecret sk with
  | none => none
  | some d =>
    match c.nonceOf d m with
    | none => none
    | some k => c.sign low (fun _ _ => k - 1) sk m

end Curve

end Verif.Algo

namespace Verif

/-- `P` with the signatures of the called crates, the nonces of ES256 and ES256K included
(`src/crypto/signer.rs:27-92`). -/
def Prims.signedDet (P : Prims) : Prims :=
  { P.signed fun _ _ => 0 with
    sign := fun a => match a with
      | .edDsa => Algo.edSign
      | .es256 => Algo.p256.signDet false
      | .es256k => Algo.k256.signDet true }

end Verif
