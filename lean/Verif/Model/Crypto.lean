import Verif.Model.Headers

/-!
# Cryptographic primitives and the pluggable cipher and signature methods

Models `src/crypto/encryptor.rs`, `src/crypto/signer.rs`, `src/crypto/mod.rs`.  The primitives
themselves (X25519, XChaCha20-Poly1305, AES-256-GCM, AES-256-CBC, SHA-256, Ed25519, ECDSA), the DID
resolver and the formatting of floating point numbers are third-party code; they are fields of `Prims`
and every theorem holds for all values of them, under the laws it names (`Verif.Spec.Prims`).
-/

namespace Verif

/-- Models `enum CryptoAlgorithm`, `src/crypto/encryptor.rs:15-19`. -/
inductive CryptoAlg where
  | xc20p
  | a256gcm
  | a256cbc
  deriving DecidableEq, Repr

/-- Models `enum SignatureAlgorithm`, `src/crypto/signer.rs:8-15`. -/
inductive SignAlg where
  | edDsa
  | es256
  | es256k
  deriving DecidableEq, Repr

/-- What the crate asks of a resolved DID document: a key for a curve and a key id for a curve
(`src/messages/message.rs:168-176`, `src/messages/helpers/encryption.rs:354-357`,
`src/messages/helpers/receive.rs:72-75`). -/
structure DidDoc where
  keyFor : Str → Option Bytes
  keyIdFor : Str → Option Str

/-- Third-party functions, arbitrary in the theorems.  Arguments of the AEADs: key, nonce, associated
data, message. (`src/crypto/encryptor.rs:24-105`) -/
structure Prims where
  /-- X25519 (`x25519-dalek`): secret, public point (`src/messages/helpers/encryption.rs:55,365-368`). -/
  x25519 : Bytes → Bytes → Bytes
  /-- Public key of a secret (`src/messages/helpers/encryption.rs:139`). -/
  x25519Pub : Bytes → Bytes
  /-- XChaCha20-Poly1305 encryption (`src/crypto/encryptor.rs:35`). -/
  xcEnc : Bytes → Bytes → Bytes → Bytes → Option Bytes
  /-- XChaCha20-Poly1305 decryption (`src/crypto/encryptor.rs:84`). -/
  xcDec : Bytes → Bytes → Bytes → Bytes → Option Bytes
  /-- AES-256-GCM encryption (`src/crypto/encryptor.rs:48`). -/
  gcmEnc : Bytes → Bytes → Bytes → Bytes → Option Bytes
  /-- AES-256-GCM decryption (`src/crypto/encryptor.rs:97`). -/
  gcmDec : Bytes → Bytes → Bytes → Bytes → Option Bytes
  /-- AES-256-CBC encryption: key, nonce, message (`src/crypto/encryptor.rs:65`). -/
  cbcEnc : Bytes → Bytes → Bytes → Bytes
  /-- SHA-256 (`src/messages/helpers/encryption.rs:276-279`). -/
  sha256 : Bytes → Bytes
  /-- Signing: key, message; `none` for a malformed key (`src/crypto/signer.rs:27-56`). -/
  sign : SignAlg → Bytes → Bytes → Option Bytes
  /-- Verification: key, message, signature; `none` for a malformed key or signature
  (`src/crypto/signer.rs:67-94`). -/
  verify : SignAlg → Bytes → Bytes → Bytes → Option Bool
  /-- DID resolution (`ddoresolver-rs`; `src/messages/message.rs:168`). Without the feature `resolve`
  every resolution fails. -/
  resolve : Str → Option DidDoc
  /-- Reading and printing of a non-integer JSON number (`serde_json`, `f64`); `none` if out of range. -/
  f64 : Str → Option Str

/-- Models `SymmetricCypherMethod`, `src/crypto/mod.rs:11`: nonce, key, message, associated data. -/
abbrev SymMethod := Bytes → Bytes → Bytes → Bytes → Res Bytes

/-- Models `check_nonce`, `src/crypto/encryptor.rs:135-140`. -/
def checkNonce (nonce : Bytes) (n : Nat) : Res Unit :=
  if nonce.length < n then .err .plugCryptoFailure else .ok ()

/-- Models `GenericArray::from_slice` and the `&[u8]` to array conversions: panics unless the length
is `n` (`src/crypto/encryptor.rs:33-34,46-47,82-83,95-96`,
`src/messages/helpers/encryption.rs:81-82,92-93`). -/
def fromSlice (b : Bytes) (n : Nat) : Res Bytes :=
  if b.length = n then .ok b else .panic

/-- Models `array_ref!(b, 0, 32)`: the first 32 bytes, panics if there are fewer
(`src/messages/helpers/encryption.rs:55,365,367`, `src/messages/helpers/receive.rs:84,86`). -/
def arrayRef32 (b : Bytes) : Res Bytes :=
  if 32 ≤ b.length then .ok (b.take 32) else .panic

/-- Error of a failed AEAD operation (`src/crypto/encryptor.rs:36`). -/
def aeadErr : Err := .generic "aead::Error"

/-- Models `CryptoAlgorithm::encryptor`, `src/crypto/encryptor.rs:24-69`. -/
def CryptoAlg.encryptor (P : Prims) : CryptoAlg → SymMethod
  | .xc20p => fun nonce key msg aad => do
    checkNonce nonce 24
    let nonce ← fromSlice nonce 24
    let key ← fromSlice key 32
    Res.ofOpt aeadErr (P.xcEnc key nonce aad msg)
  | .a256gcm => fun nonce key msg aad => do
    checkNonce nonce 12
    let key ← fromSlice key 32
    Res.ofOpt aeadErr (P.gcmEnc key (nonce.take 12) aad msg)
  | .a256cbc => fun nonce key msg _ =>
    if key.length ≠ 32 then .err (.invalidKeySize "expected 256 bit (32 byte) key")
    else if nonce.length ≠ 16 then .err (.invalidKeySize "expected 16 bytes nonce")
    else .ok (P.cbcEnc key nonce msg)

/-- Models `CryptoAlgorithm::decrypter`, `src/crypto/encryptor.rs:73-105`.  For `A256CBC` the code
panics (`todo!()`) already when asked for the method; here the method panics when called. -/
def CryptoAlg.decrypter (P : Prims) : CryptoAlg → SymMethod
  | .xc20p => fun nonce key msg aad => do
    checkNonce nonce 24
    let key ← fromSlice key 32
    let nonce ← fromSlice nonce 24
    Res.ofOpt aeadErr (P.xcDec key nonce aad msg)
  | .a256gcm => fun nonce key msg aad => do
    checkNonce nonce 12
    let key ← fromSlice key 32
    Res.ofOpt aeadErr (P.gcmDec key (nonce.take 12) aad msg)
  | .a256cbc => fun _ _ _ _ => .panic

/-- Models `TryFrom<&String> for CryptoAlgorithm`, `src/crypto/encryptor.rs:123-132`. -/
def CryptoAlg.ofStr (s : Str) : Res CryptoAlg :=
  if s = c!"ECDH-1PU+A256KW" then .ok .a256gcm
  else if s = c!"ECDH-1PU+XC20PKW" then .ok .xc20p
  else .err .jweParseError

/-- Models `SignatureAlgorithm::signer`, `src/crypto/signer.rs:27-56`. -/
def SignAlg.signer (P : Prims) (a : SignAlg) (key msg : Bytes) : Res Bytes :=
  Res.ofOpt (match a with
    | .edDsa => .edDsa
    | .es256 => .edDsa
    | .es256k => .generic "signature error") (P.sign a key msg)

/-- Models `SignatureAlgorithm::validator`, `src/crypto/signer.rs:67-94`. -/
def SignAlg.validator (P : Prims) (a : SignAlg) (key msg sig : Bytes) : Res Bool :=
  Res.ofOpt .edDsa (P.verify a key msg sig)

/-- Models `TryFrom<&String> for SignatureAlgorithm`, `src/crypto/signer.rs:97-108`. -/
def SignAlg.ofStr (s : Str) : Res SignAlg :=
  if s = c!"EdDSA" then .ok .edDsa
  else if s = c!"ES256" then .ok .es256
  else if s = c!"ES256K" then .ok .es256k
  else .err .jwsParseError

/-- Models `JwmHeader::as_signed`, `src/messages/headers/jwm.rs:58-71`. -/
def JwmHeader.asSigned (h : JwmHeader) (a : SignAlg) : JwmHeader :=
  match a with
  | .edDsa => { h with typ := .jws, alg := some c!"EdDSA" }
  | .es256 => { h with typ := .jws, alg := some c!"ES256" }
  | .es256k => { h with typ := .jws, alg := some c!"ES256K" }

/-- Models `JwmHeader::as_encrypted`, `src/messages/headers/jwm.rs:76-92`. -/
def JwmHeader.asEncrypted (h : JwmHeader) (a : CryptoAlg) : JwmHeader :=
  match a with
  | .a256gcm => { h with typ := .jwe, enc := some c!"A256GCM", alg := some c!"ECDH-1PU+A256KW" }
  | .xc20p => { h with typ := .jwe, enc := some c!"XC20P", alg := some c!"ECDH-1PU+XC20PKW" }
  | .a256cbc => { h with typ := .jwe, alg := some c!"A256CBC", enc := some c!"ECDH-1PU+A256KW" }

end Verif
