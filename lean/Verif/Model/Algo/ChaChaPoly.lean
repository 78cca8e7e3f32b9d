import Verif.Model.ChaCha

/-!
# XChaCha20-Poly1305

The AEAD of the crate `chacha20poly1305` 0.8 that `src/crypto/encryptor.rs:26-38,75-87` and
`src/messages/helpers/encryption.rs:79-90,180-199` call, written down from RFC 8439 and
draft-irtf-cfrg-xchacha-03.
-/

namespace Verif.Algo

/-- The number with the given little-endian bytes (RFC 8439, section 2.5.1; used for
`src/crypto/encryptor.rs:35`). -/
def leNat : Bytes → Nat
  | [] => 0
  | b :: bs => b.toNat + 256 * leNat bs

/-- The `n` low bytes of a number, little-endian (RFC 8439, section 2.8; used for
`src/crypto/encryptor.rs:35`). -/
def leBytes : Nat → Nat → Bytes
  | 0, _ => []
  | n + 1, x => UInt8.ofNat x :: leBytes n (x / 256)

/-- Word `i` of a string of bytes (RFC 8439, section 2.3; used for `src/crypto/encryptor.rs:35`). -/
def word (b : Bytes) (i : Nat) : UInt32 := UInt32.ofNat (leNat ((b.drop (4 * i)).take 4))

/-- Exclusive or of two strings, as long as the shorter (`src/crypto/encryptor.rs:35`). -/
def xorBytes (a b : Bytes) : Bytes := List.zipWith (· ^^^ ·) a b

/-- The words of a state, added (RFC 8439, section 2.3; used for `src/crypto/encryptor.rs:35`). -/
def addState (s t : ChaState) : ChaState :=
  ⟨s.x0 + t.x0, s.x1 + t.x1, s.x2 + t.x2, s.x3 + t.x3, s.x4 + t.x4, s.x5 + t.x5, s.x6 + t.x6, s.x7 + t.x7,
    s.x8 + t.x8, s.x9 + t.x9, s.x10 + t.x10, s.x11 + t.x11, s.x12 + t.x12, s.x13 + t.x13, s.x14 + t.x14, s.x15 + t.x15⟩

/-- The state for a key and the last four words (RFC 8439, section 2.3; used for
`src/crypto/encryptor.rs:35`). -/
def keyState (key : Bytes) (a b c d : UInt32) : ChaState :=
  ⟨0x61707865, 0x3320646e, 0x79622d32, 0x6b206574, word key 0, word key 1, word key 2, word key 3,
    word key 4, word key 5, word key 6, word key 7, a, b, c, d⟩

/-- One block of key stream: key, block counter, nonce of 12 bytes (RFC 8439, section 2.3; used for
`src/crypto/encryptor.rs:35`). -/
def chaBlock (key : Bytes) (ctr : Nat) (nonce : Bytes) : Bytes :=
  let i := keyState key (UInt32.ofNat ctr) (word nonce 0) (word nonce 1) (word nonce 2)
  let s := addState (doubleRounds 10 i) i
  wordBytes s.x0 ++ wordBytes s.x1 ++ wordBytes s.x2 ++ wordBytes s.x3 ++ wordBytes s.x4 ++ wordBytes s.x5 ++
  wordBytes s.x6 ++ wordBytes s.x7 ++ wordBytes s.x8 ++ wordBytes s.x9 ++ wordBytes s.x10 ++ wordBytes s.x11 ++
  wordBytes s.x12 ++ wordBytes s.x13 ++ wordBytes s.x14 ++ wordBytes s.x15

/-- Key stream: `n` blocks from a counter on (RFC 8439, section 2.4; used for `src/crypto/encryptor.rs:35`). -/
def chaStream (key : Bytes) (nonce : Bytes) : Nat → Nat → Bytes
  | 0, _ => []
  | n + 1, ctr => chaBlock key ctr nonce ++ chaStream key nonce n (ctr + 1)

/-- ChaCha20 encryption, which is decryption (RFC 8439, section 2.4; used for `src/crypto/encryptor.rs:35,84`). -/
def chacha20 (key : Bytes) (ctr : Nat) (nonce : Bytes) (m : Bytes) : Bytes :=
  xorBytes m (chaStream key nonce (m.length / 64 + 1) ctr)

/-- HChaCha20: the key for a nonce of 16 bytes (draft-irtf-cfrg-xchacha-03, section 2.2; used for
`src/crypto/encryptor.rs:34`). -/
def hchacha20 (key nonce : Bytes) : Bytes :=
  let s := doubleRounds 10 (keyState key (word nonce 0) (word nonce 1) (word nonce 2) (word nonce 3))
  wordBytes s.x0 ++ wordBytes s.x1 ++ wordBytes s.x2 ++ wordBytes s.x3 ++
  wordBytes s.x12 ++ wordBytes s.x13 ++ wordBytes s.x14 ++ wordBytes s.x15

/-- The prime of Poly1305 (RFC 8439, section 2.5; used for `src/crypto/encryptor.rs:35`). -/
def poly1305Prime : Nat := 2 ^ 130 - 5

/-- The accumulator after all blocks of a message (RFC 8439, section 2.5.1; used for
`src/crypto/encryptor.rs:35`); `n` bounds the number of blocks. -/
def polyBlocks (r : Nat) : Nat → Nat → Bytes → Nat
  | 0, acc, _ => acc
  | n + 1, acc, m =>
    if m = [] then acc
    else polyBlocks r n ((acc + leNat (m.take 16 ++ [1])) * r % poly1305Prime) (m.drop 16)

/-- Poly1305 (RFC 8439, section 2.5; used for `src/crypto/encryptor.rs:35,84`): key of 32 bytes, message. -/
def poly1305 (key m : Bytes) : Bytes :=
  let r := leNat (key.take 16) &&& 0x0ffffffc0ffffffc0ffffffc0fffffff
  leBytes 16 (polyBlocks r (m.length / 16 + 1) 0 m + leNat ((key.drop 16).take 16))

/-- Zeros up to a multiple of 16 bytes (RFC 8439, section 2.8; used for `src/crypto/encryptor.rs:35`). -/
def pad16 (b : Bytes) : Bytes := b ++ List.replicate ((16 - b.length % 16) % 16) 0

/-- The tag of a ciphertext (RFC 8439, section 2.8; used for `src/crypto/encryptor.rs:35,84`). -/
def chaTag (key nonce aad c : Bytes) : Bytes :=
  poly1305 ((chaBlock key 0 nonce).take 32)
    (pad16 aad ++ pad16 c ++ leBytes 8 aad.length ++ leBytes 8 c.length)

/-- ChaCha20-Poly1305 encryption (RFC 8439, section 2.8; used for `src/crypto/encryptor.rs:35`).  Simplified: the
crate refuses messages of more than about `2 ^ 38` bytes. -/
def chaSeal (key nonce aad m : Bytes) : Bytes :=
  let c := chacha20 key 1 nonce m
  c ++ chaTag key nonce aad c

/-- ChaCha20-Poly1305 decryption (RFC 8439, section 2.8; used for `src/crypto/encryptor.rs:84`). -/
def chaOpen (key nonce aad c : Bytes) : Option Bytes :=
  if c.length < 16 then none
  else
    let t := c.take (c.length - 16)
    if c.drop (c.length - 16) = chaTag key nonce aad t then some (chacha20 key 1 nonce t) else none

/-- The nonce that is left for ChaCha20 (draft-irtf-cfrg-xchacha-03, section 2.3; used for
`src/crypto/encryptor.rs:33`). -/
def xNonce (nonce : Bytes) : Bytes := [0, 0, 0, 0] ++ (nonce.drop 16).take 8

/-- XChaCha20-Poly1305 encryption, called at `src/crypto/encryptor.rs:35` and
`src/messages/helpers/encryption.rs:192`: key, nonce, associated data, message.  The types of the crate admit
only keys of 32 and nonces of 24 bytes. -/
def xchachaSeal (key nonce aad m : Bytes) : Option Bytes :=
  if key.length ≠ 32 ∨ nonce.length ≠ 24 then none
  else some (chaSeal (hchacha20 key (nonce.take 16)) (xNonce nonce) aad m)

/-- XChaCha20-Poly1305 decryption, called at `src/crypto/encryptor.rs:84` and
`src/messages/helpers/encryption.rs:86`. -/
def xchachaOpen (key nonce aad c : Bytes) : Option Bytes :=
  if key.length ≠ 32 ∨ nonce.length ≠ 24 then none
  else chaOpen (hchacha20 key (nonce.take 16)) (xNonce nonce) aad c

end Verif.Algo
