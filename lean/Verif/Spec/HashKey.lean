import Verif.Model.Algo.Aes

/-!
# The hash keys of the two ciphers

Each tag is the value of a polynomial, made of associated data and ciphertext, at a secret place.
-/

namespace Verif.Spec

open Algo

/-- Blocks of 16 bytes needed for associated data of `a` and ciphertext of `c` bytes and for their lengths. -/
def tagBlocks (a c : Nat) : Nat := (a + 15) / 16 + (c + 15) / 16 + 1

/-- The place for XChaCha20-Poly1305: the first half of the one-time key with 22 of its 128 bits cleared
(RFC 8439, sections 2.5 and 2.6). -/
def xcPlace (key nonce : Bytes) : Nat :=
  leNat ((chaBlock (hchacha20 key (nonce.take 16)) 0 (xNonce nonce)).take 16) &&&
    0x0ffffffc0ffffffc0ffffffc0fffffff

/-- The place for AES-256-GCM: the encryption of the zero block (SP 800-38D, section 7.1). -/
def gcmPlace (key : Bytes) : Nat := beNat (aes256 key (List.replicate 16 0))

/-- The place for the cipher that an algorithm name in a header stands for. -/
def tagPlace (alg : Str) (key nonce : Bytes) : Nat :=
  if alg = c!"ECDH-1PU+XC20PKW" then xcPlace key nonce else gcmPlace key

end Verif.Spec
