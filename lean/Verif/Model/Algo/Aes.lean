import Verif.Model.Algo.ChaChaPoly

/-!
# AES-256 in the modes GCM and CBC

The ciphers of the crates `aes-gcm` 0.9 and `libaes` 0.6 that `src/crypto/encryptor.rs:39-66,88-100` and
`src/messages/helpers/encryption.rs:91-100,161-178` call, written down from FIPS 197, NIST SP 800-38D and
SP 800-38A.
-/

namespace Verif.Algo

/-- The substitution table of AES (FIPS 197, figure 7; used for `src/crypto/encryptor.rs:48`). -/
def sbox : List UInt8 := [
    0x63, 0x7c, 0x77, 0x7b, 0xf2, 0x6b, 0x6f, 0xc5, 0x30, 0x01, 0x67, 0x2b, 0xfe, 0xd7, 0xab, 0x76,
    0xca, 0x82, 0xc9, 0x7d, 0xfa, 0x59, 0x47, 0xf0, 0xad, 0xd4, 0xa2, 0xaf, 0x9c, 0xa4, 0x72, 0xc0,
    0xb7, 0xfd, 0x93, 0x26, 0x36, 0x3f, 0xf7, 0xcc, 0x34, 0xa5, 0xe5, 0xf1, 0x71, 0xd8, 0x31, 0x15,
    0x04, 0xc7, 0x23, 0xc3, 0x18, 0x96, 0x05, 0x9a, 0x07, 0x12, 0x80, 0xe2, 0xeb, 0x27, 0xb2, 0x75,
    0x09, 0x83, 0x2c, 0x1a, 0x1b, 0x6e, 0x5a, 0xa0, 0x52, 0x3b, 0xd6, 0xb3, 0x29, 0xe3, 0x2f, 0x84,
    0x53, 0xd1, 0x00, 0xed, 0x20, 0xfc, 0xb1, 0x5b, 0x6a, 0xcb, 0xbe, 0x39, 0x4a, 0x4c, 0x58, 0xcf,
    0xd0, 0xef, 0xaa, 0xfb, 0x43, 0x4d, 0x33, 0x85, 0x45, 0xf9, 0x02, 0x7f, 0x50, 0x3c, 0x9f, 0xa8,
    0x51, 0xa3, 0x40, 0x8f, 0x92, 0x9d, 0x38, 0xf5, 0xbc, 0xb6, 0xda, 0x21, 0x10, 0xff, 0xf3, 0xd2,
    0xcd, 0x0c, 0x13, 0xec, 0x5f, 0x97, 0x44, 0x17, 0xc4, 0xa7, 0x7e, 0x3d, 0x64, 0x5d, 0x19, 0x73,
    0x60, 0x81, 0x4f, 0xdc, 0x22, 0x2a, 0x90, 0x88, 0x46, 0xee, 0xb8, 0x14, 0xde, 0x5e, 0x0b, 0xdb,
    0xe0, 0x32, 0x3a, 0x0a, 0x49, 0x06, 0x24, 0x5c, 0xc2, 0xd3, 0xac, 0x62, 0x91, 0x95, 0xe4, 0x79,
    0xe7, 0xc8, 0x37, 0x6d, 0x8d, 0xd5, 0x4e, 0xa9, 0x6c, 0x56, 0xf4, 0xea, 0x65, 0x7a, 0xae, 0x08,
    0xba, 0x78, 0x25, 0x2e, 0x1c, 0xa6, 0xb4, 0xc6, 0xe8, 0xdd, 0x74, 0x1f, 0x4b, 0xbd, 0x8b, 0x8a,
    0x70, 0x3e, 0xb5, 0x66, 0x48, 0x03, 0xf6, 0x0e, 0x61, 0x35, 0x57, 0xb9, 0x86, 0xc1, 0x1d, 0x9e,
    0xe1, 0xf8, 0x98, 0x11, 0x69, 0xd9, 0x8e, 0x94, 0x9b, 0x1e, 0x87, 0xe9, 0xce, 0x55, 0x28, 0xdf,
    0x8c, 0xa1, 0x89, 0x0d, 0xbf, 0xe6, 0x42, 0x68, 0x41, 0x99, 0x2d, 0x0f, 0xb0, 0x54, 0xbb, 0x16]

/-- One byte substituted (FIPS 197, section 5.1.1; used for `src/crypto/encryptor.rs:48`). -/
def subByte (b : UInt8) : UInt8 := sbox.getD b.toNat 0

/-- Multiplication by `x` in the field of AES (FIPS 197, section 4.2.1; used for `src/crypto/encryptor.rs:48`). -/
def xtime (b : UInt8) : UInt8 := (b <<< 1) ^^^ (if b &&& 0x80 = 0 then 0 else 0x1b)

/-- Rows shifted, on a state in column order (FIPS 197, section 5.1.2; used for `src/crypto/encryptor.rs:48`). -/
def shiftRows (s : Bytes) : Bytes :=
  [0, 5, 10, 15, 4, 9, 14, 3, 8, 13, 2, 7, 12, 1, 6, 11].map fun i => s.getD i 0

/-- One column mixed (FIPS 197, section 5.1.3; used for `src/crypto/encryptor.rs:48`). -/
def mixColumn (a b c d : UInt8) : Bytes :=
  [xtime a ^^^ (xtime b ^^^ b) ^^^ c ^^^ d, a ^^^ xtime b ^^^ (xtime c ^^^ c) ^^^ d,
    a ^^^ b ^^^ xtime c ^^^ (xtime d ^^^ d), (xtime a ^^^ a) ^^^ b ^^^ c ^^^ xtime d]

/-- All columns mixed (FIPS 197, section 5.1.3; used for `src/crypto/encryptor.rs:48`). -/
def mixColumns : Bytes → Bytes
  | a :: b :: c :: d :: s => mixColumn a b c d ++ mixColumns s
  | _ => []

/-- The next eight words of the key schedule from eight words (FIPS 197, section 5.2, for keys of 256 bits;
used for `src/crypto/encryptor.rs:47`): the key words as four bytes each, the round constant. -/
def nextKey (k : Bytes) (rcon : UInt8) : Bytes :=
  let w (i : Nat) : Bytes := (k.drop (4 * i)).take 4
  let rot : Bytes → Bytes := fun b => b.drop 1 ++ b.take 1
  let w0 := xorBytes (xorBytes (w 0) ((rot (w 7)).map subByte)) [rcon, 0, 0, 0]
  let w1 := xorBytes (w 1) w0
  let w2 := xorBytes (w 2) w1
  let w3 := xorBytes (w 3) w2
  let w4 := xorBytes (w 4) (w3.map subByte)
  let w5 := xorBytes (w 5) w4
  let w6 := xorBytes (w 6) w5
  let w7 := xorBytes (w 7) w6
  w0 ++ w1 ++ w2 ++ w3 ++ w4 ++ w5 ++ w6 ++ w7

/-- The round keys from the key on, two to a step (FIPS 197, section 5.2; used for `src/crypto/encryptor.rs:47`). -/
def roundKeys : List UInt8 → Bytes → List Bytes
  | [], k => [k.take 16]
  | r :: rs, k => k.take 16 :: k.drop 16 :: roundKeys rs (nextKey k r)

/-- The rounds of AES; the last one does not mix (FIPS 197, section 5.1; used for `src/crypto/encryptor.rs:48`). -/
def aesRounds : List Bytes → Bytes → Bytes
  | [], s => s
  | [k], s => xorBytes (shiftRows (s.map subByte)) k
  | k :: ks, s => aesRounds ks (xorBytes (mixColumns (shiftRows (s.map subByte))) k)

/-- AES-256 of one block (FIPS 197, section 5.1; used for `src/crypto/encryptor.rs:48,65`). -/
def aes256 (key block : Bytes) : Bytes :=
  match roundKeys [1, 2, 4, 8, 16, 32, 64] key with
  | [] => []
  | k :: ks => aesRounds ks (xorBytes block k)

/-- The number with the given big-endian bytes (SP 800-38D, section 6; used for `src/crypto/encryptor.rs:48`). -/
def beNat (b : Bytes) : Nat := b.foldl (fun n x => 256 * n + x.toNat) 0

/-- The `n` low bytes of a number, big-endian (SP 800-38D, section 6; used for `src/crypto/encryptor.rs:48`). -/
def beBytes (n x : Nat) : Bytes := (leBytes n x).reverse

/-- The product of two blocks, most significant bit first (SP 800-38D, section 6.3; used for
`src/crypto/encryptor.rs:48`): rounds left, `x`, `z`, `v`. -/
def gfMul : Nat → Nat → Nat → Nat → Nat
  | 0, _, z, _ => z
  | n + 1, x, z, v =>
    gfMul n x (if x >>> n &&& 1 = 1 then z ^^^ v else z)
      (if v &&& 1 = 1 then (v >>> 1) ^^^ (0xe1 <<< 120) else v >>> 1)

/-- GHASH (SP 800-38D, section 6.4; used for `src/crypto/encryptor.rs:48`); `n` bounds the number of blocks. -/
def ghash (h : Nat) : Nat → Nat → Bytes → Nat
  | 0, y, _ => y
  | n + 1, y, m => if m = [] then y else ghash h n (gfMul 128 (y ^^^ beNat (m.take 16)) 0 h) (m.drop 16)

/-- Key stream in counter mode: `n` blocks from a 32-bit counter on (SP 800-38D, section 6.5; used for
`src/crypto/encryptor.rs:48`). -/
def ctrStream (key nonce : Bytes) : Nat → Nat → Bytes
  | 0, _ => []
  | n + 1, ctr => aes256 key (nonce ++ beBytes 4 ctr) ++ ctrStream key nonce n (ctr + 1)

/-- Counter mode, its own inverse (SP 800-38D, section 6.5; used for `src/crypto/encryptor.rs:48,97`). -/
def aesCtr (key nonce m : Bytes) : Bytes := xorBytes m (ctrStream key nonce (m.length / 16 + 1) 2)

/-- The tag of a ciphertext (SP 800-38D, section 7.1; used for `src/crypto/encryptor.rs:48,97`). -/
def gcmTag (key nonce aad c : Bytes) : Bytes :=
  let m := pad16 aad ++ pad16 c ++ beBytes 8 (8 * aad.length) ++ beBytes 8 (8 * c.length)
  let h := beNat (aes256 key (List.replicate 16 0))
  beBytes 16 (ghash h (m.length / 16 + 1) 0 m ^^^ beNat (aes256 key (nonce ++ [0, 0, 0, 1])))

/-- AES-256-GCM encryption with a nonce of 12 bytes, called at `src/crypto/encryptor.rs:48` and
`src/messages/helpers/encryption.rs:175`: key, nonce, associated data, message.  The types of the
crate admit only keys of 32 and nonces of 12 bytes.  Simplified: the crate refuses more than `2 ^ 36` bytes. -/
def gcmSeal (key nonce aad m : Bytes) : Option Bytes :=
  if key.length ≠ 32 ∨ nonce.length ≠ 12 then none
  else
    let c := aesCtr key nonce m
    some (c ++ gcmTag key nonce aad c)

/-- AES-256-GCM decryption, called at `src/crypto/encryptor.rs:97` and
`src/messages/helpers/encryption.rs:97`. -/
def gcmOpen (key nonce aad c : Bytes) : Option Bytes :=
  if key.length ≠ 32 ∨ nonce.length ≠ 12 ∨ c.length < 16 then none
  else
    let t := c.take (c.length - 16)
    if c.drop (c.length - 16) = gcmTag key nonce aad t then some (aesCtr key nonce t) else none

/-- The message and one to sixteen bytes that give their number (PKCS #7, by the crate `libaes`, called at
`src/crypto/encryptor.rs:65`). -/
def pkcs7 (m : Bytes) : Bytes := m ++ List.replicate (16 - m.length % 16) (UInt8.ofNat (16 - m.length % 16))

/-- Cipher block chaining (SP 800-38A, section 6.2; used for `src/crypto/encryptor.rs:65`): blocks left, key,
previous block, message. -/
def cbcBlocks (key : Bytes) : Nat → Bytes → Bytes → Bytes
  | 0, _, _ => []
  | n + 1, prev, m =>
    let c := aes256 key (xorBytes (m.take 16) prev)
    c ++ cbcBlocks key n c (m.drop 16)

/-- AES-256-CBC encryption, called at `src/crypto/encryptor.rs:65`: key, nonce, message. -/
def cbcSeal (key nonce m : Bytes) : Bytes := cbcBlocks key (m.length / 16 + 1) nonce (pkcs7 m)

end Verif.Algo
