import Verif.Model.Algo.Aes

/-!
# Decryption of AES-256 in the mode CBC, as the standards have it

Not in the code, whose decrypter for A256CBC is a `todo!()`; what a receiver elsewhere would run (FIPS 197,
section 5.3; NIST SP 800-38A, section 6.2; RFC 5652, section 6.3).
-/

namespace Verif.Spec

/-- The inverse substitution table (FIPS 197, figure 14). -/
def invSbox : List UInt8 := [
    0x52, 0x09, 0x6a, 0xd5, 0x30, 0x36, 0xa5, 0x38, 0xbf, 0x40, 0xa3, 0x9e, 0x81, 0xf3, 0xd7, 0xfb,
    0x7c, 0xe3, 0x39, 0x82, 0x9b, 0x2f, 0xff, 0x87, 0x34, 0x8e, 0x43, 0x44, 0xc4, 0xde, 0xe9, 0xcb,
    0x54, 0x7b, 0x94, 0x32, 0xa6, 0xc2, 0x23, 0x3d, 0xee, 0x4c, 0x95, 0x0b, 0x42, 0xfa, 0xc3, 0x4e,
    0x08, 0x2e, 0xa1, 0x66, 0x28, 0xd9, 0x24, 0xb2, 0x76, 0x5b, 0xa2, 0x49, 0x6d, 0x8b, 0xd1, 0x25,
    0x72, 0xf8, 0xf6, 0x64, 0x86, 0x68, 0x98, 0x16, 0xd4, 0xa4, 0x5c, 0xcc, 0x5d, 0x65, 0xb6, 0x92,
    0x6c, 0x70, 0x48, 0x50, 0xfd, 0xed, 0xb9, 0xda, 0x5e, 0x15, 0x46, 0x57, 0xa7, 0x8d, 0x9d, 0x84,
    0x90, 0xd8, 0xab, 0x00, 0x8c, 0xbc, 0xd3, 0x0a, 0xf7, 0xe4, 0x58, 0x05, 0xb8, 0xb3, 0x45, 0x06,
    0xd0, 0x2c, 0x1e, 0x8f, 0xca, 0x3f, 0x0f, 0x02, 0xc1, 0xaf, 0xbd, 0x03, 0x01, 0x13, 0x8a, 0x6b,
    0x3a, 0x91, 0x11, 0x41, 0x4f, 0x67, 0xdc, 0xea, 0x97, 0xf2, 0xcf, 0xce, 0xf0, 0xb4, 0xe6, 0x73,
    0x96, 0xac, 0x74, 0x22, 0xe7, 0xad, 0x35, 0x85, 0xe2, 0xf9, 0x37, 0xe8, 0x1c, 0x75, 0xdf, 0x6e,
    0x47, 0xf1, 0x1a, 0x71, 0x1d, 0x29, 0xc5, 0x89, 0x6f, 0xb7, 0x62, 0x0e, 0xaa, 0x18, 0xbe, 0x1b,
    0xfc, 0x56, 0x3e, 0x4b, 0xc6, 0xd2, 0x79, 0x20, 0x9a, 0xdb, 0xc0, 0xfe, 0x78, 0xcd, 0x5a, 0xf4,
    0x1f, 0xdd, 0xa8, 0x33, 0x88, 0x07, 0xc7, 0x31, 0xb1, 0x12, 0x10, 0x59, 0x27, 0x80, 0xec, 0x5f,
    0x60, 0x51, 0x7f, 0xa9, 0x19, 0xb5, 0x4a, 0x0d, 0x2d, 0xe5, 0x7a, 0x9f, 0x93, 0xc9, 0x9c, 0xef,
    0xa0, 0xe0, 0x3b, 0x4d, 0xae, 0x2a, 0xf5, 0xb0, 0xc8, 0xeb, 0xbb, 0x3c, 0x83, 0x53, 0x99, 0x61,
    0x17, 0x2b, 0x04, 0x7e, 0xba, 0x77, 0xd6, 0x26, 0xe1, 0x69, 0x14, 0x63, 0x55, 0x21, 0x0c, 0x7d]

def invSub (b : UInt8) : UInt8 := invSbox.getD b.toNat 0

/-- The inverse of the row shift (FIPS 197, section 5.3.1). -/
def invShiftRows (s : Bytes) : Bytes :=
  [0, 13, 10, 7, 4, 1, 14, 11, 8, 5, 2, 15, 12, 9, 6, 3].map fun i => s.getD i 0

/-- Multiplication by 9, 11, 13 and 14 in the field of AES, by repeated multiplication by `x`. -/
def mul9 (a : UInt8) : UInt8 := Algo.xtime (Algo.xtime (Algo.xtime a)) ^^^ a
def mul11 (a : UInt8) : UInt8 := Algo.xtime (Algo.xtime (Algo.xtime a)) ^^^ Algo.xtime a ^^^ a
def mul13 (a : UInt8) : UInt8 := Algo.xtime (Algo.xtime (Algo.xtime a)) ^^^ Algo.xtime (Algo.xtime a) ^^^ a
def mul14 (a : UInt8) : UInt8 :=
  Algo.xtime (Algo.xtime (Algo.xtime a)) ^^^ Algo.xtime (Algo.xtime a) ^^^ Algo.xtime a

/-- The inverse of the column mixing (FIPS 197, section 5.3.3). -/
def invMixColumns : Bytes → Bytes
  | a :: b :: c :: d :: s =>
    [mul14 a ^^^ mul11 b ^^^ mul13 c ^^^ mul9 d, mul9 a ^^^ mul14 b ^^^ mul11 c ^^^ mul13 d,
      mul13 a ^^^ mul9 b ^^^ mul14 c ^^^ mul11 d, mul11 a ^^^ mul13 b ^^^ mul9 c ^^^ mul14 d] ++ invMixColumns s
  | _ => []

/-- The rounds of the inverse cipher, on the remaining round keys (last first). -/
def invRounds : List Bytes → Bytes → Bytes
  | [], s => s
  | [k], s => Algo.xorBytes ((invShiftRows s).map invSub) k
  | k :: ks, s => invRounds ks (invMixColumns (Algo.xorBytes ((invShiftRows s).map invSub) k))

/-- The inverse cipher (FIPS 197, section 5.3). -/
def aes256Inv (key block : Bytes) : Bytes :=
  match (Algo.roundKeys [1, 2, 4, 8, 16, 32, 64] key).reverse with
  | [] => []
  | k :: ks => invRounds ks (Algo.xorBytes block k)

/-- Padding taken off (RFC 5652, section 6.3). -/
def unpad (m : Bytes) : Option Bytes :=
  match m.getLast? with
  | none => none
  | some v =>
    if 1 ≤ v.toNat ∧ v.toNat ≤ 16 ∧ m.drop (m.length - v.toNat) = List.replicate v.toNat v then
      some (m.take (m.length - v.toNat))
    else none

/-- Block chaining undone (SP 800-38A, section 6.2): blocks left, key, previous block, ciphertext. -/
def cbcUnchain (key : Bytes) : Nat → Bytes → Bytes → Bytes
  | 0, _, _ => []
  | n + 1, prev, c => Algo.xorBytes (aes256Inv key (c.take 16)) prev ++ cbcUnchain key n (c.take 16) (c.drop 16)

/-- AES-256-CBC decryption. -/
def cbcOpen (key nonce c : Bytes) : Option Bytes :=
  if c.length % 16 = 0 then unpad (cbcUnchain key (c.length / 16) nonce c) else none

end Verif.Spec
