import Verif.Model.Algo.Aes

/-!
# SHA-256

The hash of the crate `sha2` 0.8 that `src/messages/helpers/encryption.rs:276-278` calls, written down from
FIPS 180-4.
-/

namespace Verif.Algo

/-- Rotation to the right (FIPS 180-4, section 3.2; used for `src/messages/helpers/encryption.rs:277`). -/
def rotr32 (x n : UInt32) : UInt32 := (x >>> n) ||| (x <<< (32 - n))

/-- The round constants (FIPS 180-4, section 4.2.2; used for `src/messages/helpers/encryption.rs:277`). -/
def shaK : List UInt32 := [
    0x428a2f98, 0x71374491, 0xb5c0fbcf, 0xe9b5dba5, 0x3956c25b, 0x59f111f1, 0x923f82a4, 0xab1c5ed5,
    0xd807aa98, 0x12835b01, 0x243185be, 0x550c7dc3, 0x72be5d74, 0x80deb1fe, 0x9bdc06a7, 0xc19bf174,
    0xe49b69c1, 0xefbe4786, 0x0fc19dc6, 0x240ca1cc, 0x2de92c6f, 0x4a7484aa, 0x5cb0a9dc, 0x76f988da,
    0x983e5152, 0xa831c66d, 0xb00327c8, 0xbf597fc7, 0xc6e00bf3, 0xd5a79147, 0x06ca6351, 0x14292967,
    0x27b70a85, 0x2e1b2138, 0x4d2c6dfc, 0x53380d13, 0x650a7354, 0x766a0abb, 0x81c2c92e, 0x92722c85,
    0xa2bfe8a1, 0xa81a664b, 0xc24b8b70, 0xc76c51a3, 0xd192e819, 0xd6990624, 0xf40e3585, 0x106aa070,
    0x19a4c116, 0x1e376c08, 0x2748774c, 0x34b0bcb5, 0x391c0cb3, 0x4ed8aa4a, 0x5b9cca4f, 0x682e6ff3,
    0x748f82ee, 0x78a5636f, 0x84c87814, 0x8cc70208, 0x90befffa, 0xa4506ceb, 0xbef9a3f7, 0xc67178f2]

/-- The working variables (FIPS 180-4, section 6.2; used for `src/messages/helpers/encryption.rs:277`). -/
structure ShaState where
  a : UInt32
  b : UInt32
  c : UInt32
  d : UInt32
  e : UInt32
  f : UInt32
  g : UInt32
  h : UInt32

/-- The initial hash value (FIPS 180-4, section 5.3.3; used for `src/messages/helpers/encryption.rs:277`). -/
def shaInit : ShaState :=
  ⟨0x6a09e667, 0xbb67ae85, 0x3c6ef372, 0xa54ff53a, 0x510e527f, 0x9b05688c, 0x1f83d9ab, 0x5be0cd19⟩

/-- One round (FIPS 180-4, section 6.2.2, step 3; used for `src/messages/helpers/encryption.rs:277`). -/
def shaRound (s : ShaState) (k w : UInt32) : ShaState :=
  let t1 := s.h + (rotr32 s.e 6 ^^^ rotr32 s.e 11 ^^^ rotr32 s.e 25) + ((s.e &&& s.f) ^^^ (~~~s.e &&& s.g)) + k + w
  let t2 := (rotr32 s.a 2 ^^^ rotr32 s.a 13 ^^^ rotr32 s.a 22) + ((s.a &&& s.b) ^^^ (s.a &&& s.c) ^^^ (s.b &&& s.c))
  ⟨t1 + t2, s.a, s.b, s.c, s.d + t1, s.e, s.f, s.g⟩

/-- The next word of the message schedule from the last sixteen (FIPS 180-4, section 6.2.2, step 1; used for
`src/messages/helpers/encryption.rs:277`). -/
def shaNext (w : List UInt32) : UInt32 :=
  let x := w.getD 1 0
  let y := w.getD 14 0
  (rotr32 y 17 ^^^ rotr32 y 19 ^^^ (y >>> 10)) + w.getD 9 0 + (rotr32 x 7 ^^^ rotr32 x 18 ^^^ (x >>> 3)) + w.getD 0 0

/-- The rounds for the given constants; the list holds the next sixteen words of the schedule (FIPS 180-4,
section 6.2.2; used for `src/messages/helpers/encryption.rs:277`). -/
def shaRounds : List UInt32 → List UInt32 → ShaState → ShaState
  | [], _, s => s
  | k :: ks, w, s => shaRounds ks (w.drop 1 ++ [shaNext w]) (shaRound s k (w.getD 0 0))

/-- A big-endian word (FIPS 180-4, section 3.1; used for `src/messages/helpers/encryption.rs:277`). -/
def beWord (b : Bytes) (i : Nat) : UInt32 := UInt32.ofNat (beNat ((b.drop (4 * i)).take 4))

/-- One block (FIPS 180-4, section 6.2.2; used for `src/messages/helpers/encryption.rs:277`). -/
def shaBlock (s : ShaState) (b : Bytes) : ShaState :=
  let t := shaRounds shaK ((List.range 16).map (beWord b)) s
  ⟨s.a + t.a, s.b + t.b, s.c + t.c, s.d + t.d, s.e + t.e, s.f + t.f, s.g + t.g, s.h + t.h⟩

/-- All blocks of a padded message (FIPS 180-4, section 6.2.2; used for `src/messages/helpers/encryption.rs:277`). -/
def shaBlocks : Nat → ShaState → Bytes → ShaState
  | 0, s, _ => s
  | n + 1, s, m => shaBlocks n (shaBlock s (m.take 64)) (m.drop 64)

/-- The padded message (FIPS 180-4, section 5.1.1; used for `src/messages/helpers/encryption.rs:277`). -/
def shaPad (m : Bytes) : Bytes :=
  m ++ [0x80] ++ List.replicate ((119 - m.length % 64) % 64) 0 ++ beBytes 8 (8 * m.length)

/-- Big-endian bytes of a word (FIPS 180-4, section 3.1; used for `src/messages/helpers/encryption.rs:278`). -/
def beWordBytes (w : UInt32) : Bytes := (wordBytes w).reverse

/-- SHA-256, called at `src/messages/helpers/encryption.rs:276-278`. -/
def sha256 (m : Bytes) : Bytes :=
  let p := shaPad m
  let s := shaBlocks (p.length / 64) shaInit p
  beWordBytes s.a ++ beWordBytes s.b ++ beWordBytes s.c ++ beWordBytes s.d ++
  beWordBytes s.e ++ beWordBytes s.f ++ beWordBytes s.g ++ beWordBytes s.h

end Verif.Algo
