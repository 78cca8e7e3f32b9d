import Verif.Model.Basic

/-!
# The content encryption key of `seal`

`Message::seal` draws the content key from `ChaCha20Rng::from_seed(Default::default())`
(`src/messages/message.rs:505-508`).  This file computes that key: the `rand_chacha` generator emits
the ChaCha20 key stream (20 rounds, 64-bit block counter starting at 0, stream 0) of the seed.
-/

namespace Verif

/-- 32-bit rotation to the left. (`src/messages/message.rs:507`) -/
def rotl32 (x : UInt32) (n : UInt32) : UInt32 := (x <<< n) ||| (x >>> (32 - n))

/-- ChaCha state: sixteen 32-bit words.  (`rand_chacha`, used at `src/messages/message.rs:507`.) -/
structure ChaState where
  x0 : UInt32
  x1 : UInt32
  x2 : UInt32
  x3 : UInt32
  x4 : UInt32
  x5 : UInt32
  x6 : UInt32
  x7 : UInt32
  x8 : UInt32
  x9 : UInt32
  x10 : UInt32
  x11 : UInt32
  x12 : UInt32
  x13 : UInt32
  x14 : UInt32
  x15 : UInt32

/-- The ChaCha quarter round.  (`rand_chacha`, used at `src/messages/message.rs:507`.) -/
def quarter (a b c d : UInt32) : UInt32 × UInt32 × UInt32 × UInt32 :=
  let a1 := a + b
  let d1 := rotl32 (d ^^^ a1) 16
  let c1 := c + d1
  let b1 := rotl32 (b ^^^ c1) 12
  let a2 := a1 + b1
  let d2 := rotl32 (d1 ^^^ a2) 8
  let c2 := c1 + d2
  let b2 := rotl32 (b1 ^^^ c2) 7
  (a2, b2, c2, d2)

/-- A column round followed by a diagonal round. (`src/messages/message.rs:507`) -/
def doubleRound (s : ChaState) : ChaState :=
  let (a0, a4, a8, a12) := quarter s.x0 s.x4 s.x8 s.x12
  let (a1, a5, a9, a13) := quarter s.x1 s.x5 s.x9 s.x13
  let (a2, a6, a10, a14) := quarter s.x2 s.x6 s.x10 s.x14
  let (a3, a7, a11, a15) := quarter s.x3 s.x7 s.x11 s.x15
  let (b0, b5, b10, b15) := quarter a0 a5 a10 a15
  let (b1, b6, b11, b12) := quarter a1 a6 a11 a12
  let (b2, b7, b8, b13) := quarter a2 a7 a8 a13
  let (b3, b4, b9, b14) := quarter a3 a4 a9 a14
  ⟨b0, b1, b2, b3, b4, b5, b6, b7, b8, b9, b10, b11, b12, b13, b14, b15⟩

/-- `n` double rounds. (`src/messages/message.rs:507`) -/
def doubleRounds : Nat → ChaState → ChaState
  | 0, s => s
  | n + 1, s => doubleRounds n (doubleRound s)

/-- Initial state for the all-zero seed, block counter 0 and stream 0: the constant
"expand 32-byte k", then zeros. (`src/messages/message.rs:507`) -/
def chaInit : ChaState :=
  ⟨0x61707865, 0x3320646e, 0x79622d32, 0x6b206574, 0, 0, 0, 0, 0, 0, 0, 0, 0, 0, 0, 0⟩

/-- Little-endian bytes of a word (`fill_bytes`, `src/messages/message.rs:508`). -/
def wordBytes (w : UInt32) : Bytes :=
  [w.toUInt8, (w >>> 8).toUInt8, (w >>> 16).toUInt8, (w >>> 24).toUInt8]

/-- Models the content key, `src/messages/message.rs:505-508`: the first 32 bytes of the key stream of
the zero seed. -/
def cek : Bytes :=
  let s := doubleRounds 10 chaInit
  wordBytes (s.x0 + chaInit.x0) ++ wordBytes (s.x1 + chaInit.x1) ++ wordBytes (s.x2 + chaInit.x2) ++
  wordBytes (s.x3 + chaInit.x3) ++ wordBytes (s.x4 + chaInit.x4) ++ wordBytes (s.x5 + chaInit.x5) ++
  wordBytes (s.x6 + chaInit.x6) ++ wordBytes (s.x7 + chaInit.x7)

/-- The published first half block of the zero-key ChaCha20 key stream. -/
theorem cek_eq : cek =
    [0x76, 0xb8, 0xe0, 0xad, 0xa0, 0xf1, 0x3d, 0x90, 0x40, 0x5d, 0x6a, 0xe5, 0x53, 0x86, 0xbd, 0x28,
     0xbd, 0xd2, 0x19, 0xb8, 0xa0, 0x8d, 0xed, 0x1a, 0xa8, 0x36, 0xef, 0xcc, 0x8b, 0x77, 0x0d, 0xc7] := by
  decide +kernel

theorem cek_length : cek.length = 32 := by rw [cek_eq]; rfl

end Verif
