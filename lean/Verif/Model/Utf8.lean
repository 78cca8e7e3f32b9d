import Verif.Model.Basic

/-!
# UTF-8

Models `str::as_bytes`, `String::into_bytes`, `std::str::from_utf8`, `String::from_utf8` of the Rust
standard library (call sites e.g. `src/messages/message_raw_crypto.rs:45-50`,
`src/messages/message.rs:465,547`, `src/messages/out_of_band.rs:28`).
-/

namespace Verif

/-- UTF-8 bytes of one scalar value; models `char::encode_utf8`, i.e. the representation behind
`as_bytes` (`src/messages/message_raw_crypto.rs:50`). -/
def utf8Char (c : Char) : Bytes :=
  let n := c.toNat
  if n < 0x80 then [UInt8.ofNat n]
  else if n < 0x800 then [UInt8.ofNat (0xC0 + n / 64), UInt8.ofNat (0x80 + n % 64)]
  else if n < 0x10000 then
    [UInt8.ofNat (0xE0 + n / 4096), UInt8.ofNat (0x80 + n / 64 % 64), UInt8.ofNat (0x80 + n % 64)]
  else
    [UInt8.ofNat (0xF0 + n / 262144), UInt8.ofNat (0x80 + n / 4096 % 64),
     UInt8.ofNat (0x80 + n / 64 % 64), UInt8.ofNat (0x80 + n % 64)]

/-- Models `str::as_bytes` (`src/messages/message_raw_crypto.rs:45,46,50,195`,
`src/messages/message.rs:361,465`). -/
def utf8 (s : Str) : Bytes := s.flatMap utf8Char

/-- Continuation byte payload. (`src/messages/message.rs:547`) -/
def utf8Cont (b : UInt8) : Option Nat :=
  if 0x80 ≤ b.toNat ∧ b.toNat < 0xC0 then some (b.toNat - 0x80) else none

/-- The scalar value with code point `n`, if there is one in the range `lo ≤ n` (rejects over-long
forms, surrogates and values above U+10FFFF). (`src/messages/message.rs:547`) -/
def mkChar (lo n : Nat) : Option Char :=
  if lo ≤ n ∧ (n < 0xD800 ∨ 0xDFFF < n ∧ n < 0x110000) then some (Char.ofNat n) else none

/-- Decoding of one scalar value at the front: the value and the remaining bytes.
(`src/messages/message.rs:547`) -/
def utf8Step : Bytes → Option (Char × Bytes)
  | [] => none
  | a :: t =>
    if a.toNat < 0x80 then (mkChar 0 a.toNat).map (·, t)
    else if a.toNat < 0xC0 then none
    else if a.toNat < 0xE0 then utf8Step2 (a.toNat - 0xC0) t
    else if a.toNat < 0xF0 then utf8Step3 (a.toNat - 0xE0) t
    else utf8Step4 (a.toNat - 0xF0) t
where
  /-- two-byte form, `x` is the payload of the first byte -/
  utf8Step2 (x : Nat) : Bytes → Option (Char × Bytes)
    | b :: t => do
        let y ← utf8Cont b
        let c ← mkChar 0x80 (x * 64 + y)
        some (c, t)
    | _ => none
  /-- three-byte form -/
  utf8Step3 (x : Nat) : Bytes → Option (Char × Bytes)
    | b :: c :: t => do
        let y ← utf8Cont b
        let z ← utf8Cont c
        let c ← mkChar 0x800 (x * 4096 + y * 64 + z)
        some (c, t)
    | _ => none
  /-- four-byte form -/
  utf8Step4 (x : Nat) : Bytes → Option (Char × Bytes)
    | b :: c :: d :: t => do
        let y ← utf8Cont b
        let z ← utf8Cont c
        let w ← utf8Cont d
        let c ← mkChar 0x10000 (x * 262144 + y * 4096 + z * 64 + w)
        some (c, t)
    | _ => none

/-- Repeated decoding; the first argument bounds the number of scalar values (each takes at least
one byte, so the number of bytes is always enough). (`src/messages/message.rs:547`) -/
def utf8DecodeN : Nat → Bytes → Option Str
  | _, [] => some []
  | 0, _ :: _ => none
  | n + 1, bs => do
      let (c, t) ← utf8Step bs
      let r ← utf8DecodeN n t
      some (c :: r)

/-- Models `std::str::from_utf8` (`src/messages/out_of_band.rs:28`, `prior_claims.rs:25`),
`String::from_utf8` (`src/messages/message.rs:547,549`) and the UTF-8 check of
`serde_json::from_slice` (`src/messages/message_raw_crypto.rs:102,119,170,205`). -/
def utf8Decode (bs : Bytes) : Option Str := utf8DecodeN bs.length bs

end Verif
