import Verif.Model.Basic

/-!
# base64url without padding

Models `base64_url::encode` / `base64_url::decode` as called from
`src/messages/helpers/serialization.rs:7,13,28,40`, `src/messages/jwe.rs:78-151`,
`src/messages/attachment.rs:102`, `src/messages/helpers/encryption.rs:51-216` and others.  The crate
`base64_url` 1.x calls `base64` 0.13 with the configuration `URL_SAFE_NO_PAD`.
-/

namespace Verif

/-- The URL-safe alphabet (RFC 4648 section 5), index to character; models the encode table of
`base64` 0.13 used at `src/messages/jwe.rs:78`. -/
def b64Char (n : Nat) : Char :=
  if n < 26 then Char.ofNat (65 + n)
  else if n < 52 then Char.ofNat (97 + (n - 26))
  else if n < 62 then Char.ofNat (48 + (n - 52))
  else if n = 62 then '-'
  else '_'

/-- The decode table of the same alphabet (used at `src/messages/jwe.rs:116,121`): `none` is the
crate's `INVALID_VALUE`. -/
def b64Val (c : Char) : Option Nat :=
  if 65 ≤ c.toNat ∧ c.toNat ≤ 90 then some (c.toNat - 65)
  else if 97 ≤ c.toNat ∧ c.toNat ≤ 122 then some (c.toNat - 97 + 26)
  else if 48 ≤ c.toNat ∧ c.toNat ≤ 57 then some (c.toNat - 48 + 52)
  else if c = '-' then some 62
  else if c = '_' then some 63
  else none

/-- Models `base64_url::encode` (call sites: `src/messages/jwe.rs:78,81,98,101,111,150`,
`src/messages/helpers/serialization.rs:7,28`, `src/messages/attachment.rs:102`). -/
def b64Encode : Bytes → Str
  | a :: b :: c :: t =>
      b64Char (a.toNat / 4) ::
      b64Char (a.toNat % 4 * 16 + b.toNat / 16) ::
      b64Char (b.toNat % 16 * 4 + c.toNat / 64) ::
      b64Char (c.toNat % 64) :: b64Encode t
  | [a, b] =>
      [b64Char (a.toNat / 4), b64Char (a.toNat % 4 * 16 + b.toNat / 16),
       b64Char (b.toNat % 16 * 4)]
  | [a] => [b64Char (a.toNat / 4), b64Char (a.toNat % 4 * 16)]
  | [] => []

/-- Decoding of the part before any padding: groups of four symbols, then a group of 0, 2 or 3
symbols whose unused low bits must be zero (`base64` 0.13 rejects them with `InvalidLastSymbol`).
(`src/messages/helpers/serialization.rs:13`) -/
def b64DecodeData : Str → Option Bytes
  | a :: b :: c :: d :: t =>
      match b64Val a, b64Val b, b64Val c, b64Val d, b64DecodeData t with
      | some va, some vb, some vc, some vd, some r =>
          some (UInt8.ofNat (va * 4 + vb / 16) ::
                UInt8.ofNat (vb % 16 * 16 + vc / 4) ::
                UInt8.ofNat (vc % 4 * 64 + vd) :: r)
      | _, _, _, _, _ => none
  | [a, b, c] =>
      match b64Val a, b64Val b, b64Val c with
      | some va, some vb, some vc =>
          if vc % 4 = 0 then
            some [UInt8.ofNat (va * 4 + vb / 16), UInt8.ofNat (vb % 16 * 16 + vc / 4)]
          else none
      | _, _, _ => none
  | [a, b] =>
      match b64Val a, b64Val b with
      | some va, some vb => if vb % 16 = 0 then some [UInt8.ofNat (va * 4 + vb / 16)] else none
      | _, _ => none
  | [_] => none
  | [] => some []

/-- How many `=` signs `base64` 0.13 tolerates after `d` data symbols: padding may complete the last
group of four but need not be there, and never stands alone.
(`src/messages/helpers/serialization.rs:13`) -/
def b64PadOk (d p : Nat) : Bool :=
  if d % 4 = 2 then p ≤ 2 else if d % 4 = 3 then p ≤ 1 else p = 0

/-- Models `base64_url::decode` (call sites: `src/messages/jwe.rs:116,121`,
`src/messages/helpers/serialization.rs:13,40`, `src/messages/message_raw_crypto.rs:116,205`,
`src/messages/helpers/encryption.rs:51,68,76,77`). -/
def b64Decode (s : Str) : Option Bytes :=
  let data := s.takeWhile (· ≠ '=')
  let pad := s.dropWhile (· ≠ '=')
  if pad.all (· = '=') && b64PadOk data.length pad.length then b64DecodeData data else none

end Verif
