import Verif.Model.Basic

/-!
# Hexadecimal key identifiers

Models `hex::decode` as called at `src/messages/helpers/encryption.rs:244`.
-/

namespace Verif

/-- Value of one hexadecimal digit, both letter cases; models the `val` function of crate `hex` 0.4
(call site `src/messages/helpers/encryption.rs:244`). -/
def hexVal (c : Char) : Option Nat :=
  if 48 ≤ c.toNat ∧ c.toNat ≤ 57 then some (c.toNat - 48)
  else if 97 ≤ c.toNat ∧ c.toNat ≤ 102 then some (c.toNat - 97 + 10)
  else if 65 ≤ c.toNat ∧ c.toNat ≤ 70 then some (c.toNat - 65 + 10)
  else none

/-- Models `hex::decode` (call site `src/messages/helpers/encryption.rs:244`): odd length or a
foreign character is an error. -/
def hexDecode : Str → Option Bytes
  | a :: b :: t =>
      match hexVal a, hexVal b, hexDecode t with
      | some x, some y, some r => some (UInt8.ofNat (x * 16 + y) :: r)
      | _, _, _ => none
  | [_] => none
  | [] => some []

/-- Lower-case hexadecimal digit, as written by `hex::encode` (what a caller uses to fill `kid`,
e.g. the doc test at `src/lib.rs`) and by serde_json in `\u00xx` escapes. -/
def hexDigit (n : Nat) : Char :=
  if n < 10 then Char.ofNat (48 + n) else Char.ofNat (97 + (n - 10))

/-- Models `hex::encode`; the crate itself only decodes (`src/messages/helpers/encryption.rs:244`),
callers encode. -/
def hexEncode : Bytes → Str
  | [] => []
  | b :: t => hexDigit (b.toNat / 16) :: hexDigit (b.toNat % 16) :: hexEncode t

end Verif
