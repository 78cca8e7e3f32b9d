import Verif.Model.Json
import Verif.Model.HMap

/-!
# `serde_json::Value`

A `Value` is a `Json` tree in canonical form: object members sorted by key without duplicates
(`Map` is a `BTreeMap`; `/repo/Cargo.toml` line 21 asks for the feature `raw_value`
only, not for `preserve_order`) and numbers
written the way serde_json writes them.
-/

namespace Verif

/-- Value of a decimal digit string. (`src/messages/headers/didcomm.rs:26`) -/
def natOfDigits (ds : Str) : Nat := ds.foldl (fun a c => a * 10 + (c.toNat - 48)) 0

/-- One decimal digit. (`src/messages/headers/didcomm.rs:26`) -/
def decDigit (d : Nat) : Char := Char.ofNat (48 + d)

/-- Decimal digits of `n`, bounded by the first argument. (`src/messages/headers/didcomm.rs:26`) -/
def decN : Nat → Nat → Str
  | 0, _ => []
  | f + 1, n => if n < 10 then [decDigit n] else decN f (n / 10) ++ [decDigit (n % 10)]

/-- Decimal text of a number; models the integer formatting of serde_json (`itoa`), e.g. for
`created_time` (`src/messages/headers/didcomm.rs:26`). -/
def natDec (n : Nat) : Str := decN (n + 1) n

/-- Number token read into a `u64` (`src/messages/headers/didcomm.rs:26,29`; `usize` in
`src/messages/headers/decorators.rs:32,36` and `src/messages/attachment.rs:24`): a token of digits
only, below 2^64.  `1.0`, `1e3`, `-0` are floats for serde_json and rejected. -/
def tokNat (tok : Str) : Option Nat :=
  if tok.all isDigit = true ∧ tok ≠ [] ∧ natOfDigits tok < 2 ^ 64 then some (natOfDigits tok) else none

/-- Number token as `serde_json::Number` prints it: `u64` and negative `i64` keep their digits,
everything else is a float.  `F` is the float part (text of a float token to the text printed for the
parsed `f64`, `none` if out of range); it is a parameter, given for `serde_json` in `Model/Algo/Float.lean`.  Models
`serde_json::from_str::<Value>` on numbers (`src/messages/message.rs:198`). -/
def normNum (F : Str → Option Str) (tok : Str) : Option Str :=
  match tok with
  | '-' :: ds =>
    if ds.all isDigit = true ∧ 0 < natOfDigits ds ∧ natOfDigits ds ≤ 2 ^ 63 then some ('-' :: ds)
    else F ('-' :: ds)
  | _ => if (tokNat tok).isSome then some tok else F tok

mutual
/-- Parsed tree to `Value`: later duplicates replace earlier members, members sorted, numbers
canonical.  Models `Value::deserialize` (`src/messages/message.rs:56,198,549,632`). -/
def normJ (F : Str → Option Str) : Json → Option Json
  | .null => some .null
  | .bool b => some (.bool b)
  | .num t => (normNum F t).map .num
  | .str s => some (.str s)
  | .arr l => (normL F l).map .arr
  | .obj es => (normM F es).map fun es' => .obj (entriesOf es')
/-- elements (`src/messages/message.rs:56`) -/
def normL (F : Str → Option Str) : List Json → Option (List Json)
  | [] => some []
  | j :: l =>
    match normJ F j, normL F l with
    | some j', some l' => some (j' :: l')
    | _, _ => none
/-- members (`src/messages/message.rs:56`) -/
def normM (F : Str → Option Str) : List (Str × Json) → Option (List (Str × Json))
  | [] => some []
  | (k, v) :: l =>
    match normJ F v, normM F l with
    | some v', some l' => some ((k, v') :: l')
    | _, _ => none
end

/-- A value read from a parsed tree at a place where `used` levels of nesting are already open:
serde_json refuses to open the 128th level.  Models `Value::deserialize` with the recursion limit
(`src/messages/message.rs:56,198`). -/
def toValue (F : Str → Option Str) (used : Nat) (j : Json) : Option Json :=
  if used + j.depth ≤ 127 then normJ F j else none

mutual
/-- Canonical trees: the ones a `Value` can be. (`src/messages/message.rs:56`) -/
def Canon (F : Str → Option Str) : Json → Prop
  | .num t => normNum F t = some t
  | .arr l => CanonL F l
  | .obj es => SortedKeys es ∧ CanonM F es
  | _ => True
/-- for elements (`src/messages/message.rs:56`) -/
def CanonL (F : Str → Option Str) : List Json → Prop
  | [] => True
  | j :: l => Canon F j ∧ CanonL F l
/-- for members (`src/messages/message.rs:56`) -/
def CanonM (F : Str → Option Str) : List (Str × Json) → Prop
  | [] => True
  | (_, v) :: l => Canon F v ∧ CanonM F l
end

mutual
/-- Every number is printed in a form that reads back as itself.  Always true for integers; not of all
floats (C111).
(`src/messages/message.rs:56`) -/
def NumsStable (F : Str → Option Str) : Json → Prop
  | .num t => normNum F t = some t
  | .arr l => NumsStableL F l
  | .obj es => NumsStableM F es
  | _ => True
/-- for elements (`src/messages/message.rs:56`) -/
def NumsStableL (F : Str → Option Str) : List Json → Prop
  | [] => True
  | j :: l => NumsStable F j ∧ NumsStableL F l
/-- for members (`src/messages/message.rs:56`) -/
def NumsStableM (F : Str → Option Str) : List (Str × Json) → Prop
  | [] => True
  | (_, v) :: l => NumsStable F v ∧ NumsStableM F l
end

end Verif
