import Verif.Model.Value
import Verif.Model.Crypto

/-!
# Numbers with a fraction or an exponent in `serde_json`

`serde_json` 1.0 without the feature `float_roundtrip` (`/repo/Cargo.toml` line 21 asks for `raw_value` only) reads
such a number by collecting its digits in a `u64` and multiplying or dividing by a power of ten in `f64`, and writes the
`f64` with the crate `ryu`.  Both are recalled (`serde_json::de`: `parse_integer`, `parse_number`, `parse_decimal`,
`parse_long_integer`, `parse_exponent`, `f64_from_parts`; `ryu::pretty::format64`).  They are reached whenever a message
is read or written, `src/messages/message.rs:56,198`.
-/

namespace Verif.Algo

/-- The size of a finite `f64`, `m * 2 ^ e`, with `m < 2 ^ 53` and `-1074 ≤ e ≤ 971` (IEEE 754, binary64; used for
`src/messages/message.rs:198`). -/
structure F64 where
  m : Nat
  e : Int
  deriving DecidableEq, Repr

/-- The integer nearest to `a / b`, the even one of two (IEEE 754, 4.3.1; used for `src/messages/message.rs:198`). -/
def nearest (a b : Nat) : Nat :=
  if 2 * (a % b) < b then a / b
  else if b < 2 * (a % b) then a / b + 1
  else if a / b % 2 = 0 then a / b else a / b + 1

/-- `a / b < 2 ^ k` (IEEE 754, 3.3; used for `src/messages/message.rs:198`). -/
def ltPow (a b : Nat) (k : Int) : Bool := a * 2 ^ (-k).toNat < b * 2 ^ k.toNat

/-- The exponent of the last place of the `f64` nearest to `a / b`: 53 bits, but not below the smallest one (IEEE 754,
3.3; used for `src/messages/message.rs:198`). -/
def lastPlace (a b : Nat) : Int :=
  let l := (a.log2 : Int) - b.log2 - 53
  max (-1074) (if ltPow a b (l + 53) then l else l + 1)

/-- The `f64` nearest to `a / b`; `none` for infinity (IEEE 754, 4.3.1; used for `src/messages/message.rs:198`). -/
def roundQ (a b : Nat) : Option F64 :=
  let e := lastPlace a b
  let m := nearest (a * 2 ^ (-e).toNat) (b * 2 ^ e.toNat)
  let x : F64 := if m = 2 ^ 53 then ⟨2 ^ 52, e + 1⟩ else ⟨m, e⟩
  if x.e ≤ 971 then some x else none

/-- Numerator of the value (used for `src/messages/message.rs:198`). -/
def F64.num (x : F64) : Nat := x.m * 2 ^ x.e.toNat

/-- Denominator of the value (used for `src/messages/message.rs:198`). -/
def F64.den (x : F64) : Nat := 2 ^ (-x.e).toNat

/-- Product (IEEE 754, 5.4.1; used for `src/messages/message.rs:198`). -/
def F64.mul (x y : F64) : Option F64 := roundQ (x.num * y.num) (x.den * y.den)

/-- Quotient (IEEE 754, 5.4.1; used for `src/messages/message.rs:198`). -/
def F64.div (x y : F64) : Option F64 := roundQ (x.num * y.den) (x.den * y.num)

/-- The table of powers of ten, `1e0` to `1e308` (`serde_json`, `POW10`; used for `src/messages/message.rs:198`). -/
def pow10 (k : Nat) : Option F64 := if k ≤ 308 then roundQ (10 ^ k) 1 else none

/-- The loop of `f64_from_parts`; `n` bounds the number of rounds (`serde_json`; used for
`src/messages/message.rs:198`). -/
def fromParts : Nat → F64 → Int → Option F64
  | 0, _, _ => none
  | n + 1, f, e =>
    match pow10 e.natAbs with
    | some p => if 0 ≤ e then f.mul p else f.div p
    | none =>
      if f.m = 0 then some f
      else if 0 ≤ e then none
      else (pow10 308).bind fun p => (f.div p).bind fun f => fromParts n f (e + 308)

/-- Models `f64_from_parts`: the digits as an `f64`, times a power of ten (`serde_json`; used for
`src/messages/message.rs:198`). -/
def f64Parts (sig : Nat) (e : Int) : Option F64 := (roundQ sig 1).bind fun f => fromParts (e.natAbs + 1) f e

/-- Digits appended to a number as long as it is a `u64`: the number, how many were appended and the rest
(`serde_json`, `parse_integer` and `parse_decimal`; used for `src/messages/message.rs:198`). -/
def takeU64 : Nat → Str → Nat × Nat × Str
  | n, [] => (n, 0, [])
  | n, c :: s =>
    if isDigit c = true ∧ n * 10 + (c.toNat - 48) < 2 ^ 64 then
      let r := takeU64 (n * 10 + (c.toNat - 48)) s
      (r.1, r.2.1 + 1, r.2.2)
    else (n, 0, c :: s)

/-- Digits passed over: how many, and the rest (`serde_json`, `parse_long_integer` and `parse_decimal_overflow`; used for
`src/messages/message.rs:198`). -/
def skipDigits : Str → Nat × Str
  | [] => (0, [])
  | c :: s => if isDigit c = true then ((skipDigits s).1 + 1, (skipDigits s).2) else (0, c :: s)

/-- `saturating_add` and `saturating_sub` of `i32` (used for `src/messages/message.rs:198`). -/
def clampI32 (e : Int) : Int := max (-2 ^ 31) (min (2 ^ 31 - 1) e)

/-- Models the digits of an exponent in `parse_exponent` and `parse_exponent_overflow` (`serde_json`; used for
`src/messages/message.rs:198`). -/
def expDigits (sig : Nat) (e : Int) (neg : Bool) (ds : Str) : Option F64 :=
  if natOfDigits ds < 2 ^ 31 then
    f64Parts sig (clampI32 (if neg = true then e - natOfDigits ds else e + natOfDigits ds))
  else if sig ≠ 0 ∧ neg = false then none
  else some ⟨0, -1074⟩

/-- Models what follows the digits: `parse_exponent`, or the end of the number (`serde_json`; used for
`src/messages/message.rs:198`). -/
def readExp (sig : Nat) (e : Int) : Str → Option F64
  | 'e' :: '-' :: ds => expDigits sig e true ds
  | 'E' :: '-' :: ds => expDigits sig e true ds
  | 'e' :: '+' :: ds => expDigits sig e false ds
  | 'E' :: '+' :: ds => expDigits sig e false ds
  | 'e' :: ds => expDigits sig e false ds
  | 'E' :: ds => expDigits sig e false ds
  | _ => f64Parts sig e

/-- Models `parse_integer`, `parse_number` and `parse_decimal` on a number without its sign (`serde_json`; used for
`src/messages/message.rs:198`). -/
def readF64 (t : Str) : Option F64 :=
  let i := takeU64 0 t
  let s := skipDigits i.2.2
  match s.2 with
  | '.' :: r =>
    let d := takeU64 i.1 r
    readExp d.1 ((s.1 : Int) - d.2.1) (skipDigits d.2.2).2
  | r => readExp i.1 s.1 r

/-- `n * 10 ^ k` lies in the interval of the numbers that are rounded to `x`; the ends belong to it if `x.m` is even.
`u / d` is a quarter of the last place of `x`, divided by `10 ^ k` (`ryu::d2s::d2d`, steps 2 to 4; used for
`src/messages/message.rs:56`). -/
def inInterval (x : F64) (u d n : Nat) : Bool :=
  let lo := (4 * x.m - if x.m = 2 ^ 52 ∧ x.e ≠ -1074 then 1 else 2) * u
  let hi := (4 * x.m + 2) * u
  if x.m % 2 = 0 then lo ≤ n * d && n * d ≤ hi else lo < n * d && n * d < hi

/-- The multiple of `10 ^ k` that is nearest to `x` among those that are rounded to `x` (`ryu::d2s::d2d`; used for
`src/messages/message.rs:56`). -/
def pickDec (x : F64) (k : Int) : Option Nat :=
  let u := 2 ^ (x.e - 2).toNat * 10 ^ (-k).toNat
  let d := 2 ^ (2 - x.e).toNat * 10 ^ k.toNat
  let q := 4 * x.m * u / d
  match inInterval x u d q, inInterval x u d (q + 1) with
  | true, true => some (nearest (4 * x.m * u) d)
  | true, false => some q
  | false, true => some (q + 1)
  | false, false => none

/-- The shortest decimal number that is rounded to `x`, tried from `10 ^ k` downwards (`ryu::d2s::d2d`; used for
`src/messages/message.rs:56`). -/
def shortest (x : F64) : Nat → Int → Option (Nat × Int)
  | 0, _ => none
  | n + 1, k =>
    match pickDec x k with
    | some d => some (d, k)
    | none => shortest x n (k - 1)

/-- A decimal exponent (`ryu::pretty::exponent`; used for `src/messages/message.rs:56`). -/
def expText (k : Int) : Str := if k < 0 then '-' :: natDec k.natAbs else natDec k.natAbs

/-- Models `ryu::pretty::format64` after the sign: the digits `n` and the exponent `k` as text (used for
`src/messages/message.rs:56`). -/
def formatDec (n : Nat) (k : Int) : Str :=
  let ds := natDec n
  let kk := ds.length + k
  if 0 ≤ k ∧ kk ≤ 16 then ds ++ List.replicate k.toNat '0' ++ c!".0"
  else if 0 < kk ∧ kk ≤ 16 then ds.take kk.toNat ++ '.' :: ds.drop kk.toNat
  else if -5 < kk ∧ kk ≤ 0 then c!"0." ++ List.replicate (-kk).toNat '0' ++ ds
  else if ds.length = 1 then ds ++ 'e' :: expText (kk - 1)
  else ds.take 1 ++ '.' :: (ds.drop 1 ++ 'e' :: expText (kk - 1))

/-- Models the text of a finite `f64` without its sign (`ryu::pretty::format64`; used for
`src/messages/message.rs:56`). -/
def formatF64 (x : F64) : Option Str :=
  if x.m = 0 then some c!"0.0" else (shortest x 640 308).map fun r => formatDec r.1 r.2

/-- A number that is not kept as an integer, read and written again; `none` if it is out of range
(`src/messages/message.rs:56,198`). -/
def f64Text : Str → Option Str
  | '-' :: t => ((readF64 t).bind formatF64).map ('-' :: ·)
  | t => (readF64 t).bind formatF64

end Verif.Algo

namespace Verif

/-- `P` with the numbers of `serde_json` (`src/messages/message.rs:56,198`). -/
def Prims.floats (P : Prims) : Prims := { P with f64 := Algo.f64Text }

end Verif
