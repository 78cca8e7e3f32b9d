/-!
# Basic vocabulary: strings, bytes, errors, results

Models `src/error.rs` and `src/result.rs`, and the Rust notions of `String`, `Vec<u8>`, `Result`
and panic.
-/

namespace Verif

/-- A Rust `String`/`&str`: a sequence of Unicode scalar values (Lean's `Char` is exactly that).
(`src/messages/message.rs:197`) -/
abbrev Str := List Char

/-- A Rust `Vec<u8>`/`&[u8]`. (`src/messages/message.rs:545`) -/
abbrev Bytes := List UInt8

/-- `c!"abc"` is the literal `['a', 'b', 'c']`.  (Notation only; models Rust string literals.) -/
syntax:max "c!" str : term
macro_rules
  | `(c! $s:str) => do
    let cs := s.getString.toList.toArray.map Lean.Syntax.mkCharLit
    `(([$cs,*] : List Char))

/-- Models `enum Error`, `src/error.rs:5-52`.
Simplifications: the payloads of transparent errors (serde, regex, utf8, signature, time, base64)
are dropped; `Generic`, `InvalidKeySize`, `AttachmentError` keep the fixed part of their text.
`TryFromError` (uninhabited payload), `BisquitError` (feature off) and `Other` are never produced. -/
inductive Err where
  | plugCryptoFailure
  | noRotationData
  | badDid
  | noJweRecipient
  | jwsParseError
  | jweParseError
  | jwmHeaderParseError
  | didResolveFailed
  | invalidKeySize (s : String)
  | generic (s : String)
  | serde
  | regex
  | utf8
  | edDsa
  | stringConversion
  | systemTime
  | base64
  | attachment (s : String)
  deriving DecidableEq, Repr

/-- Models `Result<T, Error>` (`src/result.rs:1-7`) plus the third outcome of a Rust call, a panic. -/
inductive Res (α : Type) where
  | ok (a : α)
  | err (e : Err)
  | panic
  deriving DecidableEq, Repr

namespace Res

/-- Models the `?` operator: continue on `Ok`, return early on `Err`; a panic unwinds.
(`src/messages/message.rs:198`) -/
def bind {α β : Type} (x : Res α) (f : α → Res β) : Res β :=
  match x with
  | ok a => f a
  | err e => err e
  | panic => panic

/-- `do` notation stands for a sequence of `?` (e.g. `src/messages/message.rs:410-434`). -/
instance : Monad Res where
  pure := Res.ok
  bind := Res.bind

/-- Models `Option::ok_or`/`ok_or_else`. (`src/messages/helpers/receive.rs:61`) -/
def ofOpt {α : Type} (e : Err) : Option α → Res α
  | some a => ok a
  | none => err e

/-- Models `Option::unwrap`/`Result::unwrap` and checked indexing: panics on absence.
(`src/messages/jwe.rs:116`) -/
def unwrap {α : Type} : Option α → Res α
  | some a => ok a
  | none => panic

@[simp] theorem bind_ok {α β : Type} (a : α) (f : α → Res β) : (Res.ok a >>= f) = f a := rfl
@[simp] theorem bind_err {α β : Type} (e : Err) (f : α → Res β) :
    ((Res.err e : Res α) >>= f) = Res.err e := rfl
@[simp] theorem bind_panic {α β : Type} (f : α → Res β) :
    ((Res.panic : Res α) >>= f) = Res.panic := rfl
@[simp] theorem pure_eq {α : Type} (a : α) : (pure a : Res α) = Res.ok a := rfl
@[simp] theorem ofOpt_some {α : Type} (e : Err) (a : α) : ofOpt e (some a) = ok a := rfl
@[simp] theorem ofOpt_none {α : Type} (e : Err) : ofOpt e (none : Option α) = err e := rfl
@[simp] theorem unwrap_some {α : Type} (a : α) : unwrap (some a) = ok a := rfl
@[simp] theorem unwrap_none {α : Type} : unwrap (none : Option α) = panic := rfl

/-- Inversion of a successful sequence of steps. -/
theorem bind_eq_ok {α β : Type} {x : Res α} {f : α → Res β} {b : β} :
    (x >>= f) = Res.ok b ↔ ∃ a, x = Res.ok a ∧ f a = Res.ok b := by
  cases x <;> simp

theorem bind_eq_panic {α β : Type} {x : Res α} {f : α → Res β} :
    (x >>= f) = Res.panic ↔ x = Res.panic ∨ ∃ a, x = Res.ok a ∧ f a = Res.panic := by
  cases x <;> simp

@[simp] theorem ofOpt_eq_ok {α : Type} {e : Err} {o : Option α} {a : α} :
    ofOpt e o = Res.ok a ↔ o = some a := by
  cases o <;> simp [ofOpt]

@[simp] theorem unwrap_eq_ok {α : Type} {o : Option α} {a : α} :
    unwrap o = Res.ok a ↔ o = some a := by
  cases o <;> simp [unwrap]

@[simp] theorem ofOpt_ne_panic {α : Type} {e : Err} {o : Option α} :
    ofOpt e o ≠ Res.panic := by
  cases o <;> simp [ofOpt]

end Res

end Verif
