import Verif.Model.Value
import Verif.Model.Map

/-!
# Building blocks of the derived (de)serializers

Models what `#[derive(Serialize, Deserialize)]` of serde generates, on JSON trees.  A decoder is a
function `Json → Option α`; every serde failure is `none`.
-/

namespace Verif

/-- Iteration orders of the `HashMap`s met during one serialization.  `at p` is the order of the map
at place `p` of the structure; it may permute the entries in any way, because the order of a
`HashMap` (randomly keyed hashing) is unspecified. (`src/messages/headers/didcomm.rs:39`) -/
structure HOrd where
  at' : List Nat → List (Str × Json) → List (Str × Json)
  perm : ∀ p l, (at' p l).Perm l

/-- The orders at places below component `k`. (`src/messages/headers/didcomm.rs:39`) -/
def HOrd.sub (o : HOrd) (k : Nat) : HOrd := ⟨fun p => o.at' (k :: p), fun p => o.perm (k :: p)⟩

/-- The order of the map at this place. (`src/messages/headers/didcomm.rs:39`) -/
def HOrd.here (o : HOrd) (l : List (Str × Json)) : List (Str × Json) := o.at' [] l

/-- Sorted order everywhere (used in examples). (`src/messages/headers/didcomm.rs:39`) -/
def HOrd.id : HOrd := ⟨fun _ l => l, fun _ l => List.Perm.refl l⟩

/-- Reversed order everywhere (used in examples). (`src/messages/headers/didcomm.rs:39`) -/
def HOrd.rev : HOrd := ⟨fun _ l => l.reverse, fun _ l => List.reverse_perm l⟩

/-! ## Members of an object -/

/-- Values of all members named `k`. (`src/messages/attachment.rs:9-26`) -/
def fieldVals (k : Str) : List (Str × Json) → List Json
  | [] => []
  | (k', v) :: es => if k' = k then v :: fieldVals k es else fieldVals k es

/-- A field without default: exactly one member (derived `missing field`/`duplicate field` errors).
(`src/messages/attachment.rs:9-26`) -/
def reqField {α : Type} (d : Json → Option α) (k : Str) (es : List (Str × Json)) : Option α :=
  match fieldVals k es with
  | [v] => d v
  | _ => none

/-- Decoder of `Option<T>`: `null` is `None`. (`src/messages/attachment.rs:19-20`) -/
def decOpt {α : Type} (d : Json → Option α) : Json → Option (Option α)
  | .null => some none
  | j => (d j).map some

/-- A field of type `Option<T>`: a missing member is `None`, two are an error.
(`src/messages/attachment.rs:19-20`) -/
def optField {α : Type} (d : Json → Option α) (k : Str) (es : List (Str × Json)) :
    Option (Option α) :=
  match fieldVals k es with
  | [] => some none
  | [v] => decOpt d v
  | _ => none

/-- A field with `#[serde(default)]`. (`src/messages/message.rs:68-69`) -/
def dfltField {α : Type} (dflt : α) (d : Json → Option α) (k : Str) (es : List (Str × Json)) :
    Option α :=
  match fieldVals k es with
  | [] => some dflt
  | [v] => d v
  | _ => none

/-- Named members of a struct without flattened fields: an object, or an array holding the fields in
declaration order (derived `visit_seq`); `minLen` fields have no usable default at the end.
(`src/messages/attachment.rs:9-26`) -/
def structEntries (fields : List Str) (minLen : Nat) : Json → Option (List (Str × Json))
  | .obj es => some es
  | .arr l => if minLen ≤ l.length ∧ l.length ≤ fields.length then some (fields.zip l) else none
  | _ => none

/-- Members of a struct with flattened fields: only objects (derived `visit_map`).
(`src/messages/message.rs:39-70`) -/
def mapEntries : Json → Option (List (Str × Json))
  | .obj es => some es
  | _ => none

/-! ## Scalars and sequences -/

/-- `String`. (`src/messages/attachment.rs:9-26`) -/
def decStr : Json → Option Str
  | .str s => some s
  | _ => none

/-- `u64` and `usize` (64-bit platform). (`src/messages/headers/didcomm.rs:26`) -/
def decU64 : Json → Option UInt64
  | .num t => (tokNat t).map UInt64.ofNat
  | _ => none

/-- Integers are written in decimal. (`src/messages/headers/didcomm.rs:26`) -/
def encU64 (n : UInt64) : Json := .num (natDec n.toNat)

/-- `u8`. (`src/messages/mediated.rs:4-12`) -/
def decU8 : Json → Option UInt8
  | .num t =>
    match tokNat t with
    | some n => if n < 256 then some (UInt8.ofNat n) else none
    | none => none
  | _ => none

/-- Integers are written in decimal. (`src/messages/mediated.rs:4-12`) -/
def encU8 (n : UInt8) : Json := .num (natDec n.toNat)

/-- Elements one after the other, all must decode. (`src/messages/headers/didcomm.rs:21`) -/
def decAll {α : Type} (d : Json → Option α) : List Json → Option (List α)
  | [] => some []
  | j :: l =>
    match d j, decAll d l with
    | some a, some r => some (a :: r)
    | _, _ => none

/-- `Vec<T>`. (`src/messages/headers/didcomm.rs:21`) -/
def decVec {α : Type} (d : Json → Option α) : Json → Option (List α)
  | .arr l => decAll d l
  | _ => none

/-- `HashMap<String, T>` from members: later duplicates replace earlier ones.
(`src/messages/headers/decorators.rs:36`) -/
def decMembers {α : Type} (d : Json → Option α) : List (Str × Json) → Option (List (Str × α))
  | [] => some []
  | (k, v) :: l =>
    match d v, decMembers d l with
    | some a, some r => some ((k, a) :: r)
    | _, _ => none

/-- `HashMap<String, T>`. (`src/messages/headers/decorators.rs:36`) -/
def decMap {α : Type} (d : Json → Option α) : Json → Option (HMap α)
  | .obj es => (decMembers d es).map HMap.ofList
  | _ => none

/-- A unit variant of an enum: its label as a string, or an object with the label as only key and
`null` as value. (`src/messages/headers/types.rs:2`) -/
def decLabel {α : Type} (f : Str → Option α) : Json → Option α
  | .str s => f s
  | .obj [(k, .null)] => f k
  | _ => none

/-! ## Serialization -/

/-- A field with `skip_serializing_if = "Option::is_none"`. (`src/messages/attachment.rs:19-20`) -/
def optE {α : Type} (k : Str) (e : α → Json) : Option α → List (Str × Json)
  | none => []
  | some a => [(k, e a)]

/-- A field of type `Option<T>` that is always written. (`src/messages/headers/didcomm.rs:23`) -/
def encOpt {α : Type} (e : α → Json) : Option α → Json
  | none => .null
  | some a => e a

/-- A field with `skip_serializing_if = "Vec::is_empty"`.
(`src/messages/headers/didcomm.rs:20-21`) -/
def vecE {α : Type} (k : Str) (e : List α → Json) : List α → List (Str × Json)
  | [] => []
  | l => [(k, e l)]

/-- The entries of a `HashMap` in iteration order. (`src/messages/headers/didcomm.rs:39`) -/
def mapE {α : Type} (o : HOrd) (e : α → Json) (m : HMap α) : List (Str × Json) :=
  o.here (m.entries.map fun p => (p.1, e p.2))

end Verif
