import Verif.Model.Basic

/-!
# String-keyed maps

Models `HashMap<String, T>` (`src/messages/headers/didcomm.rs:38-39`, `src/messages/headers/jwk.rs:38-39`,
`src/messages/headers/decorators.rs:35-36`) and the `BTreeMap` inside `serde_json::Value`.
A map is kept as the list of its entries in strictly increasing key order, so that equal contents are
equal lists.  The *iteration* order of a `HashMap` is not this order; it is an argument of the
serializers (`HOrd` in `Verif.Model.Serde`).
-/

namespace Verif

/-- Order of `String` in Rust: bytewise on UTF-8, which is the lexicographic order of code points.
(`src/messages/message.rs:56`) -/
def strLt : Str → Str → Bool
  | [], [] => false
  | [], _ :: _ => true
  | _ :: _, [] => false
  | a :: s, b :: t => if a = b then strLt s t else decide (a.toNat < b.toNat)

/-- Keys strictly increasing. (`src/messages/message.rs:56`) -/
def SortedKeys {α : Type} : List (Str × α) → Prop
  | [] => True
  | p :: l => (∀ q ∈ l, strLt p.1 q.1 = true) ∧ SortedKeys l

/-- Insert or replace (`HashMap::insert`, `BTreeMap::insert`; `src/messages/message.rs:96`,
`src/messages/headers/jwk.rs:57`). -/
def insertEntry {α : Type} (k : Str) (v : α) : List (Str × α) → List (Str × α)
  | [] => [(k, v)]
  | (k', v') :: l =>
    if k = k' then (k, v) :: l
    else if strLt k k' then (k, v) :: (k', v') :: l
    else (k', v') :: insertEntry k v l

/-- Lookup in an entry list. (`src/messages/helpers/encryption.rs:66`) -/
def lookupEntry {α : Type} (k : Str) : List (Str × α) → Option α
  | [] => none
  | (k', v) :: l => if k = k' then some v else lookupEntry k l

/-- Entries inserted one after the other, later ones replacing earlier ones with the same key
(`visit_map` of the map deserializers; `FromIterator`). (`src/messages/headers/didcomm.rs:39`) -/
def entriesOf {α : Type} (l : List (Str × α)) : List (Str × α) :=
  l.foldl (fun acc p => insertEntry p.1 p.2 acc) []

end Verif
