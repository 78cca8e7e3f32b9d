import Verif.Lemma.HMap

/-!
# String-keyed maps: the type and its operations
-/

namespace Verif

/-- A map with string keys (`HashMap<String, T>`: `src/messages/headers/didcomm.rs:39`,
`src/messages/headers/jwk.rs:39`, `src/messages/headers/decorators.rs:36`). -/
structure HMap (α : Type) where
  entries : List (Str × α)
  sorted : SortedKeys entries

namespace HMap
variable {α : Type}

/-- Two maps with the same entries are equal. -/
theorem ext' {m n : HMap α} (h : m.entries = n.entries) : m = n := by
  cases m; cases n; cases h; rfl

/-- Derived equality of the headers (`src/messages/headers/didcomm.rs:7`). -/
instance [DecidableEq α] : DecidableEq (HMap α) := fun m n =>
  if h : m.entries = n.entries then isTrue (ext' h) else isFalse (fun e => h (by rw [e]))

/-- `HashMap::new()` (`src/messages/headers/didcomm.rs:56`). -/
def empty : HMap α := ⟨[], trivial⟩

/-- Default map (`src/messages/headers/didcomm.rs:56`). -/
instance : Inhabited (HMap α) := ⟨empty⟩

/-- `HashMap::insert` (`src/messages/message.rs:96`, `src/messages/headers/jwk.rs:57`). -/
def insert (m : HMap α) (k : Str) (v : α) : HMap α :=
  ⟨insertEntry k v m.entries, sorted_insertEntry m.sorted⟩

/-- `HashMap::get` (`src/messages/helpers/encryption.rs:66,73`). -/
def get (m : HMap α) (k : Str) : Option α := lookupEntry k m.entries

/-- A map filled from entries in the given order; models `visit_map` of the `HashMap` deserializer
and `HashMap::from` (`src/messages/headers/decorators.rs:82`). -/
def ofList (l : List (Str × α)) : HMap α := ⟨entriesOf l, sorted_entriesOf l⟩

@[simp] theorem entries_empty : (empty : HMap α).entries = [] := rfl

theorem get_insert (m : HMap α) (k k' : Str) (v : α) :
    (m.insert k v).get k' = if k' = k then some v else m.get k' := lookup_insertEntry k k' v m.entries

@[simp] theorem get_empty (k : Str) : (empty : HMap α).get k = none := rfl

theorem ext_get {m n : HMap α} (h : ∀ k, m.get k = n.get k) : m = n :=
  ext' (sorted_ext m.sorted n.sorted h)

theorem ofList_perm {l : List (Str × α)} {m : HMap α} (h : l.Perm m.entries) : ofList l = m :=
  ext' (entriesOf_perm h m.sorted)

theorem mem_entries {m : HMap α} {k : Str} {v : α} : (k, v) ∈ m.entries ↔ m.get k = some v :=
  mem_iff_lookup m.sorted

theorem get_ofList (l : List (Str × α)) (k : Str) : (ofList l).get k = lastVal k l none :=
  lookup_entriesOf k l

end HMap

end Verif
