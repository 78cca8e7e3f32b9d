import Verif.Model.Regex

/-!
# Meaning of regular expressions, and the two grammars in words
-/

namespace Verif.Spec

open Verif

/-- The usual reading of the operators. -/
inductive Matches : Re → Str → Prop where
  | eps : Matches .eps []
  | cls {p : Char → Bool} {c : Char} : p c = true → Matches (.cls p) [c]
  | seq {a b : Re} {s t : Str} : Matches a s → Matches b t → Matches (.seq a b) (s ++ t)
  | altL {a b : Re} {s : Str} : Matches a s → Matches (.alt a b) s
  | altR {a b : Re} {s : Str} : Matches b s → Matches (.alt a b) s
  | starNil {a : Re} : Matches (.star a) []
  | starCons {a : Re} {s t : Str} : Matches a s → Matches (.star a) t → Matches (.star a) (s ++ t)

/-- A DID as the code understands it: `did:`, a method name of lower case letters, `:`, any number of
lower case name parts each followed by `:`, and an identifier of letters, digits, `.`, `-`, `_`, `%`. -/
def IsDid (d : Str) : Prop :=
  ∃ (method : Str) (parts : List Str) (ident : Str),
    d = c!"did:" ++ (method ++ (':' :: ((parts.map fun p => p ++ [':']).flatten ++ ident))) ∧
    method ≠ [] ∧ (∀ c ∈ method, 'a' ≤ c ∧ c ≤ 'z') ∧ (∀ p ∈ parts, ∀ c ∈ p, 'a' ≤ c ∧ c ≤ 'z') ∧
    ident ≠ [] ∧ ∀ c ∈ ident, ('a' ≤ c ∧ c ≤ 'z') ∨ ('A' ≤ c ∧ c ≤ 'Z') ∨ ('0' ≤ c ∧ c ≤ '9') ∨
      c ∈ c!".-_%"

/-- What may follow the DID in a DID URL: an optional path, query and fragment (the fragment without line
feeds). -/
def IsUrlTail (t : Str) : Prop :=
  ∃ path query fragment : Str, t = path ++ (query ++ fragment) ∧
    (path = [] ∨ ∃ x, path = '/' :: x ∧ '?' ∉ x ∧ '#' ∉ x) ∧
    (query = [] ∨ ∃ x, query = '?' :: x ∧ '#' ∉ x) ∧
    (fragment = [] ∨ ∃ x, fragment = '#' :: x ∧ '\n' ∉ x)

/-- A descriptor of a problem code: letters and hyphens. -/
def IsDescriptor (d : Str) : Prop := ∀ c ∈ d, ('a' ≤ c ∧ c ≤ 'z') ∨ ('A' ≤ c ∧ c ≤ 'Z') ∨ c = '-'

/-- A problem code as the code understands it: sorter `e`, `w` or `|`, a scope of 1 to 32 lower case
letters and digits, and one to three descriptors, separated by dots.  With three descriptors the first
may not contain a hyphen. -/
def IsProblemCode (s : Str) : Prop :=
  ∃ (sorter : Char) (scope d : Str) (more : List Str),
    s = sorter :: '.' :: (scope ++ ('.' :: (d ++ (more.map fun x => '.' :: x).flatten))) ∧
    sorter ∈ c!"ew|" ∧ 1 ≤ scope.length ∧ scope.length ≤ 32 ∧
    (∀ c ∈ scope, ('a' ≤ c ∧ c ≤ 'z') ∨ ('0' ≤ c ∧ c ≤ '9')) ∧
    IsDescriptor d ∧ (∀ x ∈ more, IsDescriptor x) ∧ more.length ≤ 2 ∧ (more.length = 2 → '-' ∉ d)

end Verif.Spec
