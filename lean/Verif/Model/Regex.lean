import Verif.Model.Json

/-!
# Regular expressions

Models the use of the `regex` crate: a pattern anchored with `^` and `$` is a set of strings.  Matching
is by derivatives; `Verif.Lemma.Regex` proves it equal to the usual reading of the operators
(`Verif.Spec.Regex`).
-/

namespace Verif

/-- Regular expressions over characters. (`src/messages/problem_report.rs:19`) -/
inductive Re where
  | none
  | eps
  | cls (p : Char → Bool)
  | seq (a b : Re)
  | alt (a b : Re)
  | star (a : Re)

namespace Re

/-- Does the expression match the empty string? (`src/messages/problem_report.rs:19`) -/
def nullable : Re → Bool
  | none => false
  | eps => true
  | cls _ => false
  | seq a b => a.nullable && b.nullable
  | alt a b => a.nullable || b.nullable
  | star _ => true

/-- What may follow after reading one character. (`src/messages/problem_report.rs:19`) -/
def deriv (c : Char) : Re → Re
  | none => none
  | eps => none
  | cls p => if p c then eps else none
  | seq a b => if a.nullable then alt (seq (a.deriv c) b) (b.deriv c) else seq (a.deriv c) b
  | alt a b => alt (a.deriv c) (b.deriv c)
  | star a => seq (a.deriv c) (star a)

/-- Whole-string matching (`Regex::is_match` of a pattern anchored at both ends).
(`src/messages/problem_report.rs:19`) -/
def accepts (r : Re) : Str → Bool
  | [] => r.nullable
  | c :: s => (r.deriv c).accepts s

/-- A single character. (`src/messages/helpers/encryption.rs:388-398`) -/
def chr (c : Char) : Re := cls (· == c)

/-- A literal text. (`src/messages/helpers/encryption.rs:388-398`) -/
def lit : Str → Re
  | [] => eps
  | c :: s => seq (chr c) (lit s)

/-- `r?` (`src/messages/helpers/encryption.rs:388-398`) -/
def opt (r : Re) : Re := alt r eps

/-- `r+` (`src/messages/helpers/encryption.rs:394`) -/
def plus (r : Re) : Re := seq r (star r)

/-- `r{0,n}` (`src/messages/problem_report.rs:19`) -/
def upTo (r : Re) : Nat → Re
  | 0 => eps
  | n + 1 => opt (seq r (upTo r n))

end Re

/-- `[a-z]` (`src/messages/helpers/encryption.rs:388-395`) -/
def isLower (c : Char) : Bool := 'a' ≤ c && c ≤ 'z'

/-- `[A-Z]` (`src/messages/helpers/encryption.rs:388-395`) -/
def isUpper (c : Char) : Bool := 'A' ≤ c && c ≤ 'Z'

/-- `[a-zA-Z]` (`src/messages/helpers/encryption.rs:388-395`) -/
def isAlpha (c : Char) : Bool := isLower c || isUpper c

/-- `[a-zA-Z0-9.\-_%]`, `src/messages/helpers/encryption.rs:394`. -/
def isIdChar (c : Char) : Bool := isAlpha c || isDigit c || c == '.' || c == '-' || c == '_' || c == '%'

/-- The group `did` of the pattern, `src/messages/helpers/encryption.rs:388-395`. -/
def didRe : Re :=
  .seq (.lit c!"did:") (.seq (.plus (.cls isLower)) (.seq (.chr ':')
    (.seq (.star (.seq (.star (.cls isLower)) (.chr ':'))) (.plus (.cls isIdChar)))))

/-- The pattern after the group: optional path, query and fragment,
`src/messages/helpers/encryption.rs:396-398`.  `.` does not match a line feed. -/
def didTailRe : Re :=
  .seq (.opt (.seq (.chr '/') (.star (.cls fun c => !(c == '?' || c == '#')))))
    (.seq (.opt (.seq (.chr '?') (.star (.cls fun c => !(c == '#')))))
      (.opt (.seq (.chr '#') (.star (.cls fun c => !(c == '\n'))))))

/-- All ways to cut a string in two. (`src/messages/helpers/encryption.rs:384-410`) -/
def splits : Str → List (Str × Str)
  | [] => [([], [])]
  | c :: s => ([], c :: s) :: (splits s).map fun p => (c :: p.1, p.2)

/-- Models `get_did_from_didurl`, `src/messages/helpers/encryption.rs:384-410`: the text of the group
`did` of a match, or the empty string.  There is at most one way to match (`Verif.didSplit_unique`), so
the priorities of the regex engine do not matter. -/
def didOfUrl (url : Str) : Str :=
  match (splits url).find? fun p => didRe.accepts p.1 && didTailRe.accepts p.2 with
  | some p => p.1
  | none => []

/-- The pattern of problem codes, `src/messages/problem_report.rs:19`:
`^[e|w]\.[a-z0-9]{1,32}\.[a-zA-Z]*\.?[-a-zA-Z\-]*\.?[-a-zA-Z\-]*$`. -/
def problemRe : Re :=
  .seq (.cls fun c => c == 'e' || c == '|' || c == 'w') (.seq (.chr '.')
    (.seq (.seq (.cls fun c => isLower c || isDigit c) (.upTo (.cls fun c => isLower c || isDigit c) 31))
      (.seq (.chr '.') (.seq (.star (.cls isAlpha)) (.seq (.opt (.chr '.'))
        (.seq (.star (.cls fun c => isAlpha c || c == '-')) (.seq (.opt (.chr '.'))
          (.star (.cls fun c => isAlpha c || c == '-')))))))))

end Verif
