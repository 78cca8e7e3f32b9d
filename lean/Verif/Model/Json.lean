import Verif.Model.Utf8
import Verif.Model.Hex

/-!
# JSON text

Models `serde_json` as the crate uses it: `to_string` (compact form) and the syntax accepted by
`from_str`/`from_slice`.  The tree is raw: object members keep their order and duplicates, numbers
keep their token, because the derived deserializers see exactly that.
-/

namespace Verif

/-- A JSON document as a syntax tree (what `serde_json` reads and writes,
`src/messages/message.rs:198,218,350`).  `num` holds the number token. -/
inductive Json where
  | null
  | bool (b : Bool)
  | num (tok : Str)
  | str (s : Str)
  | arr (l : List Json)
  | obj (es : List (Str × Json))
  deriving Repr, Inhabited

/-! ## Printing -/

/-- One character of a string literal; models `format_escaped_str_contents` of serde_json (used by
every `to_string`, e.g. `src/messages/message.rs:350`). -/
def escChar (c : Char) : Str :=
  if c = '"' then ['\\', '"']
  else if c = '\\' then ['\\', '\\']
  else if c.toNat = 8 then ['\\', 'b']
  else if c.toNat = 12 then ['\\', 'f']
  else if c.toNat = 10 then ['\\', 'n']
  else if c.toNat = 13 then ['\\', 'r']
  else if c.toNat = 9 then ['\\', 't']
  else if c.toNat < 32 then
    ['\\', 'u', '0', '0', hexDigit (c.toNat / 16), hexDigit (c.toNat % 16)]
  else [c]

/-- A string literal with quotes; models serde_json's string serializer
(`src/messages/message.rs:218,350`). -/
def printStr (s : Str) : Str := '"' :: (s.flatMap escChar ++ ['"'])

mutual
/-- Models `serde_json::to_string` (compact formatter; call sites `src/messages/message.rs:218,350,361,395,473`,
`src/messages/message_raw_crypto.rs:45,50,82,107,144,145,163,191,222`). -/
def printJson : Json → Str
  | .null => c!"null"
  | .bool true => c!"true"
  | .bool false => c!"false"
  | .num t => t
  | .str s => printStr s
  | .arr l => '[' :: printElems l
  | .obj es => '{' :: printMembers es
/-- elements of an array and the closing bracket (`src/messages/message.rs:350`) -/
def printElems : List Json → Str
  | [] => [']']
  | [j] => printJson j ++ [']']
  | j :: l => printJson j ++ ',' :: printElems l
/-- members of an object and the closing brace (`src/messages/message.rs:350`) -/
def printMembers : List (Str × Json) → Str
  | [] => ['}']
  | [(k, v)] => printStr k ++ ':' :: (printJson v ++ ['}'])
  | (k, v) :: es => printStr k ++ ':' :: (printJson v ++ ',' :: printMembers es)
end

/-! ## Parsing -/

/-- JSON white space. (`src/messages/message.rs:433`) -/
def isWs (c : Char) : Bool := c = ' ' || c = '\n' || c = '\t' || c = '\r'

/-- Skips white space (`parse_whitespace` of serde_json; `src/messages/message.rs:433`). -/
def skipWs : Str → Str
  | [] => []
  | c :: t => if isWs c then skipWs t else c :: t

/-- Four hexadecimal digits (`decode_hex_escape` of serde_json). (`src/messages/message.rs:433`) -/
def hex4 : Str → Option (Nat × Str)
  | a :: b :: c :: d :: t =>
      match hexVal a, hexVal b, hexVal c, hexVal d with
      | some x, some y, some z, some w => some (x * 4096 + y * 256 + z * 16 + w, t)
      | _, _, _, _ => none
  | _ => none

/-- What follows `\u`: one code unit, or two forming a surrogate pair (`parse_escape` of
serde_json).  A lone surrogate is an error. (`src/messages/message.rs:433`) -/
def parseUnicode (t : Str) : Option (Char × Str) :=
  match hex4 t with
  | none => none
  | some (n, t1) =>
    if 0xDC00 ≤ n ∧ n ≤ 0xDFFF then none
    else if 0xD800 ≤ n ∧ n ≤ 0xDBFF then
      match t1 with
      | '\\' :: 'u' :: t2 =>
        match hex4 t2 with
        | some (m, t3) =>
          if 0xDC00 ≤ m ∧ m ≤ 0xDFFF then
            some (Char.ofNat (0x10000 + (n - 0xD800) * 1024 + (m - 0xDC00)), t3)
          else none
        | none => none
      | _ => none
    else some (Char.ofNat n, t1)

/-- The single-letter escapes. (`src/messages/message.rs:433`) -/
def simpleEsc (c : Char) : Option Char :=
  if c = '"' then some '"'
  else if c = '\\' then some '\\'
  else if c = '/' then some '/'
  else if c = 'b' then some (Char.ofNat 8)
  else if c = 'f' then some (Char.ofNat 12)
  else if c = 'n' then some '\n'
  else if c = 'r' then some '\r'
  else if c = 't' then some '\t'
  else none

/-- Rest of a string literal after the opening quote (`parse_str` of serde_json): control characters
must be escaped.  The first argument bounds the number of characters read.
(`src/messages/message.rs:433`) -/
def parseStrN : Nat → Str → Option (Str × Str)
  | 0, _ => none
  | _ + 1, [] => none
  | n + 1, c :: t =>
    if c = '"' then some ([], t)
    else if c = '\\' then
      match t with
      | [] => none
      | e :: t1 =>
        if e = 'u' then
          match parseUnicode t1 with
          | none => none
          | some (ch, t2) => (parseStrN n t2).map fun r => (ch :: r.1, r.2)
        else
          match simpleEsc e with
          | none => none
          | some ch => (parseStrN n t1).map fun r => (ch :: r.1, r.2)
    else if c.toNat < 32 then none
    else (parseStrN n t).map fun r => (c :: r.1, r.2)

/-- A decimal digit. (`src/messages/message.rs:433`) -/
def isDigit (c : Char) : Bool := 48 ≤ c.toNat && c.toNat ≤ 57

/-- One or more digits. (`src/messages/message.rs:433`) -/
def digits1 (s : Str) : Option (Str × Str) :=
  match s.takeWhile isDigit with
  | [] => none
  | d => some (d, s.dropWhile isDigit)

/-- Integer part: `0` or digits without leading zero. (`src/messages/message.rs:433`) -/
def scanInt : Str → Option (Str × Str)
  | [] => none
  | c :: t =>
    if c = '0' then some (['0'], t)
    else if isDigit c then some (c :: t.takeWhile isDigit, t.dropWhile isDigit)
    else none

/-- Optional fraction. (`src/messages/message.rs:433`) -/
def scanFrac : Str → Option (Str × Str)
  | [] => some ([], [])
  | c :: t => if c = '.' then (digits1 t).map fun r => ('.' :: r.1, r.2) else some ([], c :: t)

/-- Optional exponent. (`src/messages/message.rs:433`) -/
def scanExp : Str → Option (Str × Str)
  | [] => some ([], [])
  | e :: t =>
    if e = 'e' ∨ e = 'E' then
      match t with
      | [] => none
      | s :: t1 =>
        if s = '+' ∨ s = '-' then (digits1 t1).map fun r => (e :: s :: r.1, r.2)
        else (digits1 t).map fun r => (e :: r.1, r.2)
    else some ([], e :: t)

/-- An unsigned number token. (`src/messages/message.rs:433`) -/
def scanUnsigned (s : Str) : Option (Str × Str) :=
  match scanInt s with
  | none => none
  | some (i, s1) =>
    match scanFrac s1 with
    | none => none
    | some (f, s2) =>
      match scanExp s2 with
      | none => none
      | some (e, s3) => some (i ++ f ++ e, s3)

/-- A number token at the front of the text (`parse_integer`, `parse_decimal`, `parse_exponent`,
`ignore_number` of serde_json). (`src/messages/message.rs:433`) -/
def scanNum : Str → Option (Str × Str)
  | [] => none
  | c :: t =>
    if c = '-' then (scanUnsigned t).map fun r => ('-' :: r.1, r.2) else scanUnsigned (c :: t)

/-- Strips a literal from the front. (`src/messages/message.rs:433`) -/
def stripLit : Str → Str → Option Str
  | [], s => some s
  | a :: l, b :: s => if a = b then stripLit l s else none
  | _ :: _, [] => none

mutual
/-- A value at the front of the text.  The first argument bounds the work (one unit per value,
element or member); `parseJson` passes twice the length of the text plus one, which is always enough:
every grammatical document is accepted (`parseJson_iff` in `Verif.Lemma.Json`).  A string literal becomes
`mk e s`, where `e` says whether it is written with an escape: serde_json hands out a borrowed string
exactly if not (`Reference` of serde_json), which matters for `src/messages/helpers/serialization.rs:12`.
(`src/messages/message.rs:433`) -/
def parseV (mk : Bool → Str → Json) : Nat → Str → Option (Json × Str)
  | 0, _ => none
  | n + 1, s =>
    match skipWs s with
    | [] => none
    | c :: t =>
      if c = 'n' then (stripLit c!"ull" t).map fun r => (.null, r)
      else if c = 't' then (stripLit c!"rue" t).map fun r => (.bool true, r)
      else if c = 'f' then (stripLit c!"alse" t).map fun r => (.bool false, r)
      else if c = '"' then
        (parseStrN (t.length + 1) t).map fun r =>
          (mk ((t.take (t.length - r.2.length)).contains '\\') r.1, r.2)
      else if c = '[' then
        match skipWs t with
        | [] => none
        | d :: t1 =>
          if d = ']' then some (.arr [], t1)
          else (parseElems mk n (d :: t1)).map fun r => (.arr r.1, r.2)
      else if c = '{' then
        match skipWs t with
        | [] => none
        | d :: t1 =>
          if d = '}' then some (.obj [], t1)
          else (parseMembers mk n (d :: t1)).map fun r => (.obj r.1, r.2)
      else (scanNum (c :: t)).map fun r => (.num r.1, r.2)
/-- one or more elements and the closing bracket (`src/messages/message.rs:433`) -/
def parseElems (mk : Bool → Str → Json) : Nat → Str → Option (List Json × Str)
  | 0, _ => none
  | n + 1, s =>
    match parseV mk n s with
    | none => none
    | some (j, s1) =>
      match skipWs s1 with
      | [] => none
      | d :: t =>
        if d = ']' then some ([j], t)
        else if d = ',' then (parseElems mk n t).map fun r => (j :: r.1, r.2)
        else none
/-- one or more members and the closing brace (`src/messages/message.rs:433`) -/
def parseMembers (mk : Bool → Str → Json) : Nat → Str → Option (List (Str × Json) × Str)
  | 0, _ => none
  | n + 1, s =>
    match skipWs s with
    | [] => none
    | q :: t =>
      if q = '"' then
        match parseStrN (t.length + 1) t with
        | none => none
        | some (k, s1) =>
          match skipWs s1 with
          | [] => none
          | cl :: s2 =>
            if cl = ':' then
              match parseV mk n s2 with
              | none => none
              | some (v, s3) =>
                match skipWs s3 with
                | [] => none
                | d :: s4 =>
                  if d = '}' then some ([(k, v)], s4)
                  else if d = ',' then (parseMembers mk n s4).map fun r => ((k, v) :: r.1, r.2)
                  else none
            else none
      else none
end

/-- One document with optional surrounding white space, string literals read by `mk`.
(`src/messages/message.rs:433`) -/
def parseWith (mk : Bool → Str → Json) (s : Str) : Option Json :=
  match parseV mk (2 * s.length + 1) s with
  | some (j, rest) => if skipWs rest = [] then some j else none
  | none => none

/-- Models the syntax check of `serde_json::from_str` (call sites `src/messages/message.rs:198,433,549,632`,
`src/messages/helpers/receive.rs:32,39,58,138,149`): one document, optional surrounding white space.
Simplification: lone surrogate escapes are rejected everywhere (the code accepts them inside values
it ignores). -/
def parseJson (s : Str) : Option Json := parseWith (fun _ s => .str s) s

/-- The tree in which string values that cannot be borrowed from the text (because they are written with
escapes) are struck out; needed for `src/messages/helpers/serialization.rs:12`. -/
def parseStruck (s : Str) : Option Json := parseWith (fun e s => if e then .bool false else .str s) s

/-- Models the syntax check of `serde_json::from_slice` (`src/messages/message_raw_crypto.rs:102,119,170,205`,
`src/messages/message.rs:585,603`).  Simplification: invalid UTF-8 is rejected everywhere (the code
accepts it inside strings it ignores). -/
def parseBytes (bs : Bytes) : Option Json :=
  match utf8Decode bs with
  | some s => parseJson s
  | none => none

/-- Nesting depth: scalars 0, arrays and objects one more than their deepest child.  Used for
serde_json's recursion limit (128 levels; `src/messages/message.rs:198`). -/
def Json.depth : Json → Nat
  | .arr l => 1 + depthL l
  | .obj es => 1 + depthM es
  | _ => 0
where
  /-- maximum over elements -/
  depthL : List Json → Nat
    | [] => 0
    | j :: l => max j.depth (depthL l)
  /-- maximum over members -/
  depthM : List (Str × Json) → Nat
    | [] => 0
    | (_, v) :: es => max v.depth (depthM es)

/-! ## Equality -/

mutual
/-- Equality of trees (`PartialEq` of `Value`, `src/messages/message.rs:39`). -/
def Json.beq' : Json → Json → Bool
  | .null, .null => true
  | .bool a, .bool b => a == b
  | .num a, .num b => a == b
  | .str a, .str b => a == b
  | .arr a, .arr b => beqL a b
  | .obj a, .obj b => beqM a b
  | _, _ => false
/-- elements (`src/messages/message.rs:39`) -/
def beqL : List Json → List Json → Bool
  | [], [] => true
  | a :: l, b :: m => Json.beq' a b && beqL l m
  | _, _ => false
/-- members (`src/messages/message.rs:39`) -/
def beqM : List (Str × Json) → List (Str × Json) → Bool
  | [], [] => true
  | (k, a) :: l, (k', b) :: m => k == k' && Json.beq' a b && beqM l m
  | _, _ => false
end

theorem Json.beq_iff : (∀ a b, Json.beq' a b = true ↔ a = b) := by
  intro a
  refine Json.rec (motive_1 := fun a => ∀ b, Json.beq' a b = true ↔ a = b)
    (motive_2 := fun a => ∀ b, beqL a b = true ↔ a = b)
    (motive_3 := fun a => ∀ b, beqM a b = true ↔ a = b)
    (motive_4 := fun p => ∀ b, Json.beq' p.2 b = true ↔ p.2 = b) ?_ ?_ ?_ ?_ ?_ ?_ ?_ ?_ ?_ ?_ ?_ a
  · intro b; cases b <;> simp [Json.beq']
  · intro x b; cases b <;> simp [Json.beq']
  · intro x b; cases b <;> simp [Json.beq']
  · intro x b; cases b <;> simp [Json.beq']
  · intro x ih b; cases b <;> simp [Json.beq', ih]
  · intro x ih b; cases b <;> simp [Json.beq', ih]
  · intro b; cases b <;> simp [beqL]
  · intro x l h1 h2 b; cases b <;> simp [beqL, h1, h2]
  · intro b; cases b <;> simp [beqM]
  · intro x l h1 h2 b
    obtain ⟨k, v⟩ := x
    cases b with
    | nil => simp [beqM]
    | cons q m => obtain ⟨k', v'⟩ := q; simp [beqM, h1, h2]
  · intro k v h; exact h

/-- Derived equality of messages, whose body is a `Value` (`src/messages/message.rs:39`). -/
instance : DecidableEq Json := fun a b => decidable_of_iff _ (Json.beq_iff a b)

end Verif
