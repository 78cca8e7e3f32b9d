import Verif.Model.Json

/-!
# Specification: the JSON grammar (RFC 8259)

A relation between trees and texts, independent of the printer and the parser of the model (only the
type of trees is shared).
-/

namespace Verif.Spec

/-- White space of RFC 8259 section 2. -/
def Ws (w : List Char) : Prop := ∀ c ∈ w, c ∈ [' ', '\n', '\t', '\r']

/-- Hexadecimal digits and their values. -/
def hexTable : List (Char × Nat) :=
  [('0',0),('1',1),('2',2),('3',3),('4',4),('5',5),('6',6),('7',7),('8',8),('9',9),
   ('a',10),('b',11),('c',12),('d',13),('e',14),('f',15),
   ('A',10),('B',11),('C',12),('D',13),('E',14),('F',15)]

/-- Four hexadecimal digits denoting the code unit `n`. -/
def CodeUnit (t : List Char) (n : Nat) : Prop :=
  ∃ a b c d x y z w, t = [a, b, c, d] ∧ (a, x) ∈ hexTable ∧ (b, y) ∈ hexTable ∧ (c, z) ∈ hexTable ∧
    (d, w) ∈ hexTable ∧ n = ((x * 16 + y) * 16 + z) * 16 + w

/-- Two-character escapes (section 7): letter after the backslash, code point it stands for. -/
def escapeTable : List (Char × Nat) :=
  [('"', 0x22), ('\\', 0x5C), ('/', 0x2F), ('b', 0x08), ('f', 0x0C), ('n', 0x0A), ('r', 0x0D),
   ('t', 0x09)]

/-- `StrBody s t`: `t` is the inside (between the quotes) of a string literal denoting `s`. -/
inductive StrBody : List Char → List Char → Prop
  | nil : StrBody [] []
  | plain {c s t} : 0x20 ≤ c.toNat → c ≠ '"' → c ≠ '\\' → StrBody s t → StrBody (c :: s) (c :: t)
  | esc {e n s t} {c : Char} : (e, n) ∈ escapeTable → c.toNat = n → StrBody s t →
      StrBody (c :: s) ('\\' :: e :: t)
  | unicode {u s t} {c : Char} : CodeUnit u c.toNat → StrBody s t →
      StrBody (c :: s) ('\\' :: 'u' :: (u ++ t))
  | surrogates {u v hi lo s t} {c : Char} : CodeUnit u hi → CodeUnit v lo →
      0xD800 ≤ hi → hi < 0xDC00 → 0xDC00 ≤ lo → lo < 0xE000 →
      c.toNat = 0x10000 + (hi - 0xD800) * 0x400 + (lo - 0xDC00) → StrBody s t →
      StrBody (c :: s) ('\\' :: 'u' :: (u ++ ('\\' :: 'u' :: (v ++ t))))

/-- One or more decimal digits. -/
def Digits (t : List Char) : Prop := t ≠ [] ∧ ∀ c ∈ t, '0'.toNat ≤ c.toNat ∧ c.toNat ≤ '9'.toNat

/-- Number tokens (section 6): optional minus, integer without leading zero, optional fraction,
optional exponent. -/
def NumTok (t : List Char) : Prop :=
  ∃ sign int frac exp, t = sign ++ int ++ frac ++ exp ∧
    (sign = [] ∨ sign = ['-']) ∧
    (int = ['0'] ∨ Digits int ∧ int.head? ≠ some '0') ∧
    (frac = [] ∨ ∃ d, Digits d ∧ frac = '.' :: d) ∧
    (exp = [] ∨ ∃ e sg d, (e = 'e' ∨ e = 'E') ∧ (sg = [] ∨ sg = ['+'] ∨ sg = ['-']) ∧ Digits d ∧
      exp = e :: (sg ++ d))

mutual
/-- `TextW mk j t`: `t` is a JSON text for the value `j`, without surrounding white space.  A string literal
denoting `s` stands for the tree `mk e s`, where `e` says whether it is written with a backslash. -/
inductive TextW (mk : Bool → List Char → Json) : Json → List Char → Prop
  | null : TextW mk .null ['n', 'u', 'l', 'l']
  | true : TextW mk (.bool Bool.true) ['t', 'r', 'u', 'e']
  | false : TextW mk (.bool Bool.false) ['f', 'a', 'l', 's', 'e']
  | num {tok} : NumTok tok → TextW mk (.num tok) tok
  | str {s t} : StrBody s t → TextW mk (mk (t.contains '\\') s) ('"' :: (t ++ ['"']))
  | arrNil {w} : Ws w → TextW mk (.arr []) ('[' :: (w ++ [']']))
  | arr {l t} : ElemsW mk l t → TextW mk (.arr l) ('[' :: (t ++ [']']))
  | objNil {w} : Ws w → TextW mk (.obj []) ('{' :: (w ++ ['}']))
  | obj {es t} : MembersW mk es t → TextW mk (.obj es) ('{' :: (t ++ ['}']))
/-- comma-separated values -/
inductive ElemsW (mk : Bool → List Char → Json) : List Json → List Char → Prop
  | one {j w t w'} : Ws w → TextW mk j t → Ws w' → ElemsW mk [j] (w ++ (t ++ w'))
  | cons {j w t w' l r} : Ws w → TextW mk j t → Ws w' → ElemsW mk l r →
      ElemsW mk (j :: l) (w ++ (t ++ (w' ++ (',' :: r))))
/-- comma-separated members -/
inductive MembersW (mk : Bool → List Char → Json) : List (List Char × Json) → List Char → Prop
  | one {k v w0 ks w1 w2 t w3} : Ws w0 → StrBody k ks → Ws w1 → Ws w2 → TextW mk v t → Ws w3 →
      MembersW mk [(k, v)] (w0 ++ ('"' :: (ks ++ ('"' :: (w1 ++ (':' :: (w2 ++ (t ++ w3))))))))
  | cons {k v w0 ks w1 w2 t w3 es r} : Ws w0 → StrBody k ks → Ws w1 → Ws w2 → TextW mk v t → Ws w3 →
      MembersW mk es r →
      MembersW mk ((k, v) :: es)
        (w0 ++ ('"' :: (ks ++ ('"' :: (w1 ++ (':' :: (w2 ++ (t ++ (w3 ++ (',' :: r))))))))))
end

/-- A whole document, with a reading `mk` of string literals. -/
def DocumentW (mk : Bool → List Char → Json) (j : Json) (s : List Char) : Prop :=
  ∃ w t w', Ws w ∧ TextW mk j t ∧ Ws w' ∧ s = w ++ (t ++ w')

/-- `Text j t`: `t` is a JSON text for the value `j`, without surrounding white space. -/
abbrev Text : Json → List Char → Prop := TextW fun _ s => .str s

/-- A whole document. -/
def Document (j : Json) (s : List Char) : Prop :=
  ∃ w t w', Ws w ∧ Text j t ∧ Ws w' ∧ s = w ++ (t ++ w')

/-- Reading in which string values written with a backslash are struck out (read as `false`); shows which
strings are written without escapes. -/
def struck (e : Bool) (s : List Char) : Json := if e then .bool Bool.false else .str s

mutual
/-- Trees whose number tokens are grammatical: exactly those that have a text. -/
def NumsOk : Json → Prop
  | .num t => NumTok t
  | .arr l => NumsOkL l
  | .obj es => NumsOkM es
  | _ => True
/-- for lists -/
def NumsOkL : List Json → Prop
  | [] => True
  | j :: l => NumsOk j ∧ NumsOkL l
/-- for members -/
def NumsOkM : List (List Char × Json) → Prop
  | [] => True
  | (_, v) :: es => NumsOk v ∧ NumsOkM es
end

end Verif.Spec
