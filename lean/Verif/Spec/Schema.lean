import Verif.Spec.JsonText
import Verif.Spec.Base64
import Verif.Spec.Value
import Verif.Spec.Names
import Verif.Model.Utf8

/-!
# Specification: the shape of documents

A small schema language, what it means for a JSON tree to conform to a schema, and the schemas of the
documents that the crate reads.  Independent of the decoders of the model.
-/

namespace Verif.Spec

open Verif

/-- Whether a member may be missing or `null`. -/
inductive Mode where
  /-- must be there -/
  | required
  /-- may be missing or `null` -/
  | optional
  /-- may be missing -/
  | default

/-- Shapes. -/
inductive Ty where
  | any
  | str
  /-- integers below a bound, written with digits only -/
  | nat (bound : Nat)
  /-- one of the given names -/
  | label (names : List Str)
  | list (t : Ty)
  /-- an object with members of any names -/
  | map (t : Ty)
  /-- base64url text -/
  | bytes
  /-- `null`, or base64url text of the UTF-8 form of a JSON document that is `null` or of shape `t` -/
  | encoded (t : Ty)
  /-- an object with the given members, others are ignored; or an array of at least `least` elements that
  are the members in order -/
  | record (fs : List (Str × Mode × Ty)) (least : Nat)
  /-- an object with the given members; others are ignored -/
  | object (fs : List (Str × Mode × Ty))
  /-- an object with the given members, all others are strings -/
  | open (fs : List (Str × Mode × Ty))

/-- No two members are named `k`. -/
def NotTwice (k : Str) (es : List (Str × Json)) : Prop := (es.filter fun p => p.1 = k).length ≤ 1

/-- `s` is base64url text of `bs`; the last group may be completed with `=`. -/
def Base64Text (bs : List UInt8) (s : Str) : Prop :=
  ∃ text p, IsBase64Url bs text ∧ p ≤ (4 - text.length % 4) % 4 ∧ s = text ++ List.replicate p '='

/-- An integer below `b`, digits only. -/
def IsNat (b : Nat) (j : Json) : Prop := ∃ t, j = .num t ∧ t ≠ [] ∧ AllDigits t ∧ digitsVal t 0 < b

/-- A name, as a string or as an object with the name as only key and the value `null`. -/
def IsName (ns : List Str) (j : Json) : Prop := ∃ s ∈ ns, j = .str s ∨ j = .obj [(s, .null)]

/-- The members of an object or the elements of an array with names. -/
def Members (ks : List Str) (least : Nat) (j : Json) (es : List (Str × Json)) : Prop :=
  j = .obj es ∨ ∃ l, j = .arr l ∧ least ≤ l.length ∧ l.length ≤ ks.length ∧ es = ks.zip l

mutual
/-- The tree has the shape. -/
def Conforms : Ty → Json → Prop
  | .any, _ => True
  | .str, j => ∃ s, j = .str s
  | .nat b, j => IsNat b j
  | .label ns, j => IsName ns j
  | .list t, j => ∃ l, j = .arr l ∧ ∀ x ∈ l, Conforms t x
  | .map t, j => ∃ es, j = .obj es ∧ ∀ p ∈ es, Conforms t p.2
  | .bytes, j => ∃ s bs, j = .str s ∧ Base64Text bs s
  | .encoded t, j => j = .null ∨ ∃ s text i, j = .str s ∧ Base64Text (utf8 text) s ∧ Document i text ∧
      (i = .null ∨ Conforms t i)
  | .record fs n, j => ∃ es, Members (fs.map (·.1)) n j es ∧ Fields fs es
  | .object fs, j => ∃ es, j = .obj es ∧ Fields fs es
  | .open fs, j => ∃ es, j = .obj es ∧ Fields fs es ∧
      ∀ p ∈ es, p.1 ∉ fs.map (·.1) → ∃ s, p.2 = .str s
/-- The members conform. -/
def Fields : List (Str × Mode × Ty) → List (Str × Json) → Prop
  | [], _ => True
  | f :: fs, es => Field1 f es ∧ Fields fs es
/-- One member conforms. -/
def Field1 : Str × Mode × Ty → List (Str × Json) → Prop
  | (k, m, t), es => NotTwice k es ∧ (m = .required → ∃ v, (k, v) ∈ es) ∧
      ∀ v, (k, v) ∈ es → (m = .optional ∧ v = .null) ∨ Conforms t v
end

/-! ## The documents -/

/-- Integers of 64 bits. -/
abbrev u64 : Ty := .nat (2 ^ 64)

/-- An ephemeral key inside of a key. -/
def epkTy : Ty := .record
  [(c!"kty", .required, .str), (c!"crv", .required, .str), (c!"x", .required, .str), (c!"y", .optional, .str)] 4

/-- The `alg` values that are read. -/
def algNames : List Str :=
  (rfc7518Signing.filter (· ≠ c!"PS256")) ++ (rfc7518Keys.filter (· ≠ c!"A192KW")) ++ otherAlgs

/-- A key; also the header of a recipient entry. -/
def keyTy : Ty := .open
  [(c!"kty", .optional, .str), (c!"use", .optional, .str), (c!"crv", .optional, .str),
   (c!"key_ops", .required, .list (.label (c!"other" :: rfc7517Ops))), (c!"alg", .required, .label algNames),
   (c!"kid", .optional, .str), (c!"epk", .optional, epkTy)]

/-- The members of a JOSE header. -/
def headerFields : List (Str × Mode × Ty) :=
  [(c!"typ", .required, .label didcommTypes), (c!"enc", .optional, .str), (c!"kid", .optional, .str),
   (c!"skid", .optional, .str), (c!"alg", .optional, .str), (c!"jku", .optional, .str),
   (c!"jwk", .optional, keyTy), (c!"epk", .optional, keyTy), (c!"cty", .optional, .str)]

/-- A JOSE header. -/
def headerTy : Ty := .record headerFields 9

/-- The members of a recipient entry. -/
def entryFields : List (Str × Mode × Ty) := [(c!"header", .required, keyTy), (c!"encrypted_key", .required, .str)]

/-- A recipient entry. -/
def entryTy : Ty := .record entryFields 2

/-- Claims about a former DID. -/
def priorTy : Ty := .record [(c!"sub", .optional, .str), (c!"iss", .required, .str)] 2

/-- The thread decorator. -/
def threadTy : Ty := .record
  [(c!"thid", .required, .str), (c!"pthid", .required, .str), (c!"sender_order", .optional, u64),
   (c!"received_orders", .optional, .map u64), (c!"goal_code", .optional, .str)] 5

/-- The members of the header of a message. -/
def didcommFields : List (Str × Mode × Ty) :=
  [(c!"id", .required, .str), (c!"thid", .optional, .str), (c!"pthid", .optional, .str),
   (c!"type", .required, .str), (c!"to", .required, .list .str), (c!"from", .optional, .str),
   (c!"created_time", .optional, u64), (c!"expires_time", .optional, u64),
   (c!"from_prior", .optional, priorTy), (c!"~thread", .optional, threadTy)]

/-- Contents of an attachment. -/
def attachmentDataTy : Ty := .record
  [(c!"jws", .optional, .str), (c!"hash", .optional, .str), (c!"links", .default, .list .str),
   (c!"base64", .optional, .str), (c!"json", .optional, .str)] 5

/-- An attachment. -/
def attachmentTy : Ty := .record
  [(c!"id", .optional, .str), (c!"description", .optional, .str), (c!"filename", .optional, .str),
   (c!"media_type", .optional, .str), (c!"format", .optional, .str), (c!"lastmod_time", .optional, .str),
   (c!"byte_count", .optional, u64), (c!"data", .required, attachmentDataTy)] 8

/-- The members of a signature. -/
def signatureFields : List (Str × Mode × Ty) :=
  [(c!"protected", .default, .encoded headerTy), (c!"header", .optional, headerTy), (c!"signature", .default, .bytes)]

/-- An element of `signatures`. -/
def signatureTy : Ty := .record signatureFields 2

/-- A message. -/
def messageTy : Ty := .open
  ((c!"recipients", .optional, .list entryTy) :: (c!"body", .required, .any) ::
    (c!"attachments", .default, .list attachmentTy) ::
    headerFields ++ didcommFields)

/-- An encrypted envelope. -/
def jweTy : Ty := .object
  [(c!"protected", .default, .encoded headerTy), (c!"unprotected", .optional, headerTy),
   (c!"recipients", .optional, .list entryTy), (c!"ciphertext", .required, .str), (c!"iv", .required, .str),
   (c!"tag", .optional, .str)]

/-- The members with a place of their own in an encrypted envelope. -/
def jweNames : List Str :=
  [c!"protected", c!"unprotected", c!"recipients", c!"ciphertext", c!"iv", c!"tag"]

/-- A signed document. -/
def jwsTy : Ty := .object [(c!"payload", .required, .str), (c!"signatures", .optional, .list signatureTy)]

/-- The body of a forward message. -/
def forwardTy : Ty := .record [(c!"next", .required, .str), (c!"payloads~attach", .required, .list (.nat 256))] 2

/-- A problem report. -/
def problemTy : Ty := .record
  [(c!"code", .required, .str), (c!"comment", .optional, .str), (c!"args", .required, .list .str),
   (c!"escalate_to", .optional, .str)] 4

/-! ## Values -/

/-- A tree in which at most `n` arrays and objects lie in each other. -/
inductive Within : Nat → Json → Prop
  | null (n : Nat) : Within n .null
  | bool (n : Nat) (b : Bool) : Within n (.bool b)
  | num (n : Nat) (t : Str) : Within n (.num t)
  | str (n : Nat) (t : Str) : Within n (.str t)
  | arr {n : Nat} {l : List Json} : (∀ j ∈ l, Within n j) → Within (n + 1) (.arr l)
  | obj {n : Nat} {es : List (Str × Json)} : (∀ p ∈ es, Within n p.2) → Within (n + 1) (.obj es)

/-- A tree that can be kept as a value below `used` open levels: with them at most 127 levels, numbers in
range. -/
def Keeps (F : Str → Option Str) (used : Nat) (j : Json) : Prop :=
  ∃ n, used + n = 127 ∧ Within n j ∧ ∃ v, Denotes F j v

end Verif.Spec
