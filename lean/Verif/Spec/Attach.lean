import Verif.Model.Attachment

/-!
# Documented effect of the attachment builders

Field tables for `AttachmentBuilder` and `AttachmentDataBuilder`, from the documentation in
`src/messages/attachment.rs`.
-/

namespace Verif.Spec

open Verif

/-- The fields of an attachment and its builder (`src/messages/attachment.rs:10-26,142-145`). -/
inductive AField where
  | id | description | filename | mediaType | format | lastmod | byteCount
  | jws | hash | links | base64 | json | timed
  deriving DecidableEq

/-- Type of the content of a field. -/
@[reducible] def AField.Val : AField → Type
  | .byteCount => Option UInt64
  | .links => List Str
  | .timed => Bool
  | _ => Option Str

/-- Content of a field. -/
def AField.get (b : AttachmentBuilder) : (f : AField) → f.Val
  | .id => b.inner.id
  | .description => b.inner.description
  | .filename => b.inner.filename
  | .mediaType => b.inner.mediaType
  | .format => b.inner.format
  | .lastmod => b.inner.lastmodTime
  | .byteCount => b.inner.byteCount
  | .jws => b.inner.data.jws
  | .hash => b.inner.data.hash
  | .links => b.inner.data.links
  | .base64 => b.inner.data.base64
  | .json => b.inner.data.json
  | .timed => b.timed

/-- The setters of `AttachmentBuilder` (`src/messages/attachment.rs:170-241`). -/
inductive ASetter where
  | id (s : Str) | description (s : Str) | filename (s : Str) | mediaType (s : Str) | format (s : Str)
  | size (n : UInt64) | data (d : AttachmentData)

/-- Documented effect: the new content of a field, `none` if it is left alone. -/
def ASetter.effect : ASetter → (f : AField) → Option f.Val
  | .id s, .id => some (some s)
  | .description s, .description => some (some s)
  | .filename s, .filename => some (some s)
  | .mediaType s, .mediaType => some (some s)
  | .format s, .format => some (some s)
  | .size n, .byteCount => some (some n)
  | .data d, .jws => some d.jws
  | .data d, .hash => some d.hash
  | .data d, .links => some d.links
  | .data d, .base64 => some d.base64
  | .data d, .json => some d.json
  | _, _ => none

/-- The code's setter. -/
def ASetter.apply (b : AttachmentBuilder) : ASetter → AttachmentBuilder
  | .id s => b.withId s
  | .description s => b.withDescription s
  | .filename s => b.withFilename s
  | .mediaType s => b.withMediaType s
  | .format s => b.withFormat s
  | .size n => b.externalSize n
  | .data d => b.withData d

/-- The setters of `AttachmentDataBuilder` (`src/messages/attachment.rs:64-126`). -/
inductive DSetter where
  | jws (s : Str) | hash (s : Str) | link (s : Str) | raw (b : Bytes) | encoded (s : Str) | json (s : Str)

/-- The code's setter. -/
def DSetter.apply (d : AttachmentData) : DSetter → AttachmentData
  | .jws s => d.withJws s
  | .hash s => d.withHash s
  | .link s => d.withLink s
  | .raw b => d.withRawPayload b
  | .encoded s => d.withEncodedPayload s
  | .json s => d.withJson s

/-- Documented content of the `jws` field after a run of setters: the last one given. -/
def lastJws : List DSetter → Option Str → Option Str
  | [], a => a
  | .jws s :: l, _ => lastJws l (some s)
  | _ :: l, a => lastJws l a

/-- Documented content of the `hash` field. -/
def lastHash : List DSetter → Option Str → Option Str
  | [], a => a
  | .hash s :: l, _ => lastHash l (some s)
  | _ :: l, a => lastHash l a

/-- Documented content of the `json` field. -/
def lastJson : List DSetter → Option Str → Option Str
  | [], a => a
  | .json s :: l, _ => lastJson l (some s)
  | _ :: l, a => lastJson l a

/-- Documented content of the `base64` field: raw payloads are encoded, encoded ones are taken as they
are. -/
def lastBase64 : List DSetter → Option Str → Option Str
  | [], a => a
  | .raw b :: l, _ => lastBase64 l (some (b64Encode b))
  | .encoded s :: l, _ => lastBase64 l (some s)
  | _ :: l, a => lastBase64 l a

/-- Documented content of `links`: all of them, in order. -/
def allLinks : List DSetter → List Str
  | [] => []
  | .link s :: l => s :: allLinks l
  | _ :: l => allLinks l

/-- Two lists of the same length, related element by element. -/
inductive AllRel {α β : Type} (R : α → β → Prop) : List α → List β → Prop where
  | nil : AllRel R [] []
  | cons {a : α} {b : β} {l : List α} {l' : List β} : R a b → AllRel R l l' → AllRel R (a :: l) (b :: l')

/-- What `deserialize_attachments` reads from one attachment: it has the JSON media type and its `json`
is the text of a document that is a value of the target type. -/
def JsonAttachment {α : Type} (dec : Json → Option α) (a : Attachment) (v : α) : Prop :=
  a.mediaType = some c!"application/json" ∧
    ∃ s j, a.data.json = some s ∧ parseJson s = some j ∧ dec j = some v

end Verif.Spec
