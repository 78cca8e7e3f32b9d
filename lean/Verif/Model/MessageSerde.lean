import Verif.Model.Headers

/-!
# Messages, attachments, recipients and their JSON form

Models the types of `src/messages/message.rs`, `src/messages/attachment.rs` and `Recipient` of
`src/messages/jwe.rs`.
-/

namespace Verif

/-- Serialization of a `Vec`, every element with its own iteration orders.
(`src/messages/message.rs:51`) -/
def encList {α : Type} (e : HOrd → α → Json) : HOrd → List α → List Json
  | _, [] => []
  | o, a :: l => e (o.sub 0) a :: encList e (o.sub 1) l

/-! ## Recipients -/

/-- Models `struct Recipient`, `src/messages/jwe.rs:14-18`. -/
structure Recipient where
  header : Jwk
  encryptedKey : Str
  deriving DecidableEq, Inhabited

/-- Members written for a `Recipient`, `src/messages/jwe.rs:13-18`. -/
def recipientEntries (o : HOrd) (r : Recipient) : List (Str × Json) :=
  [(c!"header", encJwk o r.header), (c!"encrypted_key", .str r.encryptedKey)]

/-- Models the derived `Serialize` of `Recipient`, `src/messages/jwe.rs:13-18`. -/
def encRecipient (o : HOrd) (r : Recipient) : Json := .obj (recipientEntries o r)

/-- The `Recipient` among the given members, `src/messages/jwe.rs:13-18`. -/
def decRecipientE (es : List (Str × Json)) : Option Recipient := do
  let header ← reqField decJwk c!"header" es
  let encryptedKey ← reqField decStr c!"encrypted_key" es
  pure { header, encryptedKey }

/-- Models the derived `Deserialize` of `Recipient`, `src/messages/jwe.rs:13-18`. -/
def decRecipient (j : Json) : Option Recipient := do
  let es ← structEntries [c!"header", c!"encrypted_key"] 2 j
  decRecipientE es

/-! ## Attachments -/

/-- Models `struct AttachmentData`, `src/messages/attachment.rs:30-42`. -/
structure AttachmentData where
  jws : Option Str
  hash : Option Str
  links : List Str
  base64 : Option Str
  json : Option Str
  deriving DecidableEq, Repr, Inhabited

/-- Models the derived `Serialize` of `AttachmentData`, `src/messages/attachment.rs:29-42`. -/
def encAttachmentData (d : AttachmentData) : Json :=
  .obj (optE c!"jws" .str d.jws ++ (optE c!"hash" .str d.hash ++
    (vecE c!"links" (fun l => .arr (l.map .str)) d.links ++ (optE c!"base64" .str d.base64 ++
      optE c!"json" .str d.json))))

/-- Models the derived `Deserialize` of `AttachmentData`, `src/messages/attachment.rs:29-42`. -/
def decAttachmentData (j : Json) : Option AttachmentData := do
  let es ← structEntries [c!"jws", c!"hash", c!"links", c!"base64", c!"json"] 5 j
  let jws ← optField decStr c!"jws" es
  let hash ← optField decStr c!"hash" es
  let links ← dfltField [] (decVec decStr) c!"links" es
  let base64 ← optField decStr c!"base64" es
  let json ← optField decStr c!"json" es
  pure { jws, hash, links, base64, json }

/-- Models `struct Attachment`, `src/messages/attachment.rs:10-26`. -/
structure Attachment where
  id : Option Str
  description : Option Str
  filename : Option Str
  mediaType : Option Str
  format : Option Str
  lastmodTime : Option Str
  byteCount : Option UInt64
  data : AttachmentData
  deriving DecidableEq, Repr, Inhabited

/-- Models the derived `Serialize` of `Attachment`, `src/messages/attachment.rs:9-26`. -/
def encAttachment (a : Attachment) : Json :=
  .obj (optE c!"id" .str a.id ++ (optE c!"description" .str a.description ++
    (optE c!"filename" .str a.filename ++ (optE c!"media_type" .str a.mediaType ++
      (optE c!"format" .str a.format ++ (optE c!"lastmod_time" .str a.lastmodTime ++
        (optE c!"byte_count" encU64 a.byteCount ++ [(c!"data", encAttachmentData a.data)])))))))

/-- Models the derived `Deserialize` of `Attachment`, `src/messages/attachment.rs:9-26`. -/
def decAttachment (j : Json) : Option Attachment := do
  let es ← structEntries [c!"id", c!"description", c!"filename", c!"media_type", c!"format",
    c!"lastmod_time", c!"byte_count", c!"data"] 8 j
  let id ← optField decStr c!"id" es
  let description ← optField decStr c!"description" es
  let filename ← optField decStr c!"filename" es
  let mediaType ← optField decStr c!"media_type" es
  let format ← optField decStr c!"format" es
  let lastmodTime ← optField decStr c!"lastmod_time" es
  let byteCount ← optField decU64 c!"byte_count" es
  let data ← reqField decAttachmentData c!"data" es
  pure { id, description, filename, mediaType, format, lastmodTime, byteCount, data }

/-! ## Messages -/

/-- Models `struct Message`, `src/messages/message.rs:40-70`.  `body` is a `serde_json::Value`, see
`Verif.Canon`. -/
structure Message where
  jwm : JwmHeader
  didcomm : DidCommHeader
  recipients : Option (List Recipient)
  body : Json
  flatJwe : Bool
  flatJws : Bool
  attachments : List Attachment
  deriving DecidableEq, Inhabited

/-- Names of the fields of `Message` that are not flattened, `src/messages/message.rs:40-70`. -/
def messageKeys : List Str := [c!"recipients", c!"body", c!"attachments"]

/-- Models the derived `Serialize` of `Message`, `src/messages/message.rs:39-70`: the two headers are
flattened, the two `serialize_flat` flags are skipped. -/
def encMessage (o : HOrd) (m : Message) : Json :=
  .obj (jwmEntries (o.sub 0) m.jwm ++ (didcommEntries (o.sub 1) m.didcomm ++
    (optE c!"recipients" (fun l => .arr (encList encRecipient (o.sub 2) l)) m.recipients ++
      ((c!"body", m.body) ::
        vecE c!"attachments" (fun l => .arr (l.map encAttachment)) m.attachments))))

/-- Members that go to a flattened field are first buffered: nesting and number range are checked
(serde's `Content`, `src/messages/message.rs:42,46`; `src/messages/jwe.rs:45`,
`src/messages/jws.rs:80`). -/
def buffered (F : Str → Option Str) (es : List (Str × Json)) : Bool :=
  es.all fun p => (toValue F 1 p.2).isSome

/-- Models the derived `Deserialize` of `Message`, `src/messages/message.rs:39-70`. -/
def decMessage (F : Str → Option Str) (j : Json) : Option Message := do
  let es ← mapEntries j
  let recipients ← optField (decVec decRecipient) c!"recipients" es
  let body ← reqField (toValue F 1) c!"body" es
  let attachments ← dfltField [] (decVec decAttachment) c!"attachments" es
  let rest := es.filter fun p => !messageKeys.contains p.1
  guard (buffered F rest = true)
  let jwm ← decJwmE rest
  let didcomm ← decDidcommE (rest.filter fun p => !jwmKeys.contains p.1)
  pure { jwm, didcomm, recipients, body, flatJwe := false, flatJws := false, attachments }

/-- `serde_json::to_string(&message)` (`src/messages/message.rs:350`). -/
def Message.text (o : HOrd) (m : Message) : Str := printJson (encMessage o m)

/-- `serde_json::from_str::<Message>` (`src/messages/message.rs:433`, `src/messages/helpers/receive.rs:39,138`). -/
def Message.ofText (F : Str → Option Str) (s : Str) : Option Message :=
  match parseJson s with
  | some j => decMessage F j
  | none => none

end Verif
