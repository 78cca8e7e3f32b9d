import Verif.Model.Message

/-!
# Attachments, out-of-band invitations and problem reports

Models the builders of `src/messages/attachment.rs`, `src/messages/out_of_band.rs` and
`src/messages/problem_report.rs`.
-/

namespace Verif

/-- Models the derived `Default` of `AttachmentData`, `src/messages/attachment.rs:29`, which is also
`AttachmentDataBuilder::new`, `src/messages/attachment.rs:52-56`. -/
def AttachmentData.dflt : AttachmentData :=
  { jws := none, hash := none, links := [], base64 := none, json := none }

namespace AttachmentData

/-- Models `with_jws`, `src/messages/attachment.rs:64-67`. -/
def withJws (d : AttachmentData) (s : Str) : AttachmentData := { d with jws := some s }

/-- Models `with_hash`, `src/messages/attachment.rs:77-80`. -/
def withHash (d : AttachmentData) (s : Str) : AttachmentData := { d with hash := some s }

/-- Models `with_link`, `src/messages/attachment.rs:89-92`. -/
def withLink (d : AttachmentData) (s : Str) : AttachmentData := { d with links := d.links ++ [s] }

/-- Models `with_raw_payload`, `src/messages/attachment.rs:101-104`. -/
def withRawPayload (d : AttachmentData) (b : Bytes) : AttachmentData :=
  { d with base64 := some (b64Encode b) }

/-- Models `with_encoded_payload`, `src/messages/attachment.rs:112-115`. -/
def withEncodedPayload (d : AttachmentData) (s : Str) : AttachmentData := { d with base64 := some s }

/-- Models `with_json`, `src/messages/attachment.rs:123-126`. -/
def withJson (d : AttachmentData) (s : Str) : AttachmentData := { d with json := some s }

end AttachmentData

/-- Models the derived `Default` of `Attachment`, `src/messages/attachment.rs:9`. -/
def Attachment.dflt : Attachment :=
  { id := none, description := none, filename := none, mediaType := none, format := none,
    lastmodTime := none, byteCount := none, data := AttachmentData.dflt }

/-- Models `struct AttachmentBuilder`, `src/messages/attachment.rs:142-145`. -/
structure AttachmentBuilder where
  inner : Attachment
  timed : Bool
  deriving DecidableEq

namespace AttachmentBuilder

/-- Models `AttachmentBuilder::new`, `src/messages/attachment.rs:157-162`. -/
def new (includeModTime : Bool) : AttachmentBuilder :=
  { inner := Attachment.dflt, timed := includeModTime }

/-- Models `with_id`, `src/messages/attachment.rs:170-173`. -/
def withId (b : AttachmentBuilder) (s : Str) : AttachmentBuilder :=
  { b with inner := { b.inner with id := some s } }

/-- Models `with_description`, `src/messages/attachment.rs:181-184`. -/
def withDescription (b : AttachmentBuilder) (s : Str) : AttachmentBuilder :=
  { b with inner := { b.inner with description := some s } }

/-- Models `with_filename`, `src/messages/attachment.rs:192-195`. -/
def withFilename (b : AttachmentBuilder) (s : Str) : AttachmentBuilder :=
  { b with inner := { b.inner with filename := some s } }

/-- Models `with_media_type`, `src/messages/attachment.rs:203-206`. -/
def withMediaType (b : AttachmentBuilder) (s : Str) : AttachmentBuilder :=
  { b with inner := { b.inner with mediaType := some s } }

/-- Models `with_format`, `src/messages/attachment.rs:214-217`. -/
def withFormat (b : AttachmentBuilder) (s : Str) : AttachmentBuilder :=
  { b with inner := { b.inner with format := some s } }

/-- Models `external_size`, `src/messages/attachment.rs:226-229`. -/
def externalSize (b : AttachmentBuilder) (n : UInt64) : AttachmentBuilder :=
  { b with inner := { b.inner with byteCount := some n } }

/-- Models `with_data`, `src/messages/attachment.rs:238-241`. -/
def withData (b : AttachmentBuilder) (d : AttachmentData) : AttachmentBuilder :=
  { b with inner := { b.inner with data := d } }

/-- Models `timestamp` and `finalize`, `src/messages/attachment.rs:243-252`; `now` is the clock's
text. -/
def finalize (b : AttachmentBuilder) (now : Str) : Attachment :=
  if b.timed then { b.inner with lastmodTime := some now } else b.inner

/-- Models `TryFrom<(&str, T)>`, `src/messages/attachment.rs:255-268`, for a value that serializes to
the tree `data`.  (Serialization into a string does not fail for the derived serializers.) -/
def ofValue (format : Str) (data : Json) : AttachmentBuilder :=
  (((new true).withMediaType c!"application/json").withFormat format).withData
    (AttachmentData.dflt.withJson (printJson data))

end AttachmentBuilder

namespace Message

/-- Models `append_attachment`, `src/messages/attachment.rs:278-280`. -/
def appendAttachment (m : Message) (b : AttachmentBuilder) (now : Str) : Message :=
  { m with attachments := m.attachments ++ [b.finalize now] }

/-- Models `attachment_iter`, `src/messages/attachment.rs:283-285`. -/
def attachmentIter (m : Message) : List Attachment := m.attachments

/-- The value of one attachment, `src/messages/attachment.rs:302-314`. -/
def attachmentValue {α : Type} (dec : Json → Option α) (a : Attachment) : Res α :=
  if a.mediaType = some c!"application/json" then
    match a.data.json with
    | some s => Res.ofOpt .serde ((parseJson s).bind dec)
    | none =>
      match a.id with
      | some _ => .err (.attachment "attachment contains invalid JSON data")
      | none => .err (.attachment "NO ATTACHMENT ID")
  else .err (.attachment "unsupported media type")

/-- `collect` of results: the first error wins (`src/messages/attachment.rs:315`). -/
def collectRes {α β : Type} (f : α → Res β) : List α → Res (List β)
  | [] => .ok []
  | a :: l => do
    let b ← f a
    let bs ← collectRes f l
    pure (b :: bs)

/-- Models `deserialize_attachments`, `src/messages/attachment.rs:291-316`, for a target type with
decoder `dec`. -/
def deserializeAttachments {α : Type} (dec : Json → Option α) (m : Message) (fmt : Str) :
    Res (List α) :=
  if fmt ≠ c!"application/json" then .err (.attachment "unsupported media type")
  else collectRes (attachmentValue dec) (m.attachments.filter fun a => a.format = some fmt)

/-- Attachments appended one after the other, `src/messages/out_of_band.rs:23-27`; each with the clock
text of its own timestamp. -/
def appendAll (m : Message) : List (AttachmentBuilder × Str) → Message
  | [] => m
  | (b, now) :: l => appendAll (m.appendAttachment b now) l

/-- Models `as_out_of_band_invitation`, `src/messages/out_of_band.rs:12-29`. -/
def asOutOfBandInvitation (P : Prims) (m : Message) (body : Bytes)
    (atts : Option (List (AttachmentBuilder × Str))) : Res Message := do
  let m := m.setTyp .raw
  let m := m.setMType MessageType.invitation.label
  let m :=
    match atts with
    | some l => m.appendAll l
    | none => m
  let s ← Res.unwrap (utf8Decode body)
  m.setBody P s

end Message

/-! ## Problem reports (`src/messages/problem_report.rs`) -/

/-- Models `struct Problem`, `src/messages/problem_report.rs:7-12`. -/
structure Problem where
  code : Str
  comment : Option Str
  args : List Str
  escalateTo : Option Str
  deriving DecidableEq, Repr

/-- Models the derived `Default` of `Problem`, `src/messages/problem_report.rs:6`. -/
def Problem.dflt : Problem := { code := [], comment := none, args := [], escalateTo := none }

/-- Models `Problem::from_code`, `src/messages/problem_report.rs:18-30`. -/
def Problem.fromCode (code : Str) : Res Problem :=
  if problemRe.accepts code then .ok { Problem.dflt with code := code }
  else .err (.generic "Code badly formatted for this problem")

/-- Models `enum KnownProblems`, `src/messages/problem_report.rs:71-101`. -/
inductive KnownProblem where
  | protocolError | trustlError | cryptoTrusError | xferError | didError | msgError | meErro
  | meResError | reqError | reqTimeError | legalError
  | protocolWarning | trustWarning | cryptoTrustWarning | xferWarning | didWarning | msgWarning
  | meWarning | meResWarning | reqWarning | reqTimeWarning | legalWarning
  | unknown
  deriving DecidableEq, Repr

/-- The serde names of `KnownProblems`, `src/messages/problem_report.rs:71-101`. -/
def KnownProblem.label : KnownProblem → Str
  | .protocolError => c!"ProtocolError"
  | .trustlError => c!"TrustlError"
  | .cryptoTrusError => c!"CryptoTrusError"
  | .xferError => c!"XferError"
  | .didError => c!"DidError"
  | .msgError => c!"MsgError"
  | .meErro => c!"MeErro"
  | .meResError => c!"MeResError"
  | .reqError => c!"ReqError"
  | .reqTimeError => c!"ReqTimeError"
  | .legalError => c!"LegalError"
  | .protocolWarning => c!"ProtocolWarning"
  | .trustWarning => c!"TrustWarning"
  | .cryptoTrustWarning => c!"CryptoTrustWarning"
  | .xferWarning => c!"XferWarning"
  | .didWarning => c!"DidWarning"
  | .msgWarning => c!"MsgWarning"
  | .meWarning => c!"MeWarning"
  | .meResWarning => c!"MeResWarning"
  | .reqWarning => c!"ReqWarning"
  | .reqTimeWarning => c!"ReqTimeWarning"
  | .legalWarning => c!"LegalWarning"
  | .unknown => c!"e.u.no-data"

/-- Models `ToString for KnownProblems`, `src/messages/problem_report.rs:109-113`: the JSON text of the
label, quotes included. -/
def KnownProblem.toStr (p : KnownProblem) : Str := printJson (.str p.label)

/-- Models `Problem::from_known_problem`, `src/messages/problem_report.rs:37-42`. -/
def Problem.fromKnown (p : KnownProblem) : Problem := { Problem.dflt with code := p.toStr }

/-- Models the derived `Serialize` of `Problem`, `src/messages/problem_report.rs:6-12`. -/
def encProblem (p : Problem) : Json :=
  .obj [(c!"code", .str p.code), (c!"comment", encOpt .str p.comment),
    (c!"args", .arr (p.args.map .str)), (c!"escalate_to", encOpt .str p.escalateTo)]

/-- Models the derived `Deserialize` of `Problem`, `src/messages/problem_report.rs:6-12`. -/
def decProblem (j : Json) : Option Problem := do
  let es ← structEntries [c!"code", c!"comment", c!"args", c!"escalate_to"] 4 j
  let code ← reqField decStr c!"code" es
  let comment ← optField decStr c!"comment" es
  let args ← reqField (decVec decStr) c!"args" es
  let escalateTo ← optField decStr c!"escalate_to" es
  pure { code, comment, args, escalateTo }

end Verif
