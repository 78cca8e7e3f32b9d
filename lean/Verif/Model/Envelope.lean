import Verif.Model.Base64
import Verif.Model.Utf8
import Verif.Model.MessageSerde

/-!
# JWE and JWS envelopes and their JSON form

Models `src/messages/jwe.rs`, `src/messages/jws.rs`, `src/messages/helpers/serialization.rs` and the
types of `src/messages/mediated.rs`.
-/

namespace Verif

/-! ## base64url fields -/

/-- Models `serialization_base64_jwm_header::serialize` on a present header,
`src/messages/helpers/serialization.rs:24-33`: the base64url text of the JSON text. -/
def headerB64 (o : HOrd) (h : JwmHeader) : Str := b64Encode (utf8 (printJson (encJwm o h)))

/-- Models `serde_json::from_slice::<Option<JwmHeader>>`,
`src/messages/helpers/serialization.rs:41`. -/
def decHeaderBytes (bs : Bytes) : Option (Option JwmHeader) :=
  match parseBytes bs with
  | some j => decOpt decJwm j
  | none => none

/-- Models `serialization_base64_jwm_header::deserialize`,
`src/messages/helpers/serialization.rs:35-45`. -/
def decHeaderB64 : Json → Option (Option JwmHeader)
  | .null => some none
  | .str s => (b64Decode s).bind decHeaderBytes
  | _ => none

/-- Models `serialization_base64_buffer::deserialize`, `src/messages/helpers/serialization.rs:11-14`. -/
def decBufferB64 : Json → Option Bytes
  | .str s => b64Decode s
  | _ => none

/-! ## JWE -/

/-- Models `struct Jwe`, `src/messages/jwe.rs:32-63`. -/
structure Jwe where
  protected_ : Option JwmHeader
  unprotected : Option JwmHeader
  recipient : Option Recipient
  recipients : Option (List Recipient)
  ciphertext : Str
  iv : Str
  tag : Option Str
  deriving DecidableEq, Inhabited

/-- Names of the fields of `Jwe` that are not flattened, `src/messages/jwe.rs:32-63`. -/
def jweKeys : List Str :=
  [c!"protected", c!"unprotected", c!"recipients", c!"ciphertext", c!"iv", c!"tag"]

/-- Members of the flattened `recipient`, `src/messages/jwe.rs:45-47`. -/
def flatRecipient (o : HOrd) : Option Recipient → List (Str × Json)
  | some r => recipientEntries o r
  | none => []

/-- Models the derived `Serialize` of `Jwe`, `src/messages/jwe.rs:31-63`. -/
def encJwe (o : HOrd) (j : Jwe) : Json :=
  .obj (optE c!"protected" (fun h => .str (headerB64 (o.sub 0) h)) j.protected_ ++
    (optE c!"unprotected" (encJwm (o.sub 1)) j.unprotected ++
      (flatRecipient (o.sub 2) j.recipient ++
        (optE c!"recipients" (fun l => .arr (encList encRecipient (o.sub 3) l)) j.recipients ++
          ((c!"ciphertext", .str j.ciphertext) :: (c!"iv", .str j.iv) ::
            optE c!"tag" .str j.tag)))))

/-- Models the derived `Deserialize` of `Jwe`, `src/messages/jwe.rs:31-63`: a flattened `Option` is
`None` when its content does not decode. -/
def decJwe (F : Str → Option Str) (j : Json) : Option Jwe := do
  let es ← mapEntries j
  let protected_ ← dfltField none decHeaderB64 c!"protected" es
  let unprotected ← optField decJwm c!"unprotected" es
  let recipients ← optField (decVec decRecipient) c!"recipients" es
  let ciphertext ← reqField decStr c!"ciphertext" es
  let iv ← reqField decStr c!"iv" es
  let tag ← optField decStr c!"tag" es
  let rest := es.filter fun p => !jweKeys.contains p.1
  guard (buffered F rest = true)
  let recipient := decRecipientE rest
  pure { protected_, unprotected, recipient, recipients, ciphertext, iv, tag }

/-! ## JWS -/

/-- Models `struct Signature`, `src/messages/jws.rs:14-29`. -/
structure Signature where
  protected_ : Option JwmHeader
  header : Option JwmHeader
  signature : Bytes
  deriving DecidableEq, Inhabited

/-- Members written for a `Signature`, `src/messages/jws.rs:13-29`. -/
def signatureEntries (o : HOrd) (s : Signature) : List (Str × Json) :=
  optE c!"protected" (fun h => .str (headerB64 (o.sub 0) h)) s.protected_ ++
    (optE c!"header" (encJwm (o.sub 1)) s.header ++
      [(c!"signature", .str (b64Encode s.signature))])

/-- Models the derived `Serialize` of `Signature`, `src/messages/jws.rs:13-29`. -/
def encSignature (o : HOrd) (s : Signature) : Json := .obj (signatureEntries o s)

/-- The `Signature` among the given members, `src/messages/jws.rs:13-29`. -/
def decSignatureE (es : List (Str × Json)) : Option Signature := do
  let protected_ ← dfltField none decHeaderB64 c!"protected" es
  let header ← optField decJwm c!"header" es
  let signature ← dfltField [] decBufferB64 c!"signature" es
  pure { protected_, header, signature }

/-- Models the derived `Deserialize` of `Signature`, `src/messages/jws.rs:13-29`. -/
def decSignature (j : Json) : Option Signature := do
  let es ← structEntries [c!"protected", c!"header", c!"signature"] 2 j
  decSignatureE es

/-- Models `struct Jws`, `src/messages/jws.rs:74-88`. -/
structure Jws where
  payload : Str
  signature : Option Signature
  signatures : Option (List Signature)
  deriving DecidableEq, Inhabited

/-- Names of the fields of `Jws` that are not flattened, `src/messages/jws.rs:74-88`. -/
def jwsKeys : List Str := [c!"payload", c!"signatures"]

/-- Members of the flattened `signature`, `src/messages/jws.rs:80-82`. -/
def flatSignature (o : HOrd) : Option Signature → List (Str × Json)
  | some s => signatureEntries o s
  | none => []

/-- Models the derived `Serialize` of `Jws`, `src/messages/jws.rs:73-88`. -/
def encJws (o : HOrd) (j : Jws) : Json :=
  .obj ((c!"payload", .str j.payload) :: (flatSignature (o.sub 0) j.signature ++
    optE c!"signatures" (fun l => .arr (encList encSignature (o.sub 1) l)) j.signatures))

/-- Models the derived `Deserialize` of `Jws`, `src/messages/jws.rs:73-88`. -/
def decJws (F : Str → Option Str) (j : Json) : Option Jws := do
  let es ← mapEntries j
  let payload ← reqField decStr c!"payload" es
  let signatures ← optField (decVec decSignature) c!"signatures" es
  let rest := es.filter fun p => !jwsKeys.contains p.1
  guard (buffered F rest = true)
  let signature := decSignatureE rest
  pure { payload, signature, signatures }

/-! ## Texts -/

/-- `serde_json::to_string(&jwe)` (`src/messages/message.rs:395`,
`src/messages/message_raw_crypto.rs:82`). -/
def Jwe.text (o : HOrd) (j : Jwe) : Str := printJson (encJwe o j)

/-- `serde_json::from_str::<Jwe>` (`src/messages/helpers/receive.rs:58`). -/
def Jwe.ofText (F : Str → Option Str) (s : Str) : Option Jwe :=
  match parseJson s with
  | some j => decJwe F j
  | none => none

/-- `serde_json::to_string(&jws)` (`src/messages/message_raw_crypto.rs:163`). -/
def Jws.text (o : HOrd) (j : Jws) : Str := printJson (encJws o j)

/-- The bytes of one signature, read from `j` alone (`src/messages/helpers/serialization.rs:11-14`). -/
def sigBytes (j : Json) : Option Bytes := do
  let es ← structEntries [c!"protected", c!"header", c!"signature"] 2 j
  dfltField [] decBufferB64 c!"signature" es

/-- Models the borrowing of `let buffer: &[u8]` in `serialization_base64_buffer::deserialize`,
`src/messages/helpers/serialization.rs:12`: only a string written without escapes can be borrowed from
the text, so in `jm`, where the others are struck out, the signatures must still be readable.  A failure
among `signatures` fails the whole JWS (`src/messages/jws.rs:84-87`); the flattened `signature`
(`src/messages/jws.rs:78-82`) becomes `None`. -/
def borrowed (jm : Json) (jws : Jws) : Option Jws := do
  let es ← mapEntries jm
  let _ ← optField (decVec sigBytes) c!"signatures" es
  pure { jws with signature := (dfltField [] decBufferB64 c!"signature" es).bind fun _ => jws.signature }

/-- `serde_json::from_str::<Jws>` (`src/messages/helpers/receive.rs:149`). -/
def Jws.ofText (F : Str → Option Str) (s : Str) : Option Jws := do
  let j ← parseJson s
  let jm ← parseStruck s
  let jws ← decJws F j
  borrowed jm jws

/-- `serde_json::from_slice::<Jws>` (`src/messages/message_raw_crypto.rs:170`). -/
def Jws.ofBytes (F : Str → Option Str) (bs : Bytes) : Option Jws := (utf8Decode bs).bind (Jws.ofText F)

/-! ## Mediated payloads -/

/-- Models `struct Mediated`, `src/messages/mediated.rs:5-12`. -/
structure Mediated where
  next : Str
  payload : Bytes
  deriving DecidableEq, Repr, Inhabited

/-- Models the derived `Serialize` of `Mediated`, `src/messages/mediated.rs:4-12`. -/
def encMediated (m : Mediated) : Json :=
  .obj [(c!"next", .str m.next), (c!"payloads~attach", .arr (m.payload.map encU8))]

/-- Models the derived `Deserialize` of `Mediated`, `src/messages/mediated.rs:4-12`. -/
def decMediated (j : Json) : Option Mediated := do
  let es ← structEntries [c!"next", c!"payloads~attach"] 2 j
  let next ← reqField decStr c!"next" es
  let payload ← reqField (decVec decU8) c!"payloads~attach" es
  pure { next, payload }

end Verif
