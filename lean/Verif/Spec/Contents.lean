import Verif.Spec.Schema
import Verif.Spec.Attach
import Verif.Model.Envelope

/-!
# Specification: what is taken from a document

For every type the values that the members of a document stand for.  Together with the schemas of
`Verif.Spec.Schema` (no member twice) the members determine the values.
-/

namespace Verif.Spec

open Verif

/-- A string. -/
def StrIs (j : Json) (s : Str) : Prop := j = .str s

/-- An integer. -/
def NatIs (j : Json) (n : UInt64) : Prop := ∃ t, j = .num t ∧ digitsVal t 0 = n.toNat

/-- A name. -/
def NameIs {α : Type} (label : α → Str) (j : Json) (a : α) : Prop :=
  j = .str (label a) ∨ j = .obj [(label a, .null)]

/-- A list, element by element. -/
def ListIs {α : Type} (R : Json → α → Prop) (j : Json) (l : List α) : Prop := ∃ js, j = .arr js ∧ AllRel R js l

/-- A member that must be there. -/
def Req {α : Type} (R : Json → α → Prop) (k : Str) (es : List (Str × Json)) (a : α) : Prop := ∃ v, (k, v) ∈ es ∧ R v a

/-- A member that may be missing or `null`. -/
def Opt {α : Type} (R : Json → α → Prop) (k : Str) (es : List (Str × Json)) : Option α → Prop
  | some a => Req R k es a
  | none => ∀ v, (k, v) ∈ es → v = .null

/-- A member with a default. -/
def Dflt {α : Type} (a0 : α) (R : Json → α → Prop) (k : Str) (es : List (Str × Json)) (a : α) : Prop :=
  Req R k es a ∨ (∀ v, (k, v) ∉ es) ∧ a = a0

/-- A map: the last member of every name (not among `ks`). -/
def MapIs {α : Type} (R : Json → α → Prop) (ks : List Str) (es : List (Str × Json)) (m : HMap α) : Prop :=
  (∀ k a, m.get k = some a → k ∉ ks ∧ ∃ v, LastMember k es v ∧ R v a) ∧
  ∀ k, m.get k = none → k ∈ ks ∨ ∀ v, (k, v) ∉ es

/-- An ephemeral key inside of a key. -/
def EpkIs (j : Json) (e : Epk) : Prop := ∃ es, Members [c!"kty", c!"crv", c!"x", c!"y"] 4 j es ∧
  Req StrIs c!"kty" es e.kty ∧ Req StrIs c!"crv" es e.crv ∧ Req StrIs c!"x" es e.x ∧ Opt StrIs c!"y" es e.y

/-- A key. -/
def KeyIs (j : Json) (k : Jwk) : Prop := ∃ es, j = .obj es ∧
  Opt StrIs c!"kty" es k.kty ∧ Opt StrIs c!"use" es k.use_ ∧ Opt StrIs c!"crv" es k.crv ∧
  Req (ListIs (NameIs KeyOps.label)) c!"key_ops" es k.keyOps ∧ Req (NameIs KeyAlgorithm.label) c!"alg" es k.alg ∧
  Opt StrIs c!"kid" es k.kid ∧ Opt EpkIs c!"epk" es k.epk ∧
  MapIs StrIs [c!"kty", c!"use", c!"crv", c!"key_ops", c!"alg", c!"kid", c!"epk"] es k.other

/-- The members of a JOSE header. -/
def HeaderIs (es : List (Str × Json)) (h : JwmHeader) : Prop :=
  Req (NameIs MessageType.label) c!"typ" es h.typ ∧ Opt StrIs c!"enc" es h.enc ∧ Opt StrIs c!"kid" es h.kid ∧
  Opt StrIs c!"skid" es h.skid ∧ Opt StrIs c!"alg" es h.alg ∧ Opt StrIs c!"jku" es h.jku ∧
  Opt KeyIs c!"jwk" es h.jwk ∧ Opt KeyIs c!"epk" es h.epk ∧ Opt StrIs c!"cty" es h.cty

/-- The names of the header members. -/
def headerNames : List Str :=
  [c!"typ", c!"enc", c!"kid", c!"skid", c!"alg", c!"jku", c!"jwk", c!"epk", c!"cty"]

/-- A JOSE header. -/
def HeaderTreeIs (j : Json) (h : JwmHeader) : Prop := ∃ es, Members headerNames 9 j es ∧ HeaderIs es h

/-- A header in base64url text; a `null` is no header. -/
def EncodedIs (j : Json) (h : Option JwmHeader) : Prop :=
  (j = .null ∧ h = none) ∨ ∃ s text i, j = .str s ∧ Base64Text (utf8 text) s ∧ Document i text ∧
    ((i = .null ∧ h = none) ∨ ∃ h', HeaderTreeIs i h' ∧ h = some h')

/-- Claims about a former DID. -/
def PriorIs (j : Json) (c : PriorClaims) : Prop := ∃ es, Members [c!"sub", c!"iss"] 2 j es ∧
  Opt StrIs c!"sub" es c.sub ∧ Req StrIs c!"iss" es c.iss

/-- The thread decorator. -/
def ThreadIs (j : Json) (t : Thread) : Prop :=
  ∃ es, Members [c!"thid", c!"pthid", c!"sender_order", c!"received_orders", c!"goal_code"] 5 j es ∧
  Req StrIs c!"thid" es t.thid ∧ Req StrIs c!"pthid" es t.pthid ∧ Opt NatIs c!"sender_order" es t.senderOrder ∧
  Opt (fun j m => ∃ es, j = .obj es ∧ MapIs NatIs [] es m) c!"received_orders" es t.receivedOrders ∧
  Opt StrIs c!"goal_code" es t.goalCode

/-- The members of a recipient entry. -/
def EntryIs (es : List (Str × Json)) (r : Recipient) : Prop :=
  Req KeyIs c!"header" es r.header ∧ Req StrIs c!"encrypted_key" es r.encryptedKey

/-- A recipient entry. -/
def EntryTreeIs (j : Json) (r : Recipient) : Prop :=
  ∃ es, Members [c!"header", c!"encrypted_key"] 2 j es ∧ EntryIs es r

/-- Contents of an attachment. -/
def DataIs (j : Json) (d : AttachmentData) : Prop :=
  ∃ es, Members [c!"jws", c!"hash", c!"links", c!"base64", c!"json"] 5 j es ∧
  Opt StrIs c!"jws" es d.jws ∧ Opt StrIs c!"hash" es d.hash ∧ Dflt [] (ListIs StrIs) c!"links" es d.links ∧
  Opt StrIs c!"base64" es d.base64 ∧ Opt StrIs c!"json" es d.json

/-- An attachment. -/
def AttachmentIs (j : Json) (a : Attachment) : Prop :=
  ∃ es, Members [c!"id", c!"description", c!"filename", c!"media_type", c!"format", c!"lastmod_time", c!"byte_count",
    c!"data"] 8 j es ∧
  Opt StrIs c!"id" es a.id ∧ Opt StrIs c!"description" es a.description ∧ Opt StrIs c!"filename" es a.filename ∧
  Opt StrIs c!"media_type" es a.mediaType ∧ Opt StrIs c!"format" es a.format ∧
  Opt StrIs c!"lastmod_time" es a.lastmodTime ∧ Opt NatIs c!"byte_count" es a.byteCount ∧ Req DataIs c!"data" es a.data

/-- The names of the members of a message that have a place of their own. -/
def messageNames : List Str :=
  [c!"recipients", c!"body", c!"attachments"] ++ headerNames ++
    [c!"id", c!"thid", c!"pthid", c!"type", c!"to", c!"from", c!"created_time", c!"expires_time", c!"from_prior",
     c!"~thread"]

/-- A message. -/
def MessageIs (F : Str → Option Str) (es : List (Str × Json)) (m : Message) : Prop :=
  HeaderIs es m.jwm ∧
  (Req StrIs c!"id" es m.didcomm.id ∧ Opt StrIs c!"thid" es m.didcomm.thid ∧ Opt StrIs c!"pthid" es m.didcomm.pthid ∧
    Req StrIs c!"type" es m.didcomm.mType ∧ Req (ListIs StrIs) c!"to" es m.didcomm.to ∧
    Opt StrIs c!"from" es m.didcomm.from ∧ Opt NatIs c!"created_time" es m.didcomm.createdTime ∧
    Opt NatIs c!"expires_time" es m.didcomm.expiresTime ∧ Opt PriorIs c!"from_prior" es m.didcomm.fromPrior ∧
    Opt ThreadIs c!"~thread" es m.didcomm.thread ∧ MapIs StrIs messageNames es m.didcomm.other) ∧
  Opt (ListIs EntryTreeIs) c!"recipients" es m.recipients ∧ Req (Denotes F) c!"body" es m.body ∧
  Dflt [] (ListIs AttachmentIs) c!"attachments" es m.attachments ∧ m.flatJwe = false ∧ m.flatJws = false

/-- An encrypted envelope.  The flat recipient is there only if the members of an entry are. -/
def JweIs (es : List (Str × Json)) (e : Jwe) : Prop :=
  Dflt none EncodedIs c!"protected" es e.protected_ ∧ Opt HeaderTreeIs c!"unprotected" es e.unprotected ∧
  Opt (ListIs EntryTreeIs) c!"recipients" es e.recipients ∧ Req StrIs c!"ciphertext" es e.ciphertext ∧
  Req StrIs c!"iv" es e.iv ∧ Opt StrIs c!"tag" es e.tag ∧ ∀ r, e.recipient = some r → EntryIs es r

/-- The members of a signature. -/
def SignatureIs (es : List (Str × Json)) (s : Signature) : Prop :=
  Dflt none EncodedIs c!"protected" es s.protected_ ∧ Opt HeaderTreeIs c!"header" es s.header ∧
  Dflt [] (fun j bs => ∃ s, j = .str s ∧ Base64Text bs s) c!"signature" es s.signature

/-- An element of `signatures`. -/
def SignatureTreeIs (j : Json) (s : Signature) : Prop :=
  ∃ es, Members [c!"protected", c!"header", c!"signature"] 2 j es ∧ SignatureIs es s

/-- A signed document. -/
def JwsIs (es : List (Str × Json)) (e : Jws) : Prop :=
  Req StrIs c!"payload" es e.payload ∧ Opt (ListIs SignatureTreeIs) c!"signatures" es e.signatures ∧
  ∀ s, e.signature = some s → SignatureIs es s

end Verif.Spec
