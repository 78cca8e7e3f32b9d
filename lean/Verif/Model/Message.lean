import Verif.Model.Crypto
import Verif.Model.Envelope
import Verif.Model.Regex

/-!
# Building and inspecting messages

Models the setters and getters of `src/messages/message.rs`, the thread functions of
`src/messages/headers/decorators.rs` and `src/messages/headers/didcomm.rs`, and
`src/messages/headers/prior_claims.rs`.  The random id and the clock are arguments.
-/

namespace Verif

/-! ## Threads (`src/messages/headers/decorators.rs`) -/

/-- Models the derived `Default` of `Thread`, `src/messages/headers/decorators.rs:18`. -/
def Thread.dflt : Thread :=
  { thid := [], pthid := [], senderOrder := none, receivedOrders := none, goalCode := none }

/-- Models `Thread::implicit`, `src/messages/headers/decorators.rs:54-60`. -/
def Thread.implicit (messageId : Str) : Thread :=
  { Thread.dflt with thid := messageId, senderOrder := some 0 }

/-- Models `Thread::implicit_reply`, `src/messages/headers/decorators.rs:72-77`. -/
def Thread.implicitReply (thid : Str) : Thread := { Thread.dflt with thid := thid }

/-- Models `Thread::effective_implicit_reply`, `src/messages/headers/decorators.rs:80-84`. -/
def Thread.effectiveImplicitReply (thid sender : Str) : Thread :=
  { Thread.implicitReply thid with receivedOrders := some (HMap.ofList [(sender, 0)]) }

/-- Models `Thread::is_implicit_reply`, `src/messages/headers/decorators.rs:87-96`. -/
def Thread.isImplicitReply (t : Thread) (messageId : Str) : Bool :=
  if t.thid ≠ messageId then
    match t.receivedOrders with
    | some m => m.entries.all fun p => p.2 == 0
    | none => true
  else false

/-! ## `DidCommHeader` (`src/messages/headers/didcomm.rs`) -/

/-- Models `DidCommHeader::new`, `src/messages/headers/didcomm.rs:44-58`; `uuid` is the random id. -/
def DidCommHeader.new (uuid : Str) : DidCommHeader :=
  { id := uuid, thid := none, pthid := none, mType := c!"JWM", to := [[]], «from» := some [],
    createdTime := none, expiresTime := none, fromPrior := none, thread := none, other := HMap.empty }

/-- Models `DidCommHeader::get_message_uri`, `src/messages/headers/didcomm.rs:68-75`. -/
def DidCommHeader.messageUri (h : DidCommHeader) : Str :=
  c!"didcomm://" ++ h.id ++ h.thid.getD [] ++ h.pthid.getD []

/-- Models `DidCommHeader::reply_to`, `src/messages/headers/didcomm.rs:83-97`. -/
def DidCommHeader.replyTo (h sender : DidCommHeader) : DidCommHeader :=
  let h' :=
    match sender.thread with
    | some t =>
      if t.isImplicitReply sender.id then
        { h with thread := some (Thread.implicitReply t.thid), thid := some t.thid }
      else { h with thid := sender.thid, pthid := sender.pthid }
    | none => { h with thid := sender.thid, pthid := sender.pthid }
  { h' with to := h'.to ++ [sender.from.getD []] }

/-- Models `DidCommHeader::forward`, `src/messages/headers/didcomm.rs:105-121`.  `now` is the clock
(`none`: before 1970). -/
def DidCommHeader.forward (uuid : Str) (now : Option UInt64) (to : List Str) (frm : Option Str)
    (expires : Option UInt64) : Res DidCommHeader :=
  match now with
  | some t => .ok { DidCommHeader.new uuid with
      to := to, «from» := frm, createdTime := some t, expiresTime := expires }
  | none => .err .systemTime

/-! ## `PriorClaims` (`src/messages/headers/prior_claims.rs`) -/

/-- Models `FromStr for PriorClaims`, `src/messages/headers/prior_claims.rs:13-19`. -/
def PriorClaims.ofStr (s : Str) : Res PriorClaims :=
  Res.ofOpt .serde ((parseJson s).bind decPrior)

/-- Models `TryFrom<&[u8]> for PriorClaims`, `src/messages/headers/prior_claims.rs:21-27`. -/
def PriorClaims.ofBytes (b : Bytes) : Res PriorClaims :=
  match utf8Decode b with
  | some s => PriorClaims.ofStr s
  | none => .err .utf8

/-! ## `Message` setters and getters (`src/messages/message.rs:72-342`) -/

namespace Message

/-- Models `Message::new`, `src/messages/message.rs:75-88`. -/
def new (uuid : Str) : Message :=
  { jwm := JwmHeader.dflt, didcomm := DidCommHeader.new uuid, recipients := none, body := .obj [],
    flatJwe := false, flatJws := false, attachments := [] }

/-- Models `add_header_field`, `src/messages/message.rs:92-98`. -/
def addHeaderField (m : Message) (k v : Str) : Message :=
  if k = [] then m
  else { m with didcomm := { m.didcomm with other := m.didcomm.other.insert k v } }

/-- The key id chosen by `as_jwe` from a resolved document, `src/messages/message.rs:169-177`. -/
def resolvedKid (a : CryptoAlg) (d : DidDoc) : Option Str :=
  match a with
  | .xc20p => d.keyIdFor c!"X25519"
  | .a256gcm => d.keyIdFor c!"P-256"
  | .a256cbc => d.keyIdFor c!"P-256"

/-- Models `as_jwe`, `src/messages/message.rs:160-183`. -/
def asJwe (P : Prims) (m : Message) (a : CryptoAlg) (key : Option Bytes) : Message :=
  let h := m.jwm.asEncrypted a
  match key with
  | some k => { m with jwm := { h with kid := some (b64Encode k) } }
  | none =>
    match m.didcomm.from with
    | some f =>
      match P.resolve f with
      | some d => { m with jwm := { h with kid := resolvedKid a d } }
      | none => { m with jwm := h }
    | none => { m with jwm := h }

/-- Models `as_flat_jwe`, `src/messages/message.rs:103-110`. -/
def asFlatJwe (P : Prims) (m : Message) (a : CryptoAlg) (key : Option Bytes) : Message :=
  asJwe P { m with flatJwe := true } a key

/-- Models `as_jws`, `src/messages/message.rs:190-193`. -/
def asJws (m : Message) (a : SignAlg) : Message := { m with jwm := m.jwm.asSigned a }

/-- Models `as_flat_jws`, `src/messages/message.rs:115-118`. -/
def asFlatJws (m : Message) (a : SignAlg) : Message := asJws { m with flatJws := true } a

/-- Models `get_message_uri`, `src/messages/message.rs:122-124`. -/
def messageUri (m : Message) : Str := m.didcomm.messageUri

/-- Models `reply_to`, `src/messages/message.rs:130-133`. -/
def replyTo (m x : Message) : Message := { m with didcomm := m.didcomm.replyTo x.didcomm }

/-- Models `with_parent`, `src/messages/message.rs:142-152`. -/
def withParent (m p : Message) : Message :=
  { m with didcomm := { m.didcomm with
      pthid := some (match p.didcomm.thid with
        | some t => t
        | none => p.didcomm.id) } }

/-- `serde_json::from_str::<Value>` (`src/messages/message.rs:198`). -/
def valueOfText (F : Str → Option Str) (s : Str) : Option Json := (parseJson s).bind (toValue F 0)

/-- Models `body`, `src/messages/message.rs:197-200`. -/
def setBody (P : Prims) (m : Message) (text : Str) : Res Message := do
  let v ← Res.ofOpt .serde (valueOfText P.f64 text)
  pure { m with body := v }

/-- Models `get_body`, `src/messages/message.rs:217-219`.  (Printing a `Value` cannot fail.) -/
def getBody (m : Message) : Res Str := .ok (printJson m.body)

/-- Models `didcomm_header` and `set_didcomm_header`, `src/messages/message.rs:205-208,321-324`. -/
def setDidcomm (m : Message) (h : DidCommHeader) : Message := { m with didcomm := h }

/-- Models `jwm_header`, `src/messages/message.rs:254-257`. -/
def setJwm (m : Message) (h : JwmHeader) : Message := { m with jwm := h }

/-- Models `from`, `src/messages/message.rs:211-214`. -/
def setFrom (m : Message) (f : Str) : Message :=
  { m with didcomm := { m.didcomm with «from» := some f } }

/-- Models `is_rotation`, `src/messages/message.rs:247-249`. -/
def isRotation (m : Message) : Bool := m.didcomm.fromPrior.isSome

/-- Models `get_prior`, `src/messages/message.rs:233-243`. -/
def getPrior (m : Message) : Res PriorClaims :=
  if m.isRotation then Res.ofOpt .noRotationData m.didcomm.fromPrior else .err .noRotationData

/-- Models `m_type`, `src/messages/message.rs:260-263`. -/
def setMType (m : Message) (t : Str) : Message :=
  { m with didcomm := { m.didcomm with mType := t } }

/-- Models `typ`, `src/messages/message.rs:270-273`. -/
def setTyp (m : Message) (t : MessageType) : Message := { m with jwm := { m.jwm with typ := t } }

/-- Models `kid`, `src/messages/message.rs:276-284`. -/
def setKid (m : Message) (k : Str) : Message :=
  match m.jwm.kid with
  | some _ => { m with jwm := { m.jwm with kid := some k } }
  | none => { m with jwm := { m.jwm with kid := some k } }

/-- Models `timed`, `src/messages/message.rs:292-300`; `now` is the clock (`none`: before 1970). -/
def timed (m : Message) (now : Option UInt64) (expires : Option UInt64) : Message :=
  { m with didcomm := { m.didcomm with expiresTime := expires, createdTime := now } }

/-- One pass of the loop of `to`, `src/messages/message.rs:307-314`: position of the first empty
string. -/
def emptyPos (l : List Str) : Option Nat := l.findIdx? (· == [])

/-- The loop of `to`, `src/messages/message.rs:307-314`, at most `n` times. -/
def dropEmpty : Nat → List Str → List Str
  | 0, l => l
  | n + 1, l =>
    match emptyPos l with
    | some a => dropEmpty n (l.eraseIdx a)
    | none => l

/-- Models `to`, `src/messages/message.rs:303-316`.  The loop removes one element per pass, so as many
passes as there are elements are enough (`Verif.dropEmpty_stable`). -/
def addTo (m : Message) (to : List Str) : Message :=
  let l := m.didcomm.to ++ to
  { m with didcomm := { m.didcomm with to := dropEmpty l.length l } }

/-- Models `get_application_params`, `src/messages/message.rs:327-329`, for iteration order `o`. -/
def applicationParams (m : Message) (o : List (Str × Str) → List (Str × Str)) : List (Str × Str) :=
  o m.didcomm.other.entries

/-- Models `thid`, `src/messages/message.rs:332-335`. -/
def setThid (m : Message) (t : Str) : Message :=
  { m with didcomm := { m.didcomm with thid := some t } }

/-- Models `pthid`, `src/messages/message.rs:338-341`. -/
def setPthid (m : Message) (t : Str) : Message :=
  { m with didcomm := { m.didcomm with pthid := some t } }

/-- Models `as_raw_json`, `src/messages/message.rs:349-351`. -/
def asRawJson (o : HOrd) (m : Message) : Res Str := .ok (m.text o)

end Message

end Verif
