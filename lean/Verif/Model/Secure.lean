import Verif.Model.Encryption
import Verif.Model.ChaCha

/-!
# Sealing, signing and receiving

Models `src/messages/message_raw_crypto.rs`, `src/messages/helpers/receive.rs`,
`src/messages/message.rs:344-638` and `src/messages/mediated.rs`.  Random bytes, random ids and the
iteration orders of hash maps are arguments.
-/

namespace Verif

/-- Random bytes drawn by `Jwe::generate_iv`, `src/messages/jwe.rs:107-112`. -/
abbrev Iv := { b : Bytes // b.length = 24 }

namespace Message

/-! ## `encrypt` and `decrypt` -/

/-- The protected header written by `encrypt`, `src/messages/message_raw_crypto.rs:33-44`; `none` if
`to[0]` does not exist (a panic). -/
def jweHeader (m : Message) : Res JwmHeader :=
  let h := if m.jwm.typ ≠ .forward then { m.jwm with typ := .jwe } else m.jwm
  match m.recipients with
  | some _ => .ok { h with skid := m.didcomm.from }
  | none => do
    let t ← Res.unwrap m.didcomm.to.head?
    pure { h with kid := some t, skid := m.didcomm.from }

/-- The envelope built by `encrypt` from the split ciphertext,
`src/messages/message_raw_crypto.rs:54-81`. -/
def jweOf (m : Message) (iv : Iv) (h : JwmHeader) (c tag : Bytes) : Res Jwe :=
  if m.flatJwe then
    match m.recipients with
    | none => .err (.generic "flat JWE JSON serialization needs a recipient")
    | some [r] => .ok (Jwe.newFlat [] none r c (some h) (some tag) (some (b64Encode iv.1)))
    | some _ => .err (.generic "flat JWE JSON serialization needs exactly one recipient")
  else .ok (Jwe.new [] none m.recipients c (some h) (some tag) (some (b64Encode iv.1)))

/-- Models `encrypt`, `src/messages/message_raw_crypto.rs:32-83`.  Orders: `o.sub 0` for the associated
data, `o.sub 1` for the plaintext, `o.sub 2` for the envelope. -/
def encrypt (o : HOrd) (iv : Iv) (m : Message) (crypter : SymMethod) (cek : Bytes) : Res Str := do
  let h ← m.jweHeader
  let aad := utf8 (headerB64 (o.sub 0) h)
  let nonce ← Res.ofOpt .base64 (b64Decode (b64Encode iv.1))
  let ct ← crypter nonce cek (utf8 (m.text (o.sub 1))) aad
  let (c, tag) ← splitTag ct
  let jwe ← jweOf m iv h c tag
  pure (jwe.text (o.sub 2))

/-- `serde_json::from_slice::<Message>` (`src/messages/message_raw_crypto.rs:119,205`,
`src/messages/message.rs:603`). -/
def ofBytes (F : Str → Option Str) (b : Bytes) : Option Message := (parseBytes b).bind (decMessage F)

/-- A decrypter failure becomes `PlugCryptoFailure`, `src/messages/message_raw_crypto.rs:118-124`. -/
def plugErr {α : Type} : Res α → Res α
  | .err _ => .err .plugCryptoFailure
  | r => r

/-- Models `decrypt`, `src/messages/message_raw_crypto.rs:97-125`. -/
def decrypt (P : Prims) (o : HOrd) (received : Bytes) (decrypter : SymMethod) (cek : Bytes) :
    Res Message := do
  let jwe ← Res.ofOpt .serde ((parseBytes received).bind (decJwe P.f64))
  let h ← Res.ofOpt (.generic "jwe is missing protected header") jwe.protected_
  let aad := utf8 (headerB64 o h)
  let tag ← Res.ofOpt (.generic "JWE is missing tag") jwe.tag
  let c ← jwe.getPayload
  let t ← Res.ofOpt .base64 (b64Decode tag)
  let iv ← jwe.getIv
  let raw ← plugErr (decrypter iv cek (c ++ t) aad)
  Res.ofOpt .serde (ofBytes P.f64 raw)

/-! ## `sign` and `verify` -/

/-- The text that is signed, `src/messages/message_raw_crypto.rs:147,192`. -/
def signingInput (headerB64 payload : Str) : Bytes := utf8 (headerB64 ++ '.' :: payload)

/-- Models `sign`, `src/messages/message_raw_crypto.rs:130-164`. -/
def sign (o : HOrd) (m : Message) (signer : Bytes → Bytes → Res Bytes) (key : Bytes) : Res Str := do
  let h := { m.jwm with typ := MessageType.jws }
  if h.alg.isNone then .err .jwsParseError
  else do
    let m := { m with jwm := JwmHeader.dflt }
    let payload := b64Encode (utf8 (m.text (o.sub 1)))
    let sig ← signer key (signingInput (headerB64 (o.sub 0) h) payload)
    let s : Signature := { protected_ := some h, header := none, signature := sig }
    let jws := if m.flatJws then Jws.newFlat payload s else Jws.new payload (m.didcomm.to.map fun _ => s)
    pure (jws.text (o.sub 2))

/-- One pass of the loop of `verify`, `src/messages/message_raw_crypto.rs:184-197`. -/
def verifyOne (P : Prims) (o : HOrd) (payload : Str) (key : Bytes) (s : Signature) : Res Bool := do
  let alg ← Res.ofOpt .jweParseError s.getAlg
  let a ← SignAlg.ofStr alg
  let h ← Res.ofOpt .jwsParseError s.protected_
  a.validator P key (signingInput (headerB64 o h) payload) s.signature

/-- The loop of `verify`, `src/messages/message_raw_crypto.rs:183-201`: stops at the first valid
signature and at the first error. -/
def verifyLoop (P : Prims) (payload : Str) (key : Bytes) : HOrd → List Signature → Res Bool
  | _, [] => .ok false
  | o, s :: l => do
    let b ← verifyOne P (o.sub 0) payload key s
    if b then .ok true else verifyLoop P payload key (o.sub 1) l

/-- The signatures looked at by `verify` and `receive_jws`,
`src/messages/message_raw_crypto.rs:172-179`, `src/messages/helpers/receive.rs:150-157`. -/
def signaturesOf (jws : Jws) : Res (List Signature) :=
  match jws.signatures with
  | some l => .ok l
  | none =>
    match jws.signature with
    | some s => .ok [s]
    | none => .err .jwsParseError

/-- Models `verify`, `src/messages/message_raw_crypto.rs:169-210`. -/
def verify (P : Prims) (o : HOrd) (bytes key : Bytes) : Res Message := do
  let jws ← Res.ofOpt .serde (Jws.ofBytes P.f64 bytes)
  let sigs ← signaturesOf jws
  let ok ← verifyLoop P jws.payload key o sigs
  if ok then do
    let b ← Res.ofOpt .base64 (b64Decode jws.payload)
    Res.ofOpt .serde (ofBytes P.f64 b)
  else .err .jwsParseError

/-- Models `verify_value`, `src/messages/message_raw_crypto.rs:221-224`. -/
def verifyValue (P : Prims) (o : HOrd) (v : Json) (key : Bytes) : Res Message :=
  verify P o (utf8 (printJson v)) key

/-! ## Receiving (`src/messages/helpers/receive.rs`) -/

/-- Presence of a member of `UnknownReceivedMessage` (`null` counts as absent),
`src/messages/helpers/receive.rs:18-27`. -/
def presence (k : Str) (es : List (Str × Json)) : Option Bool :=
  (optField (fun _ => some ()) k es).map Option.isSome

/-- Models `get_message_type`, `src/messages/helpers/receive.rs:30-41`. -/
def messageType (P : Prims) (s : Str) : Res MessageType := do
  let j ← Res.ofOpt .serde (parseJson s)
  let es ← Res.ofOpt .serde (structEntries [c!"signature", c!"signatures", c!"iv"] 3 j)
  let signature ← Res.ofOpt .serde (presence c!"signature" es)
  let signatures ← Res.ofOpt .serde (presence c!"signatures" es)
  let iv ← Res.ofOpt .serde (presence c!"iv" es)
  if iv then pure .jwe
  else if signatures || signature then pure .jws
  else do
    let m ← Res.ofOpt .serde (Message.ofText P.f64 s)
    pure m.jwm.typ

/-- The sender's key used by `receive_jwe`, `src/messages/helpers/receive.rs:64-82`. -/
def senderKey (P : Prims) (jwe : Jwe) : Option Bytes → Res Bytes
  | some k => .ok k
  | none => do
    let skid ← Res.ofOpt (.generic "skid missing") jwe.getSkid
    let d ← Res.ofOpt .didResolveFailed (P.resolve skid)
    Res.ofOpt .badDid (d.keyFor c!"X25519")

/-- The recipients looked at by `receive_jwe`, `src/messages/helpers/receive.rs:90-97`. -/
def recipientsOf (jwe : Jwe) : Option (List Recipient) :=
  match jwe.recipients with
  | some l => some l
  | none => jwe.recipient.map fun r => [r]

/-- The loop of `receive_jwe`, `src/messages/helpers/receive.rs:99-112`: the first key that opens. -/
def firstKey (P : Prims) (jwe : Jwe) (sk : Bytes) (key : Option Bytes) : List Recipient → Res Bytes
  | [] => .err (.generic "could not decrypt cek")
  | r :: l =>
    match decryptCek P jwe sk r key with
    | .ok k => .ok k
    | .err _ => firstKey P jwe sk key l
    | .panic => .panic

/-- The content encryption key used by `receive_jwe`, `src/messages/helpers/receive.rs:90-117`; without
recipients it is the shared secret `plain`. -/
def contentKey (P : Prims) (jwe : Jwe) (sk : Bytes) (key : Option Bytes) (plain : Bytes) :
    Res Bytes :=
  match recipientsOf jwe with
  | some l => firstKey P jwe sk key l
  | none => .ok plain

/-- Models `receive_jwe`, `src/messages/helpers/receive.rs:53-122`.  Orders: `o.sub 0` for the
associated data, `o.sub 1` for the returned text. -/
def receiveJwe (P : Prims) (o : HOrd) (incoming : Str) (sk : Bytes) (key : Option Bytes) :
    Res Str := do
  let jwe ← Res.ofOpt .serde (Jwe.ofText P.f64 incoming)
  let alg ← Res.ofOpt (.generic "missing algorithm in JWE header(s)") jwe.getAlg
  let pk ← senderKey P jwe key
  let s ← arrayRef32 sk
  let p ← arrayRef32 pk
  let a ← CryptoAlg.ofStr alg
  let cek ← contentKey P jwe sk key (P.x25519 s p)
  let m ← decrypt P (o.sub 0) (utf8 incoming) (a.decrypter P) cek
  pure (m.text (o.sub 1))

/-- The loop of `receive_jws`, `src/messages/helpers/receive.rs:161-173`. -/
def verifyEach (P : Prims) (incoming : Bytes) (key : Option Bytes) :
    HOrd → List Signature → Res (Option Message)
  | _, [] => .ok none
  | o, s :: l =>
    match s.getAlg with
    | none => verifyEach P incoming key (o.sub 1) l
    | some _ => do
      let k ← signingKey key s.getKid
      match verify P (o.sub 0) incoming k with
      | .ok m => .ok (some m)
      | .err _ => verifyEach P incoming key (o.sub 1) l
      | .panic => .panic

/-- The verified message of `receive_jws`, `src/messages/helpers/receive.rs:136-178`. -/
def verifiedOf (P : Prims) (o : HOrd) (incoming : Str) (key : Option Bytes) : Res (Option Message) :=
  match Message.ofText P.f64 incoming with
  | some m =>
    if m.jwm.alg.isNone then .err .jweParseError
    else do
      let body ← m.getBody
      let k ← signingKey key m.jwm.kid
      let v ← verify P o (utf8 body) k
      pure (some v)
  | none =>
    match Jws.ofText P.f64 incoming with
    | some jws => do
      let sigs ← signaturesOf jws
      verifyEach P (utf8 incoming) key o sigs
    | none => .err .jwsParseError

/-- Models `receive_jws`, `src/messages/helpers/receive.rs:132-181`. -/
def receiveJws (P : Prims) (o : HOrd) (incoming : Str) (key : Option Bytes) : Res Str := do
  let verified ← verifiedOf P (o.sub 0) incoming key
  let m ← Res.ofOpt .jwsParseError verified
  pure (m.text (o.sub 1))

/-- The decryption step of `receive`, `src/messages/message.rs:416-427`. -/
def decryptStep (P : Prims) (o : HOrd) (incoming : Str) (sk encKey : Option Bytes) : Res Str := do
  let t ← messageType P incoming
  if t = .jwe then do
    let k ← Res.ofOpt (.generic "missing encryption recipient private key") sk
    receiveJwe P o incoming k encKey
  else .ok incoming

/-- The verification step of `receive`, `src/messages/message.rs:429-431`. -/
def verifyStep (P : Prims) (o : HOrd) (cur : Str) (sigKey : Option Bytes) : Res Str := do
  let t ← messageType P cur
  if t = .jws then receiveJws P o cur sigKey else .ok cur

/-- Models `receive`, `src/messages/message.rs:410-434`.  Orders: `o.sub 0` for the decryption step,
`o.sub 1` for the verification step. -/
def receive (P : Prims) (o : HOrd) (incoming : Str) (sk : Option Bytes) (encKey : Option Bytes)
    (sigKey : Option Bytes) : Res Message := do
  let cur ← decryptStep P (o.sub 0) incoming sk encKey
  let cur ← verifyStep P (o.sub 1) cur sigKey
  Res.ofOpt .serde (Message.ofText P.f64 cur)

/-! ## Sealing (`src/messages/message.rs:374-535`) -/

/-- Random choices of one `seal` call: per recipient, and the iv.
(`src/messages/message.rs:485-535`) -/
structure SealRand where
  perRec : Nat → RecRand
  iv : Iv
  ord : HOrd

/-- The recipient loop of `seal`, `src/messages/message.rs:519-530`, from position `i`. -/
def sealRecipients (P : Prims) (r : Nat → RecRand) (m : Message) (sk cek : Bytes) :
    Nat → List (Str × Option Bytes) → Res (List Recipient)
  | _, [] => .ok []
  | i, (dest, key) :: l => do
    let x ← encryptCek P (r i) m sk dest cek key
    let xs ← sealRecipients P r m sk cek (i + 1) l
    pure (x :: xs)

/-- The keys used by `seal`, `src/messages/message.rs:494-503`. -/
def sealKeys (m : Message) : Option (List (Option Bytes)) → Res (List (Option Bytes))
  | some l =>
    if l.length ≠ m.didcomm.to.length then
      .err (.generic "`to` and `recipient_public_keys` must have same length")
    else .ok l
  | none => .ok (List.replicate m.didcomm.to.length none)

/-- Models `seal`, `src/messages/message.rs:485-535`. -/
def sealJwe (P : Prims) (r : SealRand) (m : Message) (sk : Bytes)
    (keys : Option (List (Option Bytes))) : Res Str :=
  if sk.length ≠ 32 then .err (.invalidKeySize "!32")
  else do
    let pks ← m.sealKeys keys
    if m.didcomm.to.length = 0 then .err .noJweRecipient
    else if m.flatJwe = true ∧ m.didcomm.to.length > 1 then
      .err (.generic "flat JWE serialization only supports a single `to`")
    else do
      let rs ← sealRecipients P r.perRec m sk cek 0 (m.didcomm.to.zip pks)
      let m := { m with recipients := some rs }
      let a ← crypterOfHeader m.jwm
      m.encrypt r.ord r.iv (a.encryptor P) cek

/-- Models `seal_signed`, `src/messages/message.rs:621-637`; `o` are the orders of the signing step. -/
def sealSigned (P : Prims) (r : SealRand) (o : HOrd) (m : Message) (sk : Bytes)
    (keys : Option (List (Option Bytes))) (a : SignAlg) (signKey : Bytes) : Res Str := do
  let signed ← (m.asJws a).sign o (a.signer P) signKey
  let body ← Res.ofOpt .serde (valueOfText P.f64 signed)
  ({ m with body := body }.setTyp .jws).sealJwe P r sk keys

/-- Models `Mediated::new`, `src/messages/mediated.rs:20-25`. -/
def _root_.Verif.Mediated.new (next : Str) : Mediated := { next := next, payload := [] }

/-- Models `Mediated::with_payload`, `src/messages/mediated.rs:37-40`. -/
def _root_.Verif.Mediated.withPayload (m : Mediated) (b : Bytes) : Mediated := { m with payload := b }

/-- Models an implementation of `Shape` (`src/messages/mod.rs:27-31`) as the documentation tells to write it
(`src/lib.rs:385-391`): the text of the body is read as the target type. -/
def shapeWith {α : Type} (dec : Json → Option α) (m : Message) : Res α := do
  let b ← m.getBody
  Res.ofOpt .serde ((parseJson b).bind dec)

/-- Models `Shape for Mediated`, `src/messages/mediated.rs:42-49`: the body is printed, the text is
turned into a JSON string, and that string is read as `Mediated`. -/
def _root_.Verif.Mediated.shape (m : Message) : Res Mediated := do
  let b ← m.getBody
  Res.ofOpt .serde ((parseJson (printJson (.str b))).bind decMediated)

/-- Models `routed_by`, `src/messages/message.rs:454-475`; `r1` for the inner envelope, `r2` for the
outer one, `uuid` the id of the forward message. -/
def routedBy (P : Prims) (r1 r2 : SealRand) (uuid : Str) (m : Message) (sk : Bytes)
    (keys : Option (List (Option Bytes))) (mediator : Str) (mediatorKey : Option Bytes) :
    Res Str := do
  let frm := m.didcomm.from.getD []
  let a ← crypterOfHeader m.jwm
  let next ← Res.unwrap m.didcomm.to.head?
  let sealed ← m.sealJwe P r1 sk keys
  let body := (Mediated.new next).withPayload (utf8 sealed)
  let f := (((Message.new uuid).addTo [mediator]).setFrom frm).asJwe P a mediatorKey
  let f ← (f.setTyp .forward).setBody P (printJson (encMediated body))
  f.sealJwe P r2 sk (some [mediatorKey])

/-! ## External cryptography (`src/messages/message.rs:358-396,545-604`) -/

/-- Models `export_for_encryption`, `src/messages/message.rs:358-363`. -/
def exportForEncryption (o : HOrd) (iv : Iv) (m : Message) : Res (Bytes × Bytes) := do
  let n ← Res.ofOpt .base64 (b64Decode (b64Encode iv.1))
  pure (n, utf8 (m.text o))

/-- The unprotected header written by `seal_pre_encrypted`, `src/messages/message.rs:375-384`. -/
def preHeader (m : Message) : Res JwmHeader :=
  let u := { JwmHeader.dflt with skid := m.didcomm.from }
  match m.recipients with
  | some _ => .ok u
  | none => do
    let t ← Res.unwrap m.didcomm.to.head?
    pure { u with kid := some t }

/-- Models `seal_pre_encrypted`, `src/messages/message.rs:374-396`. -/
def sealPreEncrypted (o : HOrd) (iv : Iv) (m : Message) (ciphertext : Bytes) : Res Str := do
  let u ← m.preHeader
  pure ((Jwe.new iv.1 (some u) m.recipients ciphertext (some m.jwm) none none).text o)

/-- Models `Value::get` on a string key (`src/messages/message.rs:555`): on objects only. -/
def valueGet (k : Str) : Json → Option Json
  | .obj es => lookupEntry k es
  | _ => none

/-- The JSON looked at by `get_iv`, `src/messages/message.rs:546-554`: the part before the first dot,
decoded, or the whole text. -/
def ivSource (P : Prims) (s : Str) : Res Json :=
  if s.contains '.' then do
    let b ← Res.ofOpt .base64 (b64Decode (s.takeWhile (· != '.')))
    let t ← Res.ofOpt .stringConversion (utf8Decode b)
    Res.ofOpt .serde (valueOfText P.f64 t)
  else Res.ofOpt .serde (valueOfText P.f64 s)

/-- Models `get_iv`, `src/messages/message.rs:545-571`. `t.len()` counts bytes. -/
def getIv (P : Prims) (received : Bytes) : Res Bytes := do
  let s ← Res.ofOpt .stringConversion (utf8Decode received)
  let json ← ivSource P s
  match valueGet c!"iv" json with
  | some (.str t) =>
    if (utf8 t).length ≠ 24 then .err (.generic "IV [nonce] size is incorrect") else .ok (utf8 t)
  | some _ => .err (.generic "wrong nonce format")
  | none => .err (.generic "iv is not found in JOSE header")

/-- Models `received_as_jwe`, `src/messages/message.rs:584-594`. -/
def receivedAsJwe (P : Prims) (b : Bytes) : Option Jwe :=
  match (parseBytes b).bind (decJwe P.f64) with
  | some j => if j.getSkid.isSome then some j else none
  | none => none

/-- Models `receive_external_crypto`, `src/messages/message.rs:602-604`. -/
def receiveExternalCrypto (P : Prims) (b : Bytes) : Res Message := Res.ofOpt .serde (ofBytes P.f64 b)

end Message

end Verif
