import Verif.Model.RawValue
import Verif.Model.Secure

/-!
# Receiving with the feature `raw_value`

`Cargo.toml` line 21 asks for the feature `raw_value` of `serde_json` (see `Model/RawValue.lean`).  `Value`s are read in three
places on the way of a message: the member `body` of a `Message`, the signed text that `seal_signed` makes the body, and the
text that `routed_by` makes the body.  This file
models the functions that read them, and the functions that call those; the latter are as in `Model/Secure.lean` but for what
they call.
-/

namespace Verif.Message

/-- `serde_json::from_slice::<Message>` with `raw_value` (`src/messages/message_raw_crypto.rs:119,205`,
`src/messages/message.rs:603`). -/
def ofBytesRaw (F : Str → Option Str) (b : Bytes) : Option Message :=
  match utf8Decode b with
  | some s => ofTextRaw F s
  | none => none

/-- Models `decrypt` with `raw_value`, `src/messages/message_raw_crypto.rs:97-125`. -/
def decryptRaw (P : Prims) (o : HOrd) (received : Bytes) (decrypter : SymMethod) (cek : Bytes) : Res Message := do
  let jwe ← Res.ofOpt .serde ((parseBytes received).bind (decJwe P.f64))
  let h ← Res.ofOpt (.generic "jwe is missing protected header") jwe.protected_
  let aad := utf8 (headerB64 o h)
  let tag ← Res.ofOpt (.generic "JWE is missing tag") jwe.tag
  let c ← jwe.getPayload
  let t ← Res.ofOpt .base64 (b64Decode tag)
  let iv ← jwe.getIv
  let raw ← plugErr (decrypter iv cek (c ++ t) aad)
  Res.ofOpt .serde (ofBytesRaw P.f64 raw)

/-- Models `verify` with `raw_value`, `src/messages/message_raw_crypto.rs:169-210`. -/
def verifyRaw (P : Prims) (o : HOrd) (bytes key : Bytes) : Res Message := do
  let jws ← Res.ofOpt .serde (Jws.ofBytes P.f64 bytes)
  let sigs ← signaturesOf jws
  let ok ← verifyLoop P jws.payload key o sigs
  if ok then do
    let b ← Res.ofOpt .base64 (b64Decode jws.payload)
    Res.ofOpt .serde (ofBytesRaw P.f64 b)
  else .err .jwsParseError

/-- Models `get_message_type` with `raw_value`, `src/messages/helpers/receive.rs:30-41`. -/
def messageTypeRaw (P : Prims) (s : Str) : Res MessageType := do
  let j ← Res.ofOpt .serde (parseJson s)
  let es ← Res.ofOpt .serde (structEntries [c!"signature", c!"signatures", c!"iv"] 3 j)
  let signature ← Res.ofOpt .serde (presence c!"signature" es)
  let signatures ← Res.ofOpt .serde (presence c!"signatures" es)
  let iv ← Res.ofOpt .serde (presence c!"iv" es)
  if iv then pure .jwe
  else if signatures || signature then pure .jws
  else do
    let m ← Res.ofOpt .serde (ofTextRaw P.f64 s)
    pure m.jwm.typ

/-- Models `receive_jwe` with `raw_value`, `src/messages/helpers/receive.rs:53-122`. -/
def receiveJweRaw (P : Prims) (o : HOrd) (incoming : Str) (sk : Bytes) (key : Option Bytes) : Res Str := do
  let jwe ← Res.ofOpt .serde (Jwe.ofText P.f64 incoming)
  let alg ← Res.ofOpt (.generic "missing algorithm in JWE header(s)") jwe.getAlg
  let pk ← senderKey P jwe key
  let s ← arrayRef32 sk
  let p ← arrayRef32 pk
  let a ← CryptoAlg.ofStr alg
  let cek ← contentKey P jwe sk key (P.x25519 s p)
  let m ← decryptRaw P (o.sub 0) (utf8 incoming) (a.decrypter P) cek
  pure (m.text (o.sub 1))

/-- The loop of `receive_jws` with `raw_value`, `src/messages/helpers/receive.rs:161-173`. -/
def verifyEachRaw (P : Prims) (incoming : Bytes) (key : Option Bytes) : HOrd → List Signature → Res (Option Message)
  | _, [] => .ok none
  | o, s :: l =>
    match s.getAlg with
    | none => verifyEachRaw P incoming key (o.sub 1) l
    | some _ => do
      let k ← signingKey key s.getKid
      match verifyRaw P (o.sub 0) incoming k with
      | .ok m => .ok (some m)
      | .err _ => verifyEachRaw P incoming key (o.sub 1) l
      | .panic => .panic

/-- The verified message of `receive_jws` with `raw_value`, `src/messages/helpers/receive.rs:136-178`. -/
def verifiedOfRaw (P : Prims) (o : HOrd) (incoming : Str) (key : Option Bytes) : Res (Option Message) :=
  match ofTextRaw P.f64 incoming with
  | some m =>
    if m.jwm.alg.isNone then .err .jweParseError
    else do
      let body ← m.getBody
      let k ← signingKey key m.jwm.kid
      let v ← verifyRaw P o (utf8 body) k
      pure (some v)
  | none =>
    match Jws.ofText P.f64 incoming with
    | some jws => do
      let sigs ← signaturesOf jws
      verifyEachRaw P (utf8 incoming) key o sigs
    | none => .err .jwsParseError

/-- Models `receive_jws` with `raw_value`, `src/messages/helpers/receive.rs:132-181`. -/
def receiveJwsRaw (P : Prims) (o : HOrd) (incoming : Str) (key : Option Bytes) : Res Str := do
  let verified ← verifiedOfRaw P (o.sub 0) incoming key
  let m ← Res.ofOpt .jwsParseError verified
  pure (m.text (o.sub 1))

/-- The decryption step of `receive` with `raw_value`, `src/messages/message.rs:416-427`. -/
def decryptStepRaw (P : Prims) (o : HOrd) (incoming : Str) (sk encKey : Option Bytes) : Res Str := do
  let t ← messageTypeRaw P incoming
  if t = .jwe then do
    let k ← Res.ofOpt (.generic "missing encryption recipient private key") sk
    receiveJweRaw P o incoming k encKey
  else .ok incoming

/-- The verification step of `receive` with `raw_value`, `src/messages/message.rs:429-431`. -/
def verifyStepRaw (P : Prims) (o : HOrd) (cur : Str) (sigKey : Option Bytes) : Res Str := do
  let t ← messageTypeRaw P cur
  if t = .jws then receiveJwsRaw P o cur sigKey else .ok cur

/-- Models `receive` with `raw_value`, `src/messages/message.rs:410-434`. -/
def receiveRaw (P : Prims) (o : HOrd) (incoming : Str) (sk encKey sigKey : Option Bytes) : Res Message := do
  let cur ← decryptStepRaw P (o.sub 0) incoming sk encKey
  let cur ← verifyStepRaw P (o.sub 1) cur sigKey
  Res.ofOpt .serde (ofTextRaw P.f64 cur)

/-- Models `seal_signed` with `raw_value`, `src/messages/message.rs:621-637`. -/
def sealSignedRaw (P : Prims) (r : SealRand) (o : HOrd) (m : Message) (sk : Bytes) (keys : Option (List (Option Bytes)))
    (a : SignAlg) (signKey : Bytes) : Res Str := do
  let signed ← (m.asJws a).sign o (a.signer P) signKey
  let body ← Res.ofOpt .serde (rawValueOfText P.f64 signed)
  ({ m with body := body }.setTyp .jws).sealJwe P r sk keys

/-- Models `routed_by` with `raw_value`, `src/messages/message.rs:454-475`. -/
def routedByRaw (P : Prims) (r1 r2 : SealRand) (uuid : Str) (m : Message) (sk : Bytes)
    (keys : Option (List (Option Bytes))) (mediator : Str) (mediatorKey : Option Bytes) : Res Str := do
  let frm := m.didcomm.from.getD []
  let a ← crypterOfHeader m.jwm
  let next ← Res.unwrap m.didcomm.to.head?
  let sealed ← m.sealJwe P r1 sk keys
  let body := (Mediated.new next).withPayload (utf8 sealed)
  let f := (((Message.new uuid).addTo [mediator]).setFrom frm).asJwe P a mediatorKey
  let f ← (f.setTyp .forward).setBodyRaw P (printJson (encMediated body))
  f.sealJwe P r2 sk (some [mediatorKey])

end Verif.Message
