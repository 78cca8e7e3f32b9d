import Verif.Model.Secure

/-!
# The build without the feature `resolve`

`Cargo.toml:31,62-64` makes the DID resolver an optional dependency.  Without it three functions are compiled
differently: `generate_shared_for_recipient` (`src/messages/helpers/encryption.rs:359-362`), `receive_jwe`
(`src/messages/helpers/receive.rs:77-80`) and `as_jwe` (`src/messages/message.rs:165-180`).  This file models
them and the functions that call them.
-/

namespace Verif

/-- The key used for a DID in the build without `resolve`, `src/messages/helpers/encryption.rs:349-364`. -/
def publicKeyForOffline (key : Option Bytes) : Res Bytes :=
  match key with
  | some k => .ok k
  | none => .err .didResolveFailed

/-- Models `generate_shared_for_recipient` without `resolve`, `src/messages/helpers/encryption.rs:344-371`. -/
def sharedForOffline (P : Prims) (sk : Bytes) (key : Option Bytes) : Res Bytes := do
  let pk ← publicKeyForOffline key
  let s ← arrayRef32 sk
  let p ← arrayRef32 pk
  pure (P.x25519 s p)

/-- Models `generate_kek` without `resolve`, `src/messages/helpers/encryption.rs:297-322`. -/
def generateKekOffline (P : Prims) (sk ze : Bytes) (alg : Str) (key : Option Bytes) : Res Bytes := do
  let shared ← sharedForOffline P sk key
  concatKdf P (ze ++ shared) alg none none

/-- Models `encrypt_cek` without `resolve`, `src/messages/helpers/encryption.rs:122-218`. -/
def encryptCekOffline (P : Prims) (r : RecRand) (m : Message) (sk : Bytes) (dest : Str) (cek : Bytes)
    (key : Option Bytes) : Res Recipient := do
  let alg ← Res.ofOpt (.generic "missing encryption 'alg' in header") m.jwm.alg
  let ze ← sharedForOffline P r.epk key
  let kek ← generateKekOffline P sk ze alg key
  let (ka, iv, sealed) ← wrapCek P r alg kek cek
  let (c, tag) ← splitTag sealed
  let jwk := { Jwk.new with kid := some (didOfUrl dest), alg := ka }
  let jwk := jwk.addOtherHeader c!"iv" (b64Encode iv)
  let jwk := jwk.addOtherHeader c!"tag" (b64Encode tag)
  pure { header := jwk.ephemeral c!"OKP" c!"X25519" (b64Encode (P.x25519Pub r.epk)) none,
         encryptedKey := b64Encode c }

/-- Models `decrypt_cek` without `resolve`, `src/messages/helpers/encryption.rs:29-107`. -/
def decryptCekOffline (P : Prims) (jwe : Jwe) (sk : Bytes) (r : Recipient) (key : Option Bytes) :
    Res Bytes := do
  let alg ← Res.ofOpt (.generic "missing encryption 'alg' in header") jwe.getAlg
  let _ ← Res.ofOpt (.generic "missing 'skid' in header") jwe.getSkid
  let epk ← Res.ofOpt (.generic "JWM header is missing epk") r.header.epk
  let pub ← Res.ofOpt .base64 (b64Decode epk.x)
  let pub ← (if pub.length = 32 then Res.ok pub else .err (.generic "failed to decode epk public key"))
  let s ← arrayRef32 sk
  let kek ← generateKekOffline P sk (P.x25519 s pub) alg key
  let iv ← Res.ofOpt (.generic "missing iv in header") (r.header.other.get c!"iv")
  let ivBytes ← Res.ofOpt .base64 (b64Decode iv)
  let tag ← Res.ofOpt (.generic "missing tag in header") (r.header.other.get c!"tag")
  let c ← Res.ofOpt .base64 (b64Decode r.encryptedKey)
  let t ← Res.ofOpt .base64 (b64Decode tag)
  unwrapCek P alg kek ivBytes (c ++ t)

namespace Message

/-- Models `as_jwe` without `resolve`, `src/messages/message.rs:160-183`. -/
def asJweOffline (m : Message) (a : CryptoAlg) (key : Option Bytes) : Message :=
  let h := m.jwm.asEncrypted a
  match key with
  | some k => { m with jwm := { h with kid := some (b64Encode k) } }
  | none => { m with jwm := h }

/-- The sender's key used by `receive_jwe` without `resolve`, `src/messages/helpers/receive.rs:64-82`. -/
def senderKeyOffline : Option Bytes → Res Bytes
  | some k => .ok k
  | none => .err .didResolveFailed

/-- The loop of `receive_jwe` without `resolve`, `src/messages/helpers/receive.rs:99-112`. -/
def firstKeyOffline (P : Prims) (jwe : Jwe) (sk : Bytes) (key : Option Bytes) : List Recipient → Res Bytes
  | [] => .err (.generic "could not decrypt cek")
  | r :: l =>
    match decryptCekOffline P jwe sk r key with
    | .ok k => .ok k
    | .err _ => firstKeyOffline P jwe sk key l
    | .panic => .panic

/-- The content encryption key used by `receive_jwe` without `resolve`,
`src/messages/helpers/receive.rs:90-117`. -/
def contentKeyOffline (P : Prims) (jwe : Jwe) (sk : Bytes) (key : Option Bytes) (plain : Bytes) :
    Res Bytes :=
  match recipientsOf jwe with
  | some l => firstKeyOffline P jwe sk key l
  | none => .ok plain

/-- Models `receive_jwe` without `resolve`, `src/messages/helpers/receive.rs:53-122`. -/
def receiveJweOffline (P : Prims) (o : HOrd) (incoming : Str) (sk : Bytes) (key : Option Bytes) :
    Res Str := do
  let jwe ← Res.ofOpt .serde (Jwe.ofText P.f64 incoming)
  let alg ← Res.ofOpt (.generic "missing algorithm in JWE header(s)") jwe.getAlg
  let pk ← senderKeyOffline key
  let s ← arrayRef32 sk
  let p ← arrayRef32 pk
  let a ← CryptoAlg.ofStr alg
  let cek ← contentKeyOffline P jwe sk key (P.x25519 s p)
  let m ← decrypt P (o.sub 0) (utf8 incoming) (a.decrypter P) cek
  pure (m.text (o.sub 1))

/-- The decryption step of `receive` without `resolve`, `src/messages/message.rs:416-427`. -/
def decryptStepOffline (P : Prims) (o : HOrd) (incoming : Str) (sk encKey : Option Bytes) : Res Str := do
  let t ← messageType P incoming
  if t = .jwe then do
    let k ← Res.ofOpt (.generic "missing encryption recipient private key") sk
    receiveJweOffline P o incoming k encKey
  else .ok incoming

/-- Models `receive` without `resolve`, `src/messages/message.rs:410-434`. -/
def receiveOffline (P : Prims) (o : HOrd) (incoming : Str) (sk : Option Bytes) (encKey : Option Bytes)
    (sigKey : Option Bytes) : Res Message := do
  let cur ← decryptStepOffline P (o.sub 0) incoming sk encKey
  let cur ← verifyStep P (o.sub 1) cur sigKey
  Res.ofOpt .serde (Message.ofText P.f64 cur)

/-- The recipient loop of `seal` without `resolve`, `src/messages/message.rs:519-530`, from position `i`. -/
def sealRecipientsOffline (P : Prims) (r : Nat → RecRand) (m : Message) (sk cek : Bytes) :
    Nat → List (Str × Option Bytes) → Res (List Recipient)
  | _, [] => .ok []
  | i, (dest, key) :: l => do
    let x ← encryptCekOffline P (r i) m sk dest cek key
    let xs ← sealRecipientsOffline P r m sk cek (i + 1) l
    pure (x :: xs)

/-- Models `seal` without `resolve`, `src/messages/message.rs:485-535`. -/
def sealJweOffline (P : Prims) (r : SealRand) (m : Message) (sk : Bytes)
    (keys : Option (List (Option Bytes))) : Res Str :=
  if sk.length ≠ 32 then .err (.invalidKeySize "!32")
  else do
    let pks ← m.sealKeys keys
    if m.didcomm.to.length = 0 then .err .noJweRecipient
    else if m.flatJwe = true ∧ m.didcomm.to.length > 1 then
      .err (.generic "flat JWE serialization only supports a single `to`")
    else do
      let rs ← sealRecipientsOffline P r.perRec m sk cek 0 (m.didcomm.to.zip pks)
      let m := { m with recipients := some rs }
      let a ← crypterOfHeader m.jwm
      m.encrypt r.ord r.iv (a.encryptor P) cek

/-- Models `seal_signed` without `resolve`, `src/messages/message.rs:621-637`. -/
def sealSignedOffline (P : Prims) (r : SealRand) (o : HOrd) (m : Message) (sk : Bytes)
    (keys : Option (List (Option Bytes))) (a : SignAlg) (signKey : Bytes) : Res Str := do
  let signed ← (m.asJws a).sign o (a.signer P) signKey
  let body ← Res.ofOpt .serde (valueOfText P.f64 signed)
  ({ m with body := body }.setTyp .jws).sealJweOffline P r sk keys

/-- Models `routed_by` without `resolve`, `src/messages/message.rs:454-475`. -/
def routedByOffline (P : Prims) (r1 r2 : SealRand) (uuid : Str) (m : Message) (sk : Bytes)
    (keys : Option (List (Option Bytes))) (mediator : Str) (mediatorKey : Option Bytes) :
    Res Str := do
  let frm := m.didcomm.from.getD []
  let a ← crypterOfHeader m.jwm
  let next ← Res.unwrap m.didcomm.to.head?
  let sealed ← m.sealJweOffline P r1 sk keys
  let body := (Mediated.new next).withPayload (utf8 sealed)
  let f := (((Message.new uuid).addTo [mediator]).setFrom frm).asJweOffline a mediatorKey
  let f ← (f.setTyp .forward).setBody P (printJson (encMediated body))
  f.sealJweOffline P r2 sk (some [mediatorKey])

end Message

end Verif
