import Verif.Model.Secure

/-!
# A resolver whose answers change

`Verif.Model.Encryption` and `Verif.Model.Secure` take the resolver (`ddoresolver_rs::resolve_any`) as a function of the
DID.  Here the answer may depend on how often the resolver has been asked, as it does if a document is replaced between
two calls.  The functions of those files that ask the resolver are modelled again, with the number of calls so far as
a state.  `Verif.Props.Resolver` shows that the results are the same if the answers do not change.
-/

namespace Verif

/-- The answers of the resolver, by number of the call (`src/messages/helpers/encryption.rs:354`,
`src/messages/helpers/receive.rs:72`). -/
abbrev Answers := Nat → Str → Option DidDoc

/-- A computation that may ask the resolver: from the number of calls before to the number of calls after and the result
(`src/messages/helpers/encryption.rs:354`, `src/messages/helpers/receive.rs:72`). -/
def Asks (α : Type) : Type := Nat → Nat × Res α

namespace Asks

/-- The `?` operator (`src/messages/helpers/encryption.rs:305`). -/
def bind {α β : Type} (x : Asks α) (f : α → Asks β) : Asks β := fun n =>
  match x n with
  | (k, .ok a) => f a k
  | (k, .err e) => (k, .err e)
  | (k, .panic) => (k, .panic)

/-- `do` notation stands for a sequence of `?` (e.g. `src/messages/helpers/encryption.rs:297-322`). -/
instance : Monad Asks where
  pure a := fun n => (n, .ok a)
  bind := Asks.bind

/-- A step that does not ask the resolver (e.g. `src/messages/helpers/encryption.rs:318`). -/
def step {α : Type} (r : Res α) : Asks α := fun n => (n, r)

/-- A call of the resolver (`src/messages/helpers/encryption.rs:354`, `src/messages/helpers/receive.rs:72`). -/
def resolve (A : Answers) (did : Str) : Asks (Option DidDoc) := fun n => (n + 1, .ok (A n did))

end Asks

/-- The key used for a DID if none is given, `src/messages/helpers/encryption.rs:349-364`. -/
def publicKeyForR (A : Answers) (did : Str) (key : Option Bytes) : Asks Bytes :=
  match key with
  | some k => .step (.ok k)
  | none => do
    let d ← Asks.resolve A did
    let d ← Asks.step (Res.ofOpt .didResolveFailed d)
    Asks.step (Res.ofOpt .didResolveFailed (d.keyFor c!"X25519"))

/-- `generate_shared_for_recipient`, `src/messages/helpers/encryption.rs:344-371`. -/
def sharedForR (P : Prims) (A : Answers) (sk : Bytes) (did : Str) (key : Option Bytes) : Asks Bytes := do
  let pk ← publicKeyForR A did key
  let s ← Asks.step (arrayRef32 sk)
  let p ← Asks.step (arrayRef32 pk)
  pure (P.x25519 s p)

/-- `generate_kek`, `src/messages/helpers/encryption.rs:297-322`. -/
def generateKekR (P : Prims) (A : Answers) (did : Str) (sk ze : Bytes) (alg : Str) (key : Option Bytes) :
    Asks Bytes := do
  let shared ← sharedForR P A sk did key
  Asks.step (concatKdf P (ze ++ shared) alg none none)

/-- `encrypt_cek`, `src/messages/helpers/encryption.rs:122-218`. -/
def encryptCekR (P : Prims) (A : Answers) (r : RecRand) (m : Message) (sk : Bytes) (dest : Str) (cek : Bytes)
    (key : Option Bytes) : Asks Recipient := do
  let alg ← Asks.step (Res.ofOpt (.generic "missing encryption 'alg' in header") m.jwm.alg)
  let ze ← sharedForR P A r.epk dest key
  let kek ← generateKekR P A dest sk ze alg key
  let (ka, iv, sealed) ← Asks.step (wrapCek P r alg kek cek)
  let (c, tag) ← Asks.step (splitTag sealed)
  let jwk := { Jwk.new with kid := some (didOfUrl dest), alg := ka }
  let jwk := jwk.addOtherHeader c!"iv" (b64Encode iv)
  let jwk := jwk.addOtherHeader c!"tag" (b64Encode tag)
  pure { header := jwk.ephemeral c!"OKP" c!"X25519" (b64Encode (P.x25519Pub r.epk)) none,
         encryptedKey := b64Encode c }

/-- `decrypt_cek`, `src/messages/helpers/encryption.rs:29-107`. -/
def decryptCekR (P : Prims) (A : Answers) (jwe : Jwe) (sk : Bytes) (r : Recipient) (key : Option Bytes) :
    Asks Bytes := do
  let alg ← Asks.step (Res.ofOpt (.generic "missing encryption 'alg' in header") jwe.getAlg)
  let skid ← Asks.step (Res.ofOpt (.generic "missing 'skid' in header") jwe.getSkid)
  let epk ← Asks.step (Res.ofOpt (.generic "JWM header is missing epk") r.header.epk)
  let pub ← Asks.step (Res.ofOpt .base64 (b64Decode epk.x))
  let pub ← Asks.step (if pub.length = 32 then Res.ok pub else .err (.generic "failed to decode epk public key"))
  let s ← Asks.step (arrayRef32 sk)
  let kek ← generateKekR P A skid sk (P.x25519 s pub) alg key
  let iv ← Asks.step (Res.ofOpt (.generic "missing iv in header") (r.header.other.get c!"iv"))
  let ivBytes ← Asks.step (Res.ofOpt .base64 (b64Decode iv))
  let tag ← Asks.step (Res.ofOpt (.generic "missing tag in header") (r.header.other.get c!"tag"))
  let c ← Asks.step (Res.ofOpt .base64 (b64Decode r.encryptedKey))
  let t ← Asks.step (Res.ofOpt .base64 (b64Decode tag))
  Asks.step (unwrapCek P alg kek ivBytes (c ++ t))

namespace Message

/-- The sender's key used by `receive_jwe`, `src/messages/helpers/receive.rs:64-82`. -/
def senderKeyR (A : Answers) (jwe : Jwe) : Option Bytes → Asks Bytes
  | some k => .step (.ok k)
  | none => do
    let skid ← Asks.step (Res.ofOpt (.generic "skid missing") jwe.getSkid)
    let d ← Asks.resolve A skid
    let d ← Asks.step (Res.ofOpt .didResolveFailed d)
    Asks.step (Res.ofOpt .badDid (d.keyFor c!"X25519"))

/-- The loop of `receive_jwe`, `src/messages/helpers/receive.rs:99-112`. -/
def firstKeyR (P : Prims) (A : Answers) (jwe : Jwe) (sk : Bytes) (key : Option Bytes) : List Recipient → Asks Bytes
  | [], n => (n, .err (.generic "could not decrypt cek"))
  | r :: l, n =>
    match decryptCekR P A jwe sk r key n with
    | (k, .ok x) => (k, .ok x)
    | (k, .err _) => firstKeyR P A jwe sk key l k
    | (k, .panic) => (k, .panic)

/-- The content encryption key used by `receive_jwe`, `src/messages/helpers/receive.rs:90-117`. -/
def contentKeyR (P : Prims) (A : Answers) (jwe : Jwe) (sk : Bytes) (key : Option Bytes) (plain : Bytes) :
    Asks Bytes :=
  match recipientsOf jwe with
  | some l => firstKeyR P A jwe sk key l
  | none => .step (.ok plain)

/-- `receive_jwe`, `src/messages/helpers/receive.rs:53-122`. -/
def receiveJweR (P : Prims) (A : Answers) (o : HOrd) (incoming : Str) (sk : Bytes) (key : Option Bytes) :
    Asks Str := do
  let jwe ← Asks.step (Res.ofOpt .serde (Jwe.ofText P.f64 incoming))
  let alg ← Asks.step (Res.ofOpt (.generic "missing algorithm in JWE header(s)") jwe.getAlg)
  let pk ← senderKeyR A jwe key
  let s ← Asks.step (arrayRef32 sk)
  let p ← Asks.step (arrayRef32 pk)
  let a ← Asks.step (CryptoAlg.ofStr alg)
  let cek ← contentKeyR P A jwe sk key (P.x25519 s p)
  let m ← Asks.step (decrypt P (o.sub 0) (utf8 incoming) (a.decrypter P) cek)
  pure (m.text (o.sub 1))

/-- The decryption step of `receive`, `src/messages/message.rs:416-427`. -/
def decryptStepR (P : Prims) (A : Answers) (o : HOrd) (incoming : Str) (sk encKey : Option Bytes) : Asks Str := do
  let t ← Asks.step (messageType P incoming)
  if t = .jwe then do
    let k ← Asks.step (Res.ofOpt (.generic "missing encryption recipient private key") sk)
    receiveJweR P A o incoming k encKey
  else Asks.step (.ok incoming)

/-- `receive`, `src/messages/message.rs:410-434`. -/
def receiveR (P : Prims) (A : Answers) (o : HOrd) (incoming : Str) (sk : Option Bytes) (encKey : Option Bytes)
    (sigKey : Option Bytes) : Asks Message := do
  let cur ← decryptStepR P A (o.sub 0) incoming sk encKey
  let cur ← Asks.step (verifyStep P (o.sub 1) cur sigKey)
  Asks.step (Res.ofOpt .serde (Message.ofText P.f64 cur))

/-- The recipient loop of `seal`, `src/messages/message.rs:519-530`, from position `i`. -/
def sealRecipientsR (P : Prims) (A : Answers) (r : Nat → RecRand) (m : Message) (sk cek : Bytes) :
    Nat → List (Str × Option Bytes) → Asks (List Recipient)
  | _, [] => .step (.ok [])
  | i, (dest, key) :: l => do
    let x ← encryptCekR P A (r i) m sk dest cek key
    let xs ← sealRecipientsR P A r m sk cek (i + 1) l
    pure (x :: xs)

/-- `seal`, `src/messages/message.rs:485-535`. -/
def sealJweR (P : Prims) (A : Answers) (r : SealRand) (m : Message) (sk : Bytes)
    (keys : Option (List (Option Bytes))) : Asks Str :=
  if sk.length ≠ 32 then .step (.err (.invalidKeySize "!32"))
  else do
    let pks ← Asks.step (m.sealKeys keys)
    if m.didcomm.to.length = 0 then .step (.err .noJweRecipient)
    else if m.flatJwe = true ∧ m.didcomm.to.length > 1 then
      .step (.err (.generic "flat JWE serialization only supports a single `to`"))
    else do
      let rs ← sealRecipientsR P A r.perRec m sk cek 0 (m.didcomm.to.zip pks)
      let m := { m with recipients := some rs }
      let a ← Asks.step (crypterOfHeader m.jwm)
      Asks.step (m.encrypt r.ord r.iv (a.encryptor P) cek)

end Message

end Verif
