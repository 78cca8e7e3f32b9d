import Verif.Model.Message
import Verif.Model.Hex

/-!
# Key derivation and key wrapping

Models `src/messages/helpers/encryption.rs` and the header getters of `src/messages/jwe.rs` and
`src/messages/jws.rs`.
-/

namespace Verif

/-! ## Header getters (`src/messages/helpers/getters.rs:18-46`) -/

/-- Models `create_fallback_getter!`, `src/messages/helpers/getters.rs:18-46`: the value in the first
header that is present and has one. -/
def fallback {α β : Type} (first second : Option α) (f : α → Option β) : Option β :=
  match first.bind f with
  | some v => some v
  | none => second.bind f

namespace Jwe

/-- Models the getters of `Jwe`, `src/messages/jwe.rs:124-138`. -/
def getter {β : Type} (j : Jwe) (f : JwmHeader → Option β) : Option β :=
  fallback j.protected_ j.unprotected f

/-- Models `Jwe::get_alg`, `src/messages/jwe.rs:124`. -/
def getAlg (j : Jwe) : Option Str := j.getter (·.alg)

/-- Models `Jwe::get_skid`, `src/messages/jwe.rs:138`. -/
def getSkid (j : Jwe) : Option Str := j.getter (·.skid)

/-- Models `Jwe::get_kid`, `src/messages/jwe.rs:136`. -/
def getKid (j : Jwe) : Option Str := j.getter (·.kid)

/-- Models `Jwe::get_cty`, `src/messages/jwe.rs:126`. -/
def getCty (j : Jwe) : Option Str := j.getter (·.cty)

/-- Models `Jwe::get_enc`, `src/messages/jwe.rs:128`. -/
def getEnc (j : Jwe) : Option Str := j.getter (·.enc)

/-- Models `Jwe::get_epk`, `src/messages/jwe.rs:130`. -/
def getEpk (j : Jwe) : Option Jwk := j.getter (·.epk)

/-- Models `Jwe::get_jku`, `src/messages/jwe.rs:132`. -/
def getJku (j : Jwe) : Option Str := j.getter (·.jku)

/-- Models `Jwe::get_jwk`, `src/messages/jwe.rs:134`. -/
def getJwk (j : Jwe) : Option Jwk := j.getter (·.jwk)

/-- Models `Jwe::get_iv`, `src/messages/jwe.rs:115-117`. -/
def getIv (j : Jwe) : Res Bytes := Res.unwrap (b64Decode j.iv)

/-- Models `Jwe::get_payload`, `src/messages/jwe.rs:120-122`. -/
def getPayload (j : Jwe) : Res Bytes := Res.unwrap (b64Decode j.ciphertext)

/-- Models `Jwe::new`, `src/messages/jwe.rs:67-84`; `fresh` are the 24 random bytes of `ensure_iv`
(`src/messages/jwe.rs:145-152`), used if no iv is given. -/
def new (fresh : Bytes) (unprotected : Option JwmHeader) (recipients : Option (List Recipient))
    (ciphertext : Bytes) (prot : Option JwmHeader) (tag : Option Bytes) (iv : Option Str) :
    Jwe :=
  { unprotected, recipients, ciphertext := b64Encode ciphertext, protected_ := prot,
    iv := iv.getD (b64Encode fresh), tag := tag.map b64Encode, recipient := none }

/-- Models `Jwe::new_flat`, `src/messages/jwe.rs:87-104`. -/
def newFlat (fresh : Bytes) (unprotected : Option JwmHeader) (recipient : Recipient)
    (ciphertext : Bytes) (prot : Option JwmHeader) (tag : Option Bytes) (iv : Option Str) :
    Jwe :=
  { unprotected, recipients := none, ciphertext := b64Encode ciphertext, protected_ := prot,
    iv := iv.getD (b64Encode fresh), tag := tag.map b64Encode, recipient := some recipient }

end Jwe

namespace Signature

/-- Models the getters of `Signature`, `src/messages/jws.rs:54-68`. -/
def getter {β : Type} (s : Signature) (f : JwmHeader → Option β) : Option β :=
  fallback s.header s.protected_ f

/-- Models `Signature::get_alg`, `src/messages/jws.rs:54`. -/
def getAlg (s : Signature) : Option Str := s.getter (·.alg)

/-- Models `Signature::get_kid`, `src/messages/jws.rs:66`. -/
def getKid (s : Signature) : Option Str := s.getter (·.kid)

/-- Models `Signature::get_cty`, `src/messages/jws.rs:56`. -/
def getCty (s : Signature) : Option Str := s.getter (·.cty)

/-- Models `Signature::get_enc`, `src/messages/jws.rs:58`. -/
def getEnc (s : Signature) : Option Str := s.getter (·.enc)

/-- Models `Signature::get_epk`, `src/messages/jws.rs:60`. -/
def getEpk (s : Signature) : Option Jwk := s.getter (·.epk)

/-- Models `Signature::get_jku`, `src/messages/jws.rs:62`. -/
def getJku (s : Signature) : Option Str := s.getter (·.jku)

/-- Models `Signature::get_jwk`, `src/messages/jws.rs:64`. -/
def getJwk (s : Signature) : Option Jwk := s.getter (·.jwk)

/-- Models `Signature::get_skid`, `src/messages/jws.rs:68`. -/
def getSkid (s : Signature) : Option Str := s.getter (·.skid)

end Signature

/-- Models `Jws::new`, `src/messages/jws.rs:99-105`. -/
def Jws.new (payload : Str) (signatures : List Signature) : Jws :=
  { payload, signature := none, signatures := some signatures }

/-- Models `Jws::new_flat`, `src/messages/jws.rs:115-121`. -/
def Jws.newFlat (payload : Str) (s : Signature) : Jws :=
  { payload, signature := some s, signatures := none }

/-! ## Key derivation -/

/-- Big-endian bytes of a 32-bit number (`u32::to_be_bytes`,
`src/messages/helpers/encryption.rs:377`). -/
def be32 (n : Nat) : Bytes :=
  [UInt8.ofNat (n / 16777216), UInt8.ofNat (n / 65536), UInt8.ofNat (n / 256), UInt8.ofNat n]

/-- Models `get_length_and_input`, `src/messages/helpers/encryption.rs:374-381`. -/
def lengthAndInput (v : Bytes) : Res Bytes :=
  if v.length < 4294967296 then .ok (be32 v.length ++ v)
  else .err (.generic "out of range integral type conversion attempted")

/-- Party information of the key derivation, `src/messages/helpers/encryption.rs:258-267`. -/
def partyInfo : Option Bytes → Res Bytes
  | some v => lengthAndInput v
  | none => .ok [0, 0, 0, 0]

/-- The string hashed by `concat_kdf`, `src/messages/helpers/encryption.rs:257-274`. -/
def kdfInput (secret : Bytes) (alg : Str) (producer consumer : Option Bytes) : Res Bytes := do
  let a ← lengthAndInput (utf8 alg)
  let p ← partyInfo producer
  let c ← partyInfo consumer
  pure ([0, 0, 0, 1] ++ secret ++ (a ++ p ++ c ++ [0, 0, 1, 0]))

/-- Models `concat_kdf`, `src/messages/helpers/encryption.rs:251-282`. -/
def concatKdf (P : Prims) (secret : Bytes) (alg : Str) (producer consumer : Option Bytes) :
    Res Bytes := do
  let x ← kdfInput secret alg producer consumer
  pure (P.sha256 x)

/-- The key used for a DID if none is given, `src/messages/helpers/encryption.rs:349-364`. -/
def publicKeyFor (P : Prims) (did : Str) (key : Option Bytes) : Res Bytes :=
  match key with
  | some k => .ok k
  | none => do
    let d ← Res.ofOpt .didResolveFailed (P.resolve did)
    Res.ofOpt .didResolveFailed (d.keyFor c!"X25519")

/-- Models `generate_shared_for_recipient`, `src/messages/helpers/encryption.rs:344-371`. -/
def sharedFor (P : Prims) (sk : Bytes) (did : Str) (key : Option Bytes) : Res Bytes := do
  let pk ← publicKeyFor P did key
  let s ← arrayRef32 sk
  let p ← arrayRef32 pk
  pure (P.x25519 s p)

/-- Models `generate_kek`, `src/messages/helpers/encryption.rs:297-322`. -/
def generateKek (P : Prims) (did : Str) (sk ze : Bytes) (alg : Str) (key : Option Bytes) :
    Res Bytes := do
  let shared ← sharedFor P sk did key
  concatKdf P (ze ++ shared) alg none none

/-! ## Key wrapping -/

/-- Random choices made for one recipient (`src/messages/helpers/encryption.rs:138,165,182`). -/
structure RecRand where
  epk : Bytes
  iv12 : Bytes
  iv24 : Bytes
  epk_len : epk.length = 32
  iv12_len : iv12.length = 12
  iv24_len : iv24.length = 24

/-- Splits off the last 16 bytes; panics if there are fewer
(`src/messages/helpers/encryption.rs:203`, `src/messages/message_raw_crypto.rs:53`). -/
def splitTag (b : Bytes) : Res (Bytes × Bytes) :=
  if 16 ≤ b.length then .ok (b.take (b.length - 16), b.drop (b.length - 16)) else .panic

/-- The wrapped key, the key algorithm and the nonce, `src/messages/helpers/encryption.rs:160-201`. -/
def wrapCek (P : Prims) (r : RecRand) (alg : Str) (kek cek : Bytes) :
    Res (KeyAlgorithm × Bytes × Bytes) :=
  if alg = c!"ECDH-1PU+A256KW" then do
    let k ← fromSlice kek 32
    let n ← fromSlice r.iv12 12
    let c ← Res.ofOpt aeadErr (P.gcmEnc k n [] cek)
    pure (.ecdh1puA256kw, r.iv12, c)
  else if alg = c!"ECDH-1PU+XC20PKW" then do
    let k ← fromSlice kek 32
    let n ← fromSlice r.iv24 24
    let c ← Res.ofOpt aeadErr (P.xcEnc k n [] cek)
    pure (.ecdh1puXc20pkw, r.iv24, c)
  else .err (.generic "encryption algorithm not implemented")

/-- Models `encrypt_cek`, `src/messages/helpers/encryption.rs:122-218`. -/
def encryptCek (P : Prims) (r : RecRand) (m : Message) (sk : Bytes) (dest : Str) (cek : Bytes)
    (key : Option Bytes) : Res Recipient := do
  let alg ← Res.ofOpt (.generic "missing encryption 'alg' in header") m.jwm.alg
  let ze ← sharedFor P r.epk dest key
  let kek ← generateKek P dest sk ze alg key
  let (ka, iv, sealed) ← wrapCek P r alg kek cek
  let (c, tag) ← splitTag sealed
  let jwk := { Jwk.new with kid := some (didOfUrl dest), alg := ka }
  let jwk := jwk.addOtherHeader c!"iv" (b64Encode iv)
  let jwk := jwk.addOtherHeader c!"tag" (b64Encode tag)
  pure { header := jwk.ephemeral c!"OKP" c!"X25519" (b64Encode (P.x25519Pub r.epk)) none,
         encryptedKey := b64Encode c }

/-- The unwrapped key, `src/messages/helpers/encryption.rs:79-106`. -/
def unwrapCek (P : Prims) (alg : Str) (kek iv c : Bytes) : Res Bytes :=
  if alg = c!"ECDH-1PU+XC20PKW" then do
    let n ← fromSlice iv 24
    let k ← fromSlice kek 32
    Res.ofOpt aeadErr (P.xcDec k n [] c)
  else if alg = c!"ECDH-1PU+A256KW" then do
    let n ← fromSlice iv 12
    let k ← fromSlice kek 32
    Res.ofOpt aeadErr (P.gcmDec k n [] c)
  else .err (.generic "encryption algorithm not implemented")

/-- Models `decrypt_cek`, `src/messages/helpers/encryption.rs:29-107`. -/
def decryptCek (P : Prims) (jwe : Jwe) (sk : Bytes) (r : Recipient) (key : Option Bytes) :
    Res Bytes := do
  let alg ← Res.ofOpt (.generic "missing encryption 'alg' in header") jwe.getAlg
  let skid ← Res.ofOpt (.generic "missing 'skid' in header") jwe.getSkid
  let epk ← Res.ofOpt (.generic "JWM header is missing epk") r.header.epk
  let pub ← Res.ofOpt .base64 (b64Decode epk.x)
  let pub ← (if pub.length = 32 then Res.ok pub else .err (.generic "failed to decode epk public key"))
  let s ← arrayRef32 sk
  let kek ← generateKek P skid sk (P.x25519 s pub) alg key
  let iv ← Res.ofOpt (.generic "missing iv in header") (r.header.other.get c!"iv")
  let ivBytes ← Res.ofOpt .base64 (b64Decode iv)
  let tag ← Res.ofOpt (.generic "missing tag in header") (r.header.other.get c!"tag")
  let c ← Res.ofOpt .base64 (b64Decode r.encryptedKey)
  let t ← Res.ofOpt .base64 (b64Decode tag)
  unwrapCek P alg kek ivBytes (c ++ t)

/-- Models `get_crypter_from_header`, `src/messages/helpers/encryption.rs:221-226`. -/
def crypterOfHeader (h : JwmHeader) : Res CryptoAlg :=
  match h.alg with
  | none => .err .jweParseError
  | some a => CryptoAlg.ofStr a

/-- Models `get_signing_sender_public_key`, `src/messages/helpers/encryption.rs:236-248`. -/
def signingKey (key : Option Bytes) (kid : Option Str) : Res Bytes :=
  match key with
  | some k => .ok k
  | none =>
    match kid with
    | some k => Res.ofOpt .jwsParseError (hexDecode k)
    | none => .err .jwsParseError

end Verif
