import Verif.Model.Serde

/-!
# Header types and their JSON form

Models `src/messages/headers/*.rs`.
-/

namespace Verif

/-! ## Enums -/

/-- Models `enum MessageType`, `src/messages/headers/types.rs:3-14`. -/
inductive MessageType where
  | jwe | jws | raw | forward | invitation
  deriving DecidableEq, Repr, Inhabited

/-- The serde names of `MessageType`, `src/messages/headers/types.rs:4-13`. -/
def MessageType.label : MessageType → Str
  | .jwe => c!"application/didcomm-encrypted+json"
  | .jws => c!"application/didcomm-signed+json"
  | .raw => c!"application/didcomm-plain+json"
  | .forward => c!"https://didcomm.org/routing/2.0/forward"
  | .invitation => c!"https://didcomm.org/out-of-band/2.0/invitation"

/-- All variants in declaration order, `src/messages/headers/types.rs:3-14`. -/
def MessageType.all : List MessageType := [.jwe, .jws, .raw, .forward, .invitation]

/-- Variant with the given name (derived `Deserialize`, `src/messages/headers/types.rs:2`). -/
def MessageType.ofLabel (s : Str) : Option MessageType := MessageType.all.find? fun t => t.label = s

/-- Models the derived `Deserialize` of `MessageType`, `src/messages/headers/types.rs:2`. -/
def decMessageType : Json → Option MessageType := decLabel MessageType.ofLabel

/-- Models `enum KeyOps`, `src/messages/headers/jwk.rs:64-74`. -/
inductive KeyOps where
  | sign | verify | encrypt | decrypt | wrapKey | unwrapKey | deriveKey | deriveBits | other
  deriving DecidableEq, Repr, Inhabited

/-- The serde names of `KeyOps` (`rename_all = "camelCase"`), `src/messages/headers/jwk.rs:63-74`. -/
def KeyOps.label : KeyOps → Str
  | .sign => c!"sign"
  | .verify => c!"verify"
  | .encrypt => c!"encrypt"
  | .decrypt => c!"decrypt"
  | .wrapKey => c!"wrapKey"
  | .unwrapKey => c!"unwrapKey"
  | .deriveKey => c!"deriveKey"
  | .deriveBits => c!"deriveBits"
  | .other => c!"other"

/-- All variants, `src/messages/headers/jwk.rs:64-74`. -/
def KeyOps.all : List KeyOps :=
  [.sign, .verify, .encrypt, .decrypt, .wrapKey, .unwrapKey, .deriveKey, .deriveBits, .other]

/-- Variant with the given name (derived `Deserialize`, `src/messages/headers/jwk.rs:62`). -/
def KeyOps.ofLabel (s : Str) : Option KeyOps := KeyOps.all.find? fun t => t.label = s

/-- Models the derived `Deserialize` of `KeyOps`, `src/messages/headers/jwk.rs:62`. -/
def decKeyOps : Json → Option KeyOps := decLabel KeyOps.ofLabel

/-- Models `enum KeyAlgorithm`, `src/messages/headers/jwk.rs:79-125`. -/
inductive KeyAlgorithm where
  | hs256 | hs384 | hs512 | rs256 | rs384 | rs512 | es256 | es384 | es512 | ps384 | ps512 | rsa1_5
  | rsaOaep | rsaOaep256 | a128kw | a256kw | dir | ecdhEs | ecdhEsPlusA128kw | ecdhEsPulsA192kw
  | ecdhEsA256kw | a128gcmkw | a192gcmkw | a256gcmkw | ecdh1puA256kw | ecdh1puXc20pkw
  | pbes2Hs256A128kw | pbes2Hs384A192kw | pbes2Hs512A256kw | edDsa | none
  deriving DecidableEq, Repr, Inhabited

/-- The serde names of `KeyAlgorithm`, `src/messages/headers/jwk.rs:79-125`. -/
def KeyAlgorithm.label : KeyAlgorithm → Str
  | .hs256 => c!"HS256"
  | .hs384 => c!"HS384"
  | .hs512 => c!"HS512"
  | .rs256 => c!"RS256"
  | .rs384 => c!"RS384"
  | .rs512 => c!"RS512"
  | .es256 => c!"ES256"
  | .es384 => c!"ES384"
  | .es512 => c!"ES512"
  | .ps384 => c!"PS384"
  | .ps512 => c!"PS512"
  | .rsa1_5 => c!"RSA1_5"
  | .rsaOaep => c!"RSA-OAEP"
  | .rsaOaep256 => c!"RSA-OAEP-256"
  | .a128kw => c!"A128KW"
  | .a256kw => c!"A256KW"
  | .dir => c!"dir"
  | .ecdhEs => c!"ECDH-ES"
  | .ecdhEsPlusA128kw => c!"ECDH-ES+A128KW"
  | .ecdhEsPulsA192kw => c!"ECDH-ES+A192KW"
  | .ecdhEsA256kw => c!"ECDH-ES+A256KW"
  | .a128gcmkw => c!"A128GCMKW"
  | .a192gcmkw => c!"A192GCMKW"
  | .a256gcmkw => c!"A256GCMKW"
  | .ecdh1puA256kw => c!"ECDH-1PU+A256KW"
  | .ecdh1puXc20pkw => c!"ECDH-1PU+XC20PKW"
  | .pbes2Hs256A128kw => c!"PBES2-HS256+A128KW"
  | .pbes2Hs384A192kw => c!"PBES2-HS384+A192KW"
  | .pbes2Hs512A256kw => c!"PBES2-HS512+A256KW"
  | .edDsa => c!"EdDSA"
  | .none => c!"none"

/-- All variants in declaration order, `src/messages/headers/jwk.rs:79-125`. -/
def KeyAlgorithm.all : List KeyAlgorithm :=
  [.hs256, .hs384, .hs512, .rs256, .rs384, .rs512, .es256, .es384, .es512, .ps384, .ps512, .rsa1_5,
   .rsaOaep, .rsaOaep256, .a128kw, .a256kw, .dir, .ecdhEs, .ecdhEsPlusA128kw, .ecdhEsPulsA192kw,
   .ecdhEsA256kw, .a128gcmkw, .a192gcmkw, .a256gcmkw, .ecdh1puA256kw, .ecdh1puXc20pkw,
   .pbes2Hs256A128kw, .pbes2Hs384A192kw, .pbes2Hs512A256kw, .edDsa, .none]

/-- Variant with the given name (derived `Deserialize`, `src/messages/headers/jwk.rs:78`). -/
def KeyAlgorithm.ofLabel (s : Str) : Option KeyAlgorithm :=
  KeyAlgorithm.all.find? fun t => t.label = s

/-- Models the derived `Deserialize` of `KeyAlgorithm`, `src/messages/headers/jwk.rs:78`. -/
def decKeyAlgorithm : Json → Option KeyAlgorithm := decLabel KeyAlgorithm.ofLabel

/-- Models `KeyAlgorithm::to_string`, `src/messages/headers/jwk.rs:127-132`: the JSON text, with
quotes. -/
def KeyAlgorithm.toString (a : KeyAlgorithm) : Str := printJson (.str a.label)

/-! ## Ephemeral public keys -/

/-- Models `struct Epk`, `src/messages/headers/jwk.rs:5-14`. -/
structure Epk where
  kty : Str
  crv : Str
  x : Str
  y : Option Str
  deriving DecidableEq, Repr, Inhabited

/-- Models the derived `Serialize` of `Epk`, `src/messages/headers/jwk.rs:4-14`. -/
def encEpk (k : Epk) : Json :=
  .obj ((c!"kty", .str k.kty) :: (c!"crv", .str k.crv) :: (c!"x", .str k.x) :: optE c!"y" .str k.y)

/-- Models the derived `Deserialize` of `Epk`, `src/messages/headers/jwk.rs:4-14`. -/
def decEpk (j : Json) : Option Epk := do
  let es ← structEntries [c!"kty", c!"crv", c!"x", c!"y"] 4 j
  let kty ← reqField decStr c!"kty" es
  let crv ← reqField decStr c!"crv" es
  let x ← reqField decStr c!"x" es
  let y ← optField decStr c!"y" es
  pure { kty, crv, x, y }

/-! ## Keys -/

/-- Models `struct Jwk`, `src/messages/headers/jwk.rs:18-40`. -/
structure Jwk where
  kty : Option Str
  use_ : Option Str
  crv : Option Str
  keyOps : List KeyOps
  alg : KeyAlgorithm
  kid : Option Str
  epk : Option Epk
  other : HMap Str
  deriving DecidableEq, Inhabited

/-- Names of the fields that are not flattened, `src/messages/headers/jwk.rs:19-36`. -/
def jwkKeys : List Str :=
  [c!"kty", c!"use", c!"crv", c!"key_ops", c!"alg", c!"kid", c!"epk"]

/-- Models the derived `Serialize` of `Jwk`, `src/messages/headers/jwk.rs:17-40`. -/
def encJwk (o : HOrd) (k : Jwk) : Json :=
  .obj (optE c!"kty" .str k.kty ++ (optE c!"use" .str k.use_ ++ (optE c!"crv" .str k.crv ++
    ((c!"key_ops", .arr (k.keyOps.map fun x => .str x.label)) :: (c!"alg", .str k.alg.label) ::
      (optE c!"kid" .str k.kid ++ (optE c!"epk" encEpk k.epk ++ mapE o .str k.other))))))

/-- Models the derived `Deserialize` of `Jwk`, `src/messages/headers/jwk.rs:17-40`: members with
other names are collected and must all be strings. -/
def decJwk (j : Json) : Option Jwk := do
  let es ← mapEntries j
  let kty ← optField decStr c!"kty" es
  let use_ ← optField decStr c!"use" es
  let crv ← optField decStr c!"crv" es
  let keyOps ← reqField (decVec decKeyOps) c!"key_ops" es
  let alg ← reqField decKeyAlgorithm c!"alg" es
  let kid ← optField decStr c!"kid" es
  let epk ← optField decEpk c!"epk" es
  let other ← decMembers decStr (es.filter fun p => !jwkKeys.contains p.1)
  pure { kty, use_, crv, keyOps, alg, kid, epk, other := HMap.ofList other }

/-- Models `Jwk::new`, `src/messages/headers/jwk.rs:44-46` (derived `Default`; `KeyAlgorithm::None` is
the default algorithm, `src/messages/headers/jwk.rs:134-138`). -/
def Jwk.new : Jwk :=
  { kty := none, use_ := none, crv := none, keyOps := [], alg := .none, kid := none, epk := none,
    other := HMap.empty }

/-- Models `Jwk::ephemeral`, `src/messages/headers/jwk.rs:50-53`. -/
def Jwk.ephemeral (k : Jwk) (kty crv x : Str) (y : Option Str) : Jwk :=
  { k with epk := some { kty, crv, x, y } }

/-- Models `Jwk::add_other_header`, `src/messages/headers/jwk.rs:56-58`. -/
def Jwk.addOtherHeader (j : Jwk) (k v : Str) : Jwk := { j with other := j.other.insert k v }

/-! ## JOSE header -/

/-- Models `struct JwmHeader`, `src/messages/headers/jwm.rs:13-52`. -/
structure JwmHeader where
  typ : MessageType
  enc : Option Str
  kid : Option Str
  skid : Option Str
  alg : Option Str
  jku : Option Str
  jwk : Option Jwk
  epk : Option Jwk
  cty : Option Str
  deriving DecidableEq, Inhabited

/-- Field names of `JwmHeader`, `src/messages/headers/jwm.rs:13-52`. -/
def jwmKeys : List Str :=
  [c!"typ", c!"enc", c!"kid", c!"skid", c!"alg", c!"jku", c!"jwk", c!"epk", c!"cty"]

/-- Members written for a `JwmHeader` (derived `Serialize`), `src/messages/headers/jwm.rs:12-52`. -/
def jwmEntries (o : HOrd) (h : JwmHeader) : List (Str × Json) :=
  (c!"typ", .str h.typ.label) :: (optE c!"enc" .str h.enc ++ (optE c!"kid" .str h.kid ++
    (optE c!"skid" .str h.skid ++ (optE c!"alg" .str h.alg ++ (optE c!"jku" .str h.jku ++
      (optE c!"jwk" (encJwk (o.sub 0)) h.jwk ++ (optE c!"epk" (encJwk (o.sub 1)) h.epk ++
        optE c!"cty" .str h.cty)))))))

/-- Models the derived `Serialize` of `JwmHeader`, `src/messages/headers/jwm.rs:12-52`. -/
def encJwm (o : HOrd) (h : JwmHeader) : Json := .obj (jwmEntries o h)

/-- The fields of a `JwmHeader` among the given members (derived `Deserialize`; other members are
ignored), `src/messages/headers/jwm.rs:12-52`. -/
def decJwmE (es : List (Str × Json)) : Option JwmHeader := do
  let typ ← reqField decMessageType c!"typ" es
  let enc ← optField decStr c!"enc" es
  let kid ← optField decStr c!"kid" es
  let skid ← optField decStr c!"skid" es
  let alg ← optField decStr c!"alg" es
  let jku ← optField decStr c!"jku" es
  let jwk ← optField decJwk c!"jwk" es
  let epk ← optField decJwk c!"epk" es
  let cty ← optField decStr c!"cty" es
  pure { typ, enc, kid, skid, alg, jku, jwk, epk, cty }

/-- Models the derived `Deserialize` of `JwmHeader`, `src/messages/headers/jwm.rs:12-52`. -/
def decJwm (j : Json) : Option JwmHeader := do
  let es ← structEntries jwmKeys 9 j
  decJwmE es

/-- Models `JwmHeader::default`, `src/messages/headers/jwm.rs:99-114`. -/
def JwmHeader.dflt : JwmHeader :=
  { typ := .raw, enc := none, kid := none, skid := none, alg := none, jku := none, jwk := none,
    epk := none, cty := none }

/-! ## Rotation claims -/

/-- Models `struct PriorClaims`, `src/messages/headers/prior_claims.rs:7-11`. -/
structure PriorClaims where
  sub : Option Str
  iss : Str
  deriving DecidableEq, Repr, Inhabited

/-- Models the derived `Serialize` of `PriorClaims` (`sub` is written as `null` if absent),
`src/messages/headers/prior_claims.rs:6-11`. -/
def encPrior (c : PriorClaims) : Json :=
  .obj [(c!"sub", encOpt .str c.sub), (c!"iss", .str c.iss)]

/-- Models the derived `Deserialize` of `PriorClaims`, `src/messages/headers/prior_claims.rs:6-11`. -/
def decPrior (j : Json) : Option PriorClaims := do
  let es ← structEntries [c!"sub", c!"iss"] 2 j
  let sub ← optField decStr c!"sub" es
  let iss ← reqField decStr c!"iss" es
  pure { sub, iss }

/-! ## Thread decorator -/

/-- Models `struct Thread`, `src/messages/headers/decorators.rs:19-41`. -/
structure Thread where
  thid : Str
  pthid : Str
  senderOrder : Option UInt64
  receivedOrders : Option (HMap UInt64)
  goalCode : Option Str
  deriving DecidableEq, Inhabited

/-- Models the derived `Serialize` of `Thread`, `src/messages/headers/decorators.rs:18-41`. -/
def encThread (o : HOrd) (t : Thread) : Json :=
  .obj ((c!"thid", .str t.thid) :: (c!"pthid", .str t.pthid) ::
    (optE c!"sender_order" encU64 t.senderOrder ++
      (optE c!"received_orders" (fun m => .obj (mapE o encU64 m)) t.receivedOrders ++
        optE c!"goal_code" .str t.goalCode)))

/-- Models the derived `Deserialize` of `Thread`, `src/messages/headers/decorators.rs:18-41`. -/
def decThread (j : Json) : Option Thread := do
  let es ← structEntries
    [c!"thid", c!"pthid", c!"sender_order", c!"received_orders", c!"goal_code"] 5 j
  let thid ← reqField decStr c!"thid" es
  let pthid ← reqField decStr c!"pthid" es
  let senderOrder ← optField decU64 c!"sender_order" es
  let receivedOrders ← optField (decMap decU64) c!"received_orders" es
  let goalCode ← optField decStr c!"goal_code" es
  pure { thid, pthid, senderOrder, receivedOrders, goalCode }

/-! ## DIDComm header -/

/-- Models `struct DidCommHeader`, `src/messages/headers/didcomm.rs:8-40`. -/
structure DidCommHeader where
  id : Str
  thid : Option Str
  pthid : Option Str
  mType : Str
  to : List Str
  «from» : Option Str
  createdTime : Option UInt64
  expiresTime : Option UInt64
  fromPrior : Option PriorClaims
  thread : Option Thread
  other : HMap Str
  deriving DecidableEq, Inhabited

/-- Names of the fields that are not flattened, `src/messages/headers/didcomm.rs:8-40`. -/
def didcommKeys : List Str :=
  [c!"id", c!"thid", c!"pthid", c!"type", c!"to", c!"from", c!"created_time", c!"expires_time",
   c!"from_prior", c!"~thread"]

/-- Members written for a `DidCommHeader` (derived `Serialize`), `src/messages/headers/didcomm.rs:7-40`.
An empty `to` is left out. -/
def didcommEntries (o : HOrd) (h : DidCommHeader) : List (Str × Json) :=
  (c!"id", .str h.id) :: (optE c!"thid" .str h.thid ++ (optE c!"pthid" .str h.pthid ++
    ((c!"type", .str h.mType) :: (vecE c!"to" (fun l => .arr (l.map .str)) h.to ++
      ((c!"from", encOpt .str h.from) :: (optE c!"created_time" encU64 h.createdTime ++
        (optE c!"expires_time" encU64 h.expiresTime ++ (optE c!"from_prior" encPrior h.fromPrior ++
          (optE c!"~thread" (encThread (o.sub 0)) h.thread ++ mapE (o.sub 1) .str h.other)))))))))

/-- The `DidCommHeader` among the given members (derived `Deserialize`): `to` is required, all
members with other names are collected and must be strings, `src/messages/headers/didcomm.rs:7-40`. -/
def decDidcommE (es : List (Str × Json)) : Option DidCommHeader := do
  let id ← reqField decStr c!"id" es
  let thid ← optField decStr c!"thid" es
  let pthid ← optField decStr c!"pthid" es
  let mType ← reqField decStr c!"type" es
  let to ← reqField (decVec decStr) c!"to" es
  let from' ← optField decStr c!"from" es
  let createdTime ← optField decU64 c!"created_time" es
  let expiresTime ← optField decU64 c!"expires_time" es
  let fromPrior ← optField decPrior c!"from_prior" es
  let thread ← optField decThread c!"~thread" es
  let other ← decMembers decStr (es.filter fun p => !didcommKeys.contains p.1)
  pure { id, thid, pthid, mType, to, «from» := from', createdTime, expiresTime, fromPrior, thread,
         other := HMap.ofList other }

end Verif
