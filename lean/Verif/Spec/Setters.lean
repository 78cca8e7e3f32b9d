import Verif.Model.Message

/-!
# Documented effect of the message setters

The fields of a message, and for every setter the table of the fields it is documented to set with
the value it gives them.  Written from the documentation of the setters, without reference to their
definitions.
-/

namespace Verif.Spec

open Verif

/-- The fields of a message (`src/messages/message.rs:40-70`, `src/messages/headers/jwm.rs:13-52`,
`src/messages/headers/didcomm.rs:8-40`). -/
inductive Field where
  | typ | enc | kid | skid | alg | jku | jwk | epk | cty
  | id | thid | pthid | mType | to | «from» | created | expires | prior | thread | other
  | recipients | body | flatJwe | flatJws | attachments
  deriving DecidableEq

/-- Type of the content of a field. -/
@[reducible] def Field.Val : Field → Type
  | .typ => MessageType
  | .enc | .kid | .skid | .alg | .jku | .cty => Option Str
  | .jwk | .epk => Option Jwk
  | .id | .mType => Str
  | .thid | .pthid | .from => Option Str
  | .to => List Str
  | .created | .expires => Option UInt64
  | .prior => Option PriorClaims
  | .thread => Option Thread
  | .other => HMap Str
  | .recipients => Option (List Recipient)
  | .body => Json
  | .flatJwe | .flatJws => Bool
  | .attachments => List Attachment

/-- Content of a field. -/
def Field.get (m : Message) : (f : Field) → f.Val
  | .typ => m.jwm.typ
  | .enc => m.jwm.enc
  | .kid => m.jwm.kid
  | .skid => m.jwm.skid
  | .alg => m.jwm.alg
  | .jku => m.jwm.jku
  | .jwk => m.jwm.jwk
  | .epk => m.jwm.epk
  | .cty => m.jwm.cty
  | .id => m.didcomm.id
  | .thid => m.didcomm.thid
  | .pthid => m.didcomm.pthid
  | .mType => m.didcomm.mType
  | .to => m.didcomm.to
  | .from => m.didcomm.from
  | .created => m.didcomm.createdTime
  | .expires => m.didcomm.expiresTime
  | .prior => m.didcomm.fromPrior
  | .thread => m.didcomm.thread
  | .other => m.didcomm.other
  | .recipients => m.recipients
  | .body => m.body
  | .flatJwe => m.flatJwe
  | .flatJws => m.flatJws
  | .attachments => m.attachments

/-- The setters that overwrite fields (`src/messages/message.rs:103-341`). -/
inductive Setter where
  | setFrom (s : Str)
  | mType (s : Str)
  | typ (t : MessageType)
  | kid (s : Str)
  | thid (s : Str)
  | pthid (s : Str)
  | timed (now expires : Option UInt64)
  | asJws (a : SignAlg)
  | asFlatJws (a : SignAlg)
  | asJwe (a : CryptoAlg) (key : Option Bytes)
  | asFlatJwe (a : CryptoAlg) (key : Option Bytes)
  | jwmHeader (h : JwmHeader)
  | didcommHeader (h : DidCommHeader)

/-- JWA name of a signature algorithm. -/
def signName : SignAlg → Str
  | .edDsa => c!"EdDSA"
  | .es256 => c!"ES256"
  | .es256k => c!"ES256K"

/-- Key wrapping name written to `alg` for a cipher (for `A256CBC` the code writes the cipher name). -/
def algName : CryptoAlg → Str
  | .xc20p => c!"ECDH-1PU+XC20PKW"
  | .a256gcm => c!"ECDH-1PU+A256KW"
  | .a256cbc => c!"A256CBC"

/-- Name written to `enc` for a cipher (for `A256CBC` the code writes the key wrapping name). -/
def encName : CryptoAlg → Str
  | .xc20p => c!"XC20P"
  | .a256gcm => c!"A256GCM"
  | .a256cbc => c!"ECDH-1PU+A256KW"

/-- Curve whose key id is looked up in the sender's DID document. -/
def curveName : CryptoAlg → Str
  | .xc20p => c!"X25519"
  | _ => c!"P-256"

/-- The `kid` documented for `as_jwe`: the given key in base64url, else the key id found in the
sender's DID document if there is one; otherwise `kid` is not set. -/
def jweKid (P : Prims) (frm : Option Str) (a : CryptoAlg) : Option Bytes → Option (Option Str)
  | some k => some (some (b64Encode k))
  | none => (frm.bind P.resolve).map fun d => d.keyIdFor (curveName a)

/-- Documented effect: the new content of a field, or `none` if the setter leaves it alone. -/
def Setter.effect (P : Prims) (frm : Option Str) : Setter → (f : Field) → Option f.Val
  | .setFrom s, .from => some (some s)
  | .mType s, .mType => some s
  | .typ t, .typ => some t
  | .kid s, .kid => some (some s)
  | .thid s, .thid => some (some s)
  | .pthid s, .pthid => some (some s)
  | .timed now _, .created => some now
  | .timed _ e, .expires => some e
  | .asJws _, .typ => some .jws
  | .asJws a, .alg => some (some (signName a))
  | .asFlatJws _, .typ => some .jws
  | .asFlatJws a, .alg => some (some (signName a))
  | .asFlatJws _, .flatJws => some true
  | .asJwe _ _, .typ => some .jwe
  | .asJwe a _, .alg => some (some (algName a))
  | .asJwe a _, .enc => some (some (encName a))
  | .asJwe a k, .kid => jweKid P frm a k
  | .asFlatJwe _ _, .typ => some .jwe
  | .asFlatJwe a _, .alg => some (some (algName a))
  | .asFlatJwe a _, .enc => some (some (encName a))
  | .asFlatJwe a k, .kid => jweKid P frm a k
  | .asFlatJwe _ _, .flatJwe => some true
  | .jwmHeader h, .typ => some h.typ
  | .jwmHeader h, .enc => some h.enc
  | .jwmHeader h, .kid => some h.kid
  | .jwmHeader h, .skid => some h.skid
  | .jwmHeader h, .alg => some h.alg
  | .jwmHeader h, .jku => some h.jku
  | .jwmHeader h, .jwk => some h.jwk
  | .jwmHeader h, .epk => some h.epk
  | .jwmHeader h, .cty => some h.cty
  | .didcommHeader h, .id => some h.id
  | .didcommHeader h, .thid => some h.thid
  | .didcommHeader h, .pthid => some h.pthid
  | .didcommHeader h, .mType => some h.mType
  | .didcommHeader h, .to => some h.to
  | .didcommHeader h, .from => some h.from
  | .didcommHeader h, .created => some h.createdTime
  | .didcommHeader h, .expires => some h.expiresTime
  | .didcommHeader h, .prior => some h.fromPrior
  | .didcommHeader h, .thread => some h.thread
  | .didcommHeader h, .other => some h.other
  | _, _ => none

/-- The code of a setter. -/
def Setter.apply (P : Prims) (m : Message) : Setter → Message
  | .setFrom s => m.setFrom s
  | .mType s => m.setMType s
  | .typ t => m.setTyp t
  | .kid s => m.setKid s
  | .thid s => m.setThid s
  | .pthid s => m.setPthid s
  | .timed now e => m.timed now e
  | .asJws a => m.asJws a
  | .asFlatJws a => m.asFlatJws a
  | .asJwe a k => m.asJwe P a k
  | .asFlatJwe a k => m.asFlatJwe P a k
  | .jwmHeader h => m.setJwm h
  | .didcommHeader h => m.setDidcomm h

/-- Last value written to a key by a sequence of writes, starting from `init`. -/
def lastWrite (k : Str) (init : Option Str) : List (Str × Str) → Option Str
  | [] => init
  | (k', v) :: l => lastWrite k (if k' = k then some v else init) l

end Verif.Spec
