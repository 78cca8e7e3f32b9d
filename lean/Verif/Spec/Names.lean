import Verif.Model.Basic

/-!
# Specification: registered names

The names that RFC 7518 registers for `alg` (sections 3.1 and 4.1) and RFC 7517 (section 4.3) for
`key_ops`.
-/

namespace Verif.Spec

/-- RFC 7518, section 3.1: algorithms for signatures and MACs. -/
def rfc7518Signing : List Str :=
  [c!"HS256", c!"HS384", c!"HS512", c!"RS256", c!"RS384", c!"RS512", c!"ES256", c!"ES384", c!"ES512",
    c!"PS256", c!"PS384", c!"PS512", c!"none"]

/-- RFC 7518, section 4.1: algorithms for key management. -/
def rfc7518Keys : List Str :=
  [c!"RSA1_5", c!"RSA-OAEP", c!"RSA-OAEP-256", c!"A128KW", c!"A192KW", c!"A256KW", c!"dir", c!"ECDH-ES",
    c!"ECDH-ES+A128KW", c!"ECDH-ES+A192KW", c!"ECDH-ES+A256KW", c!"A128GCMKW", c!"A192GCMKW", c!"A256GCMKW",
    c!"PBES2-HS256+A128KW", c!"PBES2-HS384+A192KW", c!"PBES2-HS512+A256KW"]

/-- Names from elsewhere: draft-madden-jose-ecdh-1pu, DIDComm, RFC 8037. -/
def otherAlgs : List Str := [c!"ECDH-1PU+A256KW", c!"ECDH-1PU+XC20PKW", c!"EdDSA"]

/-- RFC 7517, section 4.3. -/
def rfc7517Ops : List Str :=
  [c!"sign", c!"verify", c!"encrypt", c!"decrypt", c!"wrapKey", c!"unwrapKey", c!"deriveKey", c!"deriveBits"]

/-- The media types of DIDComm messages and the two protocols known to the crate (DIDComm Messaging v2,
sections on media types, routing and out of band messages). -/
def didcommTypes : List Str :=
  [c!"application/didcomm-plain+json", c!"application/didcomm-signed+json",
    c!"application/didcomm-encrypted+json", c!"https://didcomm.org/routing/2.0/forward",
    c!"https://didcomm.org/out-of-band/2.0/invitation"]

/-- The problems of DIDComm Messaging v2 (section on problem reports, descriptors in a code), as the crate
spells them: errors, then warnings. -/
def problemErrors : List Str :=
  [c!"ProtocolError", c!"TrustlError", c!"CryptoTrusError", c!"XferError", c!"DidError", c!"MsgError", c!"MeErro",
    c!"MeResError", c!"ReqError", c!"ReqTimeError", c!"LegalError"]

/-- The warnings. -/
def problemWarnings : List Str :=
  [c!"ProtocolWarning", c!"TrustWarning", c!"CryptoTrustWarning", c!"XferWarning", c!"DidWarning", c!"MsgWarning",
    c!"MeWarning", c!"MeResWarning", c!"ReqWarning", c!"ReqTimeWarning", c!"LegalWarning"]

end Verif.Spec
