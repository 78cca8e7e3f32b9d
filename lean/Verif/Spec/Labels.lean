import Verif.Model.Envelope

/-!
# Specification: what of an entry opens the envelope

Independent of the model of `receive`.
-/

namespace Verif.Spec

/-- Two recipient entries that hold the same lock: the same ephemeral public key, nonce, tag and wrapped
key, compared as bytes.  The names, algorithms, key types and uses written beside them may differ. -/
structure SameLock (r r' : Recipient) : Prop where
  key : b64Decode r'.encryptedKey = b64Decode r.encryptedKey
  epk : (r'.header.epk.map fun e => b64Decode e.x) = r.header.epk.map fun e => b64Decode e.x
  iv : (r'.header.other.get c!"iv").map b64Decode = (r.header.other.get c!"iv").map b64Decode
  tag : (r'.header.other.get c!"tag").map b64Decode = (r.header.other.get c!"tag").map b64Decode

/-- Two texts for the initialisation vector that name the same nonce: the same bytes, or, for
`ECDH-1PU+A256KW`, bytes of which the first twelve are the same. -/
def SameNonce (alg : Option Str) (iv iv' : Str) : Prop :=
  b64Decode iv' = b64Decode iv ∨
    alg = some c!"ECDH-1PU+A256KW" ∧ ∃ x y, b64Decode iv = some x ∧ b64Decode iv' = some y ∧
      12 ≤ x.length ∧ 12 ≤ y.length ∧ y.take 12 = x.take 12

/-- A rewriting of the description of a key that leaves alone the ephemeral key and the members beside
the declared ones: it may change name, algorithm, type, curve, use and operations. -/
def Relabels (g : Jwk → Jwk) : Prop := ∀ k, (g k).epk = k.epk ∧ (g k).other = k.other

/-- The entry with its description rewritten. -/
def relabel (g : Jwk → Jwk) (r : Recipient) : Recipient := { r with header := g r.header }

/-- The envelope with the descriptions in all entries rewritten. -/
def relabelAll (g : Jwk → Jwk) (j : Jwe) : Jwe :=
  { j with recipient := j.recipient.map (relabel g), recipients := j.recipients.map (·.map (relabel g)) }

end Verif.Spec
