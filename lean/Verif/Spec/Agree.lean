import Verif.Props.Seal

namespace Verif.Spec

/-- The two private keys, of the right length, give the same secret with every public key of a set. -/
structure Agree (P : Prims) (S : Bytes → Prop) (a b : Bytes) : Prop where
  left : a.length = 32
  right : b.length = 32
  same : ∀ pk, S pk → P.x25519 a pk = P.x25519 b pk

/-- The public keys with which the sender of a message agrees on secrets: those of the recipients, given or resolved, of
which the first 32 bytes count. -/
def ToKey (P : Prims) (m : Message) (keys : Option (List (Option Bytes))) (k : Bytes) : Prop :=
  ∃ (i : Nat) (dest : Str) (pk : Bytes), m.didcomm.to[i]? = some dest ∧ KeyFor P dest (keyAt keys i) pk ∧ k = pk.take 32

/-- The public keys with which the reader of an envelope agrees on secrets: that of the sender, given or resolved, and the
ephemeral ones of the entries. -/
def EnvelopeKey (P : Prims) (t : Str) (ek : Option Bytes) (k : Bytes) : Prop :=
  ∃ j, Jwe.ofText P.f64 t = some j ∧
    ((∃ skid pk, (j.getSkid = some skid ∨ ek ≠ none) ∧ KeyFor P skid ek pk ∧ k = pk.take 32) ∨
      ∃ e ∈ j.recipients.getD j.recipient.toList, ∃ epk, e.header.epk = some epk ∧ b64Decode epk.x = some k)

end Verif.Spec
