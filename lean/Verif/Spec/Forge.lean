import Verif.Model.Secure

/-!
# Specification: making an envelope without the private key of the sender

What the holders of the private keys of all recipients can compute on their own.  The private key of the
sender is no argument of anything here.
-/

namespace Verif.Spec

/-- An entry for the recipient `dest` with private key `rsk`, made by the holder of `rsk` in the name of the
owner of the public key `spk`. -/
def forgeEntry (P : Prims) (r : RecRand) (alg : Str) (spk : Bytes) (dest : Str) (rsk : Bytes) : Res Recipient := do
  let kek ← concatKdf P (P.x25519 rsk (P.x25519Pub r.epk) ++ P.x25519 rsk spk) alg none none
  let (ka, iv, sealed) ← wrapCek P r alg kek cek
  let (c, tag) ← splitTag sealed
  pure
    { header :=
        { Jwk.new with
          kid := some (didOfUrl dest), alg := ka,
          epk := some { kty := c!"OKP", crv := c!"X25519", x := b64Encode (P.x25519Pub r.epk), y := none },
          other := ((HMap.empty.insert c!"iv" (b64Encode iv)).insert c!"tag" (b64Encode tag)) },
      encryptedKey := b64Encode c }

/-- Entries for several recipients, numbered from `i`. -/
def forgeEntries (P : Prims) (r : Nat → RecRand) (alg : Str) (spk : Bytes) : Nat → List (Str × Bytes) → Res (List Recipient)
  | _, [] => .ok []
  | i, (dest, rsk) :: l => do
    let x ← forgeEntry P (r i) alg spk dest rsk
    let xs ← forgeEntries P r alg spk (i + 1) l
    pure (x :: xs)

/-- An envelope with the message `m`, made by the holders of the private keys `rsks` of its recipients in the
name of the owner of the public key `spk`. -/
def forge (P : Prims) (r : Message.SealRand) (m : Message) (spk : Bytes) (rsks : List Bytes) : Res Str := do
  let alg ← Res.ofOpt (.generic "missing encryption 'alg' in header") m.jwm.alg
  let rs ← forgeEntries P r.perRec alg spk 0 (m.didcomm.to.zip rsks)
  let a ← CryptoAlg.ofStr alg
  { m with recipients := some rs }.encrypt r.ord r.iv (a.encryptor P) cek

end Verif.Spec
