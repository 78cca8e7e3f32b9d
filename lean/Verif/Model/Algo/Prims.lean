import Verif.Model.Algo.X25519
import Verif.Model.Algo.Aes
import Verif.Model.Algo.Sha256
import Verif.Model.Algo.Ecdsa
import Verif.Model.Algo.Ed25519
import Verif.Model.Crypto

/-!
# The standard algorithms as primitives
-/

namespace Verif

/-- `P` with the algorithms that the called crates implement: X25519 (`src/messages/helpers/encryption.rs:55,139,365-368`),
XChaCha20-Poly1305, AES-256-GCM and AES-256-CBC (`src/crypto/encryptor.rs:24-105`) and SHA-256
(`src/messages/helpers/encryption.rs:276-279`).  Signatures, DID resolution and the printing of fractional
numbers remain those of `P`. -/
def Prims.std (P : Prims) : Prims :=
  { P with
    x25519 := Algo.x25519
    x25519Pub := Algo.x25519Pub
    xcEnc := Algo.xchachaSeal
    xcDec := Algo.xchachaOpen
    gcmEnc := Algo.gcmSeal
    gcmDec := Algo.gcmOpen
    cbcEnc := Algo.cbcSeal
    sha256 := Algo.sha256 }

/-- `P` with the signatures that the called crates implement, given the source of nonces for ES256 and ES256K
(`src/crypto/signer.rs:27-92`). -/
def Prims.signed (P : Prims) (nonce : Bytes → Bytes → Nat) : Prims :=
  { P with
    sign := fun a => match a with
      | .edDsa => Algo.edSign
      | .es256 => Algo.p256.sign false nonce
      | .es256k => Algo.k256.sign true nonce
    verify := fun a => match a with
      | .edDsa => Algo.edVerify
      | .es256 => Algo.p256.verify false
      | .es256k => Algo.k256.verify true }

end Verif
