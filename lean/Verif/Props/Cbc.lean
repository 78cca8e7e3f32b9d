import Verif.Lemma.Algo.Cbc
import Verif.Model.Algo.Prims
import Verif.Spec.Prims

/-! # C101: A256CBC encrypts as the standard says, ignores the associated data and cannot decrypt -/

namespace Verif

/-- C101, what holds: a message is encrypted exactly under a key of 32 and a nonce of 16 bytes, to whole
blocks that the standard decryption with that key and nonce opens to the message. -/
theorem C101_standard_partial (P : Prims) (nonce key m aad c : Bytes) :
    CryptoAlg.a256cbc.encryptor P.std nonce key m aad = .ok c →
      Spec.cbcOpen key nonce c = some m ∧ c.length = 16 * (m.length / 16 + 1) := by
  intro h
  simp only [CryptoAlg.encryptor] at h
  split at h
  · cases h
  · split at h
    · cases h
    · rename_i hk hn
      obtain rfl := Res.ok.inj h
      exact ⟨Algo.cbcOpen_cbcSeal (by omega) (by omega) m, Algo.cbcSeal_length (by omega) (by omega) m⟩

/-- C101.  Any other key or nonce is refused as such; a wrong key is reported before a wrong nonce. -/
theorem C101_sizes (P : Prims) (nonce key m aad : Bytes) :
    ((∃ c, CryptoAlg.a256cbc.encryptor P nonce key m aad = .ok c) ↔ key.length = 32 ∧ nonce.length = 16) ∧
    (CryptoAlg.a256cbc.encryptor P nonce key m aad = .err (.invalidKeySize "expected 256 bit (32 byte) key") ↔
      key.length ≠ 32) ∧
    (CryptoAlg.a256cbc.encryptor P nonce key m aad = .err (.invalidKeySize "expected 16 bytes nonce") ↔
      key.length = 32 ∧ nonce.length ≠ 16) := by
  simp only [CryptoAlg.encryptor]
  by_cases hk : key.length = 32
  · by_cases hn : nonce.length = 16 <;> simp [hk, hn]
  · simp [hk]

/-- C101 fails: nothing that is encrypted can be decrypted; the decrypter panics. -/
theorem C101_decrypt_violated (P : Prims) (nonce key m aad : Bytes) (hk : key.length = 32) (hn : nonce.length = 16) :
    ∃ c, CryptoAlg.a256cbc.encryptor P.std nonce key m aad = .ok c ∧ Spec.cbcOpen key nonce c = some m ∧
      CryptoAlg.a256cbc.decrypter P.std nonce key c aad = .panic := by
  obtain ⟨c, hc⟩ := (C101_sizes P.std nonce key m aad).1.2 ⟨hk, hn⟩
  exact ⟨c, hc, (C101_standard_partial P nonce key m aad c hc).1, rfl⟩

/-- C101 fails: the associated data is not authenticated; every other gives the same ciphertext. -/
theorem C101_aad_violated (P : Prims) (nonce key m aad aad' : Bytes) :
    CryptoAlg.a256cbc.encryptor P nonce key m aad = CryptoAlg.a256cbc.encryptor P nonce key m aad' := rfl

/-- The sizes are right for some key, nonce and message, and the example of FIPS 197, appendix C.3, comes out. -/
example : (CryptoAlg.a256cbc.encryptor (Spec.toy fun _ => none).std (List.replicate 16 0)
      ((List.range 32).map UInt8.ofNat) ((List.range 16).map fun i => UInt8.ofNat (17 * i)) [] matches .ok
        (0x8e :: 0xa2 :: 0xb7 :: 0xca :: 0x51 :: 0x67 :: 0x45 :: 0xbf :: 0xea :: 0xfc :: 0x49 :: 0x90 :: 0x4b :: 0x49 ::
          0x60 :: 0x89 :: _)) = true := by
  decide +kernel

end Verif
