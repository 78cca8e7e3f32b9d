import Verif.Lemma.Utf8
import Verif.Model.Secure
import Verif.Spec.Prims

/-!
# Key derivation, ciphers and the checks made by `seal`

C15, C37, C38, C39 (first part), C55.
-/

namespace Verif

open Spec

/-! ## C37 -/

theorem publicKeyFor_ok {P : Prims} {did : Str} {key : Option Bytes} {pk : Bytes}
    (h : KeyFor P did key pk) : publicKeyFor P did key = .ok pk := by
  rcases h with rfl | ⟨rfl, d, h1, h2⟩
  · rfl
  · simp [publicKeyFor, h1, h2]

theorem publicKeyFor_iff {P : Prims} {did : Str} {key : Option Bytes} {pk : Bytes} :
    publicKeyFor P did key = .ok pk ↔ KeyFor P did key pk := by
  refine ⟨fun h => ?_, publicKeyFor_ok⟩
  cases key with
  | some k => exact .inl (by rw [Res.ok.inj h])
  | none =>
    simp only [publicKeyFor, Res.bind_eq_ok, Res.ofOpt_eq_ok] at h
    exact .inr ⟨rfl, h⟩

theorem arrayRef32_of {b : Bytes} (h : b.length = 32) : arrayRef32 b = .ok b := by
  unfold arrayRef32
  rw [if_pos (by omega), List.take_of_length_le (by omega)]

theorem arrayRef32_eq_ok {b c : Bytes} : arrayRef32 b = .ok c ↔ 32 ≤ b.length ∧ c = b.take 32 := by
  unfold arrayRef32
  split
  · rename_i h; simp [h, eq_comm]
  · rename_i h; simp [h]

theorem sharedFor_ok {P : Prims} {sk pk : Bytes} {did : Str} {key : Option Bytes}
    (hk : KeyFor P did key pk) (hs : sk.length = 32) (hp : pk.length = 32) :
    sharedFor P sk did key = .ok (P.x25519 sk pk) := by
  simp [sharedFor, publicKeyFor_ok hk, arrayRef32_of hs, arrayRef32_of hp]

/-- C37.  The key-encryption key derived when wrapping is the one derived when unwrapping. -/
theorem C37_same_kek (P : Prims) (hP : Laws P) (sender recipient ephemeral : Bytes)
    (h1 : sender.length = 32) (h2 : recipient.length = 32) (h3 : ephemeral.length = 32)
    (dest frm alg : Str) (key key' : Option Bytes)
    (hr : KeyFor P dest key (P.x25519Pub recipient)) (hs : KeyFor P frm key' (P.x25519Pub sender)) :
    (sharedFor P ephemeral dest key >>= fun ze => generateKek P dest sender ze alg key) =
      generateKek P frm recipient (P.x25519 recipient (P.x25519Pub ephemeral)) alg key' := by
  simp only [generateKek, sharedFor_ok hr h3 (hP.pub_len _), sharedFor_ok hr h1 (hP.pub_len _),
    sharedFor_ok hs h2 (hP.pub_len _), Res.bind_ok]
  rw [hP.dh h3 h2, hP.dh h1 h2]

/-- C37.  The derivation itself fails only for texts of 4 GiB or more, and never panics. -/
theorem C37_kdf_fails_only_if_long (P : Prims) (secret : Bytes) (alg : Str)
    (p c : Option Bytes) :
    ((∃ k, concatKdf P secret alg p c = .ok k) ↔
      (utf8 alg).length < 2 ^ 32 ∧ (p.getD []).length < 2 ^ 32 ∧ (c.getD []).length < 2 ^ 32) ∧
    concatKdf P secret alg p c ≠ .panic := by
  have hli : ∀ v : Bytes, (v.length < 2 ^ 32 → ∃ x, lengthAndInput v = .ok x) ∧
      (¬v.length < 2 ^ 32 → ∃ e, lengthAndInput v = .err e) := by
    intro v
    have : (2 : Nat) ^ 32 = 4294967296 := by decide
    rw [this]
    unfold lengthAndInput
    exact ⟨fun h => ⟨_, if_pos h⟩, fun h => ⟨_, if_neg h⟩⟩
  have hpi : ∀ v : Option Bytes, ((v.getD []).length < 2 ^ 32 → ∃ x, partyInfo v = .ok x) ∧
      (¬(v.getD []).length < 2 ^ 32 → ∃ e, partyInfo v = .err e) := by
    intro v
    cases v with
    | none => exact ⟨fun _ => ⟨_, rfl⟩, fun h => absurd (by decide) h⟩
    | some v => exact hli v
  unfold concatKdf kdfInput
  by_cases ha : (utf8 alg).length < 2 ^ 32
  · obtain ⟨x, hx⟩ := (hli _).1 ha
    by_cases hp : (p.getD []).length < 2 ^ 32
    · obtain ⟨y, hy⟩ := (hpi _).1 hp
      by_cases hc : (c.getD []).length < 2 ^ 32
      · obtain ⟨z, hz⟩ := (hpi _).1 hc
        simp [hx, hy, hz, ha, hp, hc]
      · obtain ⟨z, hz⟩ := (hpi _).2 hc
        simp [hx, hy, hz, hc]
    · obtain ⟨y, hy⟩ := (hpi _).2 hp
      simp [hx, hy, hp]
  · obtain ⟨x, hx⟩ := (hli _).2 ha
    simp [hx, ha]

/-- The hypotheses can be met. -/
example : ∃ sender recipient ephemeral : Bytes, sender.length = 32 ∧ recipient.length = 32 ∧
    ephemeral.length = 32 ∧
    KeyFor (toy fun _ => none) c!"did:x:y" (some ((toy fun _ => none).x25519Pub recipient))
      ((toy fun _ => none).x25519Pub recipient) :=
  ⟨List.replicate 32 1, List.replicate 32 2, List.replicate 32 3, by decide, by decide, by decide,
    .inl rfl⟩

/-! ## C38 -/

/-- Value of four big-endian bytes. -/
def Spec.beVal : Bytes → Nat
  | [a, b, c, d] => ((a.toNat * 256 + b.toNat) * 256 + c.toNat) * 256 + d.toNat
  | _ => 0

/-- A length field followed by that many bytes. -/
def Spec.LengthPrefixed (v x : Bytes) : Prop :=
  ∃ l, x = l ++ v ∧ l.length = 4 ∧ Spec.beVal l = v.length

theorem be32_val {n : Nat} (h : n < 4294967296) : Spec.beVal (be32 n) = n := by
  simp only [be32, Spec.beVal, UInt8.toNat_ofNat']
  omega

theorem lengthAndInput_ok {v x : Bytes} (h : lengthAndInput v = .ok x) : Spec.LengthPrefixed v x := by
  unfold lengthAndInput at h
  split at h
  · rename_i hl
    exact ⟨be32 v.length, (Res.ok.inj h).symm, rfl, be32_val hl⟩
  · cases h

theorem partyInfo_ok {v : Option Bytes} {x : Bytes} (h : partyInfo v = .ok x) :
    Spec.LengthPrefixed (v.getD []) x := by
  cases v with
  | none => exact ⟨[0, 0, 0, 0], (Res.ok.inj h).symm, rfl, by decide⟩
  | some v => exact lengthAndInput_ok h

/-- C38.  Layout of the hashed string: counter 1, shared secret, then algorithm name and party infos
with big-endian 32-bit lengths, then the key size 256. -/
theorem C38_layout (secret : Bytes) (alg : Str) (p c : Option Bytes) (x : Bytes)
    (h : kdfInput secret alg p c = .ok x) :
    ∃ a b d, Spec.LengthPrefixed (utf8 alg) a ∧ Spec.LengthPrefixed (p.getD []) b ∧
      Spec.LengthPrefixed (c.getD []) d ∧
      x = [0, 0, 0, 1] ++ secret ++ a ++ b ++ d ++ [0, 0, 1, 0] ∧ Spec.beVal [0, 0, 1, 0] = 256 := by
  simp only [kdfInput, Res.bind_eq_ok, Res.pure_eq, Res.ok.injEq] at h
  obtain ⟨a, ha, b, hb, d, hd, rfl⟩ := h
  exact ⟨a, b, d, lengthAndInput_ok ha, partyInfo_ok hb, partyInfo_ok hd, by simp, rfl⟩

theorem lengthPrefixed_inj {v w x y r s : Bytes} (h1 : Spec.LengthPrefixed v x)
    (h2 : Spec.LengthPrefixed w y) (h : x ++ r = y ++ s) : v = w ∧ r = s := by
  obtain ⟨l, rfl, hl, hv⟩ := h1
  obtain ⟨l', rfl, hl', hw⟩ := h2
  simp only [List.append_assoc] at h
  obtain ⟨rfl, h2⟩ := List.append_inj h (by omega)
  exact List.append_inj h2 (by omega)

/-- C38.  The hashed string determines algorithm name, party infos and shared secret. -/
theorem C38_injective (secret secret' : Bytes) (hl : secret.length = secret'.length)
    (alg alg' : Str) (p p' c c' : Option Bytes) (x : Bytes)
    (h : kdfInput secret alg p c = .ok x) (h' : kdfInput secret' alg' p' c' = .ok x) :
    secret = secret' ∧ alg = alg' ∧ p.getD [] = p'.getD [] ∧ c.getD [] = c'.getD [] := by
  obtain ⟨a, b, d, ha, hb, hd, e, -⟩ := C38_layout _ _ _ _ _ h
  obtain ⟨a', b', d', ha', hb', hd', e', -⟩ := C38_layout _ _ _ _ _ h'
  rw [e] at e'
  simp only [List.append_assoc] at e'
  have e2 := List.append_cancel_left e'
  obtain ⟨h1, e3⟩ := List.append_inj e2 hl
  obtain ⟨h2, e4⟩ := lengthPrefixed_inj ha ha' e3
  obtain ⟨h3, e5⟩ := lengthPrefixed_inj hb hb' e4
  obtain ⟨h4, -⟩ := lengthPrefixed_inj hd hd' e5
  exact ⟨h1, utf8_injective h2, h3, h4⟩

example : kdfInput [7] c!"A" none (some [1, 2]) =
    .ok [0, 0, 0, 1, 7, 0, 0, 0, 1, 65, 0, 0, 0, 0, 0, 0, 0, 2, 1, 2, 0, 0, 1, 0] := by decide

/-! ## C55 -/

/-- C55.  Short nonces are rejected, for encryption and decryption. -/
theorem C55_short_nonce (P : Prims) (nonce key msg aad : Bytes) :
    (nonce.length < 24 → CryptoAlg.encryptor P .xc20p nonce key msg aad = .err .plugCryptoFailure ∧
      CryptoAlg.decrypter P .xc20p nonce key msg aad = .err .plugCryptoFailure) ∧
    (nonce.length < 12 → CryptoAlg.encryptor P .a256gcm nonce key msg aad = .err .plugCryptoFailure ∧
      CryptoAlg.decrypter P .a256gcm nonce key msg aad = .err .plugCryptoFailure) := by
  constructor <;> intro h <;> simp [CryptoAlg.encryptor, CryptoAlg.decrypter, checkNonce, h]

/-- C55.  A ciphertext decrypts to the plaintext, under the same nonce, key and associated data. -/
theorem C55_decrypt_encrypt (P : Prims) (hP : Laws P) (a : CryptoAlg) (ha : a ≠ .a256cbc)
    (nonce key msg aad ct : Bytes) (h : a.encryptor P nonce key msg aad = .ok ct) :
    a.decrypter P nonce key ct aad = .ok msg := by
  cases a with
  | xc20p =>
    simp only [CryptoAlg.encryptor, Res.bind_eq_ok, Res.ofOpt_eq_ok] at h
    obtain ⟨u, h0, n, h1, k, h2, h3⟩ := h
    simp only [CryptoAlg.decrypter, h0, h1, h2, Res.bind_ok, hP.xc_dec h3, Res.ofOpt_some]
  | a256gcm =>
    simp only [CryptoAlg.encryptor, Res.bind_eq_ok, Res.ofOpt_eq_ok] at h
    obtain ⟨u, h0, k, h2, h3⟩ := h
    simp only [CryptoAlg.decrypter, h0, h2, Res.bind_ok, hP.gcm_dec h3, Res.ofOpt_some]
  | a256cbc => exact absurd rfl ha

/-- C55.  A256GCM uses exactly the first 12 bytes of the nonce; nonces that agree on them are
interchangeable. -/
theorem C55_gcm_nonce (P : Prims) (nonce nonce' key msg aad : Bytes) (h1 : 12 ≤ nonce.length)
    (h2 : 12 ≤ nonce'.length) (h : nonce.take 12 = nonce'.take 12) :
    CryptoAlg.encryptor P .a256gcm nonce key msg aad = CryptoAlg.encryptor P .a256gcm nonce' key msg aad ∧
    CryptoAlg.decrypter P .a256gcm nonce key msg aad =
      CryptoAlg.decrypter P .a256gcm nonce' key msg aad := by
  have e1 : ¬nonce.length < 12 := by omega
  have e2 : ¬nonce'.length < 12 := by omega
  simp [CryptoAlg.encryptor, CryptoAlg.decrypter, checkNonce, e1, e2, h]

/-- C55.  XC20P panics on nonces longer than 24 bytes and both panic on keys of another size than 32;
these are the only panics. -/
theorem C55_panics (P : Prims) (nonce key msg aad : Bytes) :
    (CryptoAlg.encryptor P .xc20p nonce key msg aad = .panic ↔
      24 ≤ nonce.length ∧ (nonce.length ≠ 24 ∨ key.length ≠ 32)) ∧
    (CryptoAlg.encryptor P .a256gcm nonce key msg aad = .panic ↔
      12 ≤ nonce.length ∧ key.length ≠ 32) := by
  constructor
  · by_cases h1 : nonce.length < 24
    · simp [CryptoAlg.encryptor, checkNonce, h1]; omega
    · by_cases h2 : nonce.length = 24 <;> by_cases h3 : key.length = 32 <;>
      simp [CryptoAlg.encryptor, checkNonce, h2, h3, fromSlice, Res.bind_eq_panic] <;> omega
  · by_cases h1 : nonce.length < 12
    · simp [CryptoAlg.encryptor, checkNonce, h1]; omega
    · by_cases h3 : key.length = 32 <;>
      simp [CryptoAlg.encryptor, checkNonce, h1, h3, fromSlice] <;> omega

example : ∃ ct, CryptoAlg.encryptor (toy fun _ => none) .a256gcm (List.replicate 13 0)
    (List.replicate 32 0) [1] [2] = .ok ct ∧ ct.length = 17 := ⟨_, rfl, by decide⟩

/-! ## C15 -/

/-- C15.  A sender key of another size than 32 bytes. -/
theorem C15_key_size (P : Prims) (r : Message.SealRand) (m : Message) (sk : Bytes)
    (keys : Option (List (Option Bytes))) (h : sk.length ≠ 32) :
    ∃ e, m.sealJwe P r sk keys = .err (.invalidKeySize e) :=
  ⟨_, by unfold Message.sealJwe; rw [if_pos h]⟩

/-- C15.  A number of keys that differs from the number of recipients. -/
theorem C15_key_count (P : Prims) (r : Message.SealRand) (m : Message) (sk : Bytes)
    (keys : List (Option Bytes)) (hk : sk.length = 32) (h : keys.length ≠ m.didcomm.to.length) :
    ∃ e, m.sealJwe P r sk (some keys) = .err (.generic e) := by
  unfold Message.sealJwe Message.sealKeys
  simp only [hk, h, ne_eq, not_true_eq_false, not_false_eq_true, if_true, if_false, Res.bind_err]
  exact ⟨_, rfl⟩

/-- C15.  No recipients. -/
theorem C15_no_recipient (P : Prims) (r : Message.SealRand) (m : Message) (sk : Bytes)
    (keys : Option (List (Option Bytes))) (hk : sk.length = 32) (h : m.didcomm.to = [])
    (hl : ∀ l, keys = some l → l = []) : m.sealJwe P r sk keys = .err .noJweRecipient := by
  unfold Message.sealJwe Message.sealKeys
  cases keys with
  | none => simp [hk, h]
  | some l => simp [hk, h, hl l rfl]

/-- C15.  Flat serialization with several recipients. -/
theorem C15_flat_recipients (P : Prims) (r : Message.SealRand) (m : Message) (sk : Bytes)
    (keys : Option (List (Option Bytes))) (hk : sk.length = 32) (hf : m.flatJwe = true)
    (h : 1 < m.didcomm.to.length) (hl : ∀ l, keys = some l → l.length = m.didcomm.to.length) :
    ∃ e, m.sealJwe P r sk keys = .err (.generic e) := by
  have h0 : m.didcomm.to.length ≠ 0 := by omega
  unfold Message.sealJwe Message.sealKeys
  cases keys with
  | none => exact ⟨_, by
      simp only [hk, ne_eq, not_true_eq_false, if_false, Res.bind_ok, h0, hf, true_and, gt_iff_lt, h,
        if_true]; rfl⟩
  | some l =>
    have := hl l rfl
    exact ⟨_, by
      simp only [hk, this, ne_eq, not_true_eq_false, if_false, Res.bind_ok, h0, hf, true_and,
        gt_iff_lt, h, if_true]; rfl⟩

/-- The key algorithms that are implemented. -/
def Spec.supportedAlgs : List Str := [c!"ECDH-1PU+A256KW", c!"ECDH-1PU+XC20PKW"]

/-- C15.  Only requests with a 32-byte key, as many keys as recipients, at least one recipient,
at most one in flat form and a supported algorithm can produce an envelope. -/
theorem C15_seal_ok (P : Prims) (r : Message.SealRand) (m : Message) (sk : Bytes)
    (keys : Option (List (Option Bytes))) (t : Str) (h : m.sealJwe P r sk keys = .ok t) :
    sk.length = 32 ∧ (∀ l, keys = some l → l.length = m.didcomm.to.length) ∧ m.didcomm.to ≠ [] ∧
      (m.flatJwe = true → m.didcomm.to.length = 1) ∧
      ∃ a, m.jwm.alg = some a ∧ a ∈ Spec.supportedAlgs := by
  unfold Message.sealJwe at h
  split at h
  · cases h
  rename_i hk
  simp only [ne_eq, Decidable.not_not] at hk
  simp only [Res.bind_eq_ok] at h
  obtain ⟨pks, hp, h⟩ := h
  split at h
  · cases h
  rename_i h0
  split at h
  · cases h
  rename_i hf
  have hlen : ∀ l, keys = some l → l.length = m.didcomm.to.length := by
    rintro l rfl
    simp only [Message.sealKeys] at hp
    split at hp
    · cases hp
    · rename_i hl; simpa using hl
  refine ⟨hk, hlen, ?_, ?_, ?_⟩
  · rintro he; rw [he] at h0; exact h0 rfl
  · intro hfl
    simp only [hfl, true_and] at hf
    omega
  · simp only [Res.bind_eq_ok] at h
    obtain ⟨rs, -, a, ha, -⟩ := h
    simp only [crypterOfHeader] at ha
    cases hal : m.jwm.alg with
    | none => rw [hal] at ha; cases ha
    | some x =>
      rw [hal] at ha
      refine ⟨x, rfl, ?_⟩
      simp only [CryptoAlg.ofStr] at ha
      split at ha
      · rename_i hx; rw [hx]; simp [Spec.supportedAlgs]
      · split at ha
        · rename_i hx; rw [hx]; simp [Spec.supportedAlgs]
        · cases ha

/-- C15.  A missing or unsupported algorithm never gives an envelope. -/
theorem C15_algorithm (P : Prims) (r : Message.SealRand) (m : Message) (sk : Bytes)
    (keys : Option (List (Option Bytes)))
    (h : ∀ a, m.jwm.alg = some a → a ∉ Spec.supportedAlgs) (t : Str) :
    m.sealJwe P r sk keys ≠ .ok t := by
  intro ht
  obtain ⟨-, -, -, -, a, h1, h2⟩ := C15_seal_ok P r m sk keys t ht
  exact h a h1 h2

/-- C15.  A missing algorithm is reported as an error. -/
theorem C15_missing_algorithm (P : Prims) (r : Message.SealRand) (m : Message) (sk : Bytes)
    (keys : Option (List (Option Bytes))) (h : m.jwm.alg = none) :
    ∃ e, m.sealJwe P r sk keys = .err e := by
  unfold Message.sealJwe
  split
  · exact ⟨_, rfl⟩
  cases hk : m.sealKeys keys with
  | err e => exact ⟨e, rfl⟩
  | panic =>
    unfold Message.sealKeys at hk
    split at hk
    · split at hk <;> cases hk
    · cases hk
  | ok pks =>
    rw [Res.bind_ok]
    split
    · exact ⟨_, rfl⟩
    rename_i h0
    split
    · exact ⟨_, rfl⟩
    have hl : pks.length = m.didcomm.to.length := by
      unfold Message.sealKeys at hk
      split at hk
      · split at hk
        · cases hk
        · rename_i hl; rw [← Res.ok.inj hk]; simpa using hl
      · rw [← Res.ok.inj hk]; simp
    cases hto : m.didcomm.to with
    | nil => rw [hto] at h0; exact absurd rfl h0
    | cons d ds =>
      cases pks with
      | nil => rw [hto] at hl; cases hl
      | cons k ks =>
        refine ⟨.generic "missing encryption 'alg' in header", ?_⟩
        simp [Message.sealRecipients, encryptCek, h]

example : ∃ e, (Message.new c!"1").sealJwe (toy fun _ => none)
    ⟨fun _ => ⟨List.replicate 32 0, List.replicate 12 0, List.replicate 24 0, by decide, by decide,
      by decide⟩, ⟨List.replicate 24 0, by decide⟩, HOrd.id⟩ (List.replicate 32 0) none = .err e :=
  C15_missing_algorithm _ _ _ _ _ rfl

/-! ## C39 -/

/-- C39.  The header written by `as_jwe` selects the cipher that was asked for. -/
theorem C39_jwe_label (P : Prims) (m : Message) (a : CryptoAlg) (ha : a ≠ .a256cbc)
    (key : Option Bytes) : crypterOfHeader (m.asJwe P a key).jwm = .ok a := by
  have h : (m.asJwe P a key).jwm.alg = (m.jwm.asEncrypted a).alg := by
    unfold Message.asJwe
    cases key with
    | some k => rfl
    | none =>
      cases m.didcomm.from with
      | none => rfl
      | some f => dsimp only; split <;> rfl
  unfold crypterOfHeader
  rw [h]
  cases a with
  | xc20p => rfl
  | a256gcm => rfl
  | a256cbc => exact absurd rfl ha

/-- C39.  The header written by `as_jws` names the algorithm that `verify` maps back. -/
theorem C39_jws_label (m : Message) (a : SignAlg) :
    ∃ s, (m.asJws a).jwm.alg = some s ∧ SignAlg.ofStr s = .ok a := by
  cases a <;> exact ⟨_, rfl, rfl⟩

/-- C39: the labels of a message for AES-256-GCM and of one for Ed25519. -/
example : crypterOfHeader ((Message.new c!"1").asJwe (toy fun _ => none) .a256gcm (some [1])).jwm = .ok .a256gcm ∧
    ((Message.new c!"1").asJws .edDsa).jwm.alg = some c!"EdDSA" :=
  ⟨C39_jwe_label _ _ _ (by decide) _, rfl⟩

/-- C39.  Messages set up for A256CBC are never sealed. -/
theorem C39_cbc_never_sealed (P : Prims) (r : Message.SealRand) (m : Message) (key : Option Bytes)
    (sk : Bytes) (keys : Option (List (Option Bytes))) (t : Str) :
    (m.asJwe P .a256cbc key).sealJwe P r sk keys ≠ .ok t := by
  apply C15_algorithm
  have h : (m.asJwe P .a256cbc key).jwm.alg = some c!"A256CBC" := by
    unfold Message.asJwe
    cases key with
    | some k => rfl
    | none =>
      cases m.didcomm.from with
      | none => rfl
      | some f => dsimp only; split <;> rfl
  intro a ha
  rw [h] at ha
  obtain rfl := Option.some.inj ha
  decide

end Verif
