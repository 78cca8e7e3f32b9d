import Verif.Props.TwoKeys
import Verif.Props.Raw

/-!
# What an iv used twice gives away

C129, C130.
-/

namespace Verif

open Spec

namespace Algo

/-- The tag that belongs to other associated data and ciphertext, from one tag and the hash key alone. -/
def gcmForge (h : Nat) (aad c t aad' c' : Bytes) : Bytes :=
  beBytes 16 (ghash h ((gcmInput aad' c').length / 16 + 1) 0 (gcmInput aad' c') ^^^
    (ghash h ((gcmInput aad c).length / 16 + 1) 0 (gcmInput aad c) ^^^ beNat t))

theorem gcmForge_eq {key nonce : Bytes} (hk : key.length = 32) (hn : nonce.length = 12) (aad c aad' c' : Bytes) :
    gcmForge (gcmPlace key) aad c (gcmTag key nonce aad c) aad' c' = gcmTag key nonce aad' c' := by
  have hE : beNat (aes256 key (nonce ++ [0, 0, 0, 1])) < 2 ^ 128 :=
    beNat_lt (by rw [aes256_length hk (by simp [hn])])
  have hh : gcmPlace key < 2 ^ 128 := beNat_lt (by rw [aes256_length hk (by simp)])
  have ht : beNat (gcmTag key nonce aad c) =
      ghash (gcmPlace key) ((gcmInput aad c).length / 16 + 1) 0 (gcmInput aad c) ^^^
        beNat (aes256 key (nonce ++ [0, 0, 0, 1])) := by
    have hlt := Nat.xor_lt_two_pow (ghash_lt hh ((gcmInput aad c).length / 16 + 1) (y := 0) (by decide) (gcmInput aad c)) hE
    have : gcmTag key nonce aad c = beBytes 16 (ghash (gcmPlace key) ((gcmInput aad c).length / 16 + 1) 0 (gcmInput aad c) ^^^
        beNat (aes256 key (nonce ++ [0, 0, 0, 1]))) := rfl
    rw [this, beNat_eq, beBytes, List.reverse_reverse, leNat_leBytes, Nat.mod_eq_of_lt]
    rwa [show (256 : Nat) ^ 16 = 2 ^ 128 by norm_num]
  unfold gcmForge
  rw [ht, ← Nat.xor_assoc (ghash (gcmPlace key) ((gcmInput aad c).length / 16 + 1) 0 (gcmInput aad c)), Nat.xor_self,
    Nat.zero_xor]
  rfl

theorem gcmForge_length (h : Nat) (aad c t aad' c' : Bytes) : (gcmForge h aad c t aad' c').length = 16 :=
  beBytes_length ..

/-- The same for Poly1305. -/
def polyForge (r : Nat) (aad c t aad' c' : Bytes) : Bytes :=
  leBytes 16 (polyBlocks r ((chaInput aad' c').length / 16 + 1) 0 (chaInput aad' c') +
    (leNat t + (2 ^ 130 - polyBlocks r ((chaInput aad c).length / 16 + 1) 0 (chaInput aad c))))

theorem polyForge_length (r : Nat) (aad c t aad' c' : Bytes) : (polyForge r aad c t aad' c').length = 16 :=
  leBytes_length ..

theorem polyForge_eq (key nonce aad c aad' c' : Bytes) :
    polyForge (leNat ((chaBlock key 0 nonce).take 16) &&& 0x0ffffffc0ffffffc0ffffffc0fffffff) aad c
      (chaTag key nonce aad c) aad' c' = chaTag key nonce aad' c' := by
  have e : ∀ a c, chaTag key nonce a c = leBytes 16 (polyBlocks
      (leNat ((chaBlock key 0 nonce).take 16) &&& 0x0ffffffc0ffffffc0ffffffc0fffffff)
      ((chaInput a c).length / 16 + 1) 0 (chaInput a c) + leNat ((((chaBlock key 0 nonce).take 32).drop 16).take 16)) := by
    intro a c
    unfold chaTag poly1305
    rw [List.take_take]
    rfl
  rw [e, e]
  generalize leNat ((chaBlock key 0 nonce).take 16) &&& 0x0ffffffc0ffffffc0ffffffc0fffffff = r
  generalize leNat ((((chaBlock key 0 nonce).take 32).drop 16).take 16) = s
  have hlt := polyBlocks_lt r (n := (chaInput aad c).length / 16 + 1) (acc := 0) (chaInput aad c) (by decide)
  unfold polyForge
  generalize polyBlocks r ((chaInput aad c).length / 16 + 1) 0 (chaInput aad c) = x at *
  generalize polyBlocks r ((chaInput aad' c').length / 16 + 1) 0 (chaInput aad' c') = y at *
  refine leNat_inj (by simp) ?_
  rw [leNat_leBytes, leNat_leBytes, leNat_leBytes]
  have : x < 2 ^ 130 := hlt.trans (by decide)
  omega

theorem gcmOpen_tag {k n a c t m : Bytes} (ht : t.length = 16) : gcmOpen k n a (c ++ t) = some m ↔
    k.length = 32 ∧ n.length = 12 ∧ gcmTag k n a c = t ∧ m = aesCtr k n c := by
  unfold gcmOpen
  simp only [List.length_append, ht, Nat.add_sub_cancel, List.take_left', List.drop_left']
  by_cases hk : k.length = 32
  · by_cases hn : n.length = 12
    · rw [if_neg (by omega)]
      by_cases he : t = gcmTag k n a c
      · rw [if_pos he]
        simp [hk, hn, he, eq_comm]
      · rw [if_neg he]
        simp [Ne.symm he]
    · rw [if_pos (by omega)]
      simp [hn]
  · rw [if_pos (by omega)]
    simp [hk]

theorem xchachaOpen_tag {k n a c t m : Bytes} (ht : t.length = 16) : xchachaOpen k n a (c ++ t) = some m ↔
    k.length = 32 ∧ n.length = 24 ∧ chaTag (hchacha20 k (n.take 16)) (xNonce n) a c = t ∧
      m = chacha20 (hchacha20 k (n.take 16)) 1 (xNonce n) c := by
  unfold xchachaOpen chaOpen
  simp only [List.length_append, ht, Nat.add_sub_cancel, List.take_left', List.drop_left']
  by_cases hk : k.length = 32
  · by_cases hn : n.length = 24
    · rw [if_neg (by omega), if_neg (by omega)]
      by_cases he : t = chaTag (hchacha20 k (n.take 16)) (xNonce n) a c
      · rw [if_pos he]
        simp [hk, hn, he, eq_comm]
      · rw [if_neg he]
        simp [Ne.symm he]
    · rw [if_pos (by omega)]
      simp [hn]
  · rw [if_pos (by omega)]
    simp [hk]

end Algo

theorem gcm_decrypter_iff {P : Prims} {iv key c t aad m : Bytes} (ht : t.length = 16) :
    CryptoAlg.decrypter P.std .a256gcm iv key (c ++ t) aad = .ok m ↔ key.length = 32 ∧ 12 ≤ iv.length ∧
      Algo.gcmTag key (iv.take 12) aad c = t ∧ m = Algo.aesCtr key (iv.take 12) c := by
  rw [decrypter_ok_iff (alg := c!"ECDH-1PU+A256KW") rfl, nonceSize, if_neg (by decide)]
  have hg := Algo.gcmOpen_tag (k := key) (n := iv.take 12) (a := aad) (c := c) (m := m) ht
  constructor
  · rintro ⟨hk, hn, -, ⟨h, -⟩ | ⟨-, h⟩⟩
    · exact absurd h (by decide)
    · obtain ⟨-, -, h3, h4⟩ := hg.1 h
      exact ⟨hk, hn, h3, h4⟩
  · rintro ⟨hk, hn, h3, h4⟩
    exact ⟨hk, hn, fun h => absurd h (by decide), .inr ⟨rfl, hg.2 ⟨hk, by simp [hn], h3, h4⟩⟩⟩

theorem xc_decrypter_iff {P : Prims} {iv key c t aad m : Bytes} (ht : t.length = 16) :
    CryptoAlg.decrypter P.std .xc20p iv key (c ++ t) aad = .ok m ↔ key.length = 32 ∧ iv.length = 24 ∧
      Algo.chaTag (Algo.hchacha20 key (iv.take 16)) (Algo.xNonce iv) aad c = t ∧
      m = Algo.chacha20 (Algo.hchacha20 key (iv.take 16)) 1 (Algo.xNonce iv) c := by
  rw [decrypter_ok_iff (alg := c!"ECDH-1PU+XC20PKW") rfl, nonceSize, if_pos rfl]
  have hg := Algo.xchachaOpen_tag (k := key) (n := iv) (a := aad) (c := c) (m := m) ht
  constructor
  · rintro ⟨hk, hn, -, ⟨-, h⟩ | ⟨h, -⟩⟩
    · exact hg.1 h
    · exact absurd h (by decide)
  · rintro ⟨hk, hn, h3, h4⟩
    exact ⟨hk, by omega, fun _ => hn, .inl ⟨rfl, hg.2 ⟨hk, hn, h3, h4⟩⟩⟩

/-! ## C130: tags from a hash key -/

/-- C130, for AES-256-GCM.  Who knows the hash key of a content key needs neither that key nor a private key: from
one accepted text there is, for every associated data and ciphertext, a tag that is accepted under the same key and
iv.  What is read differs from what was read in the bits in which the ciphertexts differ.  The tag depends on the
hash key and on what was sent, and on nothing else. -/
theorem C130_gcm : ∃ forge : Nat → Bytes → Bytes → Bytes → Bytes → Bytes → Bytes,
    ∀ (P : Prims) (key iv aad c t m : Bytes), t.length = 16 →
      CryptoAlg.decrypter P.std .a256gcm iv key (c ++ t) aad = .ok m →
      ∀ aad' c', ∃ m', CryptoAlg.decrypter P.std .a256gcm iv key
          (c' ++ forge (gcmPlace key) aad c t aad' c') aad' = .ok m' ∧ m'.length = c'.length ∧
        ∀ (i : Nat) (x x' y : UInt8), c[i]? = some x → c'[i]? = some x' → m[i]? = some y → m'[i]? = some (y ^^^ (x ^^^ x')) := by
  refine ⟨Algo.gcmForge, fun P key iv aad c t m ht h aad' c' => ?_⟩
  obtain ⟨hk, hn, rfl, rfl⟩ := (gcm_decrypter_iff ht).1 h
  have hn' : (iv.take 12).length = 12 := by simp [hn]
  refine ⟨_, (gcm_decrypter_iff (Algo.gcmForge_length ..)).2 ⟨hk, hn, (Algo.gcmForge_eq hk hn' ..).symm, rfl⟩,
    Algo.aesCtr_length hk hn' _, fun i x x' y hx hx' hy => ?_⟩
  rw [Algo.aesCtr_get hk hn', hx] at hy
  rw [Algo.aesCtr_get hk hn', hx']
  simp only [Option.map_some, Option.some.injEq] at hy ⊢
  rw [← hy, UInt8.xor_comm x, UInt8.xor_assoc, ← UInt8.xor_assoc x, UInt8.xor_self, UInt8.zero_xor, UInt8.xor_comm]

/-- C130, for XChaCha20-Poly1305, where the hash key belongs to content key and iv. -/
theorem C130_xc : ∃ forge : Nat → Bytes → Bytes → Bytes → Bytes → Bytes → Bytes,
    ∀ (P : Prims) (key iv aad c t m : Bytes), t.length = 16 →
      CryptoAlg.decrypter P.std .xc20p iv key (c ++ t) aad = .ok m →
      ∀ aad' c', ∃ m', CryptoAlg.decrypter P.std .xc20p iv key
          (c' ++ forge (xcPlace key iv) aad c t aad' c') aad' = .ok m' ∧ m'.length = c'.length ∧
        ∀ (i : Nat) (x x' y : UInt8), c[i]? = some x → c'[i]? = some x' → m[i]? = some y → m'[i]? = some (y ^^^ (x ^^^ x')) := by
  refine ⟨Algo.polyForge, fun P key iv aad c t m ht h aad' c' => ?_⟩
  obtain ⟨hk, hn, rfl, rfl⟩ := (xc_decrypter_iff ht).1 h
  refine ⟨_, (xc_decrypter_iff (Algo.polyForge_length ..)).2 ⟨hk, hn, (Algo.polyForge_eq ..).symm, rfl⟩,
    Algo.chacha20_length .., fun i x x' y hx hx' hy => ?_⟩
  rw [Algo.chacha20_get, hx] at hy
  rw [Algo.chacha20_get, hx']
  simp only [Option.map_some, Option.some.injEq] at hy ⊢
  rw [← hy, UInt8.xor_comm x, UInt8.xor_assoc, ← UInt8.xor_assoc x, UInt8.xor_self, UInt8.zero_xor, UInt8.xor_comm]

/-- C130, for two texts under one iv and AES-256-GCM.  From two different texts there are as many ways to make tags as
the longer has blocks, one of which makes, from any text under the same key (and whatever iv), an accepted text with
any other associated data and ciphertext. -/
theorem C130_gcm_repeat (P : Prims) (aad c t aad' c' t' : Bytes) (ht : t.length = 16) (ht' : t'.length = 16)
    (h1 : aad.length < 2 ^ 61) (h2 : c.length < 2 ^ 61) (h1' : aad'.length < 2 ^ 61) (h2' : c'.length < 2 ^ 61)
    (hne : (aad, c) ≠ (aad', c')) :
    ∃ F : List (Bytes → Bytes → Bytes → Bytes → Bytes → Bytes),
      F.length ≤ max (tagBlocks aad.length c.length) (tagBlocks aad'.length c'.length) ∧
      ∀ key iv m m', CryptoAlg.decrypter P.std .a256gcm iv key (c ++ t) aad = .ok m →
        CryptoAlg.decrypter P.std .a256gcm iv key (c' ++ t') aad' = .ok m' →
        ∃ f ∈ F, ∀ (iv₁ aad₁ c₁ t₁ m₁ : Bytes), t₁.length = 16 →
          CryptoAlg.decrypter P.std .a256gcm iv₁ key (c₁ ++ t₁) aad₁ = .ok m₁ →
          ∀ aad₂ c₂, ∃ m₂, CryptoAlg.decrypter P.std .a256gcm iv₁ key (c₂ ++ f aad₁ c₁ t₁ aad₂ c₂) aad₂ = .ok m₂ ∧
            m₂.length = c₂.length ∧ ∀ (i : Nat) (x x' y : UInt8), c₁[i]? = some x → c₂[i]? = some x' →
              m₁[i]? = some y → m₂[i]? = some (y ^^^ (x ^^^ x')) := by
  obtain ⟨S, hS, h⟩ := C119_gcm P aad c t aad' c' t' ht ht' h1 h2 h1' h2' hne
  obtain ⟨forge, hf⟩ := C130_gcm
  refine ⟨S.toList.map forge, by simpa using hS, fun key iv m m' e e' => ⟨forge (gcmPlace key),
    List.mem_map.2 ⟨_, Finset.mem_toList.2 (h key iv m m' e e'), rfl⟩, fun iv₁ aad₁ c₁ t₁ m₁ ht₁ e₁ => ?_⟩⟩
  exact hf P key iv₁ aad₁ c₁ t₁ m₁ ht₁ e₁

/-- C130, for two texts under one iv and XChaCha20-Poly1305.  There are eight ways for each block of the longer, and
one of them makes accepted texts under the same key and this iv. -/
theorem C130_xc_repeat (P : Prims) (aad c t aad' c' t' : Bytes) (ht : t.length = 16) (ht' : t'.length = 16)
    (h1 : aad.length < 2 ^ 64) (h2 : c.length < 2 ^ 64) (h1' : aad'.length < 2 ^ 64) (h2' : c'.length < 2 ^ 64)
    (hne : (aad, c) ≠ (aad', c')) :
    ∃ F : List (Bytes → Bytes → Bytes),
      F.length ≤ 8 * max (tagBlocks aad.length c.length) (tagBlocks aad'.length c'.length) ∧
      ∀ key iv m m', CryptoAlg.decrypter P.std .xc20p iv key (c ++ t) aad = .ok m →
        CryptoAlg.decrypter P.std .xc20p iv key (c' ++ t') aad' = .ok m' →
        ∃ f ∈ F, ∀ aad₂ c₂, ∃ m₂, CryptoAlg.decrypter P.std .xc20p iv key (c₂ ++ f aad₂ c₂) aad₂ = .ok m₂ ∧
            m₂.length = c₂.length ∧ ∀ (i : Nat) (x x' y : UInt8), c[i]? = some x → c₂[i]? = some x' →
              m[i]? = some y → m₂[i]? = some (y ^^^ (x ^^^ x')) := by
  obtain ⟨S, hS, h⟩ := C119_xc P aad c t aad' c' t' ht ht' h1 h2 h1' h2' hne
  obtain ⟨forge, hf⟩ := C130_xc
  refine ⟨S.toList.map fun r => forge r aad c t, by simpa using hS, fun key iv m m' e e' => ⟨forge (xcPlace key iv) aad c t,
    List.mem_map.2 ⟨_, Finset.mem_toList.2 (h key iv m m' e e'), rfl⟩, fun aad₂ c₂ => ?_⟩⟩
  exact hf P key iv aad c t m ht e aad₂ c₂

/-- C130, for envelopes with AES-256-GCM.  Whoever knows the hash key of the content key of an envelope can give it any
other ciphertext and still have it opened by the same reader; what is read differs in the bits in which the ciphertexts
differ. -/
theorem C130_envelope : ∃ forge : Nat → Bytes → Bytes → Bytes → Bytes → Bytes,
    ∀ (P : Prims) (o : HOrd) (j : Jwe) (hdr : JwmHeader) (sk : Bytes) (ek : Option Bytes) (tt : Str) (c t p : Bytes),
      j.getAlg = some c!"ECDH-1PU+A256KW" → j.protected_ = some hdr → b64Decode j.ciphertext = some c →
      j.tag = some tt → b64Decode tt = some t → t.length = 16 → Opens P.std o j sk ek p →
      ∃ spk key, SenderKey P.std j ek spk ∧ ContentKey P.std j c!"ECDH-1PU+A256KW" sk spk key ∧
        ∀ c', ∃ p', Opens P.std o { j with
            ciphertext := b64Encode c'
            tag := some (b64Encode (forge (gcmPlace key) (utf8 (headerB64 o hdr)) c t c')) } sk ek p' ∧
          p'.length = c'.length ∧ ∀ (i : Nat) (x x' y : UInt8), c[i]? = some x → c'[i]? = some x' →
            p[i]? = some y → p'[i]? = some (y ^^^ (x ^^^ x')) := by
  obtain ⟨forge, hf⟩ := C130_gcm
  refine ⟨fun h aad c t c' => forge h aad c t aad c', ?_⟩
  rintro P o j hdr sk ek tt c t p halg hp hc htt ht hl
    ⟨alg, spk, key, hdr1, c1, tt1, t1, iv, g1, g2, g3, g4, g5, g6, g7, g8, g9, g10, g11, g12, g13, g14, g15⟩
  obtain rfl := Option.some.inj (halg.symm.trans g1)
  obtain rfl := Option.some.inj (hp.symm.trans g8)
  obtain rfl := Option.some.inj (hc.symm.trans g9)
  obtain rfl := Option.some.inj (htt.symm.trans g10)
  obtain rfl := Option.some.inj (ht.symm.trans g11)
  refine ⟨spk, key, g3, g6, fun c' => ?_⟩
  have ho := (decrypter_ok_iff (P := P.std) (alg := c!"ECDH-1PU+A256KW") (a := .a256gcm) rfl).2 ⟨g7, g13, g14, g15⟩
  obtain ⟨p', e, hrest⟩ := hf P key iv _ c t p hl ho (utf8 (headerB64 o hdr)) c'
  obtain ⟨-, -, -, e⟩ := (decrypter_ok_iff (alg := c!"ECDH-1PU+A256KW") rfl).1 e
  exact ⟨p', ⟨_, spk, key, hdr, c', _, _, iv, halg, g2, g3, g4, g5, g6, g7, hp, b64Decode_encode _, rfl,
    b64Decode_encode _, g12, g13, g14, e⟩, hrest⟩

/-! ## C129: contents from an iv used twice -/

/-- What the two ciphers put into ciphertexts. -/
theorem encryptor_mask {P : Prims} {a : CryptoAlg} (ha : a ≠ .a256cbc) {iv key p aad out : Bytes}
    (h : a.encryptor P.std iv key p aad = .ok out) :
    ∃ c t, out = c ++ t ∧ t.length = 16 ∧ c.length = p.length ∧ ∀ i, c[i]? = (p[i]?).map (· ^^^
      if a = .a256gcm then Algo.ctrByte key (iv.take 12) i
      else Algo.chaByte (Algo.hchacha20 key (iv.take 16)) (Algo.xNonce iv) i) := by
  cases a with
  | xc20p =>
    simp only [CryptoAlg.encryptor, Res.bind_eq_ok, Res.ofOpt_eq_ok, fromSlice] at h
    obtain ⟨_, -, n, hn, k, hk, h⟩ := h
    split at hn <;> cases hn
    split at hk <;> cases hk
    rename_i hn hk
    have h : Algo.xchachaSeal key iv aad p = some out := h
    unfold Algo.xchachaSeal at h
    rw [if_neg (by omega)] at h
    obtain rfl := Option.some.inj h
    exact ⟨_, _, rfl, Algo.chaTag_length .., Algo.chacha20_length .., fun i => by
      rw [if_neg (by decide)]; exact Algo.chacha20_get ..⟩
  | a256gcm =>
    simp only [CryptoAlg.encryptor, Res.bind_eq_ok, Res.ofOpt_eq_ok, fromSlice] at h
    obtain ⟨_, -, k, hk, h⟩ := h
    split at hk <;> cases hk
    rename_i hk
    have h : Algo.gcmSeal key (iv.take 12) aad p = some out := h
    unfold Algo.gcmSeal at h
    split at h
    · cases h
    rename_i hn
    have hn : (iv.take 12).length = 12 := by omega
    obtain rfl := Option.some.inj h
    exact ⟨_, _, rfl, Algo.gcmTag_length .., Algo.aesCtr_length hk hn _, fun i => by
      rw [if_pos rfl]; exact Algo.aesCtr_get hk hn _ _⟩
  | a256cbc => exact absurd rfl ha

/-- The part of an iv that a cipher uses. -/
def Spec.usedIv (a : CryptoAlg) (iv : Bytes) : Bytes := if a = .a256gcm then iv.take 12 else iv

/-- C129.  Two messages encrypted by `encrypt` with the same key under ivs that agree in what the cipher uses of them
(12 of 24 bytes for AES-256-GCM): the two ciphertexts, which everyone sees, differ in the bits in which the texts of
the messages differ, so that one message gives the other away as far as they overlap. -/
theorem C129_encrypt (P : Prims) (a : CryptoAlg) (ha : a ≠ .a256cbc) (m m' : Message) (o o' : HOrd) (iv iv' : Iv)
    (key : Bytes) (t t' : Str) (hw : m.jwm.WF) (hr : RecipientsWF m.recipients) (hw' : m'.jwm.WF)
    (hr' : RecipientsWF m'.recipients) (hiv : usedIv a iv.1 = usedIv a iv'.1)
    (h : m.encrypt o iv (a.encryptor P.std) key = .ok t) (h' : m'.encrypt o' iv' (a.encryptor P.std) key = .ok t') :
    ∃ j j' c c', Jwe.ofText P.f64 t = some j ∧ Jwe.ofText P.f64 t' = some j' ∧ b64Decode j.ciphertext = some c ∧
      b64Decode j'.ciphertext = some c' ∧ c.length = (utf8 (m.text (o.sub 1))).length ∧
      c'.length = (utf8 (m'.text (o'.sub 1))).length ∧
      ∀ (i : Nat) (x x' y : UInt8), c[i]? = some x → c'[i]? = some x' → (utf8 (m.text (o.sub 1)))[i]? = some y →
        (utf8 (m'.text (o'.sub 1)))[i]? = some (y ^^^ (x ^^^ x')) := by
  obtain ⟨j, c, tag, hj, -, -, hout, htag, hc, -, -, -⟩ := C83_encrypt_document P.f64 m o iv _ key t hw hr h
  obtain ⟨j', c', tag', hj', -, -, hout', htag', hc', -, -, -⟩ :=
    C83_encrypt_document P.f64 m' o' iv' _ key t' hw' hr' h'
  obtain ⟨d, u, he, hu, hl, hb⟩ := encryptor_mask ha hout
  obtain ⟨d', u', he', hu', hl', hb'⟩ := encryptor_mask ha hout'
  obtain ⟨rfl, rfl⟩ := List.append_inj' he (htag.trans hu.symm)
  obtain ⟨rfl, rfl⟩ := List.append_inj' he' (htag'.trans hu'.symm)
  refine ⟨j, j', c, c', hj, hj', hc, hc', hl, hl', fun i x x' y hx hx' hy => ?_⟩
  have hmask : ∀ i, (if a = .a256gcm then Algo.ctrByte key (iv'.1.take 12) i
      else Algo.chaByte (Algo.hchacha20 key (iv'.1.take 16)) (Algo.xNonce iv'.1) i) =
      if a = .a256gcm then Algo.ctrByte key (iv.1.take 12) i
      else Algo.chaByte (Algo.hchacha20 key (iv.1.take 16)) (Algo.xNonce iv.1) i := by
    intro i
    unfold usedIv at hiv
    split
    · rename_i hg
      rw [if_pos hg, if_pos hg] at hiv
      rw [hiv]
    · rename_i hg
      rw [if_neg hg, if_neg hg] at hiv
      rw [hiv]
  have e := hb i
  have e' := hb' i
  rw [hmask] at e'
  rw [hx, hy, Option.map_some, Option.some.injEq] at e
  rw [hx'] at e'
  obtain ⟨z, hz⟩ : ∃ z, (utf8 (m'.text (o'.sub 1)))[i]? = some z := by
    cases hz : (utf8 (m'.text (o'.sub 1)))[i]? with
    | none => rw [hz] at e'; cases e'
    | some z => exact ⟨z, rfl⟩
  rw [hz, Option.map_some, Option.some.injEq] at e'
  rw [hz, e, e']
  congr 1
  generalize (if a = .a256gcm then Algo.ctrByte key (iv.1.take 12) i
      else Algo.chaByte (Algo.hchacha20 key (iv.1.take 16)) (Algo.xNonce iv.1) i) = k
  rw [UInt8.xor_comm z, UInt8.xor_assoc y, ← UInt8.xor_assoc k, UInt8.xor_self, UInt8.zero_xor, ← UInt8.xor_assoc,
    UInt8.xor_self, UInt8.zero_xor]

/-- C129: two messages under ivs of which AES-256-GCM uses the same part. -/
example : ∃ t t' iv, exampleMessage.encrypt HOrd.id exampleRand.iv (CryptoAlg.a256gcm.encryptor (toy fun _ => none).std)
      cek = .ok t ∧
    (exampleMessage.setThid c!"another").encrypt HOrd.id iv (CryptoAlg.a256gcm.encryptor (toy fun _ => none).std)
      cek = .ok t' ∧ iv.1 ≠ exampleRand.iv.1 ∧ usedIv .a256gcm iv.1 = usedIv .a256gcm exampleRand.iv.1 := by
  have key : ∀ (m : Message) (iv : Iv), m.didcomm.to ≠ [] → m.flatJwe = false → ∃ t, m.encrypt HOrd.id iv
      (CryptoAlg.a256gcm.encryptor (toy fun _ => none).std) cek = .ok t := by
    intro m iv hto hfl
    obtain ⟨out, hout, -⟩ := encryptor_total (std_laws (toy fun _ => none) (toy_laws fun _ => none).f64_tok)
      (std_total _) (alg := c!"ECDH-1PU+A256KW") rfl iv (utf8 (m.text (HOrd.id.sub 1)))
      (utf8 (headerB64 (HOrd.id.sub 0) (rawHeader m)))
    obtain ⟨c, tag, rfl, htag, -⟩ := encryptor_mask (by decide) hout
    exact ⟨_, (((C83_encrypt_outcomes m HOrd.id iv _ _).2 (fun _ => hto)).2.2.2 c tag hout htag).2
      (by rw [hfl]; intro h; cases h)⟩
  obtain ⟨t, ht⟩ := key exampleMessage exampleRand.iv (by decide) rfl
  obtain ⟨t', ht'⟩ := key (exampleMessage.setThid c!"another") ⟨List.replicate 12 8 ++ List.replicate 12 9, by decide⟩
    (by decide) rfl
  exact ⟨t, t', _, ht, ht', by decide, by decide⟩

/-- C130: two texts under one key and iv, for both ciphers. -/
example : (∃ t t' m m', t.length = 16 ∧ t'.length = 16 ∧
      CryptoAlg.decrypter (toy fun _ => none).std .a256gcm (List.replicate 24 1) (exampleKey 4) ([1, 2] ++ t) [5] = .ok m ∧
      CryptoAlg.decrypter (toy fun _ => none).std .a256gcm (List.replicate 24 1) (exampleKey 4) ([3] ++ t') [5] = .ok m') ∧
    ∃ t t' m m', t.length = 16 ∧ t'.length = 16 ∧
      CryptoAlg.decrypter (toy fun _ => none).std .xc20p (List.replicate 24 1) (exampleKey 4) ([1, 2] ++ t) [5] = .ok m ∧
      CryptoAlg.decrypter (toy fun _ => none).std .xc20p (List.replicate 24 1) (exampleKey 4) ([3] ++ t') [5] = .ok m' :=
  ⟨⟨_, _, _, _, Algo.gcmTag_length .., Algo.gcmTag_length ..,
      (gcm_decrypter_iff (Algo.gcmTag_length ..)).2 ⟨by decide, by decide, rfl, rfl⟩,
      (gcm_decrypter_iff (Algo.gcmTag_length ..)).2 ⟨by decide, by decide, rfl, rfl⟩⟩,
    ⟨_, _, _, _, Algo.chaTag_length .., Algo.chaTag_length ..,
      (xc_decrypter_iff (Algo.chaTag_length ..)).2 ⟨by decide, by decide, rfl, rfl⟩,
      (xc_decrypter_iff (Algo.chaTag_length ..)).2 ⟨by decide, by decide, rfl, rfl⟩⟩⟩

/-- C130: an envelope that is opened with AES-256-GCM. -/
example : ∃ j p, j.getAlg = some c!"ECDH-1PU+A256KW" ∧
    Opens (toy fun _ => none).std HOrd.id j (exampleKey 1) (some (exampleKey 3)) p := by
  obtain ⟨c, t, p, p', h1, -⟩ := C123_violated (toy fun _ => none) HOrd.id (bareEnvelope gcmHeadMessage [] [])
    (Spec.publicHeader gcmHeadMessage) (exampleKey 1) (exampleKey 2) (exampleKey 3) (exampleKey 3) _ _
    (List.replicate 24 8) (List.replicate 32 97) (List.replicate 32 98) (some (exampleKey 3)) (some (exampleKey 3))
    rfl rfl (.inl rfl) (.inl rfl) (by decide) (by decide) (by decide) (by decide) (.inr ⟨rfl, rfl⟩) (.inr ⟨rfl, rfl⟩)
    (by decide +kernel) (by decide +kernel) (by decide +kernel) (b64Decode_encode _) (by decide) (by decide) (by decide)
    (fun i => decide (i < 16))
  exact ⟨_, p, rfl, h1⟩

end Verif
