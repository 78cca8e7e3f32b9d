import Verif.Model.Algo.Prims
import Verif.Lemma.Algo.Symmetric
import Verif.Lemma.Algo.X25519Order
import Verif.Props.Panics
import Verif.Props.Wrong

/-!
# The standard algorithms

C97, C98, C99, C100.  `P.std` are primitives of which only signatures, DID resolution and the printing of
fractional numbers are arbitrary.
-/

namespace Verif

open Spec

/-! ## The laws hold -/

/-- The laws assumed elsewhere are theorems about the standard algorithms, except for the printing of numbers. -/
theorem std_laws (P : Prims) (hf : ∀ {t u}, P.f64 t = some u → NumTok u) : Laws P.std where
  xc_dec h := Algo.xchachaOpen_iff.2 h
  xc_len h := Algo.xchachaSeal_length h
  gcm_dec h := Algo.gcmOpen_iff.2 h
  gcm_len h := Algo.gcmSeal_length h
  dh _ _ := Algo.x25519_comm _ _
  pub_len _ := Algo.leBytes_length _ _
  dh_len _ _ := Algo.leBytes_length _ _
  sha_len := Algo.sha256_length
  f64_tok := hf

/-- The standard ciphers encrypt everything under keys and nonces of the right size. -/
theorem std_total (P : Prims) : Spec.AeadTotal P.std := by
  intro k n a m hk
  constructor
  · intro hn
    exact ⟨_, if_neg (by simp [hk, hn])⟩
  · intro hn
    exact ⟨_, if_neg (by simp [hk, hn])⟩

/-- The standard ciphers take 16 bytes away. -/
theorem std_decLen (P : Prims) : Spec.DecLen P.std := by
  rintro k n a c m (h | h)
  · exact Algo.xchachaSeal_length (Algo.xchachaOpen_iff.1 h)
  · exact Algo.gcmSeal_length (Algo.gcmOpen_iff.1 h)

/-! ## C97 -/

/-- C97.  A ciphertext is opened, to a message, exactly if the message is sealed to that ciphertext. -/
theorem C97_opens_exactly (P : Prims) (a : CryptoAlg) (ha : a ≠ .a256cbc) (nonce key aad m c : Bytes) :
    a.decrypter P.std nonce key c aad = .ok m ↔ a.encryptor P.std nonce key m aad = .ok c := by
  cases a with
  | a256cbc => exact absurd rfl ha
  | xc20p =>
    simp only [CryptoAlg.decrypter, CryptoAlg.encryptor, Res.bind_eq_ok, Res.ofOpt_eq_ok]
    constructor
    · rintro ⟨u, h0, k, h1, n, h2, h3⟩
      exact ⟨u, h0, n, h2, k, h1, Algo.xchachaOpen_iff.1 h3⟩
    · rintro ⟨u, h0, k, h1, n, h2, h3⟩
      exact ⟨u, h0, n, h2, k, h1, Algo.xchachaOpen_iff.2 h3⟩
  | a256gcm =>
    simp only [CryptoAlg.decrypter, CryptoAlg.encryptor, Res.bind_eq_ok, Res.ofOpt_eq_ok]
    constructor
    · rintro ⟨u, h0, k, h1, h3⟩
      exact ⟨u, h0, k, h1, Algo.gcmOpen_iff.1 h3⟩
    · rintro ⟨u, h0, k, h1, h3⟩
      exact ⟨u, h0, k, h1, Algo.gcmOpen_iff.2 h3⟩

/-- C97.  Every message is sealed, to 16 more bytes, under keys and nonces of the right size. -/
theorem C97_seals_everything (P : Prims) (nonce key aad m : Bytes) (hk : key.length = 32) :
    (nonce.length = 24 → ∃ c, CryptoAlg.encryptor P.std .xc20p nonce key m aad = .ok c ∧ c.length = m.length + 16) ∧
    (12 ≤ nonce.length → ∃ c, CryptoAlg.encryptor P.std .a256gcm nonce key m aad = .ok c ∧ c.length = m.length + 16) := by
  constructor
  · intro hn
    obtain ⟨c, hc⟩ := ((std_total P) key nonce aad m hk).1 hn
    exact ⟨c, by simp [CryptoAlg.encryptor, checkNonce, fromSlice, hn, hk, hc], Algo.xchachaSeal_length hc⟩
  · intro hn
    obtain ⟨c, hc⟩ := ((std_total P) key (nonce.take 12) aad m hk).2 (by simp [hn])
    exact ⟨c, by simp [CryptoAlg.encryptor, checkNonce, fromSlice, show ¬nonce.length < 12 by omega, hk, hc],
      Algo.gcmSeal_length hc⟩

theorem chaOpen_tag {k n a c t t' m m' : Bytes} (ht : t.length = 16) (ht' : t'.length = 16)
    (h : Algo.chaOpen k n a (c ++ t) = some m) (h' : Algo.chaOpen k n a (c ++ t') = some m') : t = t' := by
  have key : ∀ {t m : Bytes}, t.length = 16 → Algo.chaOpen k n a (c ++ t) = some m → t = Algo.chaTag k n a c := by
    intro t m ht h
    unfold Algo.chaOpen at h
    simp only [List.length_append, ht, Nat.add_sub_cancel, List.take_left, List.drop_left] at h
    split at h
    · cases h
    · split at h
      · assumption
      · cases h
  rw [key ht h, key ht' h']

theorem gcmOpen_tag {k n a c t t' m m' : Bytes} (ht : t.length = 16) (ht' : t'.length = 16)
    (h : Algo.gcmOpen k n a (c ++ t) = some m) (h' : Algo.gcmOpen k n a (c ++ t') = some m') : t = t' := by
  have key : ∀ {t m : Bytes}, t.length = 16 → Algo.gcmOpen k n a (c ++ t) = some m → t = Algo.gcmTag k n a c := by
    intro t m ht h
    unfold Algo.gcmOpen at h
    simp only [List.length_append, ht, Nat.add_sub_cancel, List.take_left, List.drop_left] at h
    split at h
    · cases h
    · split at h
      · assumption
      · cases h
  rw [key ht h, key ht' h']

/-- C97.  With one key, nonce and associated data a ciphertext has one tag: with any other it is refused. -/
theorem C97_one_tag (P : Prims) (a : CryptoAlg) (nonce key aad c t t' m : Bytes) (ht : t.length = 16)
    (ht' : t'.length = 16) (hne : t' ≠ t) (h : a.decrypter P.std nonce key (c ++ t) aad = .ok m)
    (m' : Bytes) : a.decrypter P.std nonce key (c ++ t') aad ≠ .ok m' := by
  intro h'
  cases a with
  | a256cbc => cases h
  | xc20p =>
    simp only [CryptoAlg.decrypter, Res.bind_eq_ok, Res.ofOpt_eq_ok] at h h'
    obtain ⟨_, -, k, hk, n, hn, h⟩ := h
    obtain ⟨_, -, k', hk', n', hn', h'⟩ := h'
    rw [hk] at hk'; rw [hn] at hn'
    obtain rfl := Res.ok.inj hk'
    obtain rfl := Res.ok.inj hn'
    have h1 : Algo.xchachaOpen k n aad (c ++ t) = some m := h
    have h2 : Algo.xchachaOpen k n aad (c ++ t') = some m' := h'
    unfold Algo.xchachaOpen at h1 h2
    split at h1
    · cases h1
    · rename_i hl
      rw [if_neg hl] at h2
      exact hne (chaOpen_tag ht' ht h2 h1)
  | a256gcm =>
    simp only [CryptoAlg.decrypter, Res.bind_eq_ok, Res.ofOpt_eq_ok] at h h'
    obtain ⟨_, -, k, hk, h⟩ := h
    obtain ⟨_, -, k', hk', h'⟩ := h'
    rw [hk] at hk'
    obtain rfl := Res.ok.inj hk'
    exact hne (gcmOpen_tag ht' ht h' h)

theorem firstKey_congr {P : Prims} {j j' : Jwe} {k k' : Bytes} {ek : Option Bytes} {rs : List Recipient}
    (h : ∀ x ∈ rs, decryptCek P j k x ek = decryptCek P j' k' x ek) :
    Message.firstKey P j k ek rs = Message.firstKey P j' k' ek rs := by
  induction rs with
  | nil => rfl
  | cons x rs ih =>
    unfold Message.firstKey
    rw [h x (by simp)]
    cases decryptCek P j' k' x ek with
    | ok _ => rfl
    | err _ => exact ih fun y hy => h y (by simp [hy])
    | panic => rfl

/-- C97.  An envelope whose tag has been altered is refused, with the keys and map orders with which the
unaltered one is opened. -/
theorem C97_altered_tag (P : Prims) (o : HOrd) (s s' : Str) (j : Jwe) (tag tag' : Bytes)
    (hj : Jwe.ofText P.f64 s = some j) (hj' : Jwe.ofText P.f64 s' = some { j with tag := some (b64Encode tag') })
    (ht : j.tag = some (b64Encode tag)) (hl : tag.length = 16) (hl' : tag'.length = 16) (hne : tag' ≠ tag)
    (hs : Message.messageType P.std s = .ok .jwe) (hs' : Message.messageType P.std s' = .ok .jwe)
    (sk ek vk : Option Bytes) (x : Message) (h : Message.receive P.std o s sk ek vk = .ok x) (x' : Message) :
    Message.receive P.std o s' sk ek vk ≠ .ok x' := by
  intro h'
  simp only [Message.receive, Res.bind_eq_ok, Res.ofOpt_eq_ok] at h h'
  obtain ⟨cur, hcur, -⟩ := h
  obtain ⟨cur', hcur', -⟩ := h'
  simp only [Message.decryptStep, hs, hs', Res.bind_ok, if_true, Res.bind_eq_ok, Res.ofOpt_eq_ok] at hcur hcur'
  obtain ⟨k, hk, hr⟩ := hcur
  obtain ⟨k', hk', hr'⟩ := hcur'
  rw [hk] at hk'
  obtain rfl := Option.some.inj hk'
  simp only [Message.receiveJwe, Res.bind_eq_ok, Res.ofOpt_eq_ok, Res.pure_eq, Res.ok.injEq] at hr hr'
  obtain ⟨j1, hj1, alg, halg, pk, hpk, s1, hs1, s2, hs2, a, ha, key, hkey, m0, hm0, -⟩ := hr
  obtain ⟨j2, hj2, alg', halg', pk', hpk', s1', hs1', s2', hs2', a', ha', key', hkey', m0', hm0', -⟩ := hr'
  obtain rfl : j = j1 := Option.some.inj (hj.symm.trans hj1)
  obtain rfl := Option.some.inj (hj'.symm.trans hj2)
  obtain rfl : alg = alg' := Option.some.inj (halg.symm.trans halg')
  obtain rfl : a = a' := Res.ok.inj (ha.symm.trans ha')
  obtain rfl : pk = pk' := Res.ok.inj (hpk.symm.trans hpk')
  obtain rfl : s1 = s1' := Res.ok.inj (hs1.symm.trans hs1')
  obtain rfl : s2 = s2' := Res.ok.inj (hs2.symm.trans hs2')
  have hck : Message.contentKey P.std { j with tag := some (b64Encode tag') } k ek (P.std.x25519 s1 s2) =
      Message.contentKey P.std j k ek (P.std.x25519 s1 s2) := by
    unfold Message.contentKey
    rw [show Message.recipientsOf { j with tag := some (b64Encode tag') } = Message.recipientsOf j from rfl]
    cases Message.recipientsOf j with
    | none => rfl
    | some rs => exact firstKey_congr fun _ _ => rfl
  rw [hck] at hkey'
  obtain rfl : key = key' := Res.ok.inj (hkey.symm.trans hkey')
  obtain ⟨j3, hdr, tt, tg, c, iv, pt, e1, e2, e3, e4, e5, e6, e7, -⟩ := decrypt_ok hm0
  obtain ⟨j4, hdr', tt', tg', c', iv', pt', e1', e2', e3', e4', e5', e6', e7', -⟩ := decrypt_ok hm0'
  have same : ∀ {s : Str} {j j' : Jwe}, Jwe.ofText P.f64 s = some j →
      (parseBytes (utf8 s)).bind (decJwe P.std.f64) = some j' → j' = j := by
    intro s j j' h1 h2
    rw [parseBytes_utf8] at h2
    unfold Jwe.ofText at h1
    cases hps : parseJson s with
    | none => rw [hps] at h1; cases h1
    | some v => rw [hps] at h1 h2; exact Option.some.inj (h2.symm.trans h1)
  obtain rfl := same hj e1
  obtain rfl := same hj' e1'
  obtain rfl : hdr = hdr' := Option.some.inj (e2.symm.trans e2')
  obtain rfl : c = c' := Option.some.inj (e5.symm.trans e5')
  obtain rfl : iv = iv' := Option.some.inj (e6.symm.trans e6')
  rw [ht] at e3
  obtain rfl := Option.some.inj e3
  obtain rfl := Option.some.inj e3'
  rw [b64Decode_encode] at e4 e4'
  obtain rfl := Option.some.inj e4
  obtain rfl := Option.some.inj e4'
  exact C97_one_tag P a iv key _ c _ _ pt hl hl' hne e7 pt' e7'

/-! ## C98 -/

/-- C98.  Each of two parties, with its private key and the other's public key, computes the same secret. -/
theorem C98_same_secret (P : Prims) (a b : Bytes) : P.std.x25519 a (P.std.x25519Pub b) = P.std.x25519 b (P.std.x25519Pub a) :=
  Algo.x25519_comm a b

/-- C98.  The secret is the coordinate of the public point multiplied by the private key, in the group of
Curve25519 (`mont curveA`: `y ^ 2 = x ^ 3 + 486662 * x ^ 2 + x` over the field of `2 ^ 255 - 19` elements). -/
theorem C98_multiplication (P : Prims) (sk pk : Bytes) (D : (Algo.mont Algo.curveA).Point)
    (hD : (Algo.uCoord pk : Algo.Fp) = Algo.xc D) :
    ((Algo.leNat (P.std.x25519 sk pk) : ℕ) : Algo.Fp) = Algo.xc (Algo.clamp sk • D) := by
  rw [← Algo.cast_montMul hD (Algo.clamp_lt sk)]
  show ((Algo.leNat (Algo.leBytes 32 _) : ℕ) : Algo.Fp) = _
  have h1 := Algo.montMul_lt (Algo.clamp sk) (Algo.uCoord pk)
  have h2 := Algo.p_lt
  rw [Algo.leNat_leBytes, Nat.mod_eq_of_lt]
  have h3 : (256 : ℕ) ^ 32 = 2 ^ 256 := by decide
  omega

/-- C98.  Which private keys belong to one public key: those that agree but for the five bits that are
overwritten, and those opposite to each other. -/
theorem C98_same_public (P : Prims) (a b : Bytes) : P.std.x25519Pub a = P.std.x25519Pub b ↔
    Algo.clamp a = Algo.clamp b ∨ Algo.clamp a + Algo.clamp b = 8 * Algo.ell :=
  Algo.x25519Pub_eq_iff a b

/-! ## C99 -/

/-- The key of 32 zero bytes. -/
def zeroKey : Bytes := List.replicate 32 0

theorem zero_secret (sk : Bytes) : Algo.x25519 sk zeroKey = zeroKey := by
  have h0 : Algo.uCoord zeroKey = 0 := by decide +kernel
  have hz : ((Algo.montMul (Algo.clamp sk) 0 : ℕ) : Algo.Fp) = 0 := by
    rw [Algo.cast_montMul (D := 0) (by simp [Algo.xc_zero]) (Algo.clamp_lt sk), nsmul_zero, Algo.xc_zero]
  have h1 : Algo.montMul (Algo.clamp sk) 0 = 0 := by
    have h2 : ((Algo.montMul (Algo.clamp sk) 0 : ℕ) : Algo.Fp) = ((0 : ℕ) : Algo.Fp) := by simpa using hz
    rw [ZMod.natCast_eq_natCast_iff', Nat.mod_eq_of_lt (Algo.montMul_lt ..)] at h2
    simpa using h2
  unfold Algo.x25519
  rw [h0, h1]
  decide +kernel

/-- C99, as written, is false: with the key of zero bytes the secret is zero for every private key, and sealing
for it succeeds. -/
theorem C99_weak_recipient_violated (P : Prims) (hf : ∀ {t u}, P.f64 t = some u → NumTok u) (r : Message.SealRand)
    (m : Message) (ssk : Bytes) (alg : Str) (hsk : ssk.length = 32) (hto : m.didcomm.to ≠ [])
    (hflat : m.flatJwe = true → m.didcomm.to.length = 1) (hal : m.jwm.alg = some alg) (hs : alg ∈ Spec.supportedAlgs) :
    (∀ sk, P.std.x25519 sk zeroKey = zeroKey) ∧
    ∃ t, m.sealJwe P.std r ssk (some (List.replicate m.didcomm.to.length (some zeroKey))) = .ok t := by
  refine ⟨zero_secret, C16_seal_total P.std (std_laws P hf) (std_total P) r m ssk _ alg hsk hto ?_ hflat hal hs ?_⟩
  · intro l hl
    rw [← Option.some.inj hl, List.length_replicate]
  · intro i dest hi
    refine ⟨zeroKey, by decide, .inl ?_⟩
    have : i < m.didcomm.to.length := (List.getElem?_eq_some_iff.1 hi).1
    simp [Spec.keyAt, this]

/-- C99, as written, is false: an envelope whose ephemeral keys are zero, from a sender whose key is zero, is
received alike with every private key. -/
theorem C99_weak_sender_violated (P : Prims) (o : HOrd) (s : Str)
    (hz : ∀ j rs x e, Jwe.ofText P.f64 s = some j → Message.recipientsOf j = some rs → x ∈ rs →
      x.header.epk = some e → b64Decode e.x = some zeroKey)
    (sk sk' : Bytes) (vk : Option Bytes) (hl : 32 ≤ sk.length) (hl' : 32 ≤ sk'.length) :
    Message.receive P.std o s (some sk) (some zeroKey) vk = Message.receive P.std o s (some sk') (some zeroKey) vk := by
  have hz0 : arrayRef32 zeroKey = .ok zeroKey := by decide
  have hx : ∀ k, P.std.x25519 k zeroKey = zeroKey := zero_secret
  have ha : ∀ {k : Bytes}, 32 ≤ k.length → arrayRef32 k = .ok (k.take 32) := fun h => arrayRef32_eq_ok.2 ⟨h, rfl⟩
  have hd : ∀ {j : Jwe} {x : Recipient} {k : Bytes}, 32 ≤ k.length →
      (∀ e, x.header.epk = some e → b64Decode e.x = some zeroKey) →
      decryptCek P.std j k x (some zeroKey) = decryptCek P.std j sk x (some zeroKey) := by
    intro j x k hk he
    unfold decryptCek
    cases hq : x.header.epk with
    | none => cases j.getAlg <;> cases j.getSkid <;> rfl
    | some e =>
      simp only [Res.ofOpt_some, Res.bind_ok, he e hq, ha hk, ha hl, hx, generateKek, sharedFor, publicKeyFor, hz0, if_pos (show zeroKey.length = 32 from rfl)]
  have hr : Message.receiveJwe P.std (o.sub 0) s sk (some zeroKey) = Message.receiveJwe P.std (o.sub 0) s sk' (some zeroKey) := by
    unfold Message.receiveJwe
    cases hj : Jwe.ofText P.std.f64 s with
    | none => rfl
    | some j =>
      have hc : ∀ {k : Bytes}, 32 ≤ k.length → Message.contentKey P.std j k (some zeroKey) zeroKey =
          Message.contentKey P.std j sk (some zeroKey) zeroKey := by
        intro k hk
        unfold Message.contentKey
        cases hrs : Message.recipientsOf j with
        | none => rfl
        | some rs => exact firstKey_congr fun x hxr => hd hk fun e he => hz j rs x e hj hrs hxr he
      simp only [Res.ofOpt_some, Res.bind_ok, Message.senderKey, ha hl, ha hl', hz0, hx, hc hl']
  simp only [Message.receive, Message.decryptStep, Res.ofOpt_some, Res.bind_ok, hr]

/-- C99.  What holds: two parties whose public keys belong to private keys never share the zero secret. -/
theorem C99_weak_partial (P : Prims) (a b : Bytes) : P.std.x25519 a (P.std.x25519Pub b) ≠ zeroKey :=
  Algo.x25519_ne_zero a b

/-! ## C100 -/

/-- C100.  With the standard algorithms, nothing assumed of them: a message for recipients whose public keys
belong to the private keys `rsk :: rsks` is sealed, and the first recipient reads what the sender wrote. -/
theorem C100_seal_receive (P : Prims) (hf : ∀ {t u}, P.f64 t = some u → NumTok u) (r : Message.SealRand) (o : HOrd)
    (m : Message) (ssk rsk : Bytes) (rsks : List Bytes) (alg frm : Str) (vk : Option Bytes)
    (hm : m.WF P.f64) (hc : Avoids m.didcomm.other classKeys) (hh : HeaderFixed m.jwm) (hj : m.jwm.typ ≠ .jws)
    (hfrom : m.didcomm.from = some frm) (hal : m.jwm.alg = some alg) (hs : alg ∈ Spec.supportedAlgs)
    (hflat : m.flatJwe = true → m.didcomm.to.length = 1) (hlen : m.didcomm.to.length = rsks.length + 1)
    (hssk : ssk.length = 32) (hrsk : rsk.length = 32) :
    ∃ t rs, m.sealJwe P.std r ssk (some ((rsk :: rsks).map fun k => some (P.std.x25519Pub k))) = .ok t ∧
      Message.receive P.std o t (some rsk) (some (P.std.x25519Pub ssk)) vk =
        .ok { m with recipients := some rs, flatJwe := false, flatJws := false } := by
  have hl := std_laws P hf
  obtain ⟨t, ht⟩ := C16_seal_total P.std hl (std_total P) r m ssk
    (some ((rsk :: rsks).map fun k => some (P.std.x25519Pub k))) alg hssk
    (by intro h; rw [h] at hlen; cases hlen) (by intro l hl'; rw [← Option.some.inj hl']; simp [hlen]) hflat hal hs (by
      intro i dest hi
      have hi' : i < (rsk :: rsks).length := by
        have := (List.getElem?_eq_some_iff.1 hi).1
        simpa [hlen] using this
      refine ⟨P.std.x25519Pub (rsk :: rsks)[i], hl.pub_len _, .inl ?_⟩
      simp only [Spec.keyAt, List.getElem?_map, List.getElem?_eq_getElem hi', Option.map_some, Option.getD_some])
  obtain ⟨rs, h⟩ := C16_seal_receive P.std hl r o m ssk rsk (rsks.map fun k => some (P.std.x25519Pub k)) t frm vk
    hm hc hh hj hfrom hrsk ht
  exact ⟨t, rs, ht, h⟩

/-! ## Cases -/

/-- The standard algorithms, without DID resolution. -/
def stdPrims : Prims := (toy fun _ => none).std

theorem stdPrims_laws : Laws stdPrims := std_laws _ (toy_laws fun _ => none).f64_tok

/-- C100: a message to which the theorem applies. -/
example (vk : Option Bytes) : ∃ t rs, exampleMessage.sealJwe stdPrims exampleRand (exampleKey 3)
      (some [some (stdPrims.x25519Pub (exampleKey 1)), some (stdPrims.x25519Pub (exampleKey 2))]) = .ok t ∧
    Message.receive stdPrims HOrd.rev t (some (exampleKey 1)) (some (stdPrims.x25519Pub (exampleKey 3))) vk =
      .ok { exampleMessage with recipients := some rs } :=
  C100_seal_receive (toy fun _ => none) (toy_laws fun _ => none).f64_tok exampleRand HOrd.rev exampleMessage
    (exampleKey 3) (exampleKey 1) [exampleKey 2] c!"ECDH-1PU+XC20PKW" c!"did:e:f" vk (exampleMessage_wf _) (by decide)
    ⟨(by intro k h; cases h), (by intro k h; cases h)⟩ (by decide) rfl rfl (by decide) (by intro h; cases h) rfl
    (by decide) (by decide)

/-- C97: a ciphertext, and the same with the last bit of the tag changed
(draft-irtf-cfrg-xchacha-03, appendix A.3.1, gives the tag). -/
example : ∃ (key nonce aad c tag m : Bytes), tag.length = 16 ∧ m.length = 114 ∧
    CryptoAlg.decrypter stdPrims .xc20p nonce key (c ++ tag) aad = .ok m ∧
    tag = [0xc0, 0x87, 0x59, 0x24, 0xc1, 0xc7, 0x98, 0x79, 0x47, 0xde, 0xaf, 0xd8, 0x78, 0x0a, 0xcf, 0x49] ∧
    ∀ m', CryptoAlg.decrypter stdPrims .xc20p nonce key
      (c ++ [0xc0, 0x87, 0x59, 0x24, 0xc1, 0xc7, 0x98, 0x79, 0x47, 0xde, 0xaf, 0xd8, 0x78, 0x0a, 0xcf, 0x48]) aad ≠ .ok m' := by
  let key : Bytes := (List.range 32).map fun i => UInt8.ofNat (0x80 + i)
  let nonce : Bytes := (List.range 24).map fun i => UInt8.ofNat (0x40 + i)
  let aad : Bytes := [0x50, 0x51, 0x52, 0x53, 0xc0, 0xc1, 0xc2, 0xc3, 0xc4, 0xc5, 0xc6, 0xc7]
  let m : Bytes := utf8 c!"Ladies and Gentlemen of the class of '99: If I could offer you only one tip for the future, sunscreen would be it."
  let tag : Bytes := [0xc0, 0x87, 0x59, 0x24, 0xc1, 0xc7, 0x98, 0x79, 0x47, 0xde, 0xaf, 0xd8, 0x78, 0x0a, 0xcf, 0x49]
  let c := Algo.chacha20 (Algo.hchacha20 key (nonce.take 16)) 1 (Algo.xNonce nonce) m
  have he : Algo.xchachaSeal key nonce aad m = some (c ++ tag) := by decide +kernel
  have hd : CryptoAlg.decrypter stdPrims .xc20p nonce key (c ++ tag) aad = .ok m :=
    (C97_opens_exactly (toy fun _ => none) .xc20p (by decide) nonce key aad m _).2 (by
      show (CryptoAlg.encryptor (toy fun _ => none).std .xc20p nonce key m aad) = _
      have : (toy fun _ => none).std.xcEnc key nonce aad m = some (c ++ tag) := he
      simp [CryptoAlg.encryptor, checkNonce, fromSlice, show nonce.length = 24 from rfl,
        show key.length = 32 from rfl, this])
  exact ⟨key, nonce, aad, c, tag, m, rfl, by decide +kernel, hd, rfl,
    C97_one_tag (toy fun _ => none) .xc20p nonce key aad c tag _ m rfl rfl (by decide) hd⟩

/-- C97: a sealed envelope, which its recipient opens, and the same with another tag, which is refused. -/
example : ∃ (t t' : Str) (j : Jwe) (tag tag' : Bytes) (x : Message), Jwe.ofText stdPrims.f64 t = some j ∧
    Jwe.ofText stdPrims.f64 t' = some { j with tag := some (b64Encode tag') } ∧ j.tag = some (b64Encode tag) ∧
    tag.length = 16 ∧ tag'.length = 16 ∧ tag' ≠ tag ∧
    Message.receive stdPrims HOrd.rev t (some (exampleKey 1)) (some (stdPrims.x25519Pub (exampleKey 3))) none = .ok x ∧
    ∀ x', Message.receive stdPrims HOrd.rev t' (some (exampleKey 1)) (some (stdPrims.x25519Pub (exampleKey 3))) none ≠ .ok x' := by
  obtain ⟨t, rs0, ht, hr⟩ := C100_seal_receive (toy fun _ => none) (toy_laws fun _ => none).f64_tok exampleRand HOrd.rev
    exampleMessage (exampleKey 3) (exampleKey 1) [exampleKey 2] c!"ECDH-1PU+XC20PKW" c!"did:e:f" none
    (exampleMessage_wf _) (by decide) ⟨(by intro k h; cases h), (by intro k h; cases h)⟩ (by decide) rfl rfl (by decide)
    (by intro h; cases h) rfl (by decide) (by decide)
  obtain ⟨pks, rs, a, c, tag, alg, -, -, -, -, -, hrs, -, -, ha, he, htag, rfl⟩ := seal_ok ht
  obtain ⟨tag', hl', hne⟩ : ∃ tag' : Bytes, tag'.length = 16 ∧ tag' ≠ tag := by
    by_cases h : tag = List.replicate 16 0
    · exact ⟨List.replicate 16 1, rfl, by rw [h]; decide⟩
    · exact ⟨List.replicate 16 0, rfl, fun h' => h h'.symm⟩
  have hw : exampleMessage.jwm.WF := (exampleMessage_wf fun _ => none).jwm
  have hj := jwe_ofText_text (F := stdPrims.f64) (exampleRand.ord.sub 2)
    (envelope_wf (m := exampleMessage) (iv := exampleRand.iv.1) (c := c) (tag := tag) hw (sealRecipients_wf hrs))
  have hj' := jwe_ofText_text (F := stdPrims.f64) (exampleRand.ord.sub 2)
    (envelope_wf (m := exampleMessage) (iv := exampleRand.iv.1) (c := c) (tag := tag') hw (sealRecipients_wf hrs))
  exact ⟨_, _, _, tag, tag', _, hj, hj', rfl, htag, hl', hne, hr,
    C97_altered_tag (toy fun _ => none) HOrd.rev _ _ _ tag tag' hj hj' rfl htag hl' hne messageType_envelope
      messageType_envelope _ _ _ _ hr⟩

/-- C98: RFC 7748, section 5.2, first vector. -/
example : stdPrims.x25519
    [0xa5, 0x46, 0xe3, 0x6b, 0xf0, 0x52, 0x7c, 0x9d, 0x3b, 0x16, 0x15, 0x4b, 0x82, 0x46, 0x5e, 0xdd,
      0x62, 0x14, 0x4c, 0x0a, 0xc1, 0xfc, 0x5a, 0x18, 0x50, 0x6a, 0x22, 0x44, 0xba, 0x44, 0x9a, 0xc4]
    [0xe6, 0xdb, 0x68, 0x67, 0x58, 0x30, 0x30, 0xdb, 0x35, 0x94, 0xc1, 0xa4, 0x24, 0xb1, 0x5f, 0x7c,
      0x72, 0x66, 0x24, 0xec, 0x26, 0xb3, 0x35, 0x3b, 0x10, 0xa9, 0x03, 0xa6, 0xd0, 0xab, 0x1c, 0x4c] =
    [0xc3, 0xda, 0x55, 0x37, 0x9d, 0xe9, 0xc6, 0x90, 0x8e, 0x94, 0xea, 0x4d, 0xf2, 0x8d, 0x08, 0x4f,
      0x32, 0xec, 0xcf, 0x03, 0x49, 0x1c, 0x71, 0xf7, 0x54, 0xb4, 0x07, 0x55, 0x77, 0xa2, 0x85, 0x52] := by
  decide +kernel

/-- C98: a point that belongs to a public key. -/
example (sk : Bytes) : ∃ D : (Algo.mont Algo.curveA).Point,
    (Algo.uCoord (stdPrims.x25519Pub sk) : Algo.Fp) = Algo.xc D := by
  obtain ⟨G, hG⟩ := Algo.base_point
  exact ⟨Algo.clamp sk • G, by
    show ((Algo.uCoord (Algo.leBytes 32 _) : ℕ) : Algo.Fp) = _
    rw [Algo.uCoord_leBytes (Algo.montMul_lt ..)]
    exact Algo.cast_montMul hG (Algo.clamp_lt sk)⟩

/-- C98: two private keys that differ in a bit that is overwritten, and two that are opposite to each other. -/
example : stdPrims.x25519Pub (exampleKey 1) = stdPrims.x25519Pub (0 :: List.replicate 31 1) ∧
    stdPrims.x25519Pub (Algo.leBytes 32 (2 ^ 254)) = stdPrims.x25519Pub (Algo.leBytes 32 (8 * Algo.ell - 2 ^ 254)) :=
  ⟨(C98_same_public (toy fun _ => none) _ _).2 (.inl (by decide +kernel)),
    (C98_same_public (toy fun _ => none) _ _).2 (.inr (by decide +kernel))⟩

/-- A message from a sender whose key is zero. -/
def weakMessage : Message :=
  { Message.new c!"i" with
    didcomm := { DidCommHeader.new c!"i" with «to» := [c!"did:a:b"], «from» := some c!"did:e:f" }
    jwm := (Message.new c!"i").jwm.asEncrypted .xc20p }

/-- An entry that anybody can make: its ephemeral key is zero. -/
def weakEntry : Res Recipient := do
  let kek ← concatKdf stdPrims (zeroKey ++ zeroKey) c!"ECDH-1PU+XC20PKW" none none
  let (_, iv, sealed) ← wrapCek stdPrims (exampleRand.perRec 0) c!"ECDH-1PU+XC20PKW" kek cek
  let (c, tag) ← splitTag sealed
  let jwk := (Jwk.new.addOtherHeader c!"iv" (b64Encode iv)).addOtherHeader c!"tag" (b64Encode tag)
  pure { header := jwk.ephemeral c!"OKP" c!"X25519" (b64Encode zeroKey) none, encryptedKey := b64Encode c }

/-- An envelope with that entry. -/
def weakEnvelope : Res Str := do
  let x ← weakEntry
  let sealed ← CryptoAlg.encryptor stdPrims .xc20p exampleRand.iv.1 cek (utf8 (weakMessage.text HOrd.id))
    (utf8 (headerB64 HOrd.id (Spec.publicHeader weakMessage)))
  let (c, tag) ← splitTag sealed
  pure ((Spec.envelope weakMessage [x] exampleRand.iv.1 c tag).text HOrd.id)

/-- Whether a result is a value of which the test holds. -/
def okAnd {α : Type} (p : α → Bool) : Res α → Bool
  | .ok a => p a
  | _ => false

/-- C99: an envelope that is opened with every private key. -/
example : ∃ s x, ∀ sk : Bytes, 32 ≤ sk.length → Message.receive stdPrims HOrd.id s (some sk) (some zeroKey) none = .ok x := by
  have hs : okAnd (fun s => okAnd (fun _ => true)
      (Message.receive stdPrims HOrd.id s (some (exampleKey 1)) (some zeroKey) none) &&
      match Jwe.ofText stdPrims.f64 s with
      | none => false
      | some j => match Message.recipientsOf j with
        | none => false
        | some rs => rs.all fun x => match x.header.epk with
          | none => false
          | some e => b64Decode e.x == some zeroKey) weakEnvelope = true := by decide +kernel
  cases hw : weakEnvelope with
  | err _ => rw [hw] at hs; cases hs
  | panic => rw [hw] at hs; cases hs
  | ok s =>
    rw [hw] at hs
    simp only [okAnd, Bool.and_eq_true] at hs
    obtain ⟨h1, h2⟩ := hs
    cases hr : Message.receive stdPrims HOrd.id s (some (exampleKey 1)) (some zeroKey) none with
    | err _ => rw [hr] at h1; cases h1
    | panic => rw [hr] at h1; cases h1
    | ok x =>
      refine ⟨s, x, fun sk hsk => ?_⟩
      rw [← hr]
      refine C99_weak_sender_violated (toy fun _ => none) HOrd.id s ?_ sk (exampleKey 1) none hsk (by decide)
      intro j rs y e hj hrs hy he
      have hj' : Jwe.ofText stdPrims.f64 s = some j := hj
      rw [hj'] at h2
      simp only [hrs] at h2
      have h3 := List.all_eq_true.1 h2 y hy
      rw [he] at h3
      exact eq_of_beq h3

/-- C99: a message sealed for a key that is zero. -/
example : ∃ t, weakMessage.sealJwe stdPrims exampleRand (exampleKey 3) (some [some zeroKey]) = .ok t :=
  (C99_weak_recipient_violated (toy fun _ => none) (toy_laws fun _ => none).f64_tok exampleRand weakMessage (exampleKey 3)
    c!"ECDH-1PU+XC20PKW" (by decide) (by decide) (by intro h; cases h) rfl (by decide)).2

/-! ## Cases of earlier properties with the standard algorithms -/

/-- Whether the content key wrapped under the first key is refused under the second. -/
def rejects (r : RecRand) (k k' : Bytes) : Bool :=
  (match Algo.xchachaSeal k r.iv24 [] cek with
    | none => true
    | some c => (Algo.xchachaOpen k' r.iv24 [] c).isNone) &&
  match Algo.gcmSeal k r.iv12 [] cek with
    | none => true
    | some c => (Algo.gcmOpen k' r.iv12 [] c).isNone

theorem rejects_spec {r : RecRand} {k k' : Bytes} (h : rejects r k k' = true) : Spec.Rejects stdPrims r k k' := by
  simp only [rejects, Bool.and_eq_true] at h
  obtain ⟨h1, h2⟩ := h
  constructor
  · intro ct hc
    have hc' : Algo.xchachaSeal k r.iv24 [] cek = some ct := hc
    rw [hc'] at h1
    exact Option.isNone_iff_eq_none.1 h1
  · intro ct hc
    have hc' : Algo.gcmSeal k r.iv12 [] cek = some ct := hc
    rw [hc'] at h2
    exact Option.isNone_iff_eq_none.1 h2

/-- C89: with the standard algorithms, a message sealed for two recipients and the key of a third person. -/
example : ∃ t, exampleMessage.sealJwe stdPrims exampleRand (exampleKey 3)
      (some [some (stdPrims.x25519Pub (exampleKey 1)), some (stdPrims.x25519Pub (exampleKey 2))]) = .ok t ∧
    Message.receive stdPrims HOrd.rev t (some (exampleKey 4)) (some (stdPrims.x25519Pub (exampleKey 3))) none =
      .err (.generic "could not decrypt cek") := by
  obtain ⟨t, rs0, ht, -⟩ := C100_seal_receive (toy fun _ => none) (toy_laws fun _ => none).f64_tok exampleRand HOrd.rev
    exampleMessage (exampleKey 3) (exampleKey 1) [exampleKey 2] c!"ECDH-1PU+XC20PKW" c!"did:e:f" none
    (exampleMessage_wf _) (by decide) ⟨(by intro k h; cases h), (by intro k h; cases h)⟩ (by decide) rfl rfl (by decide)
    (by intro h; cases h) rfl (by decide) (by decide)
  refine ⟨t, ht, C89_wrong_key stdPrims stdPrims_laws exampleRand exampleMessage (exampleMessage_wf fun _ => none).jwm _ _ t
    _ rfl ht (exampleKey 4) _ _ none HOrd.rev (by decide) (stdPrims_laws.pub_len _) (.inl rfl) ?_⟩
  have key : ∀ i ∈ [1, 2], okAnd (fun k => okAnd (fun k' => rejects (exampleRand.perRec 0) k k')
      (concatKdf stdPrims (Algo.x25519 (exampleKey 4) (Algo.x25519Pub (exampleRand.perRec 0).epk) ++
        Algo.x25519 (exampleKey 4) (Algo.x25519Pub (exampleKey 3))) c!"ECDH-1PU+XC20PKW" none none))
      (concatKdf stdPrims (Algo.x25519 (exampleRand.perRec 0).epk ((Algo.x25519Pub (exampleKey i)).take 32) ++
        Algo.x25519 (exampleKey 3) ((Algo.x25519Pub (exampleKey i)).take 32)) c!"ECDH-1PU+XC20PKW" none none) = true := by
    decide +kernel
  have close : ∀ i ∈ [1, 2], ∀ k k', Spec.IsKek stdPrims c!"ECDH-1PU+XC20PKW"
        (stdPrims.x25519 (exampleRand.perRec 0).epk ((stdPrims.x25519Pub (exampleKey i)).take 32))
        (stdPrims.x25519 (exampleKey 3) ((stdPrims.x25519Pub (exampleKey i)).take 32)) k →
      Spec.IsKek stdPrims c!"ECDH-1PU+XC20PKW" (stdPrims.x25519 (exampleKey 4) (stdPrims.x25519Pub (exampleRand.perRec 0).epk))
        (stdPrims.x25519 (exampleKey 4) (stdPrims.x25519Pub (exampleKey 3))) k' →
      Spec.Rejects stdPrims (exampleRand.perRec 0) k k' := by
    intro i hi k k' hk hk'
    have h := key i hi
    unfold Spec.IsKek at hk hk'
    rw [show Algo.x25519 = stdPrims.x25519 from rfl, show Algo.x25519Pub = stdPrims.x25519Pub from rfl, hk] at h
    simp only [okAnd] at h
    rw [hk'] at h
    exact rejects_spec h
  clear key
  intro i dest alg rpk k k' hd halg hr hk hk'
  have halg' : some c!"ECDH-1PU+XC20PKW" = some alg := halg
  cases halg'
  rcases i with _ | _ | i
  · have hr' := keyFor_unique (P := stdPrims) (.inl rfl) hr
    rw [← hr'] at hk
    exact close 1 (by decide) k k' hk hk'
  · have hr' := keyFor_unique (P := stdPrims) (.inl rfl) hr
    rw [← hr'] at hk
    exact close 2 (by decide) k k' hk hk'
  · cases hd

/-- A message whose header holds a key with two custom members. -/
def orderMessage : Message := { weakMessage with jwm := { weakMessage.jwm with jwk := some twoMemberKey } }

/-- Whether the parsed envelope does not open with that header as associated data. -/
def closedBy (j : Jwe) (sk ek iv aad : Bytes) : Bool :=
  match b64Decode j.ciphertext, j.tag.bind b64Decode with
  | some c, some tag => okAnd (fun pk => okAnd (fun key => [CryptoAlg.xc20p, .a256gcm].all fun a =>
        match a.decrypter stdPrims iv key (c ++ tag) aad with
        | .ok _ => false
        | _ => true) (Message.contentKey stdPrims j sk (some ek) (Algo.x25519 (sk.take 32) (pk.take 32))))
      (Message.senderKey stdPrims j (some ek))
  | _, _ => false

theorem closedBy_spec {j : Jwe} {sk ek iv aad c tag : Bytes} {tt : Str} (h : closedBy j sk ek iv aad = true)
    (hc : b64Decode j.ciphertext = some c) (ht : j.tag = some tt) (htt : b64Decode tt = some tag) :
    Spec.Closed stdPrims j (some sk) (some ek) iv (c ++ tag) aad := by
  intro a k pk key pt hk hpk hkey hd
  obtain rfl := Option.some.inj hk
  simp only [closedBy, hc, ht, Option.bind_some, htt, hpk] at h
  simp only [okAnd] at h
  rw [show Algo.x25519 (sk.take 32) (pk.take 32) = stdPrims.x25519 (sk.take 32) (pk.take 32) from rfl, hkey] at h
  have h' := List.all_eq_true.1 h
  cases a with
  | a256cbc => cases hd
  | xc20p =>
    have := h' .xc20p (by decide)
    rw [hd] at this
    cases this
  | a256gcm =>
    have := h' .a256gcm (by decide)
    rw [hd] at this
    cases this

/-- C69, C70: with the standard algorithms, an envelope of this crate that its recipient cannot open because
the two sides write the header in different orders. -/
example : ∃ t, orderMessage.sealJwe stdPrims exampleRand (exampleKey 3) (some [some (stdPrims.x25519Pub (exampleKey 1))]) = .ok t ∧
    ∀ vk x, Message.receive stdPrims HOrd.rev t (some (exampleKey 1)) (some (stdPrims.x25519Pub (exampleKey 3))) vk ≠ .ok x := by
  have hcheck : okAnd (fun t => match Jwe.ofText stdPrims.f64 t with
      | none => false
      | some j => closedBy j (exampleKey 1) (Algo.x25519Pub (exampleKey 3)) exampleRand.iv.1
        (utf8 (headerB64 ((HOrd.rev.sub 0).sub 0) (Spec.publicHeader orderMessage))))
      (orderMessage.sealJwe stdPrims exampleRand (exampleKey 3) (some [some (Algo.x25519Pub (exampleKey 1))])) = true := by
    decide +kernel
  rw [show Algo.x25519Pub = stdPrims.x25519Pub from rfl] at hcheck
  cases ht : orderMessage.sealJwe stdPrims exampleRand (exampleKey 3) (some [some (stdPrims.x25519Pub (exampleKey 1))]) with
  | err _ => rw [ht] at hcheck; cases hcheck
  | panic => rw [ht] at hcheck; cases hcheck
  | ok t =>
    rw [ht] at hcheck
    simp only [okAnd] at hcheck
    refine ⟨t, rfl, fun vk x => C70_sealed_orders_violated stdPrims exampleRand HOrd.rev orderMessage ?_ _ _ t ht
      _ _ vk ?_ x⟩
    · refine ⟨?_, (by intro k h; cases h)⟩
      intro k hk
      rw [← Option.some.inj hk]
      decide
    · intro j a pt ct _ hmade he
      obtain ⟨hj, -, c, tt, tag, hc, htt, htag, he'⟩ := hmade
      rw [he] at he'
      obtain rfl := Res.ok.inj he'
      rw [hj] at hcheck
      exact closedBy_spec hcheck hc htt htag

end Verif
