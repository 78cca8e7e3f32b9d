import Verif.Lemma.Seal

/-!
# Sealed messages reach their recipients

C16, C17, C18, C19, C23 and the envelope part of C39.
-/

namespace Verif

open Spec

/-- The key passed to `seal` for recipient `i`. -/
def Spec.keyAt (keys : Option (List (Option Bytes))) (i : Nat) : Option Bytes :=
  match keys with
  | none => none
  | some l => l[i]?.getD none

/-- Encryption does not fail with a key and a nonce of the right size. -/
def Spec.AeadTotal (P : Prims) : Prop :=
  ∀ k n a m, k.length = 32 → (n.length = 24 → ∃ c, P.xcEnc k n a m = some c) ∧
    (n.length = 12 → ∃ c, P.gcmEnc k n a m = some c)

theorem sealKeys_get {m : Message} {keys : Option (List (Option Bytes))} {pks : List (Option Bytes)}
    (h : m.sealKeys keys = .ok pks) {i : Nat} {k : Option Bytes} (hi : pks[i]? = some k) :
    k = Spec.keyAt keys i := by
  unfold Message.sealKeys at h
  split at h
  · split at h
    · cases h
    · rw [← Res.ok.inj h] at hi
      simp [Spec.keyAt, hi]
  · rw [← Res.ok.inj h, List.getElem?_replicate] at hi
    split at hi
    · rw [← Option.some.inj hi]; rfl
    · cases hi

theorem zip_get {α β : Type} {l : List α} {l' : List β} {i : Nat} {a : α} {b : β}
    (h : (l.zip l')[i]? = some (a, b)) : l[i]? = some a ∧ l'[i]? = some b := by
  rw [List.getElem?_zip_eq_some] at h
  exact h

/-! ## C17: any recipient -/

/-- What every recipient of a sealed envelope receives; `b` is what the body is read as, `b'` what `b` is read as. -/
theorem every_recipient_reads (P : Prims) (hP : Laws P) (r : Message.SealRand) (m : Message)
    (ssk : Bytes) (keys : Option (List (Option Bytes))) (t frm : Str)
    {b b' : Json} (hm : m.ReadsAs P.f64 b) (hb' : normJ P.f64 b = some b') (hc : Avoids m.didcomm.other classKeys) (hf : HeaderFixed m.jwm)
    (hj : m.jwm.typ ≠ .jws) (hfrom : m.didcomm.from = some frm)
    (hseal : m.sealJwe P r ssk keys = .ok t) :
    ∃ j rs, Jwe.ofText P.f64 t = some j ∧ Message.recipientsOf j = some rs ∧
      rs.length = m.didcomm.to.length ∧
      ∀ (i : Nat) (dest : Str) (rsk : Bytes) (ek vk : Option Bytes) (o : HOrd),
        m.didcomm.to[i]? = some dest → rsk.length = 32 →
        KeyFor P dest (Spec.keyAt keys i) (P.x25519Pub rsk) → KeyFor P frm ek (P.x25519Pub ssk) →
        (∀ x ∈ rs.take i, ∀ c, decryptCek P j rsk x ek = .ok c → c = cek) →
        Message.receive P o t (some rsk) ek vk =
          .ok { m with recipients := some rs, body := b', flatJwe := false, flatJws := false } := by
  obtain ⟨pks, rs, a, c, tag, alg, hp, hpl, hk, hto, hfl, hrs, hl, hal, ha, he, -, rfl⟩ := seal_ok hseal
  have hr := sealRecipients_wf hrs
  have halg := envelope_alg (rs := rs) (iv := r.iv.1) (c := c) (tag := tag) hal
  have hsk : (Spec.envelope m rs r.iv.1 c tag).getSkid = some frm := by rw [envelope_skid, hfrom]
  refine ⟨_, rs, jwe_ofText_text (F := P.f64) _ (envelope_wf hm.jwm hr), envelope_recipients hfl, hl, ?_⟩
  intro i dest rsk ek vk o hi hrk hkr hks hb
  refine receive_reads hP hal ha hm hb' hc hf hj hr hfl he hfrom hrk (hP.pub_len _) hks ?_
  have hil : i < rs.length := by
    rw [hl]; exact (List.getElem?_eq_some_iff.1 hi).1
  obtain ⟨d, k, h1, h2⟩ := (sealRecipients_ok hrs).2 i _ (List.getElem?_eq_getElem hil)
  obtain ⟨hd, hk'⟩ := zip_get h1
  rw [hi] at hd
  obtain rfl := Option.some.inj hd
  rw [sealKeys_get hp hk'] at h2
  refine firstKey_of (List.getElem?_eq_getElem hil)
    (decryptCek_encryptCek hP h2 hal halg hsk hk hrk hkr hks) ?_
  intro x hx
  refine ⟨?_, hb x hx⟩
  obtain ⟨n, hn, rfl⟩ := List.getElem_of_mem hx
  have hn' : n < rs.length := by rw [List.length_take] at hn; omega
  obtain ⟨d', k', -, h2'⟩ := (sealRecipients_ok hrs).2 n _ (List.getElem?_eq_getElem hn')
  rw [List.getElem_take]
  exact decryptCek_no_panic hP h2' hal halg hsk hrk (hP.pub_len ssk) hks

/-- C17.  Every recipient of a sealed envelope receives the message with its own private key, provided
that no entry before its own opens under its key to something other than the content key.  `rs` are the
recipient entries of the envelope. -/
theorem C17_every_recipient (P : Prims) (hP : Laws P) (r : Message.SealRand) (m : Message)
    (ssk : Bytes) (keys : Option (List (Option Bytes))) (t frm : Str)
    (hm : m.WF P.f64) (hc : Avoids m.didcomm.other classKeys) (hf : HeaderFixed m.jwm)
    (hj : m.jwm.typ ≠ .jws) (hfrom : m.didcomm.from = some frm)
    (hseal : m.sealJwe P r ssk keys = .ok t) :
    ∃ j rs, Jwe.ofText P.f64 t = some j ∧ Message.recipientsOf j = some rs ∧
      rs.length = m.didcomm.to.length ∧
      ∀ (i : Nat) (dest : Str) (rsk : Bytes) (ek vk : Option Bytes) (o : HOrd),
        m.didcomm.to[i]? = some dest → rsk.length = 32 →
        KeyFor P dest (Spec.keyAt keys i) (P.x25519Pub rsk) → KeyFor P frm ek (P.x25519Pub ssk) →
        (∀ x ∈ rs.take i, ∀ c, decryptCek P j rsk x ek = .ok c → c = cek) →
        Message.receive P o t (some rsk) ek vk =
          .ok { m with recipients := some rs, flatJwe := false, flatJws := false } :=
  every_recipient_reads P hP r m ssk keys t frm hm.reads (normJ_canon hm.canon) hc hf hj hfrom hseal

/-! ## C16, C18: the first or only recipient -/

/-- C16.  With explicit keys, the first (or only) recipient receives exactly the message that was
sealed: header, custom headers, body and attachments.  The recipient entries are added. -/
theorem C16_seal_receive (P : Prims) (hP : Laws P) (r : Message.SealRand) (o : HOrd) (m : Message)
    (ssk rsk : Bytes) (rest : List (Option Bytes)) (t frm : Str) (vk : Option Bytes)
    (hm : m.WF P.f64) (hc : Avoids m.didcomm.other classKeys) (hf : HeaderFixed m.jwm)
    (hj : m.jwm.typ ≠ .jws) (hfrom : m.didcomm.from = some frm) (hrk : rsk.length = 32)
    (hseal : m.sealJwe P r ssk (some (some (P.x25519Pub rsk) :: rest)) = .ok t) :
    ∃ rs, Message.receive P o t (some rsk) (some (P.x25519Pub ssk)) vk =
      .ok { m with recipients := some rs, flatJwe := false, flatJws := false } := by
  obtain ⟨j, rs, -, -, -, h⟩ := C17_every_recipient P hP r m ssk _ t frm hm hc hf hj hfrom hseal
  cases hto : m.didcomm.to with
  | nil => exact absurd hto hm.to
  | cons d l =>
    exact ⟨rs, h 0 d rsk _ vk o (by rw [hto]; rfl) hrk (.inl rfl) (.inl rfl) (by simp)⟩

/-- C18.  With keys resolved from the DIDs of the recipient and of the sender, the first (or only)
recipient receives exactly the message that was sealed. -/
theorem C18_seal_receive_resolved (P : Prims) (hP : Laws P) (r : Message.SealRand) (o : HOrd)
    (m : Message) (ssk rsk : Bytes) (t frm dest : Str) (vk : Option Bytes)
    (hm : m.WF P.f64) (hc : Avoids m.didcomm.other classKeys) (hf : HeaderFixed m.jwm)
    (hj : m.jwm.typ ≠ .jws) (hfrom : m.didcomm.from = some frm) (hrk : rsk.length = 32)
    (hto : m.didcomm.to.head? = some dest) (docS docR : DidDoc)
    (hs : P.resolve frm = some docS) (hs' : docS.keyFor c!"X25519" = some (P.x25519Pub ssk))
    (hr : P.resolve dest = some docR) (hr' : docR.keyFor c!"X25519" = some (P.x25519Pub rsk))
    (hseal : m.sealJwe P r ssk none = .ok t) :
    ∃ rs, Message.receive P o t (some rsk) none vk =
      .ok { m with recipients := some rs, flatJwe := false, flatJws := false } := by
  obtain ⟨j, rs, -, -, -, h⟩ := C17_every_recipient P hP r m ssk _ t frm hm hc hf hj hfrom hseal
  exact ⟨rs, h 0 dest rsk _ vk o (by rw [← hto, List.head?_eq_getElem?]) hrk
    (.inr ⟨rfl, docR, hr, hr'⟩) (.inr ⟨rfl, docS, hs, hs'⟩) (by simp)⟩

/-! ## Sealing succeeds -/

theorem encryptCek_total {P : Prims} (hP : Laws P) (ht : Spec.AeadTotal P) {r : RecRand} {m : Message}
    {sk cek pk : Bytes} {dest alg : Str} {key : Option Bytes} (hal : m.jwm.alg = some alg)
    (hs : alg ∈ Spec.supportedAlgs) (hsk : sk.length = 32) (hpk : pk.length = 32)
    (hk : KeyFor P dest key pk) : ∃ rc, encryptCek P r m sk dest cek key = .ok rc := by
  have hlen : (utf8 alg).length < 2 ^ 32 := by
    simp only [Spec.supportedAlgs, List.mem_cons, List.not_mem_nil, or_false] at hs
    rcases hs with rfl | rfl <;> decide
  obtain ⟨kek, hkek⟩ := (C37_kdf_fails_only_if_long P
    (P.x25519 r.epk pk ++ P.x25519 sk pk) alg none none).1.2 ⟨hlen, by decide, by decide⟩
  have hkl : kek.length = 32 := by
    simp only [concatKdf, Res.bind_eq_ok, Res.pure_eq, Res.ok.injEq] at hkek
    obtain ⟨_, -, rfl⟩ := hkek
    exact hP.sha_len _
  have hw : ∃ ka iv x, wrapCek P r alg kek cek = .ok (ka, iv, x) ∧ 16 ≤ x.length := by
    simp only [Spec.supportedAlgs, List.mem_cons, List.not_mem_nil, or_false] at hs
    unfold wrapCek
    rcases hs with rfl | rfl
    · obtain ⟨x, hx⟩ := (ht kek r.iv12 [] cek hkl).2 r.iv12_len
      rw [if_pos rfl]
      simp only [fromSlice, hkl, r.iv12_len, if_true, Res.bind_ok, hx, Res.ofOpt_some]
      exact ⟨_, _, x, rfl, by rw [hP.gcm_len hx]; omega⟩
    · obtain ⟨x, hx⟩ := (ht kek r.iv24 [] cek hkl).1 r.iv24_len
      rw [if_neg (by decide), if_pos rfl]
      simp only [fromSlice, hkl, r.iv24_len, if_true, Res.bind_ok, hx, Res.ofOpt_some]
      exact ⟨_, _, x, rfl, by rw [hP.xc_len hx]; omega⟩
  obtain ⟨ka, iv, x, hx, hxl⟩ := hw
  simp only [encryptCek, hal, Res.ofOpt_some, Res.bind_ok, sharedFor_ok hk r.epk_len hpk, generateKek,
    sharedFor_ok hk hsk hpk, hkek, hx, splitTag, hxl, if_true, Res.pure_eq]
  exact ⟨_, rfl⟩

theorem sealRecipients_total {P : Prims} (hP : Laws P) (ht : Spec.AeadTotal P) {r : Nat → RecRand}
    {m : Message} {sk cek : Bytes} {alg : Str} (hal : m.jwm.alg = some alg)
    (hs : alg ∈ Spec.supportedAlgs) (hsk : sk.length = 32) (l : List (Str × Option Bytes)) (i : Nat)
    (hl : ∀ d k, (d, k) ∈ l → ∃ pk, pk.length = 32 ∧ KeyFor P d k pk) :
    ∃ rs, Message.sealRecipients P r m sk cek i l = .ok rs := by
  induction l generalizing i with
  | nil => exact ⟨[], rfl⟩
  | cons p l ih =>
    obtain ⟨d, k⟩ := p
    obtain ⟨pk, h1, h2⟩ := hl d k (by simp)
    obtain ⟨x, hx⟩ := encryptCek_total (r := r i) (cek := cek) hP ht hal hs hsk h1 h2
    obtain ⟨xs, hxs⟩ := ih (i + 1) (fun d k h => hl d k (by simp [h]))
    exact ⟨x :: xs, by simp [Message.sealRecipients, hx, hxs]⟩

/-- C16.  Sealing succeeds for every request that is not one of those C15 rejects, if a 32-byte key is
known for every recipient (given or resolved) and the cipher does not fail. -/
theorem C16_seal_total (P : Prims) (hP : Laws P) (ht : Spec.AeadTotal P) (r : Message.SealRand)
    (m : Message) (ssk : Bytes) (keys : Option (List (Option Bytes))) (alg : Str)
    (hsk : ssk.length = 32) (hto : m.didcomm.to ≠ [])
    (hkeys : ∀ l, keys = some l → l.length = m.didcomm.to.length)
    (hflat : m.flatJwe = true → m.didcomm.to.length = 1)
    (hal : m.jwm.alg = some alg) (hs : alg ∈ Spec.supportedAlgs)
    (hpk : ∀ i dest, m.didcomm.to[i]? = some dest →
      ∃ pk, pk.length = 32 ∧ KeyFor P dest (Spec.keyAt keys i) pk) :
    ∃ t, m.sealJwe P r ssk keys = .ok t := by
  obtain ⟨pks, hp⟩ : ∃ pks, m.sealKeys keys = .ok pks := by
    cases keys with
    | none => exact ⟨_, rfl⟩
    | some l => exact ⟨l, by simp [Message.sealKeys, hkeys l rfl]⟩
  obtain ⟨rs, hrs⟩ := sealRecipients_total (r := r.perRec) (cek := cek) hP ht hal hs hsk
    (m.didcomm.to.zip pks) 0 (by
      intro d k hdk
      obtain ⟨i, hi, he⟩ := List.getElem_of_mem hdk
      have := zip_get (show (m.didcomm.to.zip pks)[i]? = some (d, k) by
        rw [List.getElem?_eq_getElem hi, he])
      obtain ⟨pk, h1, h2⟩ := hpk i d this.1
      exact ⟨pk, h1, by rw [sealKeys_get hp this.2]; exact h2⟩)
  have hpl : pks.length = m.didcomm.to.length := by
    unfold Message.sealKeys at hp
    split at hp
    · split at hp
      · cases hp
      · rename_i hl; rw [← Res.ok.inj hp]; simpa using hl
    · rw [← Res.ok.inj hp]; simp
  have hl := (sealRecipients_ok hrs).1
  rw [List.length_zip, hpl, Nat.min_self] at hl
  obtain ⟨a, ha⟩ : ∃ a, CryptoAlg.ofStr alg = .ok a := by
    simp only [Spec.supportedAlgs, List.mem_cons, List.not_mem_nil, or_false] at hs
    rcases hs with rfl | rfl
    · exact ⟨_, rfl⟩
    · exact ⟨.xc20p, rfl⟩
  have henc : ∀ msg aad, ∃ x, a.encryptor P r.iv.1 cek msg aad = .ok x ∧ 16 ≤ x.length := by
    intro msg aad
    have hn12 : ¬r.iv.1.length < 12 := by rw [r.iv.2]; decide
    rcases ofStr_ok ha with ⟨-, rfl⟩ | ⟨-, rfl⟩
    · obtain ⟨x, hx⟩ := (ht cek (r.iv.1.take 12) aad msg cek_length).2 (by simp [r.iv.2])
      refine ⟨x, ?_, by rw [hP.gcm_len hx]; omega⟩
      simp only [CryptoAlg.encryptor, checkNonce, hn12, if_false, fromSlice, cek_length, if_true,
        Res.bind_ok, hx, Res.ofOpt_some]
    · obtain ⟨x, hx⟩ := (ht cek r.iv.1 aad msg cek_length).1 r.iv.2
      refine ⟨x, ?_, by rw [hP.xc_len hx]; omega⟩
      simp [CryptoAlg.encryptor, checkNonce, fromSlice, cek_length, r.iv.2, hx]
  have h0 : m.didcomm.to.length ≠ 0 := by simpa using hto
  have hf1 : ¬(m.flatJwe = true ∧ m.didcomm.to.length > 1) := by
    rintro ⟨h1, h2⟩; rw [hflat h1] at h2; omega
  unfold Message.sealJwe
  rw [if_neg (by simp [hsk]), hp, Res.bind_ok, if_neg h0, if_neg hf1, hrs, Res.bind_ok]
  have hcr : crypterOfHeader { m with recipients := some rs }.jwm = .ok a := by
    simp only [crypterOfHeader, hal, ha]
  obtain ⟨x, hx, hxl⟩ := henc
    (utf8 ({ m with recipients := some rs }.text (r.ord.sub 1)))
    (utf8 (headerB64 (r.ord.sub 0) (Spec.publicHeader m)))
  simp only [hcr, Res.bind_ok, Message.encrypt, jweHeader_some, b64Decode_encode, Res.ofOpt_some]
  rw [hx, Res.bind_ok]
  simp only [splitTag, hxl, if_true, Res.bind_ok, Message.jweOf]
  by_cases hfl : m.flatJwe = true
  · obtain ⟨y, rfl⟩ := List.length_eq_one_iff.1 (hl.trans (hflat hfl))
    simp only [hfl, if_true, Res.bind_ok]
    exact ⟨_, rfl⟩
  · rw [if_neg hfl]
    exact ⟨_, rfl⟩

/-! ## The hypotheses can be met -/

/-- Fixed randomness. -/
def exampleRand : Message.SealRand where
  perRec _ := ⟨List.replicate 32 5, List.replicate 12 6, List.replicate 24 7, by decide, by decide, by decide⟩
  iv := ⟨List.replicate 24 8, by decide⟩
  ord := HOrd.id

/-- A message with every kind of content, to be encrypted for two recipients. -/
def exampleMessage : Message := { richMessage with jwm := richMessage.jwm.asEncrypted .xc20p }

theorem exampleMessage_wf (F : Str → Option Str) : exampleMessage.WF F :=
  have h := richMessage_wf F
  ⟨⟨(by intro k h; cases h), (by intro k h; cases h)⟩, h.other, h.to, h.recipients, h.canon, h.nums, h.depth⟩

theorem toy_total (resolve : Str → Option DidDoc) : Spec.AeadTotal (toy resolve) :=
  fun _ _ _ _ _ => ⟨fun _ => ⟨_, rfl⟩, fun _ => ⟨_, rfl⟩⟩

/-- Private keys of two recipients. -/
def exampleKey (i : Nat) : Bytes := List.replicate 32 (UInt8.ofNat i)

/-- Public keys of two recipients. -/
def exampleKeys : Option (List (Option Bytes)) :=
  some [some ((toy fun _ => none).x25519Pub (exampleKey 1)), some ((toy fun _ => none).x25519Pub (exampleKey 2))]

theorem exampleSealed : ∃ t, exampleMessage.sealJwe (toy fun _ => none) exampleRand (exampleKey 3) exampleKeys = .ok t :=
  have hl := toy_laws fun _ => none
  C16_seal_total (toy fun _ => none) hl (toy_total _) exampleRand exampleMessage
    (exampleKey 3) exampleKeys c!"ECDH-1PU+XC20PKW" (by decide) (by decide)
    (by intro l hl; rw [← Option.some.inj hl]; rfl) (by intro h; cases h) rfl (by decide) (by
      intro i dest hi
      match i with
      | 0 => exact ⟨_, hl.pub_len _, .inl rfl⟩
      | 1 => exact ⟨_, hl.pub_len _, .inl rfl⟩
      | n + 2 => cases hi)

/-- C16: an envelope to which the theorem applies. -/
example : ∃ t rs, exampleMessage.sealJwe (toy fun _ => none) exampleRand (exampleKey 3)
      (some [some ((toy fun _ => none).x25519Pub (exampleKey 1)),
        some ((toy fun _ => none).x25519Pub (exampleKey 2))]) = .ok t ∧
    Message.receive (toy fun _ => none) HOrd.rev t (some (exampleKey 1))
      (some ((toy fun _ => none).x25519Pub (exampleKey 3))) none =
        .ok { exampleMessage with recipients := some rs } := by
  have hl := toy_laws fun _ => none
  obtain ⟨t, ht⟩ := C16_seal_total (toy fun _ => none) hl (toy_total _) exampleRand exampleMessage
    (exampleKey 3) (some [some ((toy fun _ => none).x25519Pub (exampleKey 1)),
        some ((toy fun _ => none).x25519Pub (exampleKey 2))]) c!"ECDH-1PU+XC20PKW" (by decide) (by decide)
    (by intro l hl; rw [← Option.some.inj hl]; rfl) (by intro h; cases h) rfl (by decide) (by
      intro i dest hi
      match i with
      | 0 => exact ⟨_, hl.pub_len _, .inl rfl⟩
      | 1 => exact ⟨_, hl.pub_len _, .inl rfl⟩
      | n + 2 => cases hi)
  obtain ⟨rs, h⟩ := C16_seal_receive _ hl exampleRand HOrd.rev exampleMessage (exampleKey 3) (exampleKey 1)
    _ t c!"did:e:f" none (exampleMessage_wf _) (by decide)
    ⟨(by intro k h; cases h), (by intro k h; cases h)⟩ (by decide) rfl (by decide) ht
  exact ⟨t, rs, ht, h⟩

/-- C18: a resolver for which envelopes are made without explicit keys. -/
example : ∃ (res : Str → Option DidDoc) (t : Str), (∃ d, res c!"did:a:b" = some d ∧
      d.keyFor c!"X25519" = some ((toy res).x25519Pub (exampleKey 1))) ∧
    exampleMessage.sealJwe (toy res) exampleRand (exampleKey 3) none = .ok t := by
  let res : Str → Option DidDoc := fun _ =>
    some ⟨fun _ => some (toyPad (exampleKey 1)), fun _ => none⟩
  obtain ⟨t, ht⟩ := C16_seal_total (toy res) (toy_laws res) (toy_total res) exampleRand exampleMessage
    (exampleKey 3) none c!"ECDH-1PU+XC20PKW" (by decide) (by decide)
    (by intro l hl; cases hl) (by intro h; cases h) rfl (by decide) (by
      intro i dest hi
      exact ⟨_, toyPad_length _, .inr ⟨rfl, _, rfl, rfl⟩⟩)
  exact ⟨res, t, ⟨_, rfl, rfl⟩, ht⟩

theorem toyDec_ok {k n a c m : Bytes} (h : toyDec k n a c = some m) : m = c.take (c.length - 16) := by
  unfold toyDec at h
  simp only at h
  split at h
  · exact (Option.some.inj h).symm
  · cases h

/-- C17: both recipients of an envelope for two. -/
theorem exampleBoth : ∃ t rs, exampleMessage.sealJwe (toy fun _ => none) exampleRand (exampleKey 3)
      (some [some ((toy fun _ => none).x25519Pub (exampleKey 1)),
        some ((toy fun _ => none).x25519Pub (exampleKey 2))]) = .ok t ∧
    Message.receive (toy fun _ => none) HOrd.id t (some (exampleKey 1))
      (some ((toy fun _ => none).x25519Pub (exampleKey 3))) none =
        .ok { exampleMessage with recipients := some rs } ∧
    Message.receive (toy fun _ => none) HOrd.rev t (some (exampleKey 2))
      (some ((toy fun _ => none).x25519Pub (exampleKey 3))) none =
        .ok { exampleMessage with recipients := some rs } := by
  have hl := toy_laws fun _ => none
  obtain ⟨t, ht⟩ := C16_seal_total (toy fun _ => none) hl (toy_total _) exampleRand exampleMessage
    (exampleKey 3) (some [some ((toy fun _ => none).x25519Pub (exampleKey 1)),
        some ((toy fun _ => none).x25519Pub (exampleKey 2))]) c!"ECDH-1PU+XC20PKW" (by decide) (by decide)
    (by intro l hl; rw [← Option.some.inj hl]; rfl) (by intro h; cases h) rfl (by decide) (by
      intro i dest hi
      match i with
      | 0 => exact ⟨_, hl.pub_len _, .inl rfl⟩
      | 1 => exact ⟨_, hl.pub_len _, .inl rfl⟩
      | n + 2 => cases hi)
  obtain ⟨j, rs, hj, hrs, -, h⟩ := C17_every_recipient _ hl exampleRand exampleMessage (exampleKey 3)
    _ t c!"did:e:f" (exampleMessage_wf _) (by decide)
    ⟨(by intro k h; cases h), (by intro k h; cases h)⟩ (by decide) rfl ht
  refine ⟨t, rs, ht, h 0 c!"did:a:b" (exampleKey 1) _ none HOrd.id rfl (by decide) (.inl rfl) (.inl rfl)
    (by intro x hx; cases hx), h 1 c!"did:c:d" (exampleKey 2) _ none HOrd.rev rfl (by decide) (.inl rfl) (.inl rfl) ?_⟩
  obtain ⟨pks, rs', a, c, tag, alg, hp, hpl, hk, hto, hfl, hrs', hlen, hal, ha, he, -, hte⟩ := seal_ok ht
  have hj' := jwe_ofText_text (F := (toy fun _ => none).f64) (exampleRand.ord.sub 2)
    (envelope_wf (m := exampleMessage) (iv := exampleRand.iv.1) (c := c) (tag := tag)
      (exampleMessage_wf (toy fun _ => none).f64).jwm (sealRecipients_wf hrs'))
  rw [← hte, hj] at hj'
  obtain rfl := Option.some.inj hj'
  rw [envelope_recipients hfl] at hrs
  obtain rfl := Option.some.inj hrs
  intro x hx k hdk
  obtain ⟨n, hn, rfl⟩ := List.getElem_of_mem hx
  have hn' : n < rs'.length := by rw [List.length_take] at hn; omega
  rw [List.getElem_take] at hdk
  obtain ⟨d', k', -, h2⟩ := (sealRecipients_ok hrs').2 n _ (List.getElem?_eq_getElem hn')
  obtain ⟨alg', ze, kek, ka, iv, c', tag', ha', hz, hkk, hw, ht16, hek, -, -, hepk, ho, -⟩ := encryptCek_ok h2
  rw [decryptCek_of (alg := alg) (frm := c!"did:e:f") (envelope_alg hal) envelope_skid hek hepk ho
    (hl.pub_len _) (by decide)] at hdk
  simp only [Res.bind_eq_ok] at hdk
  obtain ⟨kek', -, hu⟩ := hdk
  have hlen' := (unwrap_wrap hl hw).2
  have hcek := (unwrap_wrap hl hw).1
  have : ∀ kek iv x, unwrapCek (toy fun _ => none) alg kek iv (c' ++ tag') = .ok x → x = c' := by
    intro kek iv x hx
    have hfin : ∀ k n, toyDec k n [] (c' ++ tag') = some x → x = c' := by
      intro k n h
      rw [toyDec_ok h, List.length_append, ht16, Nat.add_sub_cancel, List.take_left]
    unfold unwrapCek at hx
    split at hx
    · simp only [Res.bind_eq_ok, Res.ofOpt_eq_ok] at hx
      obtain ⟨_, -, _, -, hx⟩ := hx
      exact hfin _ _ hx
    · split at hx
      · simp only [Res.bind_eq_ok, Res.ofOpt_eq_ok] at hx
        obtain ⟨_, -, _, -, hx⟩ := hx
        exact hfin _ _ hx
      · cases hx
  rw [hal] at ha'
  obtain rfl := Option.some.inj ha'
  rw [this _ _ _ hu, this _ _ _ hcek]

/-! ## C19: serialization forms -/

theorem encList_length {α : Type} (e : HOrd → α → Json) (o : HOrd) (l : List α) :
    (encList e o l).length = l.length := by
  induction l generalizing o with
  | nil => rfl
  | cons a l ih => simp [encList, ih]

theorem encList_get {α : Type} (e : HOrd → α → Json) (o : HOrd) (l : List α) (i : Nat) (a : α)
    (h : l[i]? = some a) : ∃ o', (encList e o l)[i]? = some (e o' a) := by
  induction l generalizing o i with
  | nil => simp at h
  | cons b l ih =>
    cases i with
    | zero => exact ⟨o.sub 0, by simp at h; simp [encList, h]⟩
    | succ i =>
      obtain ⟨o', h'⟩ := ih (o.sub 1) i (by simpa using h)
      exact ⟨o', by simpa [encList] using h'⟩

/-- A recipient entry labelled with the given DID. -/
def Spec.LabelledHeader (did : Str) (h : Json) : Prop :=
  ∃ hs, h = .obj hs ∧ ∀ v, (c!"kid", v) ∈ hs ↔ v = .str did

theorem labelled_of {P : Prims} {r : RecRand} {m : Message} {sk cek : Bytes} {dest : Str}
    {key : Option Bytes} {rc : Recipient} (h : encryptCek P r m sk dest cek key = .ok rc) (o : HOrd) :
    Spec.LabelledHeader (didOfUrl dest) (encJwk o rc.header) := by
  have hwf := encryptCek_wf h
  obtain ⟨alg, ze, kek, ka, iv, c, tag, -, -, -, -, -, -, hk, -⟩ := encryptCek_ok h
  have hm : fieldVals c!"kid" (mapE o Json.str rc.header.other) = [] := by
    apply fieldVals_none
    intro p hp he
    obtain ⟨a, h1, -⟩ := mem_mapE.1 hp
    rw [he, HMap.mem_entries, hwf c!"kid" (by decide)] at h1
    cases h1
  refine ⟨_, rfl, ?_⟩
  intro v
  rw [← mem_fieldVals]
  have : fieldVals c!"kid" (optE c!"kty" .str rc.header.kty ++ (optE c!"use" .str rc.header.use_ ++
      (optE c!"crv" .str rc.header.crv ++
    ((c!"key_ops", .arr (rc.header.keyOps.map fun x => .str x.label)) ::
      (c!"alg", .str rc.header.alg.label) ::
      (optE c!"kid" .str rc.header.kid ++ (optE c!"epk" encEpk rc.header.epk ++
        mapE o .str rc.header.other)))))) = [.str (didOfUrl dest)] := by
    look
    simp [hm, hk]
  rw [this, List.mem_singleton]

/-- C19.  In flat form the recipient's header and wrapped key are members of the envelope, there is no
recipient list, and the header names the DID of the only recipient. -/
theorem C19_flat (P : Prims) (r : Message.SealRand) (m : Message) (ssk : Bytes)
    (keys : Option (List (Option Bytes))) (t : Str) (hfl : m.flatJwe = true)
    (hseal : m.sealJwe P r ssk keys = .ok t) :
    ∃ es dest hdr key, parseJson t = some (.obj es) ∧ m.didcomm.to = [dest] ∧
      (∀ v, (c!"header", v) ∈ es ↔ v = hdr) ∧ Spec.LabelledHeader (didOfUrl dest) hdr ∧
      (∀ v, (c!"encrypted_key", v) ∈ es ↔ v = .str key) ∧
      (∀ v, (c!"recipients", v) ∉ es) := by
  obtain ⟨pks, rs, a, c, tag, alg, hp, hpl, hk, hto, hflat, hrs, hl, hal, ha, he, -, rfl⟩ := seal_ok hseal
  obtain ⟨x, rfl⟩ := List.length_eq_one_iff.1 (hflat hfl)
  obtain ⟨dest, hd⟩ := List.length_eq_one_iff.1 hl.symm
  obtain ⟨d, k, h1, h2⟩ := (sealRecipients_ok hrs).2 0 x rfl
  have hdd := (zip_get h1).1
  rw [hd] at hdd
  obtain rfl : dest = d := Option.some.inj hdd
  refine ⟨_, dest, encJwk ((r.ord.sub 2).sub 2) x.header, x.encryptedKey, parse_jwe _ _, hd, ?_,
    labelled_of h2 _, ?_, ?_⟩
  all_goals intro v; rw [← mem_fieldVals]
  · rw [show fieldVals c!"header" _ = [encJwk ((r.ord.sub 2).sub 2) x.header] from by
      simp only [Spec.envelope, hfl, if_true, List.head?_cons, flatRecipient, recipientEntries]
      look, List.mem_singleton]
  · rw [show fieldVals c!"encrypted_key" _ = [.str x.encryptedKey] from by
      simp only [Spec.envelope, hfl, if_true, List.head?_cons, flatRecipient, recipientEntries]
      look, List.mem_singleton]
  · rw [show fieldVals c!"recipients" _ = [] from by
      simp only [Spec.envelope, hfl, if_true, List.head?_cons, flatRecipient, recipientEntries]
      look]
    simp

/-- C19.  In general form there is one recipient entry per `to`, in the same order, each labelled with
the recipient's DID and each with a wrapped key; the envelope itself has no such members. -/
theorem C19_general (P : Prims) (r : Message.SealRand) (m : Message) (ssk : Bytes)
    (keys : Option (List (Option Bytes))) (t : Str) (hfl : m.flatJwe = false)
    (hseal : m.sealJwe P r ssk keys = .ok t) :
    ∃ (es : List (Str × Json)) (l : List Json), parseJson t = some (.obj es) ∧ (∀ v, (c!"recipients", v) ∈ es ↔ v = .arr l) ∧
      l.length = m.didcomm.to.length ∧
      (∀ (i : Nat) (dest : Str), m.didcomm.to[i]? = some dest → ∃ hdr key,
        l[i]? = some (.obj [(c!"header", hdr), (c!"encrypted_key", .str key)]) ∧
        Spec.LabelledHeader (didOfUrl dest) hdr) ∧
      (∀ v, (c!"header", v) ∉ es) ∧ (∀ v, (c!"encrypted_key", v) ∉ es) := by
  obtain ⟨pks, rs, a, c, tag, alg, hp, hpl, hk, hto, hflat, hrs, hl, hal, ha, he, -, rfl⟩ := seal_ok hseal
  refine ⟨_, encList encRecipient ((r.ord.sub 2).sub 3) rs, parse_jwe _ _, ?_, ?_, ?_, ?_, ?_⟩
  · intro v
    rw [← mem_fieldVals, show fieldVals c!"recipients" _ =
        [.arr (encList encRecipient ((r.ord.sub 2).sub 3) rs)] from by
      simp only [Spec.envelope, hfl, flatRecipient]
      look, List.mem_singleton]
  · rw [encList_length, hl]
  · intro i dest hi
    have hil : i < rs.length := by
      rw [hl]; exact (List.getElem?_eq_some_iff.1 hi).1
    obtain ⟨d, k, h1, h2⟩ := (sealRecipients_ok hrs).2 i _ (List.getElem?_eq_getElem hil)
    have hdd := (zip_get h1).1
    rw [hi] at hdd
    obtain rfl := Option.some.inj hdd
    obtain ⟨o', ho⟩ := encList_get encRecipient ((r.ord.sub 2).sub 3) rs i _
      (List.getElem?_eq_getElem hil)
    exact ⟨encJwk o' rs[i].header, rs[i].encryptedKey, ho, labelled_of h2 _⟩
  all_goals intro v; rw [← mem_fieldVals]
  · rw [show fieldVals c!"header" _ = [] from by
      simp only [Spec.envelope, hfl, flatRecipient]
      look]
    simp
  · rw [show fieldVals c!"encrypted_key" _ = [] from by
      simp only [Spec.envelope, hfl, flatRecipient]
      look]
    simp

/-- C19.  `as_flat_jwe` chooses the flat form, `as_jwe` leaves the choice alone. -/
theorem C19_setup (P : Prims) (m : Message) (a : CryptoAlg) (key : Option Bytes) :
    (m.asFlatJwe P a key).flatJwe = true ∧ (m.asJwe P a key).flatJwe = m.flatJwe ∧
      ∀ uuid, (Message.new uuid).flatJwe = false := by
  have h : ∀ m : Message, (m.asJwe P a key).flatJwe = m.flatJwe := by
    intro m
    unfold Message.asJwe
    cases key with
    | some k => rfl
    | none =>
      cases m.didcomm.from with
      | none => rfl
      | some f => dsimp only; split <;> rfl
  exact ⟨h _, h _, fun _ => rfl⟩

/-! ## C23: what is public -/

/-- C23.  The protected header of a sealed envelope is the JWM header with the sender as `skid` and the
encrypted type (or forward); there is no unprotected header. -/
theorem C23_protected_header (P : Prims) (r : Message.SealRand) (m : Message) (ssk : Bytes)
    (keys : Option (List (Option Bytes))) (t : Str) (hw : m.jwm.WF)
    (hseal : m.sealJwe P r ssk keys = .ok t) :
    ∃ j h, Jwe.ofText P.f64 t = some j ∧ j.protected_ = some h ∧ j.unprotected = none ∧
      h.skid = m.didcomm.from ∧
      (m.jwm.typ = .forward → h.typ = .forward) ∧ (m.jwm.typ ≠ .forward → h.typ = .jwe) ∧
      h.alg = m.jwm.alg ∧ h.enc = m.jwm.enc ∧ h.kid = m.jwm.kid ∧ h.jku = m.jwm.jku ∧
      h.jwk = m.jwm.jwk ∧ h.epk = m.jwm.epk ∧ h.cty = m.jwm.cty := by
  obtain ⟨pks, rs, a, c, tag, alg, hp, hpl, hk, hto, hflat, hrs, hl, hal, ha, he, -, rfl⟩ := seal_ok hseal
  refine ⟨_, Spec.publicHeader m, jwe_ofText_text (F := P.f64) _ (envelope_wf hw (sealRecipients_wf hrs)),
    rfl, rfl, rfl, ?_, ?_, rfl, rfl, rfl, rfl, rfl, rfl, rfl⟩
  · intro h; simp [Spec.publicHeader, h]
  · intro h; simp [Spec.publicHeader, h]

theorem sealRecipients_congr {P : Prims} {r : Nat → RecRand} {m m' : Message} {sk cek : Bytes}
    (h : m.jwm = m'.jwm) (l : List (Str × Option Bytes)) (i : Nat) :
    Message.sealRecipients P r m sk cek i l = Message.sealRecipients P r m' sk cek i l := by
  induction l generalizing i with
  | nil => rfl
  | cons p l ih =>
    obtain ⟨d, k⟩ := p
    have he : encryptCek P (r i) m sk d cek k = encryptCek P (r i) m' sk d cek k := by
      simp only [encryptCek, h]
    simp only [Message.sealRecipients, he, ih]

/-- C23.  Nothing but the ciphertext and its tag depends on the body, the attachments, the custom
headers or any other DIDComm header than `from` and `to`: sealing two messages with the same JWM
header, `from`, `to` and form under the same randomness gives envelopes that differ only there. -/
theorem C23_only_ciphertext_depends (P : Prims) (r : Message.SealRand) (m m' : Message) (ssk : Bytes)
    (keys : Option (List (Option Bytes))) (t t' : Str) (h1 : m.jwm = m'.jwm)
    (h2 : m.didcomm.from = m'.didcomm.from) (h3 : m.didcomm.to = m'.didcomm.to)
    (h4 : m.flatJwe = m'.flatJwe)
    (hs : m.sealJwe P r ssk keys = .ok t) (hs' : m'.sealJwe P r ssk keys = .ok t') :
    ∃ es es', parseJson t = some (.obj es) ∧ parseJson t' = some (.obj es') ∧
      es.map Prod.fst = es'.map Prod.fst ∧
      ∀ k v, k ≠ c!"ciphertext" → k ≠ c!"tag" → ((k, v) ∈ es ↔ (k, v) ∈ es') := by
  obtain ⟨pks, rs, a, c, tag, alg, hp, hpl, hk, hto, hflat, hrs, hl, hal, ha, he, -, rfl⟩ := seal_ok hs
  obtain ⟨pks', rs', a', c', tag', alg', hp', -, -, -, -, hrs', -, -, -, -, -, rfl⟩ := seal_ok hs'
  have hpp : pks = pks' := by
    have : m.sealKeys keys = m'.sealKeys keys := by simp only [Message.sealKeys, h3]
    rw [this, hp'] at hp
    exact (Res.ok.inj hp).symm
  have hrr : rs = rs' := by
    rw [sealRecipients_congr h1, hpp, h3, hrs'] at hrs
    exact (Res.ok.inj hrs).symm
  subst hrr
  have hph : Spec.publicHeader m = Spec.publicHeader m' := by simp only [Spec.publicHeader, h1, h2]
  refine ⟨_, _, parse_jwe _ _, parse_jwe _ _, ?_, ?_⟩
  · simp only [Spec.envelope, hph, h4, List.map_append, List.map_cons, optE, List.map_nil]
  · intro k v hc ht
    simp only [Spec.envelope, hph, h4, List.mem_append, List.mem_cons, Prod.mk.injEq, hc, false_and,
      optE, ht, List.not_mem_nil]

/-- C39.  The `alg` written into the protected header of every sealed envelope is a label that `receive`
maps back to a cipher, namely the one that made the ciphertext. -/
theorem C39_sealed_label (P : Prims) (r : Message.SealRand) (m : Message) (ssk : Bytes)
    (keys : Option (List (Option Bytes))) (t : Str) (hw : m.jwm.WF)
    (hseal : m.sealJwe P r ssk keys = .ok t) :
    ∃ j alg a iv msg aad ct, Jwe.ofText P.f64 t = some j ∧ j.getAlg = some alg ∧
      CryptoAlg.ofStr alg = .ok a ∧ j.getIv = .ok iv ∧
      a.encryptor P iv cek msg aad = .ok ct ∧
      ∃ c g, j.getPayload = .ok c ∧ j.tag = some g ∧ ∃ tag, b64Decode g = some tag ∧ ct = c ++ tag := by
  obtain ⟨pks, rs, a, c, tag, alg, hp, hpl, hk, hto, hflat, hrs, hl, hal, ha, he, -, rfl⟩ := seal_ok hseal
  refine ⟨_, alg, a, _, _, _, _,
    jwe_ofText_text (F := P.f64) _ (envelope_wf hw (sealRecipients_wf hrs)), envelope_alg hal, ha, ?_, he,
    c, _, ?_, rfl, tag, b64Decode_encode _, rfl⟩
  · simp [Jwe.getIv, Spec.envelope, b64Decode_encode]
  · simp [Jwe.getPayload, Spec.envelope, b64Decode_encode]

/-- C23, C39: an envelope, and another of the same header, sender and recipients with other contents. -/
example : ∃ t t', exampleMessage.sealJwe (toy fun _ => none) exampleRand (exampleKey 3) exampleKeys = .ok t ∧
    { exampleMessage with body := .str c!"other" }.sealJwe (toy fun _ => none) exampleRand (exampleKey 3) exampleKeys =
      .ok t' ∧ exampleMessage.jwm.WF := by
  have hl := toy_laws fun _ => none
  obtain ⟨t, ht⟩ := exampleSealed
  obtain ⟨t', ht'⟩ := C16_seal_total (toy fun _ => none) hl (toy_total _) exampleRand
    { exampleMessage with body := .str c!"other" } (exampleKey 3) exampleKeys c!"ECDH-1PU+XC20PKW" (by decide)
    (by intro h; cases h) (by intro l hl; rw [← Option.some.inj hl]; rfl) (by intro h; cases h) rfl (by decide) (by
      intro i dest hi
      match i with
      | 0 => exact ⟨_, hl.pub_len _, .inl rfl⟩
      | 1 => exact ⟨_, hl.pub_len _, .inl rfl⟩
      | n + 2 => cases hi)
  exact ⟨t, t', ht, ht', (exampleMessage_wf (toy fun _ => none).f64).jwm⟩

end Verif
