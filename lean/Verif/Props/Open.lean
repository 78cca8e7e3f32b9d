import Verif.Props.Seal
import Verif.Lemma.Decode
import Verif.Lemma.Base64Spec

/-!
# What an accepted envelope guarantees, and what it does not

C20, C21, C22, C32, C33.
-/

namespace Verif

open Spec

/-! ## C20 -/

/-- The content cipher of `alg` opens `ct` under `key` to `pt`. -/
def Spec.ContentOpens (P : Prims) (alg : Str) (iv key ct aad pt : Bytes) : Prop :=
  (alg = c!"ECDH-1PU+XC20PKW" ∧ P.xcDec key iv aad ct = some pt) ∨
    (alg = c!"ECDH-1PU+A256KW" ∧ P.gcmDec key (iv.take 12) aad ct = some pt)

/-- The entry `rc` holds `key`, wrapped under the key derived from the recipient's secret `sk`, the
entry's ephemeral key and the sender's key `spk`. -/
def Spec.KeyUnwraps (P : Prims) (alg : Str) (sk spk : Bytes) (rc : Recipient) (key : Bytes) : Prop :=
  ∃ epk eph ivText iv tagText tag wrapped kek,
    rc.header.epk = some epk ∧ b64Decode epk.x = some eph ∧ eph.length = 32 ∧
    rc.header.other.get c!"iv" = some ivText ∧ b64Decode ivText = some iv ∧
    rc.header.other.get c!"tag" = some tagText ∧ b64Decode tagText = some tag ∧
    b64Decode rc.encryptedKey = some wrapped ∧
    concatKdf P (P.x25519 (sk.take 32) eph ++ P.x25519 (sk.take 32) (spk.take 32)) alg none none =
      .ok kek ∧
    ((alg = c!"ECDH-1PU+XC20PKW" ∧ P.xcDec kek iv [] (wrapped ++ tag) = some key) ∨
      (alg = c!"ECDH-1PU+A256KW" ∧ P.gcmDec kek iv [] (wrapped ++ tag) = some key))

theorem decryptCek_ok {P : Prims} {j : Jwe} {sk key : Bytes} {rc : Recipient} {ek : Option Bytes}
    (h : decryptCek P j sk rc ek = .ok key) :
    ∃ alg skid spk, j.getAlg = some alg ∧ j.getSkid = some skid ∧ KeyFor P skid ek spk ∧
      32 ≤ sk.length ∧ 32 ≤ spk.length ∧ Spec.KeyUnwraps P alg sk spk rc key := by
  simp only [decryptCek, Res.bind_eq_ok, Res.ofOpt_eq_ok] at h
  obtain ⟨alg, ha, skid, hs, epk, hepk, pub, hpub, pub', hlen, s, hsk, kek, hkek, iv, hiv, ivb, hivb,
    tag, htag, c, hc, t, ht, hu⟩ := h
  split at hlen
  · rename_i hl
    obtain rfl : pub = pub' := Res.ok.inj hlen
    simp only [generateKek, sharedFor, Res.bind_eq_ok, Res.pure_eq, Res.ok.injEq] at hkek
    obtain ⟨z, ⟨spk, hspk, s', hs', p, hp, rfl⟩, hkdf⟩ := hkek
    rw [publicKeyFor_iff] at hspk
    rw [arrayRef32_eq_ok] at hsk hs' hp
    obtain ⟨hsk32, rfl⟩ := hsk
    obtain ⟨-, rfl⟩ := hs'
    obtain ⟨hp32, rfl⟩ := hp
    refine ⟨alg, skid, spk, ha, hs, hspk, hsk32, hp32, epk, pub, iv, ivb, tag, t, c, kek, hepk, hpub, hl,
      hiv, hivb, htag, ht, hc, hkdf, ?_⟩
    unfold unwrapCek at hu
    split at hu
    · rename_i hx
      simp only [Res.bind_eq_ok, Res.ofOpt_eq_ok, fromSlice] at hu
      obtain ⟨n, hn, k, hk, hu⟩ := hu
      split at hn <;> cases hn
      split at hk <;> cases hk
      exact .inl ⟨hx, hu⟩
    · split at hu
      · rename_i hx
        simp only [Res.bind_eq_ok, Res.ofOpt_eq_ok, fromSlice] at hu
        obtain ⟨n, hn, k, hk, hu⟩ := hu
        split at hn <;> cases hn
        split at hk <;> cases hk
        exact .inr ⟨hx, hu⟩
      · cases hu
  · cases hlen

theorem firstKey_ok {P : Prims} {j : Jwe} {sk key : Bytes} {ek : Option Bytes} {rs : List Recipient}
    (h : Message.firstKey P j sk ek rs = .ok key) : ∃ rc ∈ rs, decryptCek P j sk rc ek = .ok key := by
  induction rs with
  | nil => cases h
  | cons x rs ih =>
    unfold Message.firstKey at h
    cases hd : decryptCek P j sk x ek with
    | ok k => rw [hd] at h; exact ⟨x, by simp, by rw [hd]; exact h⟩
    | err e =>
      rw [hd] at h
      obtain ⟨rc, h1, h2⟩ := ih h
      exact ⟨rc, by simp [h1], h2⟩
    | panic => rw [hd] at h; cases h

theorem decrypter_ok {P : Prims} {alg : Str} {a : CryptoAlg} (ha : CryptoAlg.ofStr alg = .ok a)
    {iv key ct aad pt : Bytes} (h : a.decrypter P iv key ct aad = .ok pt) :
    Spec.ContentOpens P alg iv key ct aad pt := by
  rcases ofStr_ok ha with ⟨h1, rfl⟩ | ⟨h1, rfl⟩
  · simp only [CryptoAlg.decrypter, Res.bind_eq_ok, Res.ofOpt_eq_ok, fromSlice] at h
    obtain ⟨_, -, k, hk, h⟩ := h
    split at hk <;> cases hk
    exact .inr ⟨h1, h⟩
  · simp only [CryptoAlg.decrypter, Res.bind_eq_ok, Res.ofOpt_eq_ok, fromSlice] at h
    obtain ⟨_, -, k, hk, n, hn, h⟩ := h
    split at hk <;> cases hk
    split at hn <;> cases hn
    exact .inl ⟨h1, h⟩

theorem plugErr_ok {α : Type} {x : Res α} {a : α} (h : Message.plugErr x = .ok a) : x = .ok a := by
  cases x <;> simp_all [Message.plugErr]

/-- What a successful `decrypt` means. -/
theorem decrypt_ok {P : Prims} {o : HOrd} {b key : Bytes} {d : SymMethod} {m : Message}
    (h : Message.decrypt P o b d key = .ok m) :
    ∃ j hdr tagText tag c iv pt, (parseBytes b).bind (decJwe P.f64) = some j ∧
      j.protected_ = some hdr ∧ j.tag = some tagText ∧ b64Decode tagText = some tag ∧
      b64Decode j.ciphertext = some c ∧ b64Decode j.iv = some iv ∧
      d iv key (c ++ tag) (utf8 (headerB64 o hdr)) = .ok pt ∧ Message.ofBytes P.f64 pt = some m := by
  simp only [Message.decrypt, Res.bind_eq_ok, Res.ofOpt_eq_ok, Jwe.getPayload, Jwe.getIv,
    Res.unwrap_eq_ok] at h
  obtain ⟨j, hj, hdr, hh, tt, htt, c, hc, t, ht, iv, hiv, pt, hpt, hm⟩ := h
  exact ⟨j, hdr, tt, t, c, iv, pt, hj, hh, htt, ht, hc, hiv, plugErr_ok hpt, hm⟩

/-- C20.  If `receive` accepts a text classified as encrypted, then the content was opened with the
protected header as associated data, under a key that one of the recipient entries holds for this
recipient and this sender (or, if there are no entries, under the static shared secret of both); and
unless the content is again a signed message, the result is exactly what the plaintext says, with the numbers of the body
as they are read once more. -/
theorem C20_accepted_was_authenticated (P : Prims) (hP : Laws P) (o : HOrd) (s : Str)
    (sk ek vk : Option Bytes) (m : Message) (ht : Message.messageType P s = .ok .jwe)
    (h : Message.receive P o s sk ek vk = .ok m) :
    ∃ k j alg hdr key, sk = some k ∧ Jwe.ofText P.f64 s = some j ∧ j.getAlg = some alg ∧
      j.protected_ = some hdr ∧
      ((∃ rs rc skid spk, Message.recipientsOf j = some rs ∧ rc ∈ rs ∧ j.getSkid = some skid ∧
          KeyFor P skid ek spk ∧ Spec.KeyUnwraps P alg k spk rc key) ∨
        (Message.recipientsOf j = none ∧ ∃ spk,
          (ek = some spk ∨ ∃ skid, j.getSkid = some skid ∧ KeyFor P skid ek spk) ∧
          key = P.x25519 (k.take 32) (spk.take 32))) ∧
      ∃ c tagText tag iv pt m0 oh om, b64Decode j.ciphertext = some c ∧ j.tag = some tagText ∧
        b64Decode tagText = some tag ∧ b64Decode j.iv = some iv ∧
        Spec.ContentOpens P alg iv key (c ++ tag) (utf8 (headerB64 oh hdr)) pt ∧
        Message.ofBytes P.f64 pt = some m0 ∧
        (Message.messageType P (m0.text om) ≠ .ok .jws → Spec.Reread P m0 m) := by
  simp only [Message.receive, Res.bind_eq_ok, Res.ofOpt_eq_ok] at h
  obtain ⟨cur, hcur, cur', hcur', hm⟩ := h
  simp only [Message.decryptStep, ht, Res.bind_ok, if_true, Res.bind_eq_ok, Res.ofOpt_eq_ok] at hcur
  obtain ⟨k, hk, hr⟩ := hcur
  simp only [Message.receiveJwe, Res.bind_eq_ok, Res.ofOpt_eq_ok, Res.pure_eq, Res.ok.injEq] at hr
  obtain ⟨j, hj, alg, halg, spk, hspk, k', hk', p, hp, a, ha, key, hkey, m0, hm0, rfl⟩ := hr
  obtain ⟨j', hdr, tagText, tag, c, iv, pt, hj', hh, htt, htag, hc, hiv, hpt, hm0⟩ := decrypt_ok hm0
  have hjj : j' = j := by
    rw [parseBytes_utf8] at hj'
    have : Jwe.ofText P.f64 s = some j' := by
      unfold Jwe.ofText
      cases hps : parseJson s with
      | none => rw [hps] at hj'; cases hj'
      | some x => rw [hps] at hj'; exact hj'
    rw [this] at hj
    exact Option.some.inj hj
  subst hjj
  rw [arrayRef32_eq_ok] at hk' hp
  obtain ⟨-, rfl⟩ := hk'
  obtain ⟨-, rfl⟩ := hp
  have hsp : ek = some spk ∨ ∃ skid, j'.getSkid = some skid ∧ KeyFor P skid ek spk := by
    cases ek with
    | some e => exact .inl (by rw [Res.ok.inj hspk])
    | none =>
      simp only [Message.senderKey, Res.bind_eq_ok, Res.ofOpt_eq_ok] at hspk
      obtain ⟨skid, h1, d, h2, h3⟩ := hspk
      exact .inr ⟨skid, h1, .inr ⟨rfl, d, h2, h3⟩⟩
  refine ⟨k, j', alg, hdr, key, hk, hj, halg, hh, ?_, c, tagText, tag, iv, pt, m0, (o.sub 0).sub 0,
    (o.sub 0).sub 1, hc, htt, htag, hiv, decrypter_ok ha hpt, hm0, ?_⟩
  · unfold Message.contentKey at hkey
    split at hkey
    · rename_i l hl
      obtain ⟨rc, h1, h2⟩ := firstKey_ok hkey
      obtain ⟨alg', skid, spk', ha', hs', hk'', -, -, hu⟩ := decryptCek_ok h2
      rw [halg] at ha'
      obtain rfl := Option.some.inj ha'
      exact .inl ⟨l, rc, skid, spk', hl, h1, hs', hk'', hu⟩
    · rename_i hl
      exact .inr ⟨hl, spk, hsp, (Res.ok.inj hkey).symm⟩
  · intro hne
    simp only [Message.verifyStep, Res.bind_eq_ok] at hcur'
    obtain ⟨ty, hty, hcur'⟩ := hcur'
    rw [if_neg (by rintro rfl; exact hne hty)] at hcur'
    obtain rfl := Res.ok.inj hcur'
    have hb : ∃ x, parseBytes pt = some x ∧ decMessage P.f64 x = some m0 := by
      unfold Message.ofBytes at hm0
      rwa [Option.bind_eq_some_iff] at hm0
    obtain ⟨x, hx, hxm⟩ := hb
    have hxn : NumsOk x := by
      unfold parseBytes at hx
      split at hx
      · exact parseJson_numsOk hx
      · cases hx
    exact (reread_iff hP _ hxm hxn).1 hm

/-! ## C21 -/

theorem decJwe_protected_wf {F : Str → Option Str} {x : Json} {j : Jwe} {h : JwmHeader}
    (hj : decJwe F x = some j) (hp : j.protected_ = some h) : h.WF := by
  simp only [decJwe, Option.bind_eq_bind, Option.bind_eq_some_iff, Option.pure_def,
    Option.some.injEq] at hj
  obtain ⟨es, -, pr, hpr, _, -, _, -, _, -, _, -, _, -, -, -, rfl⟩ := hj
  simp only at hp
  subst hp
  unfold dfltField at hpr
  split at hpr
  · cases hpr
  · exact decHeaderB64_wf hpr
  · cases hpr

theorem headerB64_inj {o o' : HOrd} {h h' : JwmHeader} (hw : h.WF) (hw' : h'.WF)
    (he : headerB64 o h = headerB64 o' h') : h = h' := by
  have h1 := decHeaderB64_enc o hw
  have h2 := decHeaderB64_enc o' hw'
  rw [he, h2] at h1
  exact (Option.some.inj (Option.some.inj h1)).symm

/-- C21.  If two envelopes with the same iv, ciphertext and tag are both decrypted under the same key,
then their protected headers hold the same values, or the cipher opened one ciphertext under one nonce
and key with two different associated data (which is a forgery). -/
theorem C21_header_tampering (P : Prims) (o o' : HOrd) (b b' key : Bytes) (d : SymMethod)
    (m m' : Message) (j j' : Jwe) (hdr hdr' : JwmHeader)
    (hj : (parseBytes b).bind (decJwe P.f64) = some j)
    (hj' : (parseBytes b').bind (decJwe P.f64) = some j')
    (hp : j.protected_ = some hdr) (hp' : j'.protected_ = some hdr')
    (hiv : j.iv = j'.iv) (hc : j.ciphertext = j'.ciphertext) (ht : j.tag = j'.tag)
    (h : Message.decrypt P o b d key = .ok m) (h' : Message.decrypt P o' b' d key = .ok m') :
    hdr = hdr' ∨ ∃ iv ct aad aad' pt pt', aad ≠ aad' ∧ d iv key ct aad = .ok pt ∧
      d iv key ct aad' = .ok pt' := by
  obtain ⟨j1, h1, tt, t, c, iv, pt, e1, e2, e3, e4, e5, e6, e7, -⟩ := decrypt_ok h
  obtain ⟨j2, h2, tt', t', c', iv', pt', f1, f2, f3, f4, f5, f6, f7, -⟩ := decrypt_ok h'
  rw [hj] at e1
  obtain rfl := Option.some.inj e1
  rw [hj'] at f1
  obtain rfl := Option.some.inj f1
  rw [hp] at e2
  obtain rfl := Option.some.inj e2
  rw [hp'] at f2
  obtain rfl := Option.some.inj f2
  rw [ht, f3] at e3
  obtain rfl := Option.some.inj e3
  rw [f4] at e4
  obtain rfl := Option.some.inj e4
  rw [hc, f5] at e5
  obtain rfl := Option.some.inj e5
  rw [hiv, f6] at e6
  obtain rfl := Option.some.inj e6
  by_cases haad : utf8 (headerB64 o hdr) = utf8 (headerB64 o' hdr')
  · refine .inl (headerB64_inj ?_ ?_ (utf8_injective haad))
    · obtain ⟨x, -, hx⟩ := Option.bind_eq_some_iff.1 hj
      exact decJwe_protected_wf hx hp
    · obtain ⟨x, -, hx⟩ := Option.bind_eq_some_iff.1 hj'
      exact decJwe_protected_wf hx hp'
  · exact .inr ⟨iv', c' ++ t', _, _, pt, pt', haad, e7, f7⟩

/-- C21 for the ciphers that the code selects by the names in headers: the forgery would be one of the AEAD. -/
theorem C21_header_tampering_aead (P : Prims) (o o' : HOrd) (b b' key : Bytes) (alg : Str) (a : CryptoAlg)
    (ha : CryptoAlg.ofStr alg = .ok a) (m m' : Message) (j j' : Jwe) (hdr hdr' : JwmHeader)
    (hj : (parseBytes b).bind (decJwe P.f64) = some j)
    (hj' : (parseBytes b').bind (decJwe P.f64) = some j')
    (hp : j.protected_ = some hdr) (hp' : j'.protected_ = some hdr')
    (hiv : j.iv = j'.iv) (hc : j.ciphertext = j'.ciphertext) (ht : j.tag = j'.tag)
    (h : Message.decrypt P o b (a.decrypter P) key = .ok m) (h' : Message.decrypt P o' b' (a.decrypter P) key = .ok m') :
    hdr = hdr' ∨ ∃ iv ct aad aad' pt pt', aad ≠ aad' ∧
      (P.xcDec key iv aad ct = some pt ∧ P.xcDec key iv aad' ct = some pt' ∨
        P.gcmDec key (iv.take 12) aad ct = some pt ∧ P.gcmDec key (iv.take 12) aad' ct = some pt') := by
  rcases C21_header_tampering P o o' b b' key _ m m' j j' hdr hdr' hj hj' hp hp' hiv hc ht h h' with
    h | ⟨iv, ct, aad, aad', pt, pt', hne, h1, h2⟩
  · exact .inl h
  · refine .inr ⟨iv, ct, aad, aad', pt, pt', hne, ?_⟩
    rcases decrypter_ok ha h1 with ⟨e1, h1⟩ | ⟨e1, h1⟩ <;> rcases decrypter_ok ha h2 with ⟨e2, h2⟩ | ⟨e2, h2⟩
    · exact .inl ⟨h1, h2⟩
    · rw [e1] at e2; exact absurd e2 (by decide)
    · rw [e1] at e2; exact absurd e2 (by decide)
    · exact .inr ⟨h1, h2⟩

/-! ## C22 -/

/-- The decoded header is all that matters. -/
theorem decJwe_protected_congr {F : Str → Option Str} {p p' : Str} (es : List (Str × Json))
    (h : decHeaderB64 (.str p) = decHeaderB64 (.str p')) :
    decJwe F (.obj ((c!"protected", .str p) :: es)) = decJwe F (.obj ((c!"protected", .str p') :: es)) := by
  have h1 : dfltField none decHeaderB64 c!"protected" ((c!"protected", .str p) :: es) =
      dfltField none decHeaderB64 c!"protected" ((c!"protected", .str p') :: es) := by
    unfold dfltField
    rw [fieldVals_cons_self, fieldVals_cons_self]
    cases fieldVals c!"protected" es with
    | nil => exact h
    | cons a l => rfl
  have hne : ∀ k, k ≠ c!"protected" → ∀ q : Str, fieldVals k ((c!"protected", .str q) :: es) =
      fieldVals k es := fun k hk q => fieldVals_cons_ne (Ne.symm hk) _ _
  have hf : ∀ q : Str, (((c!"protected", Json.str q) :: es).filter fun p => !jweKeys.contains p.1) =
      es.filter fun p => !jweKeys.contains p.1 := by
    intro q
    rw [List.filter_cons_of_neg]
    have : jweKeys.contains c!"protected" = true := by decide
    simp only [this]
    decide
  simp only [decJwe, mapEntries, Option.bind_eq_bind, Option.bind_some, h1, optField, reqField, hne c!"unprotected" (by decide),
    hne c!"recipients" (by decide), hne c!"ciphertext" (by decide), hne c!"iv" (by decide),
    hne c!"tag" (by decide), hf]

/-- `receive` looks at an envelope only through its class and its decoded form. -/
theorem receive_congr {P : Prims} {o : HOrd} {s s' : Str} {sk ek vk : Option Bytes}
    (h1 : Message.messageType P s = .ok .jwe) (h2 : Message.messageType P s' = .ok .jwe)
    (h : Jwe.ofText P.f64 s = Jwe.ofText P.f64 s') :
    Message.receive P o s sk ek vk = Message.receive P o s' sk ek vk := by
  have hb : ∀ s, (parseBytes (utf8 s)).bind (decJwe P.f64) = Jwe.ofText P.f64 s := by
    intro s
    rw [parseBytes_utf8]
    unfold Jwe.ofText
    cases parseJson s <;> rfl
  have hd : ∀ o k, Message.receiveJwe P o s k ek = Message.receiveJwe P o s' k ek := by
    intro o k
    have : ∀ o d key, Message.decrypt P o (utf8 s) d key = Message.decrypt P o (utf8 s') d key := by
      intro o d key
      unfold Message.decrypt
      rw [hb, hb, h]
    simp only [Message.receiveJwe, h, this]
  simp only [Message.receive, Message.decryptStep, h1, h2, Res.bind_ok, if_true, hd]

theorem document_ws {j : Json} (h : NumsOk j) : parseJson (' ' :: printJson j) = some j :=
  parseJson_iff.2 ⟨[' '], printJson j, [], by intro c hc; simp at hc; simp [hc], print_text h, ws_nil,
    by simp⟩

/-- C22 fails: for every sealed envelope there is one whose transmitted protected header has different
bytes and which every recipient treats exactly alike. -/
theorem C22_header_bytes_violated (P : Prims) (r : Message.SealRand) (m : Message) (ssk : Bytes)
    (keys : Option (List (Option Bytes))) (t : Str) (hw : m.jwm.WF)
    (hseal : m.sealJwe P r ssk keys = .ok t) :
    ∃ t' p p' es, parseJson t = some (.obj ((c!"protected", .str p) :: es)) ∧
      parseJson t' = some (.obj ((c!"protected", .str p') :: es)) ∧ p ≠ p' ∧
      b64Decode p ≠ b64Decode p' ∧
      ∀ o sk ek vk, Message.receive P o t' sk ek vk = Message.receive P o t sk ek vk := by
  obtain ⟨pks, rs, a, c, tag, alg, hp, hpl, hk, hto, hflat, hrs, hl, hal, ha, he, -, rfl⟩ := seal_ok hseal
  have hwf := envelope_wf (m := m) (iv := r.iv.1) (c := c) (tag := tag) hw (sealRecipients_wf hrs)
  have hpr : (Spec.envelope m rs r.iv.1 c tag).protected_ = some (Spec.publicHeader m) := rfl
  have hdec := decHeaderB64_enc ((r.ord.sub 2).sub 0) (publicHeader_wf hw)
  generalize Spec.envelope m rs r.iv.1 c tag = j at *
  generalize Spec.publicHeader m = h at *
  generalize r.ord.sub 2 = o at *
  obtain ⟨es, hes⟩ : ∃ es, encJwe o j = .obj ((c!"protected", .str (headerB64 (o.sub 0) h)) :: es) :=
    ⟨_, by unfold encJwe; rw [hpr]; rfl⟩
  obtain ⟨q1, q2, q3⟩ := presence_jwe o j hes
  have hnums := nums_jwe o j
  have hparse := parse_jwe o j
  have hoft : Jwe.ofText P.f64 (j.text o) = decJwe P.f64 (encJwe o j) := by
    unfold Jwe.ofText; rw [hparse]
  have hmt := messageType_jwe (P := P) o j
  generalize j.text o = t at *
  rw [hes] at hnums hparse hoft
  have hne : printJson (encJwm (o.sub 0) h) ≠ ' ' :: printJson (encJwm (o.sub 0) h) := by
    intro h; have := congrArg List.length h; simp at this
  have hd1 : b64Decode (headerB64 (o.sub 0) h) = some (utf8 (printJson (encJwm (o.sub 0) h))) :=
    b64Decode_encode _
  have hd2 : b64Decode (b64Encode (utf8 (' ' :: printJson (encJwm (o.sub 0) h)))) =
      some (utf8 (' ' :: printJson (encJwm (o.sub 0) h))) := b64Decode_encode _
  have hdd : b64Decode (headerB64 (o.sub 0) h) ≠
      b64Decode (b64Encode (utf8 (' ' :: printJson (encJwm (o.sub 0) h)))) := by
    rw [hd1, hd2]
    intro he
    exact hne (utf8_injective (Option.some.inj he))
  have hhd : decHeaderB64 (.str (headerB64 (o.sub 0) h)) =
      decHeaderB64 (.str (b64Encode (utf8 (' ' :: printJson (encJwm (o.sub 0) h))))) := by
    simp only [decHeaderB64, hd1, hd2, Option.bind_some, decHeaderBytes, parseBytes_utf8,
      parseJson_print (nums_jwm (o.sub 0) h), document_ws (nums_jwm (o.sub 0) h)]
  generalize headerB64 (o.sub 0) h = p at *
  generalize b64Encode (utf8 (' ' :: printJson (encJwm (o.sub 0) h))) = p' at *
  have hp' : parseJson (printJson (.obj ((c!"protected", .str p') :: es))) =
      some (.obj ((c!"protected", .str p') :: es)) := by
    apply parseJson_print
    simpa [NumsOk, NumsOkM] using hnums
  refine ⟨_, p, p', es, hparse, hp', fun h => hdd (by rw [h]), hdd, ?_⟩
  intro o' sk ek vk
  have hpk : ∀ k, k ≠ c!"protected" → ∀ q : Str,
      Message.presence k ((c!"protected", Json.str q) :: es) = Message.presence k es := by
    intro k hk q
    simp only [Message.presence, optField]
    rw [fieldVals_cons_ne (Ne.symm hk)]
  rw [hpk _ (by decide)] at q1 q2 q3
  refine receive_congr ?_ hmt ?_
  · rw [messageType_obj P hp' ((hpk _ (by decide) _).trans q1) ((hpk _ (by decide) _).trans q2)
      ((hpk _ (by decide) _).trans q3)]
    rfl
  · rw [hoft, decJwe_protected_congr es hhd]
    unfold Jwe.ofText
    rw [hp']

theorem b64Encode_no_dot (b : Bytes) : '.' ∉ b64Encode b := fun h =>
  absurd ((isBase64Url_encode b).1 _ h) (by decide)

theorem split_dot {a b p q : Str} (ha : '.' ∉ a) (hb : '.' ∉ b) (h : a ++ '.' :: p = b ++ '.' :: q) :
    a = b ∧ p = q := by
  induction a generalizing b with
  | nil =>
    cases b with
    | nil => exact ⟨rfl, (List.cons.inj h).2⟩
    | cons y b => exact absurd (List.mem_cons_self) ((List.cons.inj h).1 ▸ hb)
  | cons x a ih =>
    cases b with
    | nil => exact absurd (List.mem_cons_self) ((List.cons.inj h).1 ▸ ha)
    | cons y b =>
      obtain ⟨h1, h2⟩ := List.cons.inj h
      obtain ⟨h3, h4⟩ := ih (fun hm => ha (List.mem_cons_of_mem _ hm))
        (fun hm => hb (List.mem_cons_of_mem _ hm)) h2
      exact ⟨by rw [h1, h3], h4⟩

theorem signingInput_inj {a b p q : Str} (ha : '.' ∉ a) (hb : '.' ∉ b)
    (h : Message.signingInput a p = Message.signingInput b q) : a = b ∧ p = q :=
  split_dot ha hb (utf8_injective h)

/-- C22, what holds: the values of all header fields are bound.  Headers that differ in any field give
different associated data, for all iteration orders (also for signatures, which sign the same text). -/
theorem C22_header_values_partial (o o' : HOrd) (h h' : JwmHeader) (hw : h.WF) (hw' : h'.WF)
    (hne : h ≠ h') : utf8 (headerB64 o h) ≠ utf8 (headerB64 o' h') ∧
      ∀ p p', Message.signingInput (headerB64 o h) p ≠ Message.signingInput (headerB64 o' h') p' := by
  have hb : headerB64 o h ≠ headerB64 o' h' := fun he => hne (headerB64_inj hw hw' he)
  refine ⟨fun he => hb (utf8_injective he), fun p p' he => ?_⟩
  exact hb (signingInput_inj (b64Encode_no_dot _) (b64Encode_no_dot _) he).1

/-! ## C32, C33: the constant content key -/

/-- The first 32 bytes of the key stream of ChaCha20 with key, nonce and counter zero (RFC 8439, appendix A.1, first
test vector). -/
def Spec.zeroStream : Bytes :=
  [0x76, 0xb8, 0xe0, 0xad, 0xa0, 0xf1, 0x3d, 0x90, 0x40, 0x5d, 0x6a, 0xe5, 0x53, 0x86, 0xbd, 0x28,
   0xbd, 0xd2, 0x19, 0xb8, 0xa0, 0x8d, 0xed, 0x1a, 0xa8, 0x36, 0xef, 0xcc, 0x8b, 0x77, 0x0d, 0xc7]

/-- C32 fails: one published constant opens every envelope ever sealed, without any private key. -/
theorem C32_universal_key_violated (P : Prims) (hP : Laws P) (r : Message.SealRand) (o : HOrd) (m : Message) (ssk : Bytes)
    (keys : Option (List (Option Bytes))) (t : Str) (hm : m.WF P.f64) (hf : HeaderFixed m.jwm)
    (hseal : m.sealJwe P r ssk keys = .ok t) :
    ∃ a rs, crypterOfHeader m.jwm = .ok a ∧
      Message.decrypt P o (utf8 t) (a.decrypter P) Spec.zeroStream =
        .ok { m with recipients := some rs, flatJwe := false, flatJws := false } := by
  rw [show Spec.zeroStream = cek from cek_eq.symm]
  obtain ⟨pks, rs, a, c, tag, alg, hp, hpl, hk, hto, hfl, hrs, hl, hal, ha, he, -, rfl⟩ := seal_ok hseal
  have hr := sealRecipients_wf hrs
  have hwr : Message.WF P.f64 { m with recipients := some rs } :=
    ⟨hm.jwm, hm.other, hm.to, by intro l hl; rw [← Option.some.inj hl]; exact hr, hm.canon, hm.nums,
      hm.depth⟩
  refine ⟨a, rs, by simp only [crypterOfHeader, hal, ha], ?_⟩
  exact decrypt_envelope hP (ofStr_ne_cbc ha) hwr hf hr he

theorem encryptor_total {P : Prims} (hP : Laws P) (ht : Spec.AeadTotal P) {alg : Str} {a : CryptoAlg}
    (ha : CryptoAlg.ofStr alg = .ok a) (iv : Iv) (msg aad : Bytes) :
    ∃ x, a.encryptor P iv.1 cek msg aad = .ok x ∧ 16 ≤ x.length := by
  have hn12 : ¬iv.1.length < 12 := by rw [iv.2]; decide
  rcases ofStr_ok ha with ⟨-, rfl⟩ | ⟨-, rfl⟩
  · obtain ⟨x, hx⟩ := (ht cek (iv.1.take 12) aad msg cek_length).2 (by simp [iv.2])
    refine ⟨x, ?_, by rw [hP.gcm_len hx]; omega⟩
    simp only [CryptoAlg.encryptor, checkNonce, hn12, if_false, fromSlice, cek_length, if_true,
      Res.bind_ok, hx, Res.ofOpt_some]
  · obtain ⟨x, hx⟩ := (ht cek iv.1 aad msg cek_length).1 iv.2
    refine ⟨x, ?_, by rw [hP.xc_len hx]; omega⟩
    simp [CryptoAlg.encryptor, checkNonce, fromSlice, cek_length, iv.2, hx]

/-- C33 fails: from one envelope sealed by the owner of `ssk` for a recipient, anyone can make, without any private key,
an envelope with any other message that this recipient receives as coming from the owner of `ssk`.  `j` is the observed envelope, `t'` the forged one; it is made by the public function
`encrypt` from the observed recipient entries and the constant.  The conditions on the recipient are
those under which it can receive the observed envelope (C17). -/
theorem C33_forgery_violated (P : Prims) (hP : Laws P) (ht : Spec.AeadTotal P) (r : Message.SealRand) (m : Message)
    (ssk : Bytes) (keys : Option (List (Option Bytes))) (t frm : Str) (hm : m.WF P.f64) (hfrom : m.didcomm.from = some frm)
    (hseal : m.sealJwe P r ssk keys = .ok t) :
    ∃ j rs a, Jwe.ofText P.f64 t = some j ∧ Message.recipientsOf j = some rs ∧
      crypterOfHeader m.jwm = .ok a ∧
      ∀ (m' : Message) (o' : HOrd) (iv' : Iv), m'.WF P.f64 →
        Avoids m'.didcomm.other classKeys → HeaderFixed m'.jwm → m'.jwm.typ ≠ .jws →
        m'.didcomm.from = j.getSkid → m'.jwm.alg = j.getAlg → m'.flatJwe = false →
        ∃ t', Message.encrypt o' iv' { m' with recipients := some rs } (a.encryptor P) Spec.zeroStream = .ok t' ∧
        ∀ (i : Nat) (dest : Str) (rsk : Bytes) (ek vk : Option Bytes) (o : HOrd),
          m.didcomm.to[i]? = some dest → rsk.length = 32 →
          KeyFor P dest (Spec.keyAt keys i) (P.x25519Pub rsk) → KeyFor P frm ek (P.x25519Pub ssk) →
          (∀ x ∈ rs.take i, ∀ c, decryptCek P j rsk x ek = .ok c → c = Spec.zeroStream) →
          Message.receive P o t' (some rsk) ek vk =
            .ok { m' with recipients := some rs, flatJwe := false, flatJws := false } := by
  rw [show Spec.zeroStream = cek from cek_eq.symm]
  obtain ⟨pks, rs, a, c, tag, alg, hp, hpl, hk, hto, hfl, hrs, hl, hal, ha, he, -, rfl⟩ := seal_ok hseal
  have hr := sealRecipients_wf hrs
  refine ⟨_, rs, a, jwe_ofText_text (F := P.f64) _ (envelope_wf hm.jwm hr), envelope_recipients hfl,
    by simp only [crypterOfHeader, hal, ha], ?_⟩
  intro m' o' iv' hm' hc hf' hj' hskid halg' hfl'
  have halg := envelope_alg (rs := rs) (iv := r.iv.1) (c := c) (tag := tag) hal
  have hsk : (Spec.envelope m rs r.iv.1 c tag).getSkid = some frm := by rw [envelope_skid, hfrom]
  rw [hsk] at hskid
  rw [halg] at halg'
  obtain ⟨ct, hct, hctl⟩ := encryptor_total hP ht ha iv' (utf8 ({ m' with recipients := some rs }.text (o'.sub 1)))
    (utf8 (headerB64 (o'.sub 0) (Spec.publicHeader m')))
  obtain ⟨c', tag', hsp⟩ : ∃ c' tag', splitTag ct = .ok (c', tag') := by
    unfold splitTag
    rw [if_pos hctl]
    exact ⟨_, _, rfl⟩
  refine ⟨(Spec.envelope m' rs iv'.1 c' tag').text (o'.sub 2), ?_, ?_⟩
  · simp only [Message.encrypt, jweHeader_some, Res.bind_ok, b64Decode_encode, Res.ofOpt_some]
    rw [hct, Res.bind_ok, hsp]
    simp [Message.jweOf, hfl', Spec.envelope, Jwe.new]
  intro i dest rsk ek vk o hi hrk hkr hks hb
  have hsp' := splitTag_ok hsp
  rw [← hsp'] at hct
  refine receive_envelope hP halg' ha hm' hc hf' hj' hr (by intro h; rw [hfl'] at h; cases h) hct hskid
    hrk (hP.pub_len _) hks ?_
  have hcongr : ∀ x, decryptCek P (Spec.envelope m' rs iv'.1 c' tag') rsk x ek =
      decryptCek P (Spec.envelope m rs r.iv.1 c tag) rsk x ek := by
    intro x
    have h1 := envelope_alg (rs := rs) (iv := iv'.1) (c := c') (tag := tag') halg'
    have h2 : (Spec.envelope m' rs iv'.1 c' tag').getSkid = some frm := by rw [envelope_skid, hskid]
    simp only [decryptCek, h1, h2, halg, hsk]
  have hfk : ∀ l, Message.firstKey P (Spec.envelope m' rs iv'.1 c' tag') rsk ek l =
      Message.firstKey P (Spec.envelope m rs r.iv.1 c tag) rsk ek l := by
    intro l
    induction l with
    | nil => rfl
    | cons x l ih => simp only [Message.firstKey, hcongr, ih]
  rw [hfk]
  have hil : i < rs.length := by
    rw [hl]; exact (List.getElem?_eq_some_iff.1 hi).1
  obtain ⟨d, k, h1, h2⟩ := (sealRecipients_ok hrs).2 i _ (List.getElem?_eq_getElem hil)
  obtain ⟨hd, hk'⟩ := zip_get h1
  rw [hi] at hd
  obtain rfl := Option.some.inj hd
  rw [sealKeys_get hp hk'] at h2
  refine firstKey_of (List.getElem?_eq_getElem hil)
    (decryptCek_encryptCek hP h2 hal halg hsk hk hrk hkr hks) ?_
  intro x hx
  refine ⟨?_, hb x hx⟩
  obtain ⟨n, hn, rfl⟩ := List.getElem_of_mem hx
  have hn' : n < rs.length := by rw [List.length_take] at hn; omega
  obtain ⟨d', k', -, h2'⟩ := (sealRecipients_ok hrs).2 n _ (List.getElem?_eq_getElem hn')
  rw [List.getElem_take]
  exact decryptCek_no_panic hP h2' hal halg hsk hrk (hP.pub_len ssk) hks

/-! ## The hypotheses can be met -/

/-- C21, C22, C32: two different texts with the same iv, ciphertext and tag that are decrypted under the same key. -/
example : ∃ t m j h key, exampleMessage.sealJwe (toy fun _ => none) exampleRand (exampleKey 3) exampleKeys = .ok t ∧
    exampleMessage.jwm.WF ∧ utf8 t ≠ utf8 (' ' :: t) ∧
    (parseBytes (utf8 t)).bind (decJwe (toy fun _ => none).f64) = some j ∧
    (parseBytes (utf8 (' ' :: t))).bind (decJwe (toy fun _ => none).f64) = some j ∧ j.protected_ = some h ∧
    Message.decrypt (toy fun _ => none) HOrd.id (utf8 t) (CryptoAlg.xc20p.decrypter (toy fun _ => none)) key = .ok m ∧
    Message.decrypt (toy fun _ => none) HOrd.id (utf8 (' ' :: t)) (CryptoAlg.xc20p.decrypter (toy fun _ => none)) key =
      .ok m := by
  obtain ⟨t, ht⟩ := exampleSealed
  obtain ⟨a, rs, ha, hm⟩ := C32_universal_key_violated _ (toy_laws fun _ => none) exampleRand HOrd.id exampleMessage _ _ t
    (exampleMessage_wf _)
    ⟨(by intro k h; cases h), (by intro k h; cases h)⟩ ht
  obtain rfl : CryptoAlg.xc20p = a := Res.ok.inj ((show crypterOfHeader exampleMessage.jwm = .ok .xc20p from rfl).symm.trans ha)
  have hw := (exampleMessage_wf (toy fun _ => none).f64).jwm
  obtain ⟨pks, rs', a, c, tag, alg, -, -, -, -, -, hrs, -, -, -, -, -, hte⟩ := seal_ok ht
  have hj := decJwe_enc (F := (toy fun _ => none).f64) (exampleRand.ord.sub 2)
    (envelope_wf (m := exampleMessage) (iv := exampleRand.iv.1) (c := c) (tag := tag) hw (sealRecipients_wf hrs))
  have hp := parse_jwe (exampleRand.ord.sub 2) (Spec.envelope exampleMessage rs' exampleRand.iv.1 c tag)
  have hp' := document_ws (nums_jwe (exampleRand.ord.sub 2) (Spec.envelope exampleMessage rs' exampleRand.iv.1 c tag))
  rw [show printJson (encJwe (exampleRand.ord.sub 2) (Spec.envelope exampleMessage rs' exampleRand.iv.1 c tag)) = t from
    hte.symm] at hp'
  rw [← hte] at hp
  have h1 : (parseBytes (utf8 t)).bind (decJwe (toy fun _ => none).f64) =
      some (Spec.envelope exampleMessage rs' exampleRand.iv.1 c tag) := by
    rw [parseBytes_utf8, hp, Option.bind_some, hj]
  have h2 : (parseBytes (utf8 (' ' :: t))).bind (decJwe (toy fun _ => none).f64) =
      some (Spec.envelope exampleMessage rs' exampleRand.iv.1 c tag) := by
    rw [parseBytes_utf8, hp', Option.bind_some, hj]
  refine ⟨t, _, _, _, _, ht, hw, ?_, h1, h2, rfl, hm, ?_⟩
  · intro h
    have := congrArg List.length (utf8_injective h)
    simp at this
  · rw [← hm]
    unfold Message.decrypt
    rw [h1, h2]

/-- C22: two headers that differ. -/
example : exampleMessage.jwm.WF ∧ richMessage.jwm.WF ∧ exampleMessage.jwm ≠ richMessage.jwm :=
  ⟨(exampleMessage_wf (toy fun _ => none).f64).jwm, (richMessage_wf (toy fun _ => none).f64).jwm, by decide⟩

/-- C33: a forged message with another body, received as coming from the sender of the observed envelope. -/
example : ∃ t t' rs, exampleMessage.sealJwe (toy fun _ => none) exampleRand (exampleKey 3) exampleKeys = .ok t ∧
    Message.receive (toy fun _ => none) HOrd.id t' (some (exampleKey 1))
      (some ((toy fun _ => none).x25519Pub (exampleKey 3))) none =
        .ok { exampleMessage with body := .obj [(c!"pay", .str c!"all")], recipients := some rs } := by
  obtain ⟨t, ht⟩ := exampleSealed
  have hw := exampleMessage_wf (toy fun _ => none).f64
  obtain ⟨j, rs, a, hj, -, -, h⟩ := C33_forgery_violated _ (toy_laws fun _ => none) (toy_total _) _ _ _ _ t c!"did:e:f" hw
    rfl ht
  obtain ⟨pks, rs', a', c, tag, alg, -, -, -, -, -, hrs, -, hal, -, -, -, hte⟩ := seal_ok ht
  rw [hte, jwe_ofText_text (F := (toy fun _ => none).f64) _ (envelope_wf hw.jwm (sealRecipients_wf hrs))] at hj
  obtain rfl := Option.some.inj hj
  obtain ⟨t', -, h⟩ := h { exampleMessage with body := .obj [(c!"pay", .str c!"all")] } HOrd.id exampleRand.iv
    ⟨hw.jwm, hw.other, hw.to, hw.recipients, ⟨by simp [SortedKeys], trivial, trivial⟩, ⟨trivial, trivial⟩, by decide⟩ (by decide) ⟨(by intro k h; cases h), (by intro k h; cases h)⟩
    (by decide) (envelope_skid ..).symm (hal.trans (envelope_alg hal).symm) rfl
  exact ⟨t, t', rs, ht, h 0 _ _ _ _ _ rfl (by decide) (.inl rfl) (.inl rfl) (by intro x hx; cases hx)⟩

end Verif
