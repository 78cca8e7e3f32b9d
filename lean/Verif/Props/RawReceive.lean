import Verif.Model.RawReceive
import Verif.Props.RawValue
import Verif.Props.Verify
import Verif.Props.Route

/-!
# Receiving in the build as it is

C151, and what C150 means for envelopes.
-/

namespace Verif

open Spec

theorem ofBytesRaw_utf8 (F : Str → Option Str) (s : Str) : Message.ofBytesRaw F (utf8 s) = Message.ofTextRaw F s := by
  simp only [Message.ofBytesRaw, utf8Decode_utf8]

theorem messageTypeRaw_eq {P : Prims} {s : Str} (h : Message.ofTextRaw P.f64 s = Message.ofText P.f64 s) :
    Message.messageTypeRaw P s = Message.messageType P s := by
  simp only [Message.messageTypeRaw, Message.messageType, h]

theorem messageTypeRaw_jwe {P : Prims} (o : HOrd) (j : Jwe) : Message.messageTypeRaw P (j.text o) = .ok .jwe := by
  obtain ⟨h1, h2, h3⟩ := presence_jwe o j rfl
  have hp := parse_jwe o j
  simp only [Message.messageTypeRaw, hp, Res.ofOpt_some, Res.bind_ok, encJwe, structEntries, h1, h2, h3, if_true, Res.pure_eq] at *

theorem decryptRaw_sealed {P : Prims} (hP : Laws P) {m : Message} {rs : List Recipient} {iv c tag key : Bytes}
    {o o1 o2 o3 : HOrd} {a : CryptoAlg} (ha : a ≠ .a256cbc) (hw : m.jwm.WF) (hf : HeaderFixed m.jwm)
    (hr : ∀ rc ∈ rs, rc.header.WF)
    (he : a.encryptor P iv key (utf8 ({ m with recipients := some rs }.text o1))
        (utf8 (headerB64 o2 (Spec.publicHeader m))) = .ok (c ++ tag)) :
    Message.decryptRaw P o (utf8 ((Spec.envelope m rs iv c tag).text o3)) (a.decrypter P) key =
      Res.ofOpt .serde (Message.ofTextRaw P.f64 ({ m with recipients := some rs }.text o1)) := by
  have h1 := decJwe_enc (F := P.f64) o3 (envelope_wf (m := m) (iv := iv) (c := c) (tag := tag) hw hr)
  have h2 := C55_decrypt_encrypt P hP a ha _ _ _ _ _ he
  unfold Message.decryptRaw
  rw [parseBytes_utf8, parse_jwe, Option.bind_some, h1]
  simp only [Res.ofOpt_some, Res.bind_ok, Spec.envelope, Jwe.getPayload, Jwe.getIv,
    b64Decode_encode, Res.unwrap_some]
  rw [headerB64_fixed (publicHeader_fixed hf) o o2, h2]
  simp only [Message.plugErr, Res.bind_ok, ofBytesRaw_utf8]

/-- What the decryption step makes of a sealed message. -/
theorem seal_decryptedRaw {P : Prims} (hP : Laws P) {r : Message.SealRand} {m : Message}
    {ssk : Bytes} {keys : Option (List (Option Bytes))} {t frm : Str}
    (hm : m.jwm.WF) (hf : HeaderFixed m.jwm) (hfrom : m.didcomm.from = some frm)
    (hseal : m.sealJwe P r ssk keys = .ok t) :
    ∃ j rs o1, Jwe.ofText P.f64 t = some j ∧ Message.recipientsOf j = some rs ∧ rs.length = m.didcomm.to.length ∧
      (∀ rc ∈ rs, rc.header.WF) ∧
      ∀ (i : Nat) (dest : Str) (rsk : Bytes) (ek : Option Bytes) (o : HOrd),
        m.didcomm.to[i]? = some dest → rsk.length = 32 →
        KeyFor P dest (Spec.keyAt keys i) (P.x25519Pub rsk) → KeyFor P frm ek (P.x25519Pub ssk) →
        (∀ x ∈ rs.take i, ∀ c, decryptCek P j rsk x ek = .ok c → c = cek) →
        Message.decryptStepRaw P o t (some rsk) ek =
          (Res.ofOpt .serde (Message.ofTextRaw P.f64 ({ m with recipients := some rs }.text o1)) >>= fun x =>
            pure (x.text (o.sub 1))) := by
  obtain ⟨pks, rs, a, c, tag, alg, hp, hpl, hk, hto, hfl, hrs, hl, hal, ha, he, -, rfl⟩ := seal_ok hseal
  have hr := sealRecipients_wf hrs
  have halg := envelope_alg (rs := rs) (iv := r.iv.1) (c := c) (tag := tag) hal
  have hsk : (Spec.envelope m rs r.iv.1 c tag).getSkid = some frm := by rw [envelope_skid, hfrom]
  have h1 := fun o3 => jwe_ofText_text (F := P.f64) o3 (envelope_wf (m := m) (iv := r.iv.1) (c := c) (tag := tag) hm hr)
  refine ⟨_, rs, r.ord.sub 1, h1 _, envelope_recipients hfl, hl, hr, ?_⟩
  intro i dest rsk ek o hi hrk hkr hks hb
  unfold Message.decryptStepRaw
  rw [messageTypeRaw_jwe, Res.bind_ok, if_pos rfl, Res.ofOpt_some, Res.bind_ok]
  have hfk : Message.firstKey P (Spec.envelope m rs r.iv.1 c tag) rsk ek rs = .ok cek := by
    have hil : i < rs.length := by
      rw [hl]; exact (List.getElem?_eq_some_iff.1 hi).1
    obtain ⟨d, k, h1, h2⟩ := (sealRecipients_ok hrs).2 i _ (List.getElem?_eq_getElem hil)
    obtain ⟨hd, hk'⟩ := zip_get h1
    rw [hi] at hd
    obtain rfl := Option.some.inj hd
    rw [sealKeys_get hp hk'] at h2
    refine firstKey_of (List.getElem?_eq_getElem hil)
      (decryptCek_encryptCek hP h2 hal halg hsk hk hrk hkr hks) ?_
    intro x hx
    refine ⟨?_, hb x hx⟩
    obtain ⟨n, hn, rfl⟩ := List.getElem_of_mem hx
    have hn' : n < rs.length := by rw [List.length_take] at hn; omega
    obtain ⟨d', k', -, h2'⟩ := (sealRecipients_ok hrs).2 n _ (List.getElem?_eq_getElem hn')
    rw [List.getElem_take]
    exact decryptCek_no_panic hP h2' hal halg hsk hrk (hP.pub_len ssk) hks
  have hdec := fun o3 => decryptRaw_sealed (o := o.sub 0) (o3 := o3) hP (ofStr_ne_cbc ha) hm hf hr he
  simp only [Message.receiveJweRaw, h1, Res.ofOpt_some, Res.bind_ok, halg,
    senderKey_ok hsk hks, arrayRef32_of hrk, arrayRef32_of (hP.pub_len ssk), ha, Message.contentKey,
    envelope_recipients hfl, hfk, hdec]

theorem recipients_wf {P : Prims} {m : Message} {rs : List Recipient} (hm : m.WF P.f64) (hr : ∀ rc ∈ rs, rc.header.WF) :
    Message.WF P.f64 { m with recipients := some rs } ∧
      Message.WF P.f64 { m with recipients := some rs, flatJwe := false, flatJws := false } :=
  ⟨⟨hm.jwm, hm.other, hm.to, by intro l hl; rw [← Option.some.inj hl]; exact hr, hm.canon, hm.nums, hm.depth⟩,
    ⟨hm.jwm, hm.other, hm.to, by intro l hl; rw [← Option.some.inj hl]; exact hr, hm.canon, hm.nums, hm.depth⟩⟩

/-- The text of such a message is read alike with and without the feature. -/
theorem raw_agrees {F : Str → Option Str} (o : HOrd) {m : Message} (hm : m.WF F) (h : NoToken m.body) :
    Message.ofTextRaw F (m.text o) = Message.ofText F (m.text o) := by
  rw [C150_written_partial F o m hm h, ofText_text o hm]

/-- The decryption step for messages whose body has no such object. -/
theorem seal_decryptedRaw_noToken {P : Prims} (hP : Laws P) {r : Message.SealRand} {m : Message}
    {ssk : Bytes} {keys : Option (List (Option Bytes))} {t frm : Str}
    (hm : m.WF P.f64) (hn : NoToken m.body) (hf : HeaderFixed m.jwm) (hfrom : m.didcomm.from = some frm)
    (hseal : m.sealJwe P r ssk keys = .ok t) :
    ∃ j rs, Jwe.ofText P.f64 t = some j ∧ Message.recipientsOf j = some rs ∧ rs.length = m.didcomm.to.length ∧
      Message.WF P.f64 { m with recipients := some rs, flatJwe := false, flatJws := false } ∧
      ∀ (i : Nat) (dest : Str) (rsk : Bytes) (ek : Option Bytes) (o : HOrd),
        m.didcomm.to[i]? = some dest → rsk.length = 32 →
        KeyFor P dest (Spec.keyAt keys i) (P.x25519Pub rsk) → KeyFor P frm ek (P.x25519Pub ssk) →
        (∀ x ∈ rs.take i, ∀ c, decryptCek P j rsk x ek = .ok c → c = cek) →
        Message.decryptStepRaw P o t (some rsk) ek =
          .ok ({ m with recipients := some rs, flatJwe := false, flatJws := false }.text (o.sub 1)) := by
  obtain ⟨j, rs, o1, h1, h2, h3, h4, h5⟩ := seal_decryptedRaw hP hm.jwm hf hfrom hseal
  obtain ⟨w1, w2⟩ := recipients_wf hm h4
  refine ⟨j, rs, h1, h2, h3, w2, ?_⟩
  intro i dest rsk ek o hi hrk hkr hks hb
  rw [h5 i dest rsk ek o hi hrk hkr hks hb, C150_written_partial P.f64 o1 { m with recipients := some rs } w1 hn]
  rfl

/-- C151.  In the build as it is, with the feature `raw_value`, every recipient of a sealed message in whose body no object begins
with the name of `RawValue` receives the message. -/
theorem C151_sealed (P : Prims) (hP : Laws P) (r : Message.SealRand) (m : Message)
    (ssk : Bytes) (keys : Option (List (Option Bytes))) (t frm : Str)
    (hm : m.WF P.f64) (hn : NoToken m.body) (hc : Avoids m.didcomm.other classKeys) (hf : HeaderFixed m.jwm)
    (hj : m.jwm.typ ≠ .jws) (hfrom : m.didcomm.from = some frm) (hseal : m.sealJwe P r ssk keys = .ok t) :
    ∃ j rs, Jwe.ofText P.f64 t = some j ∧ Message.recipientsOf j = some rs ∧ rs.length = m.didcomm.to.length ∧
      ∀ (i : Nat) (dest : Str) (rsk : Bytes) (ek vk : Option Bytes) (o : HOrd),
        m.didcomm.to[i]? = some dest → rsk.length = 32 →
        KeyFor P dest (Spec.keyAt keys i) (P.x25519Pub rsk) → KeyFor P frm ek (P.x25519Pub ssk) →
        (∀ x ∈ rs.take i, ∀ c, decryptCek P j rsk x ek = .ok c → c = cek) →
        Message.receiveRaw P o t (some rsk) ek vk =
          .ok { m with recipients := some rs, flatJwe := false, flatJws := false } := by
  obtain ⟨j, rs, h1, h2, h3, w, h4⟩ := seal_decryptedRaw_noToken hP hm hn hf hfrom hseal
  refine ⟨j, rs, h1, h2, h3, ?_⟩
  intro i dest rsk ek vk o hi hrk hkr hks hb
  have ha := raw_agrees ((o.sub 0).sub 1) w hn
  simp only [Message.receiveRaw, h4 i dest rsk ek (o.sub 0) hi hrk hkr hks hb, Res.bind_ok, Message.verifyStepRaw,
    messageTypeRaw_eq ha, messageType_text P ((o.sub 0).sub 1) w hc, hj, if_false, ha, ofText_text ((o.sub 0).sub 1) w,
    Res.ofOpt_some]

/-! ## Signed and sealed -/

theorem noToken_jwsOf (o : HOrd) (m : Message) (p : Str) (sig : Bytes) : NoToken (encJws o (Spec.jwsOf m p sig)) := by
  have hs : ∀ o, NoToken (encSignature o (Spec.signatureOf m sig)) := by
    intro o
    simp only [encSignature, signatureEntries, Spec.signatureOf, optE, List.nil_append, List.singleton_append, NoToken, NoTokenM,
      and_true]
    decide
  have hl : ∀ (l : List Str) o, NoTokenL (encList encSignature o (l.map fun _ => Spec.signatureOf m sig)) := by
    intro l
    induction l with
    | nil => intro o; simp [encList, NoTokenL]
    | cons _ l ih => intro o; simp only [List.map_cons, encList, NoTokenL]; exact ⟨hs _, ih _⟩
  unfold Spec.jwsOf
  split
  · simp only [encJws, flatSignature, signatureEntries, Spec.signatureOf, optE, List.nil_append, List.singleton_append,
      List.append_nil, NoToken, NoTokenM, and_true]
    decide
  · simp only [encJws, flatSignature, optE, List.nil_append, NoToken, NoTokenM, and_true, true_and]
    exact ⟨by decide, hl _ _⟩

/-- What is signed and sealed is the same with and without the feature. -/
theorem sealSignedRaw_eq (P : Prims) (r : Message.SealRand) (o : HOrd) (m : Message) (sk : Bytes)
    (keys : Option (List (Option Bytes))) (a : SignAlg) (sgk : Bytes) :
    m.sealSignedRaw P r o sk keys a sgk = m.sealSigned P r o sk keys a sgk := by
  unfold Message.sealSignedRaw Message.sealSigned
  cases hs : (m.asJws a).sign o (a.signer P) sgk with
  | ok signed =>
    obtain ⟨-, sig, -, rfl⟩ := sign_ok hs
    simp only [Res.bind_ok]
    have hv : rawValueOfText P.f64 ((Spec.jwsOf (m.asJws a) (Spec.payloadText (o.sub 1) (m.asJws a)) sig).text (o.sub 2)) =
        some (encJws (o.sub 2) (Spec.jwsOf (m.asJws a) (Spec.payloadText (o.sub 1) (m.asJws a)) sig)) := by
      unfold rawValueOfText
      rw [rawText, parse_jws, Option.bind_some, if_pos (by
        have := depth_jws (o.sub 2) (Spec.jwsOf (m.asJws a) (Spec.payloadText (o.sub 1) (m.asJws a)) sig); omega),
        rawJ_noToken _ _ (noToken_jwsOf _ _ _ _), normJ_canon (canon_jwsOf _ _ _ _)]
    erw [hv, valueOfText_jwsOf]
  | err e => rfl
  | panic => rfl

theorem verifyRaw_eq {P : Prims} {o : HOrd} {bytes key : Bytes}
    (h : ∀ jws b, Jws.ofBytes P.f64 bytes = some jws → b64Decode jws.payload = some b →
      Message.ofBytesRaw P.f64 b = Message.ofBytes P.f64 b) :
    Message.verifyRaw P o bytes key = Message.verify P o bytes key := by
  unfold Message.verifyRaw Message.verify
  cases hj : Jws.ofBytes P.f64 bytes with
  | none => rfl
  | some jws =>
    simp only [Res.ofOpt_some, Res.bind_ok]
    cases Message.signaturesOf jws with
    | ok sigs =>
      simp only [Res.bind_ok]
      cases Message.verifyLoop P jws.payload key o sigs with
      | ok b =>
        cases hb : b64Decode jws.payload with
        | none => rfl
        | some x => simp only [Res.bind_ok, Res.ofOpt_some, h jws x hj hb]
      | err e => rfl
      | panic => rfl
    | err e => rfl
    | panic => rfl

theorem verifyRaw_sign {P : Prims} {a : SignAlg} {sk pk : Bytes} (hpair : SignPair P a sk pk) {m : Message}
    (hm : m.WF P.f64) (hn : NoToken m.body) (hf : HeaderFixed m.jwm)
    {alg : Str} (ha : m.jwm.alg = some alg) (hofs : SignAlg.ofStr alg = .ok a) {o : HOrd} {t : Str}
    (hs : m.sign o (a.signer P) sk = .ok t) (o' : HOrd) :
    Message.verifyRaw P o' (utf8 t) pk = .ok { Spec.unsigned m with flatJwe := false, flatJws := false } := by
  have hver := verify_sign hpair hm hf ha hofs hs o'
  obtain ⟨-, sig, -, rfl⟩ := sign_ok hs
  have hwu : (Spec.unsigned m).WF P.f64 :=
    ⟨⟨(by intro k hk; cases hk), (by intro k hk; cases hk)⟩, hm.other, hm.to, hm.recipients, hm.canon, hm.nums, hm.depth⟩
  rw [verifyRaw_eq, hver]
  intro jws b hj' hb'
  obtain ⟨j2, hj2, hp2, -⟩ := jwsOf_signatures (F := P.f64) (m := m)
    (p := Spec.payloadText (o.sub 1) m) (sig := sig) (o.sub 2) hm.jwm
  rw [Jws.ofBytes, utf8Decode_utf8, Option.bind_some, ofText_jws, hj2] at hj'
  obtain rfl := Option.some.inj hj'
  rw [hp2, Spec.payloadText, b64Decode_encode] at hb'
  obtain rfl := Option.some.inj hb'
  rw [ofBytesRaw_utf8, ofBytes_utf8]
  exact raw_agrees _ hwu hn

theorem verifiedOfRaw_message {P : Prims} {o : HOrd} {x : Str} {m v : Message} {key : Option Bytes} {k : Bytes}
    (hx : Message.ofTextRaw P.f64 x = some m) (ha : m.jwm.alg ≠ none)
    (hk : signingKey key m.jwm.kid = .ok k)
    (hv : Message.verifyRaw P o (utf8 (printJson m.body)) k = .ok v) :
    Message.verifiedOfRaw P o x key = .ok (some v) := by
  unfold Message.verifiedOfRaw
  rw [hx]
  simp only [Message.getBody, Res.bind_ok]
  rw [if_neg (by simpa using ha), hk, Res.bind_ok, hv, Res.bind_ok]
  rfl

/-- C151, the same for messages that are signed and sealed. -/
theorem C151_seal_signed (P : Prims) (hP : Laws P) (r : Message.SealRand) (o : HOrd) (m : Message)
    (ssk : Bytes) (keys : Option (List (Option Bytes))) (t frm : Str) (a : SignAlg) (sgk pk : Bytes)
    (hpair : SignPair P a sgk pk)
    (hm : m.WF P.f64) (hn : NoToken m.body) (hc : Avoids m.didcomm.other classKeys) (hf : HeaderFixed m.jwm)
    (hfrom : m.didcomm.from = some frm) (hseal : m.sealSignedRaw P r o ssk keys a sgk = .ok t) :
    ∃ j rs, Jwe.ofText P.f64 t = some j ∧ Message.recipientsOf j = some rs ∧
      rs.length = m.didcomm.to.length ∧
      ∀ (i : Nat) (dest : Str) (rsk : Bytes) (ek vk : Option Bytes) (o' : HOrd),
        m.didcomm.to[i]? = some dest → rsk.length = 32 →
        KeyFor P dest (Spec.keyAt keys i) (P.x25519Pub rsk) → KeyFor P frm ek (P.x25519Pub ssk) →
        (∀ x ∈ rs.take i, ∀ c, decryptCek P j rsk x ek = .ok c → c = cek) →
        (vk = some pk ∨ vk = none ∧ m.jwm.kid = some (hexEncode pk)) →
        Message.receiveRaw P o' t (some rsk) ek vk =
          .ok { m with jwm := JwmHeader.dflt, flatJwe := false, flatJws := false } := by
  rw [sealSignedRaw_eq] at hseal
  obtain ⟨signed, hs, sig, hsg, hse⟩ := sealSigned_ok hseal
  have hal : m.jwm.alg ≠ none := by
    obtain ⟨_, _, _, _, _, alg, -, -, -, -, -, -, -, hal, -⟩ := seal_ok hse
    have : m.jwm.alg = some alg := hal
    rw [this]; simp
  have hw2 := setBody_wf hm a (o.sub 1) (o.sub 2) sig
  have hn2 : NoToken (encJws (o.sub 2) (Spec.jwsOf (m.asJws a) (Spec.payloadText (o.sub 1) (m.asJws a)) sig)) :=
    noToken_jwsOf _ _ _ _
  obtain ⟨j, rs, h1, h2, h3, hw3, h4⟩ :=
    seal_decryptedRaw_noToken (m := Message.setTyp { m with body := _ } .jws) hP hw2 hn2 hf hfrom hse
  refine ⟨j, rs, h1, h2, h3, ?_⟩
  intro i dest rsk ek vk o' hi hrk hkr hks hb hvk
  have h5 := h4 i dest rsk ek (o'.sub 0) hi hrk hkr hks hb
  have hag := raw_agrees ((o'.sub 0).sub 1) hw3 hn2
  have hof := ofText_text ((o'.sub 0).sub 1) hw3
  obtain ⟨-, alg, ha, hofs⟩ := signName (a := a) (h := m.jwm)
  have hjw : (m.asJws a).WF P.f64 := by
    refine ⟨?_, hm.other, hm.to, hm.recipients, hm.canon, hm.nums, hm.depth⟩
    cases a <;> exact hm.jwm
  have hjf : HeaderFixed (m.asJws a).jwm := by cases a <;> exact hf
  have hverR := verifyRaw_sign hpair hjw hn hjf ha hofs hs ((o'.sub 1).sub 0)
  have hkey : signingKey vk m.jwm.kid = .ok pk := by
    rw [signingKey_ok]
    rcases hvk with rfl | ⟨rfl, hk⟩
    · exact .inl rfl
    · exact .inr ⟨rfl, _, hk, hexDecode_encode pk⟩
  have hv := verifiedOfRaw_message (key := vk) (hag.trans hof) (by simpa [Message.setTyp] using hal) hkey
    (show Message.verifyRaw P ((o'.sub 1).sub 0) (utf8 (printJson (encJws (o.sub 2) (Spec.jwsOf (m.asJws a)
      (Spec.payloadText (o.sub 1) (m.asJws a)) sig)))) pk = _ by rw [← hsg]; exact hverR)
  have hwd : Message.WF P.f64 { m with jwm := JwmHeader.dflt, flatJwe := false, flatJws := false } :=
    ⟨⟨(by intro k hk; cases hk), (by intro k hk; cases hk)⟩, hm.other, hm.to, hm.recipients, hm.canon,
      hm.nums, hm.depth⟩
  unfold Message.receiveRaw
  rw [h5, Res.bind_ok]
  unfold Message.verifyStepRaw
  rw [messageTypeRaw_eq hag, messageType_text P ((o'.sub 0).sub 1) hw3 hc, Res.bind_ok, if_pos (by rfl)]
  unfold Message.receiveJwsRaw
  rw [hv, Res.bind_ok, Res.ofOpt_some, Res.bind_ok, Res.pure_eq, Res.bind_ok]
  exact congrArg (Res.ofOpt Err.serde) (C150_written_partial _ _ _ hwd hn)

/-! ## Signed, and plain -/

/-- C151, the same for messages that are signed only. -/
theorem C151_signed (P : Prims) (a : SignAlg) (sk pk : Bytes) (hpair : SignPair P a sk pk)
    (m : Message) (hm : m.WF P.f64) (hn : NoToken m.body) (hf : HeaderFixed m.jwm) (o o' : HOrd) :
    ∃ t, (m.asJws a).sign o (a.signer P) sk = .ok t ∧ ∀ dk ek vk,
      (vk = some pk ∨ vk = none ∧ m.jwm.kid = some (hexEncode pk)) →
      Message.receiveRaw P o' t dk ek vk =
        .ok { m with jwm := JwmHeader.dflt, flatJwe := false, flatJws := false } := by
  obtain ⟨t, h1, -⟩ := C24_sign_verify P a sk pk hpair m hm hf o o'
  refine ⟨t, h1, fun dk ek vk hvk => ?_⟩
  have hwd : Message.WF P.f64 { m with jwm := JwmHeader.dflt, flatJwe := false, flatJws := false } :=
    ⟨⟨(by intro k hk; cases hk), (by intro k hk; cases hk)⟩, hm.other, hm.to, hm.recipients, hm.canon,
      hm.nums, hm.depth⟩
  obtain ⟨-, alg, ha, hofs⟩ := signName (a := a) (h := m.jwm)
  have hjw : (m.asJws a).WF P.f64 := by
    refine ⟨?_, hm.other, hm.to, hm.recipients, hm.canon, hm.nums, hm.depth⟩
    cases a <;> exact hm.jwm
  have hjf : HeaderFixed (m.asJws a).jwm := by cases a <;> exact hf
  have hver := verifyRaw_sign hpair hjw hn hjf ha hofs h1 ((((o'.sub 1).sub 0).sub 0))
  obtain ⟨-, sig, -, rfl⟩ := sign_ok h1
  obtain ⟨hc, hno⟩ := jwsOf_class (P := P) (o.sub 2) (m.asJws a) (Spec.payloadText (o.sub 1) (m.asJws a)) sig
  have hag : Message.ofTextRaw P.f64 ((Spec.jwsOf (m.asJws a) (Spec.payloadText (o.sub 1) (m.asJws a)) sig).text (o.sub 2)) =
      Message.ofText P.f64 ((Spec.jwsOf (m.asJws a) (Spec.payloadText (o.sub 1) (m.asJws a)) sig).text (o.sub 2)) := by
    refine C150_read_partial _ _ fun es hp v hv => ?_
    rw [parse_jws] at hp
    have hn := noToken_jwsOf (o.sub 2) (m.asJws a) (Spec.payloadText (o.sub 1) (m.asJws a)) sig
    exfalso
    revert hp hv
    unfold Spec.jwsOf
    split
    · intro hp hv
      obtain rfl := Json.obj.inj (Option.some.inj hp)
      revert hv
      exact List.not_mem_nil
    · intro hp hv
      obtain rfl := Json.obj.inj (Option.some.inj hp)
      revert hv
      exact List.not_mem_nil
  obtain ⟨j, hj, -, hsigs⟩ := jwsOf_signatures (F := P.f64) (m := m.asJws a)
    (p := Spec.payloadText (o.sub 1) (m.asJws a)) (sig := sig) (o.sub 2) hjw.jwm
  have hjt : Jws.ofText P.f64 ((Spec.jwsOf (m.asJws a) (Spec.payloadText (o.sub 1) (m.asJws a)) sig).text
      (o.sub 2)) = some j := by
    rw [ofText_jws]
    exact hj
  obtain ⟨l, hl⟩ : ∃ l, Message.signaturesOf j = .ok (Spec.signatureOf (m.asJws a) sig :: l) := by
    rw [hsigs]
    by_cases hfl : (m.asJws a).flatJws = true
    · rw [if_pos hfl]; exact ⟨[], rfl⟩
    · rw [if_neg hfl]
      obtain ⟨x, l, hx⟩ := List.exists_cons_of_ne_nil (show (m.asJws a).didcomm.to ≠ [] from hm.to)
      rw [hx]
      exact ⟨_, rfl⟩
  have hal : (Spec.signatureOf (m.asJws a) sig).getAlg = some alg := by
    simp only [Signature.getAlg, Signature.getter, fallback, Spec.signatureOf, Spec.signedHeader,
      Option.bind_none, Option.bind_some]
    exact ha
  have hkid : (Spec.signatureOf (m.asJws a) sig).getKid = m.jwm.kid := by
    cases a <;> rfl
  have hkey : signingKey vk (Spec.signatureOf (m.asJws a) sig).getKid = .ok pk := by
    rw [hkid, signingKey_ok]
    rcases hvk with rfl | ⟨rfl, hk⟩
    · exact .inl rfl
    · exact .inr ⟨rfl, _, hk, hexDecode_encode pk⟩
  have hty := (messageTypeRaw_eq hag).trans hc
  have hno' := hag.trans hno
  change Message.receiveRaw P o' ((Spec.jwsOf (m.asJws a) (Spec.payloadText (o.sub 1) (m.asJws a)) sig).text (o.sub 2)) dk ek vk = _
  change Message.verifyRaw P (((o'.sub 1).sub 0).sub 0)
    (utf8 ((Spec.jwsOf (m.asJws a) (Spec.payloadText (o.sub 1) (m.asJws a)) sig).text (o.sub 2))) pk = _ at hver
  generalize (Spec.jwsOf (m.asJws a) (Spec.payloadText (o.sub 1) (m.asJws a)) sig).text (o.sub 2) = t at *
  have h2 : Message.verifiedOfRaw P ((o'.sub 1).sub 0) t vk =
      .ok (some { Spec.unsigned (m.asJws a) with flatJwe := false, flatJws := false }) := by
    unfold Message.verifiedOfRaw
    rw [hno']
    simp only [hjt, hl, Res.bind_ok]
    unfold Message.verifyEachRaw
    rw [hal]
    simp only [hkey, Res.bind_ok, hver]
  unfold Message.receiveRaw Message.decryptStepRaw
  rw [hty, Res.bind_ok, if_neg (by decide), Res.bind_ok]
  unfold Message.verifyStepRaw Message.receiveJwsRaw
  rw [hty, Res.bind_ok, if_pos rfl, h2, Res.bind_ok, Res.ofOpt_some, Res.bind_ok, Res.pure_eq, Res.bind_ok]
  exact congrArg (Res.ofOpt Err.serde) (C150_written_partial _ _ _ hwd hn)

/-- C151, the same for messages that are sent as they are. -/
theorem C151_plain (P : Prims) (o o' : HOrd) (m : Message) (hm : m.WF P.f64) (hn : NoToken m.body)
    (ha : Avoids m.didcomm.other classKeys) (h1 : m.jwm.typ ≠ .jwe) (h2 : m.jwm.typ ≠ .jws) (sk ek vk : Option Bytes) :
    (m.asRawJson o >>= fun t => Message.receiveRaw P o' t sk ek vk) = .ok { m with flatJwe := false, flatJws := false } := by
  have hag := raw_agrees o hm hn
  simp only [Message.asRawJson, Res.bind_ok, Message.receiveRaw, Message.decryptStepRaw, Message.verifyStepRaw,
    messageTypeRaw_eq hag, messageType_text P o hm ha, h1, h2, if_false, hag, ofText_text o hm, Res.ofOpt_some]

/-! ## Routed -/

theorem noToken_mediated (b : Mediated) : NoToken (encMediated b) := by
  have h : ∀ l : Bytes, NoTokenL (l.map encU8) := by
    intro l
    induction l with
    | nil => trivial
    | cons x l ih => exact ⟨trivial, ih⟩
  exact ⟨by decide, trivial, h _, trivial⟩

/-- What is routed is the same with and without the feature. -/
theorem routedByRaw_eq (P : Prims) (r1 r2 : Message.SealRand) (uuid : Str) (m : Message) (sk : Bytes)
    (keys : Option (List (Option Bytes))) (med : Str) (mkey : Option Bytes) :
    m.routedByRaw P r1 r2 uuid sk keys med mkey = m.routedBy P r1 r2 uuid sk keys med mkey := by
  have h : ∀ (x : Message) (b : Mediated), x.setBodyRaw P (printJson (encMediated b)) = x.setBody P (printJson (encMediated b)) := by
    intro x b
    refine C150_set_partial P x _ fun j hj => ?_
    rw [parse_mediated] at hj
    obtain rfl := Option.some.inj hj
    exact noToken_mediated b
  unfold Message.routedByRaw Message.routedBy
  simp only [h]

/-- C151, the same for messages that go through a mediator: the mediator receives the forward message, and what it holds is received
by the first recipient. -/
theorem C151_routed (P : Prims) (hP : Laws P) (r1 r2 : Message.SealRand) (uuid : Str) (m : Message)
    (ssk : Bytes) (keys : Option (List (Option Bytes))) (med : Str) (mkey : Option Bytes) (t frm : Str)
    (hm : m.WF P.f64) (hn : NoToken m.body) (hc : Avoids m.didcomm.other classKeys) (hf : HeaderFixed m.jwm)
    (hj : m.jwm.typ ≠ .jws) (hfrom : m.didcomm.from = some frm)
    (hroute : m.routedByRaw P r1 r2 uuid ssk keys med mkey = .ok t)
    (msk : Bytes) (mek vk : Option Bytes) (o : HOrd) (hmk : msk.length = 32)
    (hkm : KeyFor P med mkey (P.x25519Pub msk)) (hks : KeyFor P frm mek (P.x25519Pub ssk))
    (dest : Str) (rsk : Bytes) (ek vk' : Option Bytes) (o' : HOrd)
    (hto : m.didcomm.to.head? = some dest) (hrk : rsk.length = 32)
    (hkr : KeyFor P dest (Spec.keyAt keys 0) (P.x25519Pub rsk)) (hks' : KeyFor P frm ek (P.x25519Pub ssk)) :
    ∃ f b md inner rs, Message.receiveRaw P o t (some msk) mek vk = .ok f ∧ f.jwm.typ = .forward ∧ f.getBody = .ok b ∧
      (parseJson b).bind decMediated = some md ∧ md.next = dest ∧ utf8Decode md.payload = some inner ∧
      Message.receiveRaw P o' inner (some rsk) ek vk' =
        .ok { m with recipients := some rs, flatJwe := false, flatJws := false } := by
  rw [routedByRaw_eq] at hroute
  obtain ⟨a, next, inner, kid, ha, hnx, hi, ht⟩ := routed_ok hroute
  rw [hto] at hnx
  obtain rfl := Option.some.inj hnx
  rw [hfrom] at ht
  have hw := forward_wf P.f64 uuid med frm kid a ⟨dest, utf8 inner⟩
  have hfix : HeaderFixed (Spec.forwardMessage uuid med frm kid a ⟨dest, utf8 inner⟩).jwm := by
    cases a <;> exact ⟨(by intro k h; cases h), (by intro k h; cases h)⟩
  obtain ⟨j, rs, -, -, -, h⟩ := C151_sealed P hP r2 _ ssk _ t frm hw (noToken_mediated _)
    (by intro k _; rfl) hfix (by intro h; cases h) rfl ht
  obtain ⟨j', rs', -, -, -, h'⟩ := C151_sealed P hP r1 m ssk _ inner frm hm hn hc hf hj hfrom hi
  refine ⟨_, _, ⟨dest, utf8 inner⟩, inner, rs', h 0 med msk mek vk o rfl hmk hkm hks (by simp), rfl, rfl, ?_, rfl,
    utf8Decode_utf8 _, h' 0 dest rsk ek vk' o' (by rw [← hto, List.head?_eq_getElem?]) hrk hkr hks' (by simp)⟩
  exact (congrArg (·.bind decMediated) (parse_mediated _)).trans (decMediated_enc ⟨dest, utf8 inner⟩)

/-! ## Envelopes nobody can read -/

/-- C150, violated for envelopes: a body that is set and lost (`C150_lost_violated`) is sealed like any other, and no recipient of
the envelope receives anything. -/
theorem C150_sealed_violated (P : Prims) (hP : Laws P) (r : Message.SealRand) (m : Message)
    (ssk : Bytes) (keys : Option (List (Option Bytes))) (t frm k x : Str) (w : Json) (hnw : NumsOk w)
    (hb : m.body = .obj [(rawToken, .str x), (k, w)]) (hjw : m.jwm.WF) (ho : Avoids m.didcomm.other reservedKeys)
    (hf : HeaderFixed m.jwm) (hfrom : m.didcomm.from = some frm) (hseal : m.sealJwe P r ssk keys = .ok t) :
    ∃ j rs, Jwe.ofText P.f64 t = some j ∧ Message.recipientsOf j = some rs ∧ rs.length = m.didcomm.to.length ∧
      ∀ (i : Nat) (dest : Str) (rsk : Bytes) (ek vk : Option Bytes) (o : HOrd),
        m.didcomm.to[i]? = some dest → rsk.length = 32 →
        KeyFor P dest (Spec.keyAt keys i) (P.x25519Pub rsk) → KeyFor P frm ek (P.x25519Pub ssk) →
        (∀ x ∈ rs.take i, ∀ c, decryptCek P j rsk x ek = .ok c → c = cek) →
        Message.receiveRaw P o t (some rsk) ek vk = .err .serde := by
  obtain ⟨j, rs, o1, h1, h2, h3, h4, h5⟩ := seal_decryptedRaw hP hjw hf hfrom hseal
  refine ⟨j, rs, h1, h2, h3, ?_⟩
  intro i dest rsk ek vk o hi hrk hkr hks hbe
  have hnone : Message.ofTextRaw P.f64 ({ m with recipients := some rs }.text o1) = none := by
    have hp := parse_message (m := { m with recipients := some rs }) o1
      (by rw [show Message.body _ = m.body from rfl, hb]; exact ⟨trivial, hnw, trivial⟩)
    unfold Message.ofTextRaw
    rw [hp, Option.bind_some, show encMessage o1 _ = Json.obj _ from rfl]
    exact decMessageRaw_none (fieldVals_body_message (m := { m with recipients := some rs }) o1 ho)
      (by show rawJ _ _ m.body = none; rw [hb]; simp only [rawJ, if_true])
  unfold Message.receiveRaw
  rw [h5 i dest rsk ek (o.sub 0) hi hrk hkr hks hbe, hnone]
  rfl

/-- C151: a message that is signed and sealed. -/
example : ∃ t, exampleMessage.sealSignedRaw (toy fun _ => none) exampleRand HOrd.id (exampleKey 3)
      (some [some ((toy fun _ => none).x25519Pub (exampleKey 1)),
        some ((toy fun _ => none).x25519Pub (exampleKey 2))]) .edDsa (exampleKey 5) = .ok t ∧
    Message.receiveRaw (toy fun _ => none) HOrd.rev t (some (exampleKey 1))
      (some ((toy fun _ => none).x25519Pub (exampleKey 3))) (some (exampleKey 5)) = .ok richMessage := by
  have hl := toy_laws fun _ => none
  have hpair := toy_signPair (fun _ => none) .edDsa (exampleKey 5)
  obtain ⟨t, ht⟩ := C28_total (toy fun _ => none) hl (toy_total _) exampleRand HOrd.id exampleMessage
    (exampleKey 3) (some [some ((toy fun _ => none).x25519Pub (exampleKey 1)),
        some ((toy fun _ => none).x25519Pub (exampleKey 2))]) c!"ECDH-1PU+XC20PKW" .edDsa (exampleKey 5)
    _ hpair (by decide) (by decide)
    (by intro l hl; rw [← Option.some.inj hl]; rfl) (by intro h; cases h) rfl (by decide) (by
      intro i dest hi
      match i with
      | 0 => exact ⟨_, hl.pub_len _, .inl rfl⟩
      | 1 => exact ⟨_, hl.pub_len _, .inl rfl⟩
      | n + 2 => cases hi)
  rw [← sealSignedRaw_eq] at ht
  obtain ⟨j, rs, -, -, -, h⟩ := C151_seal_signed _ hl exampleRand HOrd.id exampleMessage (exampleKey 3) _ t
    c!"did:e:f" .edDsa (exampleKey 5) _ hpair (exampleMessage_wf _)
    (by refine ⟨by decide, ⟨trivial, trivial, trivial⟩, trivial, trivial⟩) (by decide)
    ⟨(by intro k h; cases h), (by intro k h; cases h)⟩ rfl ht
  exact ⟨t, ht, h 0 _ (exampleKey 1) _ _ HOrd.rev rfl (by decide) (.inl rfl) (.inl rfl) (by simp) (.inl rfl)⟩

/-- C151: a message routed by a mediator, with explicit keys, for two recipients. -/
example : ∃ t f b md inner rs, exampleMessage.routedByRaw (toy fun _ => none) exampleRand exampleRand c!"u" (exampleKey 3)
      (some [some ((toy fun _ => none).x25519Pub (exampleKey 1)),
        some ((toy fun _ => none).x25519Pub (exampleKey 2))]) c!"did:m:m"
      (some ((toy fun _ => none).x25519Pub (exampleKey 4))) = .ok t ∧
    Message.receiveRaw (toy fun _ => none) HOrd.rev t (some (exampleKey 4))
      (some ((toy fun _ => none).x25519Pub (exampleKey 3))) none = .ok f ∧ f.jwm.typ = .forward ∧ f.getBody = .ok b ∧
    (parseJson b).bind decMediated = some md ∧ md.next = c!"did:a:b" ∧ utf8Decode md.payload = some inner ∧
    Message.receiveRaw (toy fun _ => none) HOrd.rev inner (some (exampleKey 1))
      (some ((toy fun _ => none).x25519Pub (exampleKey 3))) none =
        .ok { exampleMessage with recipients := some rs } := by
  have hl := toy_laws fun _ => none
  obtain ⟨s, hs⟩ := C16_seal_total (toy fun _ => none) hl (toy_total _) exampleRand exampleMessage
    (exampleKey 3) (some [some ((toy fun _ => none).x25519Pub (exampleKey 1)),
        some ((toy fun _ => none).x25519Pub (exampleKey 2))]) c!"ECDH-1PU+XC20PKW" (by decide) (by decide)
    (by intro l hl; rw [← Option.some.inj hl]; rfl) (by intro h; cases h) rfl (by decide) (by
      intro i dest hi
      match i with
      | 0 => exact ⟨_, hl.pub_len _, .inl rfl⟩
      | 1 => exact ⟨_, hl.pub_len _, .inl rfl⟩
      | n + 2 => cases hi)
  obtain ⟨t, ht⟩ := C41_total _ hl (toy_total _) exampleRand exampleRand c!"u" exampleMessage (exampleKey 3) _
    c!"did:m:m" (some ((toy fun _ => none).x25519Pub (exampleKey 4))) s hs (by decide) _ (hl.pub_len _) (.inl rfl)
  rw [← routedByRaw_eq] at ht
  obtain ⟨f, b, md, inner, rs, h⟩ := C151_routed _ hl exampleRand exampleRand c!"u" exampleMessage
    (exampleKey 3) _ c!"did:m:m" _ t c!"did:e:f" (exampleMessage_wf _)
    (by refine ⟨by decide, ⟨trivial, trivial, trivial⟩, trivial, trivial⟩) (by decide)
    ⟨(by intro k h; cases h), (by intro k h; cases h)⟩ (by decide) rfl ht (exampleKey 4) _ none HOrd.rev
    (by decide) (.inl rfl) (.inl rfl) c!"did:a:b" (exampleKey 1) _ none HOrd.rev rfl (by decide) (.inl rfl) (.inl rfl)
  exact ⟨t, f, b, md, inner, rs, ht, h⟩

/-- A body that is set and lost. -/
def exampleLost : Json := .obj [(rawToken, .str c!"x"), (c!"a", .null)]

/-- C150, C151: two messages that differ in their bodies only, sealed alike; one is received by its recipient, the other is not. -/
example (b : Bool) : ∃ t, { exampleMessage with body := (if b then exampleLost else exampleMessage.body) }.sealJwe (toy fun _ => none)
      exampleRand (exampleKey 3) (some [some ((toy fun _ => none).x25519Pub (exampleKey 1)),
        some ((toy fun _ => none).x25519Pub (exampleKey 2))]) = .ok t ∧
    ∃ r, Message.receiveRaw (toy fun _ => none) HOrd.rev t (some (exampleKey 1))
      (some ((toy fun _ => none).x25519Pub (exampleKey 3))) none = r ∧ (r = .err .serde ↔ b = true) := by
  have hl := toy_laws fun _ => none
  obtain ⟨t, ht⟩ := C16_seal_total (toy fun _ => none) hl (toy_total _) exampleRand
    { exampleMessage with body := (if b then exampleLost else exampleMessage.body) } (exampleKey 3)
    (some [some ((toy fun _ => none).x25519Pub (exampleKey 1)), some ((toy fun _ => none).x25519Pub (exampleKey 2))])
    c!"ECDH-1PU+XC20PKW" (by decide) (show exampleMessage.didcomm.to ≠ [] by decide)
    (by intro l hl; rw [← Option.some.inj hl]; rfl) (by intro h; cases h) rfl (by decide) (by
      intro i dest hi
      match i with
      | 0 => exact ⟨_, hl.pub_len _, .inl rfl⟩
      | 1 => exact ⟨_, hl.pub_len _, .inl rfl⟩
      | n + 2 => cases hi)
  refine ⟨t, ht, _, rfl, ?_⟩
  have hw := exampleMessage_wf (toy fun _ => none).f64
  cases b with
  | true =>
    obtain ⟨j, rs, -, -, -, h⟩ := C150_sealed_violated (toy fun _ => none) hl exampleRand { exampleMessage with body := exampleLost }
      (exampleKey 3) _ t c!"did:e:f"
      c!"a" c!"x" .null trivial rfl hw.jwm hw.other ⟨(by intro k h; cases h), (by intro k h; cases h)⟩ rfl ht
    rw [h 0 _ (exampleKey 1) _ none HOrd.rev rfl (by decide) (.inl rfl) (.inl rfl) (by simp)]
    simp
  | false =>
    obtain ⟨j, rs, -, -, -, h⟩ := C151_sealed (toy fun _ => none) hl exampleRand exampleMessage (exampleKey 3) _ t c!"did:e:f"
      hw (by refine ⟨by decide, ⟨trivial, trivial, trivial⟩, trivial, trivial⟩) (by decide)
      ⟨(by intro k h; cases h), (by intro k h; cases h)⟩ (by decide) rfl ht
    rw [h 0 _ (exampleKey 1) _ none HOrd.rev rfl (by decide) (.inl rfl) (.inl rfl) (by simp)]
    simp

end Verif
