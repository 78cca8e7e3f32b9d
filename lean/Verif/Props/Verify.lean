import Verif.Props.Sign

/-!
# Receiving signed messages

C28, C29, C30, C31.
-/

namespace Verif

open Spec

/-! ## Opening a sealed envelope -/

/-- As `C17_every_recipient`, but for the decryption step alone (so for every type of message). -/
theorem seal_decrypted {P : Prims} (hP : Laws P) {r : Message.SealRand} {m : Message}
    {ssk : Bytes} {keys : Option (List (Option Bytes))} {t frm : Str}
    (hm : m.WF P.f64) (hf : HeaderFixed m.jwm) (hfrom : m.didcomm.from = some frm)
    (hseal : m.sealJwe P r ssk keys = .ok t) :
    ∃ j rs, Jwe.ofText P.f64 t = some j ∧ Message.recipientsOf j = some rs ∧
      rs.length = m.didcomm.to.length ∧
      Message.WF P.f64 { m with recipients := some rs, flatJwe := false, flatJws := false } ∧
      ∀ (i : Nat) (dest : Str) (rsk : Bytes) (ek : Option Bytes) (o : HOrd),
        m.didcomm.to[i]? = some dest → rsk.length = 32 →
        KeyFor P dest (Spec.keyAt keys i) (P.x25519Pub rsk) → KeyFor P frm ek (P.x25519Pub ssk) →
        (∀ x ∈ rs.take i, ∀ c, decryptCek P j rsk x ek = .ok c → c = cek) →
        Message.decryptStep P o t (some rsk) ek =
          .ok ({ m with recipients := some rs, flatJwe := false, flatJws := false }.text (o.sub 1)) := by
  obtain ⟨pks, rs, a, c, tag, alg, hp, hpl, hk, hto, hfl, hrs, hl, hal, ha, he, -, rfl⟩ := seal_ok hseal
  have hr := sealRecipients_wf hrs
  have halg := envelope_alg (rs := rs) (iv := r.iv.1) (c := c) (tag := tag) hal
  have hsk : (Spec.envelope m rs r.iv.1 c tag).getSkid = some frm := by rw [envelope_skid, hfrom]
  have hwr : Message.WF P.f64 { m with recipients := some rs } :=
    ⟨hm.jwm, hm.other, hm.to, by intro l hl; rw [← Option.some.inj hl]; exact hr, hm.canon, hm.nums,
      hm.depth⟩
  refine ⟨_, rs, jwe_ofText_text (F := P.f64) _ (envelope_wf hm.jwm hr), envelope_recipients hfl, hl,
    ⟨hwr.jwm, hwr.other, hwr.to, hwr.recipients, hwr.canon, hwr.nums, hwr.depth⟩, ?_⟩
  intro i dest rsk ek o hi hrk hkr hks hb
  unfold Message.decryptStep
  rw [messageType_envelope, Res.bind_ok, if_pos rfl, Res.ofOpt_some, Res.bind_ok]
  refine receiveJwe_envelope hP hal ha hwr hf hr hfl he hfrom hrk (hP.pub_len _) hks ?_
  have hil : i < rs.length := by
    rw [hl]; exact (List.getElem?_eq_some_iff.1 hi).1
  obtain ⟨d, k, h1, h2⟩ := (sealRecipients_ok hrs).2 i _ (List.getElem?_eq_getElem hil)
  obtain ⟨hd, hk'⟩ := zip_get h1
  rw [hi] at hd
  obtain rfl := Option.some.inj hd
  rw [sealKeys_get hp hk'] at h2
  refine firstKey_of (List.getElem?_eq_getElem hil)
    (decryptCek_encryptCek hP h2 hal halg hsk hk hrk hkr hks) ?_
  intro x hx
  refine ⟨?_, hb x hx⟩
  obtain ⟨n, hn, rfl⟩ := List.getElem_of_mem hx
  have hn' : n < rs.length := by rw [List.length_take] at hn; omega
  obtain ⟨d', k', -, h2'⟩ := (sealRecipients_ok hrs).2 n _ (List.getElem?_eq_getElem hn')
  rw [List.getElem_take]
  exact decryptCek_no_panic hP h2' hal halg hsk hrk (hP.pub_len ssk) hks

theorem receive_eq {P : Prims} {o : HOrd} {s cur : Str} {sk ek vk : Option Bytes}
    (h : Message.decryptStep P (o.sub 0) s sk ek = .ok cur) :
    Message.receive P o s sk ek vk =
      (Message.verifyStep P (o.sub 1) cur vk >>= fun c => Res.ofOpt .serde (Message.ofText P.f64 c)) := by
  simp only [Message.receive, h, Res.bind_ok]

/-! ## C28 -/

/-- What `seal_signed` seals. -/
theorem sealSigned_ok {P : Prims} {r : Message.SealRand} {o : HOrd} {m : Message} {sk sgk : Bytes}
    {keys : Option (List (Option Bytes))} {a : SignAlg} {t : Str}
    (h : m.sealSigned P r o sk keys a sgk = .ok t) :
    ∃ signed, (m.asJws a).sign o (a.signer P) sgk = .ok signed ∧
      ∃ sig, signed = printJson (encJws (o.sub 2) (Spec.jwsOf (m.asJws a)
          (Spec.payloadText (o.sub 1) (m.asJws a)) sig)) ∧
        ({ m with body := encJws (o.sub 2) (Spec.jwsOf (m.asJws a)
          (Spec.payloadText (o.sub 1) (m.asJws a)) sig) }.setTyp .jws).sealJwe P r sk keys = .ok t := by
  simp only [Message.sealSigned, Res.bind_eq_ok, Res.ofOpt_eq_ok] at h
  obtain ⟨signed, hs, body, hb, h⟩ := h
  obtain ⟨-, sig, -, rfl⟩ := sign_ok hs
  rw [valueOfText_jwsOf] at hb
  obtain rfl := Option.some.inj hb
  exact ⟨_, hs, sig, rfl, h⟩

/-- The key is chosen from an explicit one or from the hex text in `kid`. -/
theorem signingKey_ok {key : Option Bytes} {kid : Option Str} {k : Bytes} :
    signingKey key kid = .ok k ↔
      key = some k ∨ key = none ∧ ∃ s, kid = some s ∧ hexDecode s = some k := by
  unfold signingKey
  cases key with
  | some x => simp
  | none => cases kid <;> simp

theorem setBody_wf {P : Prims} {m : Message} (hm : m.WF P.f64) (a : SignAlg) (o1 o2 : HOrd) (sig : Bytes) :
    ({ m with body := encJws o2 (Spec.jwsOf (m.asJws a) (Spec.payloadText o1 (m.asJws a)) sig) }.setTyp
      .jws).WF P.f64 where
  jwm := hm.jwm
  other := hm.other
  to := hm.to
  recipients := hm.recipients
  canon := canon_jwsOf _ _ _ _
  nums := (nice_jws (F := fun t => some t) _ _).2.1
  depth := by
    have := depth_jws o2 (Spec.jwsOf (m.asJws a) (Spec.payloadText o1 (m.asJws a)) sig)
    simp only [Message.setTyp]
    omega

theorem verifiedOf_message {P : Prims} {o : HOrd} {x : Str} {m v : Message} {key : Option Bytes} {k : Bytes}
    (hx : Message.ofText P.f64 x = some m) (ha : m.jwm.alg ≠ none)
    (hk : signingKey key m.jwm.kid = .ok k)
    (hv : Message.verify P o (utf8 (printJson m.body)) k = .ok v) :
    Message.verifiedOf P o x key = .ok (some v) := by
  unfold Message.verifiedOf
  rw [hx]
  simp only [Message.getBody, Res.bind_ok]
  rw [if_neg (by simpa using ha), hk, Res.bind_ok, hv, Res.bind_ok]
  rfl

/-- C28.  Every recipient of a `seal_signed` envelope receives the original DIDComm header, body and
attachments; the signature is checked under the explicit key, or without one under the hex-decoded
`kid`. -/
theorem C28_seal_signed (P : Prims) (hP : Laws P) (r : Message.SealRand) (o : HOrd) (m : Message)
    (ssk : Bytes) (keys : Option (List (Option Bytes))) (t frm : Str) (a : SignAlg) (sgk pk : Bytes)
    (hpair : SignPair P a sgk pk)
    (hm : m.WF P.f64) (hc : Avoids m.didcomm.other classKeys) (hf : HeaderFixed m.jwm)
    (hfrom : m.didcomm.from = some frm) (hseal : m.sealSigned P r o ssk keys a sgk = .ok t) :
    ∃ j rs, Jwe.ofText P.f64 t = some j ∧ Message.recipientsOf j = some rs ∧
      rs.length = m.didcomm.to.length ∧
      ∀ (i : Nat) (dest : Str) (rsk : Bytes) (ek vk : Option Bytes) (o' : HOrd),
        m.didcomm.to[i]? = some dest → rsk.length = 32 →
        KeyFor P dest (Spec.keyAt keys i) (P.x25519Pub rsk) → KeyFor P frm ek (P.x25519Pub ssk) →
        (∀ x ∈ rs.take i, ∀ c, decryptCek P j rsk x ek = .ok c → c = cek) →
        (vk = some pk ∨ vk = none ∧ m.jwm.kid = some (hexEncode pk)) →
        Message.receive P o' t (some rsk) ek vk =
          .ok { m with jwm := JwmHeader.dflt, flatJwe := false, flatJws := false } := by
  obtain ⟨signed, hs, sig, hsg, hse⟩ := sealSigned_ok hseal
  have hal : m.jwm.alg ≠ none := by
    obtain ⟨_, _, _, _, _, alg, -, -, -, -, -, -, -, hal, -⟩ := seal_ok hse
    have : m.jwm.alg = some alg := hal
    rw [this]; simp
  have hw2 := setBody_wf hm a (o.sub 1) (o.sub 2) sig
  obtain ⟨j, rs, h1, h2, h3, hw3, h4⟩ := seal_decrypted (m := Message.setTyp { m with body := _ } .jws) hP hw2 hf hfrom hse
  refine ⟨j, rs, h1, h2, h3, ?_⟩
  intro i dest rsk ek vk o' hi hrk hkr hks hb hvk
  have h5 := h4 i dest rsk ek (o'.sub 0) hi hrk hkr hks hb
  rw [receive_eq h5]
  unfold Message.verifyStep
  rw [messageType_text P ((o'.sub 0).sub 1) hw3 hc]
  have hof := ofText_text ((o'.sub 0).sub 1) hw3
  obtain ⟨-, alg, ha, hofs⟩ := signName (a := a) (h := m.jwm)
  have hjw : (m.asJws a).WF P.f64 := by
    refine ⟨?_, hm.other, hm.to, hm.recipients, hm.canon, hm.nums, hm.depth⟩
    cases a <;> exact hm.jwm
  have hjf : HeaderFixed (m.asJws a).jwm := by cases a <;> exact hf
  have hver := verify_sign hpair hjw hjf ha hofs hs ((o'.sub 1).sub 0)
  have hkey : signingKey vk m.jwm.kid = .ok pk := by
    rw [signingKey_ok]
    rcases hvk with rfl | ⟨rfl, hk⟩
    · exact .inl rfl
    · exact .inr ⟨rfl, _, hk, hexDecode_encode pk⟩
  have hv := verifiedOf_message (key := vk) hof (by simpa [Message.setTyp] using hal) hkey
    (show Message.verify P ((o'.sub 1).sub 0) (utf8 (printJson (encJws (o.sub 2) (Spec.jwsOf (m.asJws a)
      (Spec.payloadText (o.sub 1) (m.asJws a)) sig)))) pk = _ by rw [← hsg]; exact hver)
  have hwd : Message.WF P.f64 { m with jwm := JwmHeader.dflt, flatJwe := false, flatJws := false } :=
    ⟨⟨(by intro k hk; cases hk), (by intro k hk; cases hk)⟩, hm.other, hm.to, hm.recipients, hm.canon,
      hm.nums, hm.depth⟩
  rw [Res.bind_ok, if_pos (by rfl)]
  unfold Message.receiveJws
  rw [hv, Res.bind_ok, Res.ofOpt_some, Res.bind_ok, Res.pure_eq, Res.bind_ok]
  exact congrArg (Res.ofOpt Err.serde) (ofText_text _ hwd)

/-- C28, totality: sealing a signed message succeeds whenever signing and sealing can. -/
theorem C28_total (P : Prims) (hP : Laws P) (ht : Spec.AeadTotal P) (r : Message.SealRand) (o : HOrd)
    (m : Message) (ssk : Bytes) (keys : Option (List (Option Bytes))) (alg : Str) (a : SignAlg)
    (sgk pk : Bytes) (hpair : SignPair P a sgk pk)
    (hk : ssk.length = 32) (hto : m.didcomm.to ≠ [])
    (hkl : ∀ l, keys = some l → l.length = m.didcomm.to.length)
    (hfl : m.flatJwe = true → m.didcomm.to.length = 1) (hal : m.jwm.alg = some alg)
    (ha : alg ∈ Spec.supportedAlgs)
    (hkeys : ∀ i dest, m.didcomm.to[i]? = some dest →
      ∃ pk, pk.length = 32 ∧ KeyFor P dest (Spec.keyAt keys i) pk) :
    ∃ t, m.sealSigned P r o ssk keys a sgk = .ok t := by
  obtain ⟨hal', _, _, _⟩ := signName (a := a) (h := m.jwm)
  obtain ⟨sig, hs, -⟩ := hpair (Message.signingInput (headerB64 (o.sub 0) (Spec.signedHeader (m.asJws a)))
        (Spec.payloadText (o.sub 1) (m.asJws a)))
  have hsign := sign_of (o := o) (m := m.asJws a) (signer := a.signer P) (key := sgk) (sig := sig) hal'
    (by unfold SignAlg.signer; rw [hs]; rfl)
  simp only [Message.sealSigned, hsign, Res.bind_ok, valueOfText_jwsOf, Res.ofOpt_some]
  exact C16_seal_total P hP ht r (Message.setTyp { m with body := _ } .jws) ssk keys alg hk hto hkl hfl hal
    ha hkeys

/-- C28: an envelope to which the theorem applies. -/
example : ∃ t, exampleMessage.sealSigned (toy fun _ => none) exampleRand HOrd.id (exampleKey 3)
      (some [some ((toy fun _ => none).x25519Pub (exampleKey 1)),
        some ((toy fun _ => none).x25519Pub (exampleKey 2))]) .edDsa (exampleKey 5) = .ok t ∧
    Message.receive (toy fun _ => none) HOrd.rev t (some (exampleKey 1))
      (some ((toy fun _ => none).x25519Pub (exampleKey 3))) (some (exampleKey 5)) = .ok richMessage := by
  have hl := toy_laws fun _ => none
  have hpair := toy_signPair (fun _ => none) .edDsa (exampleKey 5)
  obtain ⟨t, ht⟩ := C28_total (toy fun _ => none) hl (toy_total _) exampleRand HOrd.id exampleMessage
    (exampleKey 3) (some [some ((toy fun _ => none).x25519Pub (exampleKey 1)),
        some ((toy fun _ => none).x25519Pub (exampleKey 2))]) c!"ECDH-1PU+XC20PKW" .edDsa (exampleKey 5)
    _ hpair (by decide) (by decide)
    (by intro l hl; rw [← Option.some.inj hl]; rfl) (by intro h; cases h) rfl (by decide) (by
      intro i dest hi
      match i with
      | 0 => exact ⟨_, hl.pub_len _, .inl rfl⟩
      | 1 => exact ⟨_, hl.pub_len _, .inl rfl⟩
      | n + 2 => cases hi)
  obtain ⟨j, rs, -, -, -, h⟩ := C28_seal_signed _ hl exampleRand HOrd.id exampleMessage (exampleKey 3) _ t
    c!"did:e:f" .edDsa (exampleKey 5) _ hpair (exampleMessage_wf _) (by decide)
    ⟨(by intro k h; cases h), (by intro k h; cases h)⟩ rfl ht
  exact ⟨t, ht, h 0 _ (exampleKey 1) _ _ HOrd.rev rfl (by decide) (.inl rfl) (.inl rfl) (by simp) (.inl rfl)⟩

/-! ## Receiving a JWS -/

theorem presence_some {k : Str} {es : List (Str × Json)} {v : Json} (h : fieldVals k es = [v])
    (hv : v ≠ .null) : Message.presence k es = some true := by
  simp only [Message.presence, optField, h]
  cases v <;> simp_all [decOpt]

/-- Signed messages are recognised as such, and not read as a message. -/
theorem jwsOf_class {P : Prims} (o : HOrd) (m : Message) (p : Str) (sig : Bytes) :
    Message.messageType P ((Spec.jwsOf m p sig).text o) = .ok .jws ∧
      Message.ofText P.f64 ((Spec.jwsOf m p sig).text o) = none := by
  have hp := parse_jws o (Spec.jwsOf m p sig)
  generalize (Spec.jwsOf m p sig).text o = t at hp
  constructor
  · by_cases hf : m.flatJws = true
    · rw [Spec.jwsOf, if_pos hf] at hp
      rw [messageType_obj P hp (a := true) (b := false) (c := false)]
      · rfl
      · exact presence_some (v := .str (b64Encode sig)) rfl (by simp)
      · exact presence_absent rfl
      · exact presence_absent rfl
    · rw [Spec.jwsOf, if_neg hf] at hp
      rw [messageType_obj P hp (a := false) (b := true) (c := false)]
      · rfl
      · exact presence_absent rfl
      · exact presence_some rfl (by simp)
      · exact presence_absent rfl
  · unfold Message.ofText
    rw [hp]
    by_cases hf : m.flatJws = true
    · rw [Spec.jwsOf, if_pos hf]
      exact decMessage_none (k := c!"id") (by decide) (by show 0 ≠ 1; decide)
    · rw [Spec.jwsOf, if_neg hf]
      exact decMessage_none (k := c!"id") (by decide) (by show 0 ≠ 1; decide)

theorem verifyEach_first {P : Prims} {b : Bytes} {key : Option Bytes} {o : HOrd} {s : Signature}
    {l : List Signature} {alg : Str} {k : Bytes} {m : Message} (ha : s.getAlg = some alg)
    (hk : signingKey key s.getKid = .ok k) (hv : Message.verify P (o.sub 0) b k = .ok m) :
    Message.verifyEach P b key o (s :: l) = .ok (some m) := by
  unfold Message.verifyEach
  rw [ha]
  simp only [hk, Res.bind_ok, hv]

/-- `receive` of an input that is a JWS. -/
theorem receive_jws_form {P : Prims} {o : HOrd} {s : Str} {dk ek vk : Option Bytes} {j : Jws}
    {x : Signature} {l : List Signature} {alg : Str} {k : Bytes} {v : Message}
    (hc : Message.messageType P s = .ok .jws) (hn : Message.ofText P.f64 s = none)
    (hj : Jws.ofText P.f64 s = some j) (hs : Message.signaturesOf j = .ok (x :: l))
    (ha : x.getAlg = some alg) (hk : signingKey vk x.getKid = .ok k)
    (hv : Message.verify P (((o.sub 1).sub 0).sub 0) (utf8 s) k = .ok v) :
    Message.receive P o s dk ek vk =
      Res.ofOpt .serde (Message.ofText P.f64 (v.text ((o.sub 1).sub 1))) := by
  have h1 : Message.decryptStep P (o.sub 0) s dk ek = .ok s := by
    unfold Message.decryptStep
    rw [hc, Res.bind_ok, if_neg (by decide)]
  have h2 : Message.verifiedOf P ((o.sub 1).sub 0) s vk = .ok (some v) := by
    unfold Message.verifiedOf
    rw [hn]
    simp only [hj, hs, Res.bind_ok]
    exact verifyEach_first ha hk hv
  rw [receive_eq h1]
  unfold Message.verifyStep Message.receiveJws
  rw [hc, Res.bind_ok, if_pos rfl, h2, Res.bind_ok, Res.ofOpt_some, Res.bind_ok, Res.pure_eq, Res.bind_ok]

/-- A message signed by any signer is received, if its JWS verifies. -/
theorem receive_signed {P : Prims} {a : SignAlg} {signer : Bytes → Bytes → Res Bytes} {sk pk : Bytes}
    {m : Message} (hm : m.WF P.f64) {o o' : HOrd} {t : Str} (h1 : (m.asJws a).sign o signer sk = .ok t)
    (hver : ∀ o'', Message.verify P o'' (utf8 t) pk =
      .ok { m with jwm := JwmHeader.dflt, flatJwe := false, flatJws := false })
    {dk ek vk : Option Bytes} (hvk : vk = some pk ∨ vk = none ∧ m.jwm.kid = some (hexEncode pk)) :
    Message.receive P o' t dk ek vk =
      .ok { m with jwm := JwmHeader.dflt, flatJwe := false, flatJws := false } := by
  have hwd : Message.WF P.f64 { m with jwm := JwmHeader.dflt, flatJwe := false, flatJws := false } :=
    ⟨⟨(by intro k hk; cases hk), (by intro k hk; cases hk)⟩, hm.other, hm.to, hm.recipients, hm.canon,
      hm.nums, hm.depth⟩
  obtain ⟨-, sig, -, rfl⟩ := sign_ok h1
  obtain ⟨hc, hn⟩ := jwsOf_class (P := P) (o.sub 2) (m.asJws a) (Spec.payloadText (o.sub 1) (m.asJws a)) sig
  have hjw : (m.asJws a).jwm.WF := by cases a <;> exact hm.jwm
  obtain ⟨-, alg, ha, hofs⟩ := signName (a := a) (h := m.jwm)
  obtain ⟨j, hj, -, hsigs⟩ := jwsOf_signatures (F := P.f64) (m := m.asJws a)
    (p := Spec.payloadText (o.sub 1) (m.asJws a)) (sig := sig) (o.sub 2) hjw
  have hjt : Jws.ofText P.f64 ((Spec.jwsOf (m.asJws a) (Spec.payloadText (o.sub 1) (m.asJws a)) sig).text
      (o.sub 2)) = some j := by
    rw [ofText_jws]
    exact hj
  obtain ⟨l, hl⟩ : ∃ l, Message.signaturesOf j = .ok (Spec.signatureOf (m.asJws a) sig :: l) := by
    rw [hsigs]
    by_cases hfl : (m.asJws a).flatJws = true
    · rw [if_pos hfl]; exact ⟨[], rfl⟩
    · rw [if_neg hfl]
      obtain ⟨x, l, hx⟩ := List.exists_cons_of_ne_nil (show (m.asJws a).didcomm.to ≠ [] from hm.to)
      rw [hx]
      exact ⟨_, rfl⟩
  have hal : (Spec.signatureOf (m.asJws a) sig).getAlg = some alg := by
    simp only [Signature.getAlg, Signature.getter, fallback, Spec.signatureOf, Spec.signedHeader,
      Option.bind_none, Option.bind_some]
    exact ha
  have hkid : (Spec.signatureOf (m.asJws a) sig).getKid = m.jwm.kid := by
    cases a <;> rfl
  have hkey : signingKey vk (Spec.signatureOf (m.asJws a) sig).getKid = .ok pk := by
    rw [hkid, signingKey_ok]
    rcases hvk with rfl | ⟨rfl, hk⟩
    · exact .inl rfl
    · exact .inr ⟨rfl, _, hk, hexDecode_encode pk⟩
  rw [receive_jws_form hc hn hjt hl hal hkey (hver _)]
  exact congrArg (Res.ofOpt Err.serde) (ofText_text _ hwd)

/-- C24 through `receive`: a signed message is received, with the explicit key or with the one in
`kid`. -/
theorem C24_sign_receive (P : Prims) (a : SignAlg) (sk pk : Bytes) (hpair : SignPair P a sk pk)
    (m : Message) (hm : m.WF P.f64) (hf : HeaderFixed m.jwm) (o o' : HOrd) :
    ∃ t, (m.asJws a).sign o (a.signer P) sk = .ok t ∧ ∀ dk ek vk,
      (vk = some pk ∨ vk = none ∧ m.jwm.kid = some (hexEncode pk)) →
      Message.receive P o' t dk ek vk =
        .ok { m with jwm := JwmHeader.dflt, flatJwe := false, flatJws := false } := by
  obtain ⟨t, h1, -⟩ := C24_sign_verify P a sk pk hpair m hm hf o o'
  refine ⟨t, h1, fun dk ek vk hvk => receive_signed hm h1 (fun o'' => ?_) hvk⟩
  obtain ⟨t', h3, h4⟩ := C24_sign_verify P a sk pk hpair m hm hf o o''
  rw [h1] at h3
  obtain rfl := Res.ok.inj h3
  exact h4

example : ∃ t, ((richMessage.setKid (hexEncode (exampleKey 5))).asFlatJws .es256).sign HOrd.id
      (SignAlg.es256.signer (toy fun _ => none)) (exampleKey 5) = .ok t ∧
    Message.receive (toy fun _ => none) HOrd.rev t none none none = .ok richMessage := by
  have hw := richMessage_wf (toy fun _ => none).f64
  obtain ⟨t, h1, h2⟩ := C24_sign_receive _ .es256 _ _ (toy_signPair (fun _ => none) _ (exampleKey 5))
    { richMessage.setKid (hexEncode (exampleKey 5)) with flatJws := true }
    ⟨hw.jwm, hw.other, hw.to, hw.recipients, hw.canon, hw.nums, hw.depth⟩
    ⟨(by intro k h; cases h), (by intro k h; cases h)⟩ HOrd.id HOrd.rev
  exact ⟨t, h1, h2 _ _ _ (.inr ⟨rfl, rfl⟩)⟩

/-! ## C31 -/

/-- C31 fails: whatever `from` says and whatever the content is, the holder of any key pair makes a
signed message that `receive` accepts without a verification key; the result still names `from`. -/
theorem C31_any_sender_violated (P : Prims) (a : SignAlg) (sk pk : Bytes) (hpair : SignPair P a sk pk)
    (m : Message) (hm : m.WF P.f64) (hf : HeaderFixed m.jwm) (frm : Str) (o o' : HOrd) :
    ∃ t, (((m.setFrom frm).setKid (hexEncode pk)).asJws a).sign o (a.signer P) sk = .ok t ∧
      ∀ dk ek, ∃ m', Message.receive P o' t dk ek none = .ok m' ∧ m'.didcomm.from = some frm ∧
        m'.body = m.body ∧ m'.didcomm.id = m.didcomm.id ∧ m'.attachments = m.attachments := by
  have hk : (m.setFrom frm).setKid (hexEncode pk) =
      { m with didcomm := { m.didcomm with «from» := some frm },
               jwm := { m.jwm with kid := some (hexEncode pk) } } := by
    unfold Message.setKid
    split <;> rfl
  rw [hk]
  obtain ⟨t, h1, h2⟩ := C24_sign_receive P a sk pk hpair
    { m with didcomm := { m.didcomm with «from» := some frm },
             jwm := { m.jwm with kid := some (hexEncode pk) } }
    ⟨hm.jwm, hm.other, hm.to, hm.recipients, hm.canon, hm.nums, hm.depth⟩ hf o o'
  exact ⟨t, h1, fun dk ek => ⟨_, h2 dk ek none (.inr ⟨rfl, rfl⟩), rfl, rfl, rfl, rfl⟩⟩

/-- C31: a key pair of a stranger, and a message that names another sender. -/
example : SignPair (toy fun _ => none) .es256 (exampleKey 5) (exampleKey 5) ∧ richMessage.WF (toy fun _ => none).f64 ∧
    HeaderFixed richMessage.jwm ∧ richMessage.didcomm.from = some c!"did:e:f" :=
  ⟨toy_signPair _ _ _, richMessage_wf _, ⟨(by intro k h; cases h), (by intro k h; cases h)⟩, rfl⟩

/-! ## C29 -/

theorem fieldVals_nodup {es : List (Str × Json)} (hn : (es.map (·.1)).Nodup) {k : Str} {v : Json}
    (h : (k, v) ∈ es) : fieldVals k es = [v] := by
  induction es with
  | nil => cases h
  | cons p es ih =>
    obtain ⟨k', v'⟩ := p
    rw [List.map_cons, List.nodup_cons] at hn
    rcases List.mem_cons.1 h with h | h
    · cases h
      rw [fieldVals_cons_self, fieldVals_none]
      intro q hq he
      exact hn.1 (List.mem_map.2 ⟨q, hq, he⟩)
    · have hne : k' ≠ k := by
        rintro rfl
        exact hn.1 (List.mem_map.2 ⟨_, h, rfl⟩)
      rw [fieldVals_cons_ne hne]
      exact ih hn.2 h

theorem fieldVals_mapE_some {α : Type} {o : HOrd} {e : α → Json} {m : HMap α} {k : Str} {v : α}
    (h : m.get k = some v) : fieldVals k (mapE o e m) = [e v] := by
  apply fieldVals_nodup
  · refine perm_nodup_keys (o.perm [] _) ?_
    rw [List.map_map]
    exact sorted_nodup m.sorted
  · exact mem_mapE.2 ⟨v, HMap.mem_entries.2 h, rfl⟩

/-- Members of a written message that come from a custom header. -/
theorem fieldVals_message_custom (o : HOrd) {m : Message} {k v : Str} (hk : k ∉ reservedKeys)
    (hv : m.didcomm.other.get k = some v) {es : List (Str × Json)} (he : encMessage o m = .obj es) :
    fieldVals k es = [.str v] := by
  simp only [encMessage, Json.obj.injEq] at he
  subst he
  have hd : fieldVals k (didcommEntries (o.sub 1) m.didcomm) = [.str v] := by
    have hne : ∀ x ∈ didcommKeys, x ≠ k := by
      rintro x hx rfl
      exact hk (by simp [reservedKeys, hx])
    simp only [didcommKeys, List.forall_mem_cons] at hne
    obtain ⟨n1, n2, n3, n4, n5, n6, n7, n8, n9, n10, -⟩ := hne
    simp only [didcommEntries, fieldVals_append, fieldVals_cons_ne, fieldVals_optE_ne, fieldVals_vecE_ne,
      n1, n2, n3, n4, n5, n6, n7, n8, n9, n10, ne_eq, not_false_eq_true, List.nil_append]
    exact fieldVals_mapE_some hv
  have hj : fieldVals k (jwmEntries (o.sub 0) m.jwm) = [] := by
    apply fieldVals_none
    rintro p hp rfl
    exact hk (by simp [reservedKeys, keys_jwm hp])
  have hr : ∀ x ∈ messageKeys, x ≠ k := by
    rintro x hx rfl
    exact hk (by simp [reservedKeys, hx])
  simp only [messageKeys, List.forall_mem_cons] at hr
  obtain ⟨n1, n2, n3, -⟩ := hr
  simp only [fieldVals_append, fieldVals_cons_ne, fieldVals_optE_ne, fieldVals_vecE_ne, hj, hd, n1, n2, n3,
    ne_eq, not_false_eq_true, List.nil_append, List.append_nil]

/-- A message with a custom header `iv` is taken for an encrypted one. -/
theorem messageType_iv (P : Prims) (o : HOrd) {m : Message} {v : Str} (hn : NumsOk m.body)
    (hv : m.didcomm.other.get c!"iv" = some v)
    (ha : Avoids m.didcomm.other [c!"signature", c!"signatures"]) :
    Message.messageType P (m.text o) = .ok .jwe := by
  rw [messageType_obj P (parse_message o hn)
    (presence_message o (k := c!"signature") (by decide) (ha _ (by decide)) rfl)
    (presence_message o (k := c!"signatures") (by decide) (ha _ (by decide)) rfl)
    (presence_some (fieldVals_message_custom o (classKeys_reserved _ (by decide)) hv rfl) (by simp))]
  rfl

/-- C29 fails: an encrypted message of the signed type that has a custom header named `iv` is returned
as it is, whatever the verification key; its content was never signed. -/
theorem C29_iv_header_violated (P : Prims) (hP : Laws P) (r : Message.SealRand) (m : Message)
    (ssk rsk : Bytes) (rest : List (Option Bytes)) (t frm v : Str)
    (hm : m.WF P.f64) (hf : HeaderFixed m.jwm) (hfrom : m.didcomm.from = some frm)
    (hrk : rsk.length = 32) (hv : m.didcomm.other.get c!"iv" = some v)
    (ha : Avoids m.didcomm.other [c!"signature", c!"signatures"])
    (hseal : m.sealJwe P r ssk (some (some (P.x25519Pub rsk) :: rest)) = .ok t) :
    ∃ rs, ∀ o vk, Message.receive P o t (some rsk) (some (P.x25519Pub ssk)) vk =
      .ok { m with recipients := some rs, flatJwe := false, flatJws := false } := by
  obtain ⟨j, rs, -, -, -, hw, h⟩ := seal_decrypted hP hm hf hfrom hseal
  obtain ⟨d, l, hto⟩ := List.exists_cons_of_ne_nil hm.to
  refine ⟨rs, fun o vk => ?_⟩
  have h5 := h 0 d rsk _ (o.sub 0) (by rw [hto]; rfl) hrk (.inl rfl) (.inl rfl) (by simp)
  rw [receive_eq h5]
  unfold Message.verifyStep
  have hmt := messageType_iv (m := { m with recipients := some rs, flatJwe := false, flatJws := false })
    P ((o.sub 0).sub 1) hw.nums hv ha
  rw [hmt, Res.bind_ok, if_neg (by decide), Res.bind_ok, ofText_text _ hw]
  rfl

/-- C29: a message of the signed type to which the violation applies. -/
example : ∃ m : Message, m.WF (toy fun _ => none).f64 ∧ m.jwm.typ = .jws ∧
    m.didcomm.other.get c!"iv" = some c!"x" ∧ ∃ t, m.sealJwe (toy fun _ => none) exampleRand (exampleKey 3)
      (some [some ((toy fun _ => none).x25519Pub (exampleKey 1)),
        some ((toy fun _ => none).x25519Pub (exampleKey 2))]) = .ok t := by
  have hl := toy_laws fun _ => none
  have hw := exampleMessage_wf (toy fun _ => none).f64
  refine ⟨(exampleMessage.addHeaderField c!"iv" c!"x").setTyp .jws,
    ⟨hw.jwm, ?_, hw.to, hw.recipients, hw.canon, hw.nums, hw.depth⟩, rfl, by decide, ?_⟩
  · decide
  · exact C16_seal_total (toy fun _ => none) hl (toy_total _) exampleRand _
      (exampleKey 3) (some [some ((toy fun _ => none).x25519Pub (exampleKey 1)),
        some ((toy fun _ => none).x25519Pub (exampleKey 2))]) c!"ECDH-1PU+XC20PKW" (by decide) (by decide)
      (by intro l hl; rw [← Option.some.inj hl]; rfl) (by intro h; cases h) rfl (by decide) (by
      intro i dest hi
      match i with
      | 0 => exact ⟨_, hl.pub_len _, .inl rfl⟩
      | 1 => exact ⟨_, hl.pub_len _, .inl rfl⟩
      | n + 2 => cases hi)

/-- What the verification step of `receive` guarantees about its input `cur` and the text it returns:
some JWS was verified under a key that is the given one or, without one, the hex-decoded `kid`. -/
def Spec.Verified (P : Prims) (cur : Str) (vk : Option Bytes) (v : Message) : Prop :=
  ∃ o b k kid, Message.verify P o b k = .ok v ∧
    (vk = some k ∨ vk = none ∧ ∃ s, kid = some s ∧ hexDecode s = some k) ∧
    ((∃ m, Message.ofText P.f64 cur = some m ∧ b = utf8 (printJson m.body) ∧ kid = m.jwm.kid) ∨
     (Message.ofText P.f64 cur = none ∧ b = utf8 cur ∧
      ∃ j s, Jws.ofText P.f64 cur = some j ∧ s ∈ Spec.signatures j ∧ kid = s.getKid))

theorem signaturesOf_ok {j : Jws} {l : List Signature} (h : Message.signaturesOf j = .ok l) :
    Spec.signatures j = l := by
  unfold Message.signaturesOf at h
  unfold Spec.signatures
  split at h
  · rename_i hs; simp only [hs]; exact Res.ok.inj h
  · rename_i hs
    split at h
    · rename_i s hs'; simp only [hs, hs']; exact Res.ok.inj h
    · cases h

theorem verifyEach_ok {P : Prims} {b : Bytes} {key : Option Bytes} {l : List Signature} {o : HOrd}
    {v : Message} (h : Message.verifyEach P b key o l = .ok (some v)) :
    ∃ s ∈ l, ∃ o' k, signingKey key s.getKid = .ok k ∧ Message.verify P o' b k = .ok v := by
  induction l generalizing o with
  | nil => cases h
  | cons s l ih =>
    unfold Message.verifyEach at h
    split at h
    · obtain ⟨s', h1, h2⟩ := ih h
      exact ⟨s', List.mem_cons_of_mem _ h1, h2⟩
    · rw [Res.bind_eq_ok] at h
      obtain ⟨k, hk, h⟩ := h
      split at h
      · rename_i m hm
        obtain rfl := Option.some.inj (Res.ok.inj h)
        exact ⟨s, by simp, _, k, hk, hm⟩
      · obtain ⟨s', h1, h2⟩ := ih h
        exact ⟨s', List.mem_cons_of_mem _ h1, h2⟩
      · cases h

theorem receiveJws_ok {P : Prims} {o : HOrd} {cur t : Str} {key : Option Bytes}
    (h : Message.receiveJws P o cur key = .ok t) :
    ∃ v, Spec.Verified P cur key v ∧ t = v.text (o.sub 1) := by
  unfold Message.receiveJws at h
  simp only [Res.bind_eq_ok, Res.ofOpt_eq_ok, Res.pure_eq, Res.ok.injEq] at h
  obtain ⟨x, hx, v, rfl, rfl⟩ := h
  refine ⟨v, ?_, rfl⟩
  unfold Message.verifiedOf at hx
  split at hx
  · rename_i m hm
    split at hx
    · cases hx
    · simp only [Message.getBody, Res.bind_ok, Res.bind_eq_ok, Res.pure_eq, Res.ok.injEq,
        Option.some.injEq] at hx
      obtain ⟨k, hk, v', hv, rfl⟩ := hx
      exact ⟨_, _, k, _, hv, signingKey_ok.1 hk, .inl ⟨m, hm, rfl, rfl⟩⟩
  · rename_i hm
    split at hx
    · rename_i j hj
      rw [Res.bind_eq_ok] at hx
      obtain ⟨l, hl, hx⟩ := hx
      obtain ⟨s, hs, o', k, hk, hv⟩ := verifyEach_ok hx
      exact ⟨o', _, k, _, hv, signingKey_ok.1 hk, .inr ⟨hm, rfl, j, s, hj,
        by rw [signaturesOf_ok hl]; exact hs, rfl⟩⟩
    · cases hx

/-- C29, what holds (1): if the input, after decryption if it was encrypted, is classified as signed,
then a returned message is the one in a JWS that was verified under exactly the given key; the `kid` in
the envelope plays no role. -/
theorem C29_signed_input_partial (P : Prims) (o : HOrd) (s cur : Str) (sk ek : Option Bytes) (k : Bytes)
    (m : Message) (hcur : Message.decryptStep P (o.sub 0) s sk ek = .ok cur)
    (hc : Message.messageType P cur = .ok .jws)
    (h : Message.receive P o s sk ek (some k) = .ok m) :
    ∃ o1 o2 b v, Message.verify P o1 b k = .ok v ∧ Message.ofText P.f64 (v.text o2) = some m := by
  rw [receive_eq hcur] at h
  simp only [Message.verifyStep, hc, Res.bind_ok, if_true, Res.bind_eq_ok, Res.ofOpt_eq_ok] at h
  obtain ⟨t, ht, hm⟩ := h
  obtain ⟨v, ⟨o1, b, k', kid, hv, hk, -⟩, rfl⟩ := receiveJws_ok ht
  rcases hk with hk | ⟨hk, -⟩
  · obtain rfl := Option.some.inj hk
    exact ⟨o1, _, b, v, hv, hm⟩
  · cases hk

theorem decMessage_avoids {F : Str → Option Str} {j : Json} {m : Message}
    (h : decMessage F j = some m) : Avoids m.didcomm.other reservedKeys := by
  simp only [decMessage, Option.bind_eq_bind, Option.bind_eq_some_iff, Option.pure_def,
    Option.some.injEq] at h
  obtain ⟨es, hes, rs, hrs, body, hb, atts, -, -, -, jwm, hjwm, dc, hdc, rfl⟩ := h
  refine (decDidcommE_avoids (ks := jwmKeys ++ messageKeys) hdc ?_).sub ?_
  · intro p hp
    obtain ⟨h1, h2⟩ := mem_rest hp
    obtain ⟨-, h3⟩ := mem_rest h1
    simp only [List.mem_append, not_or]
    exact ⟨h2, h3⟩
  · intro k hk
    simp only [reservedKeys, List.mem_append] at hk ⊢
    rcases hk with (hk | hk) | hk <;> simp [hk]

/-- A written message without recipients is not read back. -/
theorem ofText_no_to {P : Prims} (o : HOrd) {m : Message} (hn : NumsOk m.body)
    (ha : m.didcomm.other.get c!"to" = none) (hto : m.didcomm.to = []) :
    Message.ofText P.f64 (m.text o) = none := by
  unfold Message.ofText
  rw [parse_message o hn]
  show decMessage P.f64 (encMessage o m) = none
  apply decMessage_none (k := c!"to") (by decide)
  have hj : fieldVals c!"to" (jwmEntries (o.sub 0) m.jwm) = [] := by
    apply fieldVals_none
    intro p hp he
    have := keys_jwm hp
    rw [he] at this
    revert this; decide
  have hm : fieldVals c!"to" (mapE ((o.sub 1).sub 1) Json.str m.didcomm.other) = [] := fieldVals_mapE ha
  have ha := fieldVals_vecE_ne (k := c!"to") (k' := c!"attachments") (by decide)
    (fun l => Json.arr (l.map encAttachment)) m.attachments
  generalize hv : vecE c!"attachments" (fun l => Json.arr (l.map encAttachment)) m.attachments = x at ha
  simp only [fieldVals_append, hj, didcommEntries, hto]
  simp [vecE, fieldVals_cons_ne, fieldVals_append, fieldVals_optE_ne, hm, ha]

theorem decMessage_nums {F : Str → Option Str} (hF : ∀ t u, F t = some u → NumTok u) {j : Json} {m : Message}
    (h : decMessage F j = some m) (hn : NumsOk j) : NumsOk m.body := by
  simp only [decMessage, Option.bind_eq_bind, Option.bind_eq_some_iff, Option.pure_def,
    Option.some.injEq] at h
  obtain ⟨es, hes, rs, hrs, body, hb, atts, -, -, -, jwm, hjwm, dc, hdc, rfl⟩ := h
  cases j <;> simp only [mapEntries, reduceCtorEq, Option.some.injEq] at hes
  subst hes
  obtain ⟨v, hv, hvb⟩ := reqField_some hb
  have hvn : NumsOk v := numsOkM_iff.1 hn _ hv
  unfold toValue at hvb
  split at hvb
  · exact normJ_numsOk hF hvb hvn
  · cases hvb

/-- What is read of the text of a verified message. -/
theorem verified_reload {P : Prims} (hP : Laws P) {o : HOrd} (o' : HOrd) {b k : Bytes} {v m : Message}
    (hv : Message.verify P o b k = .ok v) : Message.ofText P.f64 (v.text o') = some m ↔ Spec.Reread P v m := by
  obtain ⟨j, s, pt, o'', -, -, -, -, hof⟩ := C25_verified_is_signed P o b k v hv
  exact reread_bytes hP o' hof

/-- C29, what holds (2): as (1), with the returned message being the verified one, written and read again: it has the
same recipients, headers and attachments, and its body differs at most in how numbers are written. -/
theorem C29_signed_input_exact_partial (P : Prims) (hP : Laws P) (o : HOrd) (s cur : Str)
    (sk ek : Option Bytes) (k : Bytes) (m : Message)
    (hcur : Message.decryptStep P (o.sub 0) s sk ek = .ok cur)
    (hc : Message.messageType P cur = .ok .jws)
    (h : Message.receive P o s sk ek (some k) = .ok m) :
    ∃ o1 b v, Message.verify P o1 b k = .ok v ∧ Spec.Reread P v m := by
  obtain ⟨o1, o2, b, v, hv, hm⟩ := C29_signed_input_partial P o s cur sk ek k m hcur hc h
  exact ⟨o1, b, v, hv, (verified_reload hP o2 hv).1 hm⟩

theorem lastVal_ne_none {α : Type} {k : Str} {l : List (Str × α)} {d : Option α}
    (h : k ∈ l.map (·.1) ∨ d ≠ none) : lastVal k l d ≠ none := by
  induction l generalizing d with
  | nil => simpa [lastVal] using h
  | cons p l ih =>
    show lastVal k l (if p.1 = k then some p.2 else d) ≠ none
    apply ih
    by_cases hp : p.1 = k
    · right; simp [hp]
    · rw [if_neg hp]
      rcases h with h | h
      · rcases List.mem_cons.1 h with h | h
        · exact absurd h.symm hp
        · exact .inl h
      · exact .inr h

/-- A member `iv` of a document read as a message is one of its custom headers. -/
theorem decMessage_iv {F : Str → Option Str} {es : List (Str × Json)} {m : Message}
    (h : decMessage F (.obj es) = some m) (hv : HasMember c!"iv" es) :
    m.didcomm.other.get c!"iv" ≠ none := by
  simp only [decMessage, mapEntries, Option.bind_eq_bind, Option.bind_eq_some_iff, Option.pure_def,
    Option.some.injEq, exists_eq_left'] at h
  obtain ⟨rs, -, body, -, atts, -, -, -, jwm, -, dc, hdc, rfl⟩ := h
  simp only [decDidcommE, Option.bind_eq_bind, Option.bind_eq_some_iff, Option.pure_def,
    Option.some.injEq] at hdc
  obtain ⟨_, -, _, -, _, -, _, -, _, -, _, -, _, -, _, -, _, -, _, -, other, ho, rfl⟩ := hdc
  show (HMap.ofList other).get c!"iv" ≠ none
  rw [HMap.get_ofList]
  apply lastVal_ne_none
  left
  rw [decMembers_keys ho]
  obtain ⟨v, -, hv⟩ := hv
  refine List.mem_map.2 ⟨_, List.mem_filter.2 ⟨List.mem_filter.2 ⟨List.mem_filter.2 ⟨hv, ?_⟩, ?_⟩, ?_⟩, rfl⟩
  · show (!messageKeys.contains c!"iv") = true
    decide
  · show (!jwmKeys.contains c!"iv") = true
    decide
  · show (!didcommKeys.contains c!"iv") = true
    decide

/-- C29, what holds (3): for every input, a message returned by `receive` with a verification key has been
verified under that key, or is not of the signed type, or has the custom header `iv`. -/
theorem C29_every_input_partial (P : Prims) (o : HOrd) (s : Str) (sk ek : Option Bytes) (k : Bytes)
    (m : Message) (h : Message.receive P o s sk ek (some k) = .ok m) :
    (∃ o1 o2 b v, Message.verify P o1 b k = .ok v ∧ Message.ofText P.f64 (v.text o2) = some m) ∨
      m.jwm.typ ≠ .jws ∨ m.didcomm.other.get c!"iv" ≠ none := by
  have h' := h
  simp only [Message.receive, Res.bind_eq_ok, Res.ofOpt_eq_ok] at h
  obtain ⟨cur, hcur, cur', hv, hm⟩ := h
  simp only [Message.verifyStep, Res.bind_eq_ok] at hv
  obtain ⟨ty, hty, hv⟩ := hv
  by_cases hj : ty = .jws
  · subst hj
    exact .inl (C29_signed_input_partial P o s cur sk ek k m hcur hty h')
  · right
    rw [if_neg hj] at hv
    obtain rfl := Res.ok.inj hv
    unfold Message.ofText at hm
    split at hm
    · rename_i doc hdoc
      obtain ⟨es, rfl⟩ : ∃ es, doc = .obj es := by
        cases doc <;> simp [decMessage, mapEntries] at hm
        exact ⟨_, rfl⟩
      have hof : Message.ofText P.f64 cur = some m := by
        unfold Message.ofText; rw [hdoc]; exact hm
      simp only [Message.messageType, hdoc, structEntries, Res.ofOpt_some, Res.bind_ok, Res.bind_eq_ok,
        Res.ofOpt_eq_ok] at hty
      obtain ⟨b1, -, b2, -, b3, h3, hty⟩ := hty
      cases b3 with
      | true =>
        right
        apply decMessage_iv hm
        rcases presence_eq (k := c!"iv") (es := es) with ⟨-, h4, -⟩ | ⟨-, -, h4⟩ | ⟨-, h4⟩
        · exact h4
        · rw [h3] at h4; cases h4
        · rw [h3] at h4; cases h4
      | false =>
        left
        rw [if_neg (by simp)] at hty
        split at hty
        · exact absurd (Res.ok.inj hty).symm hj
        · rw [hof, Res.ofOpt_some, Res.bind_ok] at hty
          rw [Res.ok.inj hty]
          exact hj
    · cases hm

/-! ## C30 -/

/-- C30.  Input that is a message (with the JWS as body): without an explicit key the result is that for
the hex-decoded `kid` of the message as explicit key. -/
theorem C30_message_kid (P : Prims) (o : HOrd) (s cur kid : Str) (sk ek : Option Bytes) (k : Bytes)
    (m : Message) (hcur : Message.decryptStep P (o.sub 0) s sk ek = .ok cur)
    (hm : Message.ofText P.f64 cur = some m) (hk : m.jwm.kid = some kid) (hx : hexDecode kid = some k) :
    Message.receive P o s sk ek none = Message.receive P o s sk ek (some k) := by
  have hsk : signingKey none m.jwm.kid = signingKey (some k) m.jwm.kid := by
    simp [signingKey, hk, hx]
  rw [receive_eq hcur, receive_eq hcur]
  simp only [Message.verifyStep, Message.receiveJws, Message.verifiedOf, hm, hsk]

theorem verifyEach_kid {P : Prims} {b k : Bytes} {l : List Signature} {o : HOrd}
    (h : ∀ x ∈ l, x.getAlg ≠ none → ∃ kid, x.getKid = some kid ∧ hexDecode kid = some k) :
    Message.verifyEach P b none o l = Message.verifyEach P b (some k) o l := by
  induction l generalizing o with
  | nil => rfl
  | cons x l ih =>
    have ih' := fun o => ih (o := o) fun y hy => h y (List.mem_cons_of_mem _ hy)
    unfold Message.verifyEach
    cases ha : x.getAlg with
    | none => exact ih' _
    | some a =>
      obtain ⟨kid, h1, h2⟩ := h x (by simp) (by rw [ha]; simp)
      simp only [signingKey, h1, h2, Res.ofOpt_some, Res.bind_ok, ih']

/-- C30.  Input that is a JWS: without an explicit key the result is that for the hex-decoded `kid` of the
signatures as explicit key, if they agree on it. -/
theorem C30_jws_kid (P : Prims) (o : HOrd) (s cur : Str) (sk ek : Option Bytes) (k : Bytes) (j : Jws)
    (hcur : Message.decryptStep P (o.sub 0) s sk ek = .ok cur)
    (hn : Message.ofText P.f64 cur = none) (hj : Jws.ofText P.f64 cur = some j)
    (hk : ∀ x ∈ Spec.signatures j, x.getAlg ≠ none →
      ∃ kid, x.getKid = some kid ∧ hexDecode kid = some k) :
    Message.receive P o s sk ek none = Message.receive P o s sk ek (some k) := by
  rw [receive_eq hcur, receive_eq hcur]
  simp only [Message.verifyStep, Message.receiveJws, Message.verifiedOf, hn, hj]
  cases hs : Message.signaturesOf j with
  | ok l =>
    rw [signaturesOf_ok hs] at hk
    simp only [Res.bind_ok, verifyEach_kid hk]
  | err e => rfl
  | panic => rfl

/-- C30.  Without an explicit key, a message returned for signed input was verified under the
hex-decoding of a `kid` that is in the input. -/
theorem C30_kid_used (P : Prims) (o : HOrd) (s cur : Str) (sk ek : Option Bytes) (m : Message)
    (hcur : Message.decryptStep P (o.sub 0) s sk ek = .ok cur)
    (hc : Message.messageType P cur = .ok .jws)
    (h : Message.receive P o s sk ek none = .ok m) :
    ∃ kid k o1 o2 b v, hexDecode kid = some k ∧ Message.verify P o1 b k = .ok v ∧
      Message.ofText P.f64 (v.text o2) = some m ∧
      ((∃ m0, Message.ofText P.f64 cur = some m0 ∧ m0.jwm.kid = some kid) ∨
       (∃ j x, Jws.ofText P.f64 cur = some j ∧ x ∈ Spec.signatures j ∧ x.getKid = some kid)) := by
  rw [receive_eq hcur] at h
  simp only [Message.verifyStep, hc, Res.bind_ok, if_true, Res.bind_eq_ok, Res.ofOpt_eq_ok] at h
  obtain ⟨t, ht, hm⟩ := h
  obtain ⟨v, ⟨o1, b, k, kid, hv, hk, hsrc⟩, rfl⟩ := receiveJws_ok ht
  rcases hk with hk | ⟨-, x, rfl, hx⟩
  · cases hk
  · refine ⟨x, k, o1, _, b, v, hx, hv, hm, ?_⟩
    rcases hsrc with ⟨m0, h1, -, h2⟩ | ⟨-, -, j, y, h1, h2, h3⟩
    · exact .inl ⟨m0, h1, h2.symm⟩
    · exact .inr ⟨j, y, h1, h2, h3.symm⟩

/-- C30.  With neither an explicit key nor a hex `kid`, signed input is rejected. -/
theorem C30_no_key (P : Prims) (o : HOrd) (s cur : Str) (sk ek : Option Bytes)
    (hcur : Message.decryptStep P (o.sub 0) s sk ek = .ok cur)
    (hc : Message.messageType P cur = .ok .jws)
    (h1 : ∀ m0 kid, Message.ofText P.f64 cur = some m0 → m0.jwm.kid = some kid → hexDecode kid = none)
    (h2 : ∀ j x kid, Jws.ofText P.f64 cur = some j → x ∈ Spec.signatures j → x.getKid = some kid →
      hexDecode kid = none) (m : Message) :
    Message.receive P o s sk ek none ≠ .ok m := by
  intro h
  obtain ⟨kid, k, o1, o2, b, v, hk, -, -, hsrc⟩ := C30_kid_used P o s cur sk ek m hcur hc h
  rcases hsrc with ⟨m0, h3, h4⟩ | ⟨j, x, h3, h4, h5⟩
  · rw [h1 m0 kid h3 h4] at hk; cases hk
  · rw [h2 j x kid h3 h4 h5] at hk; cases hk

/-- C30: a signed message without `kid` is rejected without a key and accepted with it. -/
example : ∃ t, (richMessage.asJws .edDsa).sign HOrd.id (SignAlg.edDsa.signer (toy fun _ => none))
      (exampleKey 5) = .ok t ∧
    Message.receive (toy fun _ => none) HOrd.rev t none none (some (exampleKey 5)) = .ok richMessage ∧
    ∀ m, Message.receive (toy fun _ => none) HOrd.rev t none none none ≠ .ok m := by
  have hw := richMessage_wf (toy fun _ => none).f64
  obtain ⟨t, h1, h2⟩ := C24_sign_receive _ .edDsa _ _ (toy_signPair (fun _ => none) _ (exampleKey 5))
    richMessage hw ⟨(by intro k h; cases h), (by intro k h; cases h)⟩ HOrd.id HOrd.rev
  refine ⟨t, h1, h2 _ _ _ (.inl rfl), ?_⟩
  intro m
  obtain ⟨-, sig, -, rfl⟩ := sign_ok h1
  obtain ⟨hc, hn⟩ := jwsOf_class (P := toy fun _ => none) (HOrd.id.sub 2) (richMessage.asJws .edDsa)
    (Spec.payloadText (HOrd.id.sub 1) (richMessage.asJws .edDsa)) sig
  obtain ⟨j, hj, -, hsigs⟩ := jwsOf_signatures (F := (toy fun _ => none).f64) (m := richMessage.asJws .edDsa)
    (p := Spec.payloadText (HOrd.id.sub 1) (richMessage.asJws .edDsa)) (sig := sig) (HOrd.id.sub 2) hw.jwm
  have hjt : Jws.ofText (toy fun _ => none).f64 ((Spec.jwsOf (richMessage.asJws .edDsa)
      (Spec.payloadText (HOrd.id.sub 1) (richMessage.asJws .edDsa)) sig).text (HOrd.id.sub 2)) = some j := by
    rw [ofText_jws]
    exact hj
  refine C30_no_key _ _ _ _ _ _ (by unfold Message.decryptStep; rw [hc, Res.bind_ok, if_neg (by decide)]) hc
    (by intro m0 kid h; rw [hn] at h; cases h) ?_ m
  intro j' x kid hj' hx hkid
  rw [hjt] at hj'
  obtain rfl := Option.some.inj hj'
  rw [signaturesOf_ok hsigs] at hx
  rw [if_neg (by decide)] at hx
  obtain ⟨_, -, rfl⟩ := List.mem_map.1 hx
  cases hkid

end Verif
