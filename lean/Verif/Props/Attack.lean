import Verif.Props.Auth

/-!
# What acceptance does not mean

C71 (keys passed, but nothing encrypted), C72 (rotation), C73 (recipient entries), C74 (forwarded
signatures).
-/

namespace Verif

open Spec

/-! ## C71 -/

/-- C71, as written, is false: whatever private key, sender key and verification key are passed, the
plain text of any message, with any `from`, is accepted as that message. -/
theorem C71_keys_enforce_protection_violated (P : Prims) (o : HOrd) (m : Message) (hm : m.WF P.f64)
    (ha : Avoids m.didcomm.other classKeys) (frm : Str) :
    ∃ t, ∀ sk ek vk o', Message.receive P o' t sk ek vk =
      .ok { (m.setTyp .raw).setFrom frm with flatJwe := false, flatJws := false } := by
  have hw : ((m.setTyp .raw).setFrom frm).WF P.f64 :=
    ⟨⟨hm.jwm.1, hm.jwm.2⟩, hm.other, hm.to, hm.recipients, hm.canon, hm.nums, hm.depth⟩
  refine ⟨((m.setTyp .raw).setFrom frm).text o, fun sk ek vk o' => ?_⟩
  exact C05_plain_roundtrip P o o' _ hw ha (fun h => nomatch h) (fun h => nomatch h) sk ek vk

/-- C71, what holds: if the input is an object with a non-null `iv`, then acceptance means that a private
key was passed and that the content was opened with the protected header as associated data, under a key that was
unwrapped with, or agreed on by, that private key and the key of the sender. -/
theorem C71_keys_enforce_protection_partial (P : Prims) (hP : Laws P) (o : HOrd) (s : Str)
    (es : List (Str × Json)) (hs : Document (.obj es) s) (hiv : HasMember c!"iv" es)
    (sk ek vk : Option Bytes) (m : Message) (h : Message.receive P o s sk ek vk = .ok m) :
    ∃ k j alg hdr key c tagText tag iv pt oh, sk = some k ∧ Jwe.ofText P.f64 s = some j ∧
      j.getAlg = some alg ∧ j.protected_ = some hdr ∧ b64Decode j.ciphertext = some c ∧
      j.tag = some tagText ∧ b64Decode tagText = some tag ∧ b64Decode j.iv = some iv ∧
      Spec.ContentOpens P alg iv key (c ++ tag) (utf8 (headerB64 oh hdr)) pt ∧
      ((∃ rs rc skid spk, Message.recipientsOf j = some rs ∧ rc ∈ rs ∧ j.getSkid = some skid ∧
          KeyFor P skid ek spk ∧ Spec.KeyUnwraps P alg k spk rc key) ∨
        (Message.recipientsOf j = none ∧ ∃ spk,
          (ek = some spk ∨ ∃ skid, j.getSkid = some skid ∧ KeyFor P skid ek spk) ∧
          key = P.x25519 (k.take 32) (spk.take 32))) := by
  obtain ⟨es', hd, ho⟩ := C35_only_objects P o s sk ek vk m h
  have he : es' = es := by
    have h1 := parseJson_iff.2 hd
    rw [parseJson_iff.2 hs] at h1
    exact (Json.obj.inj (Option.some.inj h1)).symm
  subst he
  have ht := ((C35_objects P s es' hs).2 ho).1 hiv
  obtain ⟨k, j, alg, hdr, key, h1, h2, h3, h4, hk, c, tt, tag, iv, pt, m0, oh, om, h5, h6, h7, h8, h9, -⟩ :=
    C20_accepted_was_authenticated P hP o s sk ek vk m ht h
  exact ⟨k, j, alg, hdr, key, c, tt, tag, iv, pt, oh, h1, h2, h3, h4, h5, h6, h7, h8, h9, hk⟩

/-- C71: a message to which this applies. -/
example : richMessage.WF (toy fun _ => none).f64 ∧ Avoids richMessage.didcomm.other classKeys :=
  ⟨richMessage_wf _, by decide⟩

/-! ## C72 -/

/-- C72, as written, is false: whatever claims about a previous DID are wanted, there is an input that is
accepted with whatever keys as a message of any sender carrying these claims; they are not signed. -/
theorem C72_rotation_authentic_violated (P : Prims) (o : HOrd) (m : Message) (hm : m.WF P.f64)
    (ha : Avoids m.didcomm.other classKeys) (frm : Str) (c : PriorClaims) :
    ∃ t x, (∀ sk ek vk o', Message.receive P o' t sk ek vk = .ok x) ∧ x.didcomm.from = some frm ∧
      x.isRotation = true ∧ x.getPrior = .ok c := by
  have hw : Message.WF P.f64 { m with didcomm := { m.didcomm with fromPrior := some c } } :=
    ⟨hm.jwm, hm.other, hm.to, hm.recipients, hm.canon, hm.nums, hm.depth⟩
  obtain ⟨t, ht⟩ := C71_keys_enforce_protection_violated P o _ hw ha frm
  exact ⟨t, _, ht, rfl, rfl, rfl⟩

/-- C72, what holds: the claims found in a message opened from an envelope made by `seal` are those of
the message that was sealed. -/
theorem C72_rotation_authentic_partial (P : Prims) (hP : Laws P) (r : Message.SealRand) (o : HOrd) (m : Message)
    (ssk rsk : Bytes) (rest : List (Option Bytes)) (t frm : Str) (vk : Option Bytes)
    (hm : m.WF P.f64) (hc : Avoids m.didcomm.other classKeys) (hf : HeaderFixed m.jwm)
    (hj : m.jwm.typ ≠ .jws) (hfrom : m.didcomm.from = some frm) (hrk : rsk.length = 32)
    (hseal : m.sealJwe P r ssk (some (some (P.x25519Pub rsk) :: rest)) = .ok t) :
    ∃ x, Message.receive P o t (some rsk) (some (P.x25519Pub ssk)) vk = .ok x ∧
      x.isRotation = m.isRotation ∧ x.getPrior = m.getPrior := by
  obtain ⟨rs, h⟩ := C16_seal_receive P hP r o m ssk rsk rest t frm vk hm hc hf hj hfrom hrk hseal
  exact ⟨_, h, rfl, rfl⟩

/-- C72: a message that can be given claims, and a sealed one with claims of its own. -/
example : ∃ c t, Message.getPrior { exampleMessage with didcomm := { exampleMessage.didcomm with fromPrior := some c } } = .ok c ∧
    exampleMessage.WF (toy fun _ => none).f64 ∧ Avoids exampleMessage.didcomm.other classKeys ∧
    Message.sealJwe (toy fun _ => none) exampleRand
      { exampleMessage with didcomm := { exampleMessage.didcomm with fromPrior := some c } } (exampleKey 3) exampleKeys =
        .ok t := by
  have hl := toy_laws fun _ => none
  let c : PriorClaims := ⟨some c!"did:e:f", c!"did:e:old"⟩
  obtain ⟨t, ht⟩ := C16_seal_total (toy fun _ => none) hl (toy_total _) exampleRand
    { exampleMessage with didcomm := { exampleMessage.didcomm with fromPrior := some c } } (exampleKey 3) exampleKeys
    c!"ECDH-1PU+XC20PKW" (by decide)
    (by intro h; cases h) (by intro l hl; rw [← Option.some.inj hl]; rfl) (by intro h; cases h) rfl (by decide) (by
      intro i dest hi
      match i with
      | 0 => exact ⟨_, hl.pub_len _, .inl rfl⟩
      | 1 => exact ⟨_, hl.pub_len _, .inl rfl⟩
      | n + 2 => cases hi)
  exact ⟨c, t, rfl, exampleMessage_wf _, by decide, ht⟩

/-! ## C73 -/

/-- C73, as written, is false: a recipient entry can be moved.  For any two envelopes made by the same
sender for the same recipient with the same algorithm, with whatever messages, headers and sender names,
the second envelope with the recipient entries of the first is received as the second message. -/
theorem C73_entry_bound_violated (P : Prims) (hP : Laws P) (r r' : Message.SealRand) (o : HOrd)
    (m m' : Message) (ssk rsk : Bytes) (t t' frm : Str) (vk : Option Bytes) (hrk : rsk.length = 32)
    (halg : m.jwm.alg = m'.jwm.alg) (hm' : m'.WF P.f64) (hm : m.jwm.WF)
    (hc : Avoids m'.didcomm.other classKeys) (hf : HeaderFixed m'.jwm) (hj : m'.jwm.typ ≠ .jws)
    (hfrom : m'.didcomm.from = some frm)
    (hseal : m.sealJwe P r ssk (some [some (P.x25519Pub rsk)]) = .ok t)
    (hseal' : m'.sealJwe P r' ssk (some [some (P.x25519Pub rsk)]) = .ok t') (hfl : m'.flatJwe = false)
    (hfl' : m.flatJwe = false) :
    ∃ s j j' x, Jwe.ofText P.f64 t = some j ∧ Jwe.ofText P.f64 t' = some j' ∧
      Jwe.ofText P.f64 s = some { j' with recipients := j.recipients } ∧
      Message.receive P o t' (some rsk) (some (P.x25519Pub ssk)) vk = .ok x ∧
      Message.receive P o s (some rsk) (some (P.x25519Pub ssk)) vk = .ok x := by
  obtain ⟨pks, rs, a, c, tag, alg, hp, hpl, hk, hto, hfl1, hrs, hl, hal, ha, he, -, ht⟩ := seal_ok hseal
  obtain ⟨pks', rs', a', c', tag', alg', hp', hpl', hk', hto', hfl2, hrs', hl', hal', ha', he', -, ht'⟩ := seal_ok hseal'
  have hr := sealRecipients_wf hrs
  have hr' := sealRecipients_wf hrs'
  have hj1 := jwe_ofText_text (F := P.f64) (r.ord.sub 2)
    (envelope_wf (m := m) (iv := r.iv.1) (c := c) (tag := tag) hm hr)
  have hj2 := jwe_ofText_text (F := P.f64) (r'.ord.sub 2)
    (envelope_wf (m := m') (iv := r'.iv.1) (c := c') (tag := tag') hm'.jwm hr')
  have hj3 := jwe_ofText_text (F := P.f64) HOrd.id
    (envelope_wf (m := m') (iv := r'.iv.1) (c := c') (tag := tag') hm'.jwm hr)
  have hx : Message.WF P.f64 { m' with recipients := some rs' } :=
    ⟨hm'.jwm, hm'.other, hm'.to, by intro l hl; rw [← Option.some.inj hl]; exact hr', hm'.canon, hm'.nums,
      hm'.depth⟩
  obtain rfl : alg = alg' := by
    rw [hal, hal'] at halg; exact Option.some.inj halg
  -- the first entry of either list opens in the second envelope
  have key : ∀ (r : Message.SealRand) (m : Message) (rs : List Recipient) (pks : List (Option Bytes)),
      m.sealKeys (some [some (P.x25519Pub rsk)]) = .ok pks → m.jwm.alg = some alg →
      Message.sealRecipients P r.perRec m ssk cek 0 (m.didcomm.to.zip pks) = .ok rs →
      rs.length = m.didcomm.to.length → m.didcomm.to ≠ [] → ∀ rs1,
      Message.firstKey P (Spec.envelope m' rs1 r'.iv.1 c' tag') rsk (some (P.x25519Pub ssk)) rs = .ok cek := by
    intro r m rs pks hp hal hrs hl hto rs1
    have h0 : 0 < rs.length := by
      rw [hl]; exact List.length_pos_iff.2 hto
    obtain ⟨d, k, h1, h2⟩ := (sealRecipients_ok hrs).2 0 _ (List.getElem?_eq_getElem h0)
    obtain ⟨hd, hk'⟩ := zip_get h1
    rw [sealKeys_get hp hk'] at h2
    refine firstKey_of (i := 0) (List.getElem?_eq_getElem h0)
      (decryptCek_encryptCek hP h2 hal (envelope_alg hal') (by rw [envelope_skid, hfrom]) hk hrk (.inl rfl)
        (.inl rfl)) (by simp)
  refine ⟨(Spec.envelope m' rs r'.iv.1 c' tag').text HOrd.id, _, _,
    { { m' with recipients := some rs' } with flatJwe := false, flatJws := false },
    by rw [ht]; exact hj1, by rw [ht']; exact hj2, ?_, ?_, ?_⟩
  · rw [hj3]
    simp [Spec.envelope, hfl, hfl']
  · rw [ht']
    exact receive_mixed hP hal' ha' hm'.jwm hf hx hc hj hr' (by rw [hfl]; intro h; cases h) he' hfrom hrk
      (hP.pub_len _) (.inl rfl) (key r' m' rs' pks' hp' hal' hrs' hl' hto' rs')
  · exact receive_mixed hP hal' ha' hm'.jwm hf hx hc hj hr (by rw [hfl]; intro h; cases h) he' hfrom hrk
      (hP.pub_len _) (.inl rfl) (key r m rs pks hp hal hrs hl hto rs)

/-- C73, what holds: of the rest of the envelope, opening an entry looks at the algorithm and at the
sender name only, and at the sender name only to find the key. -/
theorem C73_entry_bound_partial (P : Prims) (j j' : Jwe) (sk : Bytes) (rc : Recipient) (ek : Option Bytes)
    (ha : j.getAlg = j'.getAlg) (hs : j.getSkid = j'.getSkid ∨
      ek ≠ none ∧ j.getSkid ≠ none ∧ j'.getSkid ≠ none) :
    decryptCek P j sk rc ek = decryptCek P j' sk rc ek := by
  unfold decryptCek
  rw [ha]
  rcases hs with hs | ⟨he, h1, h2⟩
  · rw [hs]
  · cases ek with
    | none => exact absurd rfl he
    | some k =>
      cases hx : j.getSkid with
      | none => exact absurd hx h1
      | some x =>
        cases hy : j'.getSkid with
        | none => exact absurd hy h2
        | some y => rfl

/-- A message from `exampleMessage`'s sender for one recipient. -/
def oneRecipient : Message := { exampleMessage with didcomm := { exampleMessage.didcomm with to := [c!"did:a:b"] } }

theorem oneRecipient_wf (F : Str → Option Str) : oneRecipient.WF F :=
  have h := exampleMessage_wf F
  ⟨h.jwm, h.other, by decide, h.recipients, h.canon, h.nums, h.depth⟩

theorem oneRecipient_seals (r : Message.SealRand) (m : Message) (hto : m.didcomm.to = [c!"did:a:b"])
    (hal : m.jwm.alg = some c!"ECDH-1PU+XC20PKW") : ∃ t, m.sealJwe (toy fun _ => none) r (exampleKey 3)
      (some [some ((toy fun _ => none).x25519Pub (exampleKey 1))]) = .ok t :=
  have hl := toy_laws fun _ => none
  C16_seal_total (toy fun _ => none) hl (toy_total _) r m (exampleKey 3)
    (some [some ((toy fun _ => none).x25519Pub (exampleKey 1))]) c!"ECDH-1PU+XC20PKW" (by decide)
    (by rw [hto]; simp) (by intro l hl; rw [← Option.some.inj hl, hto]; rfl) (by intro h; rw [hto]; rfl) hal
    (by decide) (by
      intro i dest hi
      rw [hto] at hi
      match i with
      | 0 => exact ⟨_, hl.pub_len _, .inl rfl⟩
      | n + 1 => cases hi)

/-- C73: two envelopes to which this applies, with different bodies and different sender names. -/
example : ∃ (m m' : Message) (t t' : Str), m.jwm.alg = m'.jwm.alg ∧ m.body ≠ m'.body ∧ m.didcomm.from ≠ m'.didcomm.from ∧
    m'.WF (toy fun _ => none).f64 ∧
    m.sealJwe (toy fun _ => none) exampleRand (exampleKey 3)
      (some [some ((toy fun _ => none).x25519Pub (exampleKey 1))]) = .ok t ∧
    m'.sealJwe (toy fun _ => none) exampleRand (exampleKey 3)
      (some [some ((toy fun _ => none).x25519Pub (exampleKey 1))]) = .ok t' := by
  obtain ⟨t, ht⟩ := oneRecipient_seals exampleRand { oneRecipient.setFrom c!"did:m:m" with body := .null } rfl rfl
  obtain ⟨t', ht'⟩ := oneRecipient_seals exampleRand oneRecipient rfl rfl
  exact ⟨{ oneRecipient.setFrom c!"did:m:m" with body := .null }, oneRecipient, t, t', rfl,
    (fun h => by cases (h : Json.null = oneRecipient.body)), by decide, oneRecipient_wf _, ht, ht'⟩

/-! ## C74 -/

/-- C74, as written, is false: anybody who has a signed message can send it on.  For every signed message,
whatever its recipients, and every third party `w` with its own key pair, there is an envelope made by
the third party for any key `rsk` that is accepted, with the signer's key, as the signed message. -/
theorem C74_signed_for_receiver_violated (P : Prims) (hP : Laws P) (ht : Spec.AeadTotal P) (r : Message.SealRand)
    (o o' : HOrd) (m w : Message) (a : SignAlg) (sgk pk : Bytes) (hpair : SignPair P a sgk pk)
    (hm : m.WF P.f64) (hf : HeaderFixed m.jwm) (signed : Str)
    (hs : (m.asJws a).sign o (a.signer P) sgk = .ok signed)
    (hw : w.WF P.f64) (hwc : Avoids w.didcomm.other classKeys) (hwf : HeaderFixed w.jwm) (alg frm dest : Str)
    (hfrom : w.didcomm.from = some frm) (hto : w.didcomm.to = [dest]) (hal : w.jwm.alg = some alg)
    (ha : alg ∈ Spec.supportedAlgs) (ssk rsk : Bytes) (hk : ssk.length = 32) (hrk : rsk.length = 32) :
    ∃ v t, Message.valueOfText P.f64 signed = some v ∧
      ({ w with body := v }.setTyp .jws).sealJwe P r ssk (some [some (P.x25519Pub rsk)]) = .ok t ∧
      Message.receive P o' t (some rsk) (some (P.x25519Pub ssk)) (some pk) =
        .ok { m with jwm := JwmHeader.dflt, flatJwe := false, flatJws := false } := by
  obtain ⟨-, sig, -, hsg⟩ := sign_ok hs
  have hv := valueOfText_jwsOf (F := P.f64) (o.sub 2) (m.asJws a) (Spec.payloadText (o.sub 1) (m.asJws a)) sig
  obtain ⟨body, hbody⟩ : ∃ b, encJws (o.sub 2) (Spec.jwsOf (m.asJws a) (Spec.payloadText (o.sub 1) (m.asJws a)) sig) = b :=
    ⟨_, rfl⟩
  have hprint : signed = printJson body := by rw [hsg, ← hbody]; rfl
  have hw2 : Message.WF P.f64 ({ w with body := body }.setTyp .jws) := by
    refine ⟨hw.jwm, hw.other, hw.to, hw.recipients, hbody ▸ canon_jwsOf _ _ _ _,
      hbody ▸ (nice_jws (F := fun t => some t) _ _).2.1, ?_⟩
    have := depth_jws (o.sub 2) (Spec.jwsOf (m.asJws a) (Spec.payloadText (o.sub 1) (m.asJws a)) sig)
    rw [hbody] at this
    simp only [Message.setTyp]
    omega
  rw [← hsg, hbody] at hv
  obtain ⟨t, hseal⟩ := C16_seal_total P hP ht r (Message.setTyp { w with body := body } .jws) ssk
    (some [some (P.x25519Pub rsk)]) alg hk (by show w.didcomm.to ≠ []; rw [hto]; simp)
    (by intro l hl; rw [← Option.some.inj hl]; show _ = w.didcomm.to.length; rw [hto]; rfl)
    (by intro _; show w.didcomm.to.length = 1; rw [hto]; rfl) hal ha (by
      intro i d hi
      have hi' : w.didcomm.to[i]? = some d := hi
      rw [hto] at hi'
      match i with
      | 0 => exact ⟨_, hP.pub_len _, .inl rfl⟩
      | n + 1 => cases hi')
  refine ⟨body, t, hv, hseal, ?_⟩
  obtain ⟨j, rs, h1, h2, h3, hw3, h4⟩ := seal_decrypted (m := Message.setTyp { w with body := _ } .jws) hP hw2 hwf hfrom hseal
  have h5 := h4 0 dest rsk (some (P.x25519Pub ssk)) (o'.sub 0) (by show w.didcomm.to[0]? = _; rw [hto]; rfl) hrk
    (.inl rfl) (.inl rfl) (by simp)
  rw [receive_eq h5]
  unfold Message.verifyStep
  rw [messageType_text P ((o'.sub 0).sub 1) hw3 hwc]
  have hof := ofText_text ((o'.sub 0).sub 1) hw3
  obtain ⟨-, alg', ha', hofs⟩ := signName (a := a) (h := m.jwm)
  have hjw : (m.asJws a).WF P.f64 := by
    refine ⟨?_, hm.other, hm.to, hm.recipients, hm.canon, hm.nums, hm.depth⟩
    cases a <;> exact hm.jwm
  have hjf : HeaderFixed (m.asJws a).jwm := by cases a <;> exact hf
  have hver := verify_sign hpair hjw hjf ha' hofs hs ((o'.sub 1).sub 0)
  have hkey : signingKey (some pk) w.jwm.kid = .ok pk := rfl
  have hv := verifiedOf_message (key := some pk) hof (by simp [Message.setTyp, hal]) hkey
    (show Message.verify P ((o'.sub 1).sub 0) (utf8 (printJson body)) pk = _ by rw [← hprint]; exact hver)
  have hwd : Message.WF P.f64 { m with jwm := JwmHeader.dflt, flatJwe := false, flatJws := false } :=
    ⟨⟨(by intro k hk; cases hk), (by intro k hk; cases hk)⟩, hm.other, hm.to, hm.recipients, hm.canon,
      hm.nums, hm.depth⟩
  rw [Res.bind_ok, if_pos (by rfl)]
  unfold Message.receiveJws
  rw [hv, Res.bind_ok, Res.ofOpt_some, Res.bind_ok, Res.pure_eq, Res.bind_ok]
  exact congrArg (Res.ofOpt Err.serde) (ofText_text _ hwd)

/-- C74, what holds: wherever the signed text ends up, what its verification returns still names the
recipients and the sender named by the signer. -/
theorem C74_signed_for_receiver_partial (P : Prims) (a : SignAlg) (sgk : Bytes) (m : Message)
    (hm : m.WF P.f64) (hf : HeaderFixed m.jwm) (o : HOrd) (signed : Str)
    (hs : (m.asJws a).sign o (a.signer P) sgk = .ok signed) (o' : HOrd) (key : Bytes) (x : Message)
    (h : Message.verify P o' (utf8 signed) key = .ok x) :
    x.didcomm.to = m.didcomm.to ∧ x.didcomm.from = m.didcomm.from := by
  obtain ⟨_, _, -, hk⟩ := C25_accepting_keys P a sgk m hm hf o signed hs
  rw [((hk o' key x).1 h).2]
  exact ⟨rfl, rfl⟩

/-- C74: a message signed for two recipients, and a third party who sends it on to somebody else. -/
example : ∃ w : Message, SignPair (toy fun _ => none) .edDsa (exampleKey 5) (exampleKey 5) ∧
    richMessage.WF (toy fun _ => none).f64 ∧ c!"did:x:y" ∉ richMessage.didcomm.to ∧
    (∃ t, (richMessage.asJws .edDsa).sign HOrd.id (SignAlg.edDsa.signer (toy fun _ => none)) (exampleKey 5) = .ok t) ∧
    w.WF (toy fun _ => none).f64 ∧ w.didcomm.to = [c!"did:x:y"] ∧ w.didcomm.from = some c!"did:m:m" ∧
    w.jwm.alg = some c!"ECDH-1PU+XC20PKW" ∧ Avoids w.didcomm.other classKeys := by
  have h := exampleMessage_wf (toy fun _ => none).f64
  obtain ⟨t, ht, -⟩ := C24_sign_receive _ .edDsa _ _ (toy_signPair (fun _ => none) _ (exampleKey 5)) richMessage
    (richMessage_wf _) ⟨(by intro k h; cases h), (by intro k h; cases h)⟩ HOrd.id HOrd.rev
  exact ⟨{ oneRecipient.setFrom c!"did:m:m" with
      didcomm := { (oneRecipient.setFrom c!"did:m:m").didcomm with to := [c!"did:x:y"] } }, toy_signPair _ _ _, richMessage_wf _, by decide,
    ⟨t, ht⟩, ⟨h.jwm, h.other, by decide, h.recipients, h.canon, h.nums, h.depth⟩, rfl, rfl, rfl, by decide⟩

end Verif
