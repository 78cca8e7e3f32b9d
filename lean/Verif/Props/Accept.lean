import Verif.Lemma.Order
import Verif.Props.Attack

/-!
# What decides acceptance

C79 (expiry), C81 (unprotected headers).
-/

namespace Verif

open Spec

/-! ## C79 -/

/-- C79, as written, is false: `receive` has no clock.  A message that expired at `e` is accepted at every
time, with whatever keys, however long ago `e` was. -/
theorem C79_expired_refused_violated (P : Prims) (o : HOrd) (m : Message) (hm : m.WF P.f64)
    (ha : Avoids m.didcomm.other classKeys) (h1 : m.jwm.typ ≠ .jwe) (h2 : m.jwm.typ ≠ .jws)
    (created : Option UInt64) (e : UInt64) :
    ∃ t x, (m.timed created (some e)).asRawJson o = .ok t ∧ x.didcomm.expiresTime = some e ∧
      ∀ o' sk ek vk, Message.receive P o' t sk ek vk = .ok x := by
  have hw : (m.timed created (some e)).WF P.f64 :=
    ⟨hm.jwm, hm.other, hm.to, hm.recipients, hm.canon, hm.nums, hm.depth⟩
  refine ⟨_, { m.timed created (some e) with flatJwe := false, flatJws := false }, rfl, rfl, fun o' sk ek vk => ?_⟩
  exact C05_plain_roundtrip P o o' _ hw ha h1 h2 sk ek vk

/-- C79, what holds: the times that were set are reported unchanged to the recipient of a sealed message,
so that the application can compare them with its clock. -/
theorem C79_expired_refused_partial (P : Prims) (hP : Laws P) (r : Message.SealRand) (o : HOrd) (m : Message)
    (ssk rsk : Bytes) (rest : List (Option Bytes)) (t frm : Str) (vk : Option Bytes)
    (created expires : Option UInt64)
    (hm : m.WF P.f64) (hc : Avoids m.didcomm.other classKeys) (hf : HeaderFixed m.jwm)
    (hj : m.jwm.typ ≠ .jws) (hfrom : m.didcomm.from = some frm) (hrk : rsk.length = 32)
    (hseal : (m.timed created expires).sealJwe P r ssk (some (some (P.x25519Pub rsk) :: rest)) = .ok t) :
    ∃ x, Message.receive P o t (some rsk) (some (P.x25519Pub ssk)) vk = .ok x ∧
      x.didcomm.createdTime = created ∧ x.didcomm.expiresTime = expires := by
  have hw : (m.timed created expires).WF P.f64 :=
    ⟨hm.jwm, hm.other, hm.to, hm.recipients, hm.canon, hm.nums, hm.depth⟩
  obtain ⟨rs, h⟩ := C16_seal_receive P hP r o _ ssk rsk rest t frm vk hw hc hf hj hfrom hrk hseal
  exact ⟨_, h, rfl, rfl⟩

/-- C79: messages to which these apply. -/
example : richMessage.WF (toy fun _ => none).f64 ∧ Avoids richMessage.didcomm.other classKeys ∧
    richMessage.jwm.typ ≠ .jwe ∧ richMessage.jwm.typ ≠ .jws ∧
    ∃ t, (oneRecipient.timed (some 5) (some 7)).sealJwe (toy fun _ => none) exampleRand (exampleKey 3)
      (some [some ((toy fun _ => none).x25519Pub (exampleKey 1))]) = .ok t :=
  ⟨richMessage_wf _, by decide, by decide, by decide, oneRecipient_seals _ _ rfl rfl⟩

/-! ## C81 -/

/-- Opening looks at an envelope only through its protected header, its entries, its content, and the
algorithm and sender name found by the getters. -/
theorem receive_jwe_congr {P : Prims} {o : HOrd} {s s' : Str} {j j' : Jwe} {sk ek vk : Option Bytes}
    (h1 : Message.messageType P s = .ok .jwe) (h2 : Message.messageType P s' = .ok .jwe)
    (hj : Jwe.ofText P.f64 s = some j) (hj' : Jwe.ofText P.f64 s' = some j')
    (he : j' = { j with unprotected := j'.unprotected }) (ha : j'.getAlg = j.getAlg)
    (hs : j'.getSkid = j.getSkid) :
    Message.receive P o s' sk ek vk = Message.receive P o s sk ek vk := by
  have hb : ∀ s, (parseBytes (utf8 s)).bind (decJwe P.f64) = Jwe.ofText P.f64 s := by
    intro s
    rw [parseBytes_utf8]
    unfold Jwe.ofText
    cases parseJson s <;> rfl
  have hp : j'.protected_ = j.protected_ := by rw [he]
  have ht : j'.tag = j.tag := by rw [he]
  have hc : j'.getPayload = j.getPayload := by rw [he]; rfl
  have hi : j'.getIv = j.getIv := by rw [he]; rfl
  have hr : Message.recipientsOf j' = Message.recipientsOf j := by rw [he]; rfl
  have hk : Message.senderKey P j' ek = Message.senderKey P j ek := by
    cases ek with
    | some k => rfl
    | none => simp only [Message.senderKey, hs]
  have hfk : ∀ k l, Message.firstKey P j' k ek l = Message.firstKey P j k ek l := by
    intro k l
    induction l with
    | nil => rfl
    | cons x l ih =>
      simp only [Message.firstKey, ih, C73_entry_bound_partial P j' j k x ek ha (.inl hs)]
  have hck : ∀ k p, Message.contentKey P j' k ek p = Message.contentKey P j k ek p := by
    intro k p
    simp only [Message.contentKey, hr, hfk]
  have hd : ∀ o d key, Message.decrypt P o (utf8 s') d key = Message.decrypt P o (utf8 s) d key := by
    intro o d key
    simp only [Message.decrypt, hb, hj, hj', Res.ofOpt_some, Res.bind_ok, hp, ht, hc, hi]
  have hrj : ∀ o k, Message.receiveJwe P o s' k ek = Message.receiveJwe P o s k ek := by
    intro o k
    simp only [Message.receiveJwe, hj, hj', Res.ofOpt_some, Res.bind_ok, ha, hk, hck, hd]
  simp only [Message.receive, Message.decryptStep, h1, h2, Res.bind_ok, if_true, hrj]

/-- C81, what holds: if the protected header names algorithm and sender, then whatever unprotected header
is added, removed or replaced on the way, the result of `receive` is the same. -/
theorem C81_unprotected_inert_partial (P : Prims) (o : HOrd) (s s' : Str) (j : Jwe) (hdr : JwmHeader)
    (u : Option JwmHeader) (alg frm : Str) (h1 : Message.messageType P s = .ok .jwe)
    (h2 : Message.messageType P s' = .ok .jwe) (hj : Jwe.ofText P.f64 s = some j)
    (hj' : Jwe.ofText P.f64 s' = some { j with unprotected := u }) (hp : j.protected_ = some hdr)
    (ha : hdr.alg = some alg) (hs : hdr.skid = some frm) (sk ek vk : Option Bytes) :
    Message.receive P o s' sk ek vk = Message.receive P o s sk ek vk := by
  refine receive_jwe_congr h1 h2 hj hj' rfl ?_ ?_
  · simp only [Jwe.getAlg, Jwe.getter, fallback, hp, Option.bind_some, ha]
  · simp only [Jwe.getSkid, Jwe.getter, fallback, hp, Option.bind_some, hs]

/-- C81, as written, is false: an envelope made without sender name is received by nobody, but once
someone on the way writes an unprotected header with any sender name `x` into it, it is received, and `x`
is the name that the getter reports. -/
theorem C81_unprotected_inert_violated (P : Prims) (hP : Laws P) (r : Message.SealRand) (o : HOrd)
    (m : Message) (ssk rsk : Bytes) (rest : List (Option Bytes)) (t x : Str) (vk : Option Bytes)
    (hm : m.WF P.f64) (hc : Avoids m.didcomm.other classKeys) (hf : HeaderFixed m.jwm)
    (hj : m.jwm.typ ≠ .jws) (hfrom : m.didcomm.from = none) (hrk : rsk.length = 32)
    (hseal : m.sealJwe P r ssk (some (some (P.x25519Pub rsk) :: rest)) = .ok t) :
    ∃ j s j' rs, Jwe.ofText P.f64 t = some j ∧ Jwe.ofText P.f64 s = some j' ∧
      j' = { j with unprotected := some { JwmHeader.dflt with skid := some x } } ∧ j'.getSkid = some x ∧
      (∀ o sk ek vk y, Message.receive P o t sk ek vk ≠ .ok y) ∧
      Message.receive P o s (some rsk) (some (P.x25519Pub ssk)) vk =
        .ok { m with recipients := some rs, flatJwe := false, flatJws := false } := by
  have hno := C45_anonymous_violated P r m ssk _ t hm.jwm hfrom hseal
  obtain ⟨pks, rs, a, c, tag, alg, hp, hpl, hk, hto, hfl, hrs, hl, hal, ha, he, -, rfl⟩ := seal_ok hseal
  have hr := sealRecipients_wf hrs
  have hwe := envelope_wf (m := m) (rs := rs) (iv := r.iv.1) (c := c) (tag := tag) hm.jwm hr
  have hskid : (Spec.envelope m rs r.iv.1 c tag).getSkid = none := by rw [envelope_skid, hfrom]
  have halg := envelope_alg (rs := rs) (iv := r.iv.1) (c := c) (tag := tag) hal
  have hrec := envelope_recipients (m := m) (rs := rs) (iv := r.iv.1) (c := c) (tag := tag) hfl
  have hwr : Message.WF P.f64 { m with recipients := some rs } :=
    ⟨hm.jwm, hm.other, hm.to, by intro l hl; rw [← Option.some.inj hl]; exact hr, hm.canon, hm.nums,
      hm.depth⟩
  have hdec := decrypt_envelope (o := (o.sub 0).sub 0) (o3 := HOrd.id) hP (ofStr_ne_cbc ha) hwr hf hr he
  have hj1 := jwe_ofText_text (F := P.f64) (r.ord.sub 2) hwe
  have hj0 := jwe_ofText_text (F := P.f64) HOrd.id hwe
  have hw' : ({ Spec.envelope m rs r.iv.1 c tag with
      unprotected := some { JwmHeader.dflt with skid := some x } } : Jwe).WF :=
    ⟨hwe.prot, by
      intro h hh
      rw [← Option.some.inj hh]
      exact ⟨(fun k hk => by cases hk), (fun k hk => by cases hk)⟩, hwe.recipient, hwe.recipients⟩
  have hj2 := jwe_ofText_text (F := P.f64) HOrd.id hw'
  have hmt := messageType_jwe (P := P) HOrd.id { Spec.envelope m rs r.iv.1 c tag with
      unprotected := some { JwmHeader.dflt with skid := some x } }
  have hrec' : Message.recipientsOf { Spec.envelope m rs r.iv.1 c tag with
      unprotected := some { JwmHeader.dflt with skid := some x } } = some rs := hrec
  have halg' : Jwe.getAlg { Spec.envelope m rs r.iv.1 c tag with
      unprotected := some { JwmHeader.dflt with skid := some x } } = some alg := by
    have : (Spec.envelope m rs r.iv.1 c tag).protected_ = some (Spec.publicHeader m) := rfl
    simp only [Jwe.getAlg, Jwe.getter, fallback, this, Option.bind_some]
    rw [show (Spec.publicHeader m).alg = some alg from hal]
  have hskid' : Jwe.getSkid { Spec.envelope m rs r.iv.1 c tag with
      unprotected := some { JwmHeader.dflt with skid := some x } } = some x := by
    have : (Spec.envelope m rs r.iv.1 c tag).protected_ = some (Spec.publicHeader m) := rfl
    simp only [Jwe.getSkid, Jwe.getter, fallback, this, Option.bind_some]
    rw [show (Spec.publicHeader m).skid = none from hfrom]
  refine ⟨_, _, _, rs, hj1, hj2, rfl, hskid', fun o sk ek vk y => (hno o sk ek vk).1 y, ?_⟩
  have hdec' : ∀ d key, Message.decrypt P ((o.sub 0).sub 0) (utf8 (Jwe.text HOrd.id { Spec.envelope m rs r.iv.1 c tag with
      unprotected := some { JwmHeader.dflt with skid := some x } })) d key =
      Message.decrypt P ((o.sub 0).sub 0) (utf8 ((Spec.envelope m rs r.iv.1 c tag).text HOrd.id)) d key := by
    intro d key
    simp only [Message.decrypt, parseBytes_utf8, parse_jwe, Option.bind_some,
      decJwe_enc (F := P.f64) HOrd.id hwe, decJwe_enc (F := P.f64) HOrd.id hw', Res.ofOpt_some, Res.bind_ok,
      Jwe.getPayload, Jwe.getIv]
  have h0 : 0 < rs.length := by
    rw [hl]; exact List.length_pos_iff.2 hto
  obtain ⟨d, k, h1, h2⟩ := (sealRecipients_ok hrs).2 0 _ (List.getElem?_eq_getElem h0)
  obtain ⟨hd, hk'⟩ := zip_get h1
  rw [sealKeys_get hp hk'] at h2
  have hfk : Message.firstKey P { Spec.envelope m rs r.iv.1 c tag with
      unprotected := some { JwmHeader.dflt with skid := some x } } rsk (some (P.x25519Pub ssk)) rs = .ok cek :=
    firstKey_of (i := 0) (List.getElem?_eq_getElem h0)
      (decryptCek_encryptCek hP h2 hal halg' hskid' hk hrk (.inl rfl) (.inl rfl)) (by simp)
  have hwf : Message.WF P.f64 { m with recipients := some rs, flatJwe := false, flatJws := false } :=
    ⟨hwr.jwm, hwr.other, hwr.to, hwr.recipients, hwr.canon, hwr.nums, hwr.depth⟩
  simp only [Message.receive, Message.decryptStep, hmt, Res.bind_ok, if_true, Res.ofOpt_some,
    Message.receiveJwe, hj2, halg', Message.senderKey, arrayRef32_of hrk, arrayRef32_of (hP.pub_len ssk), ha,
    Message.contentKey, hrec', hfk, hdec', hdec, Res.pure_eq, Message.verifyStep,
    messageType_text P ((o.sub 0).sub 1) hwf hc, hj, if_false, ofText_text ((o.sub 0).sub 1) hwf]

/-- C81: an anonymous envelope to which the violation applies, and an envelope with named sender together
with a changed copy to which the other part applies. -/
example : ∃ (m : Message) (t t' s : Str) (j : Jwe), m.didcomm.from = none ∧ m.WF (toy fun _ => none).f64 ∧
    Avoids m.didcomm.other classKeys ∧ HeaderFixed m.jwm ∧ m.jwm.typ ≠ .jws ∧
    m.sealJwe (toy fun _ => none) exampleRand (exampleKey 3)
      (some [some ((toy fun _ => none).x25519Pub (exampleKey 1))]) = .ok t ∧
    oneRecipient.sealJwe (toy fun _ => none) exampleRand (exampleKey 3)
      (some [some ((toy fun _ => none).x25519Pub (exampleKey 1))]) = .ok t' ∧
    Jwe.ofText (toy fun _ => none).f64 t' = some j ∧
    Jwe.ofText (toy fun _ => none).f64 s =
      some { j with unprotected := some { JwmHeader.dflt with skid := some c!"did:m:m" } } ∧
    j.unprotected = none ∧ ∃ hdr, j.protected_ = some hdr ∧ hdr.alg.isSome ∧ hdr.skid.isSome := by
  obtain ⟨t, ht⟩ := oneRecipient_seals exampleRand
    { oneRecipient with didcomm := { oneRecipient.didcomm with «from» := none } } rfl rfl
  obtain ⟨t', ht'⟩ := oneRecipient_seals exampleRand oneRecipient rfl rfl
  have hw := oneRecipient_wf (toy fun _ => none).f64
  obtain ⟨pks, rs, a, c, tag, alg, hp, hpl, hk, hto, hfl, hrs, hl, hal, ha, he, -, ht2⟩ := seal_ok ht'
  have hwe := envelope_wf (m := oneRecipient) (rs := rs) (iv := exampleRand.iv.1) (c := c) (tag := tag)
    hw.jwm (sealRecipients_wf hrs)
  have hw' : ({ Spec.envelope oneRecipient rs exampleRand.iv.1 c tag with
      unprotected := some { JwmHeader.dflt with skid := some c!"did:m:m" } } : Jwe).WF :=
    ⟨hwe.prot, by
      intro h hh
      rw [← Option.some.inj hh]
      exact ⟨(fun k hk => by cases hk), (fun k hk => by cases hk)⟩, hwe.recipient, hwe.recipients⟩
  refine ⟨{ oneRecipient with didcomm := { oneRecipient.didcomm with «from» := none } }, t, t', _,
    Spec.envelope oneRecipient rs exampleRand.iv.1 c tag, rfl, ⟨hw.jwm, hw.other, hw.to, hw.recipients, hw.canon, hw.nums, hw.depth⟩,
    by decide, ⟨(by intro k h; cases h), (by intro k h; cases h)⟩, by decide, ht, ht', ?_,
    jwe_ofText_text HOrd.id hw', rfl, _, rfl, ?_, ?_⟩
  · rw [ht2]; exact jwe_ofText_text _ hwe
  · rw [show (Spec.publicHeader oneRecipient).alg = some alg from hal]; rfl
  · rfl

/-! ## C80 -/

/-- A plain message that carries the parts of a flat JWS as custom headers, and another JWS as its body. -/
def Spec.carrier (m : Message) (payload hdr sig : Str) (body : Json) : Message :=
  { m with
    jwm := { JwmHeader.dflt with alg := some c!"EdDSA" }
    didcomm := { m.didcomm with
      other := ((HMap.empty.insert c!"payload" payload).insert c!"protected" hdr).insert c!"signature" sig }
    recipients := none
    body := body
    attachments := [] }

theorem carrier_get (m : Message) (p h s : Str) (b : Json) (k : Str) :
    (carrier m p h s b).didcomm.other.get k =
      if k = c!"signature" then some s else if k = c!"protected" then some h
      else if k = c!"payload" then some p else none := by
  simp only [carrier, HMap.get_insert, HMap.get_empty]

/-- A message with these custom headers, read as a JWS. -/
theorem decJws_carrier {F : Str → Option Str} (o : HOrd) {m : Message} {p : Str} {hdr : JwmHeader} {sig : Bytes}
    {b v : Json} {oh : HOrd} (hw : hdr.WF) (hv : toValue F 1 b = some v) :
    decJws F (encMessage o (carrier m p (headerB64 oh hdr) (b64Encode sig) b)) =
      some { payload := p, signature := some ⟨some hdr, none, sig⟩, signatures := none } := by
  have hb := buffered_body (F := F) o (carrier m p (headerB64 oh hdr) (b64Encode sig) b)
  rw [show (carrier m p (headerB64 oh hdr) (b64Encode sig) b).body = b from rfl, hv] at hb
  have hs : ∀ k v, k ∉ reservedKeys →
      (carrier m p (headerB64 oh hdr) (b64Encode sig) b).didcomm.other.get k = some v →
      ∀ es, encMessage o (carrier m p (headerB64 oh hdr) (b64Encode sig) b) = .obj es →
      fieldVals k es = [.str v] := fun k v hk hg es he => fieldVals_message_custom o hk hg he
  have hn : ∀ k, k ∉ reservedKeys →
      (carrier m p (headerB64 oh hdr) (b64Encode sig) b).didcomm.other.get k = none →
      ∀ es, encMessage o (carrier m p (headerB64 oh hdr) (b64Encode sig) b) = .obj es →
      fieldVals k es = [] := fun k hk hg es he => fieldVals_message o hk hg es he
  have key : ∀ es, encMessage o (carrier m p (headerB64 oh hdr) (b64Encode sig) b) = .obj es →
      buffered F (es.filter fun p => !jwsKeys.contains p.1) = true →
      decJws F (.obj es) = some { payload := p, signature := some ⟨some hdr, none, sig⟩, signatures := none } := by
    intro es he hbuf
    have e1 := hs c!"payload" p (by decide) (by rw [carrier_get]; rfl) es he
    have e2 := hn c!"signatures" (by decide) (by rw [carrier_get]; rfl) es he
    have e3 := hs c!"protected" _ (by decide) (by rw [carrier_get]; rfl) es he
    have e4 := hn c!"header" (by decide) (by rw [carrier_get]; rfl) es he
    have e5 := hs c!"signature" _ (by decide) (by rw [carrier_get]; rfl) es he
    have hsig : decSignatureE (es.filter fun p => !jwsKeys.contains p.1) = some ⟨some hdr, none, sig⟩ := by
      simp only [decSignatureE, dfltField, optField]
      rw [fieldVals_filter_keys (by decide), fieldVals_filter_keys (by decide),
        fieldVals_filter_keys (by decide), e3, e4, e5]
      simp only [decHeaderB64_enc oh hw, decBufferB64, b64Decode_encode]
      rfl
    simp only [decJws, mapEntries, Option.bind_eq_bind, Option.bind_some, reqField, optField, e1, e2, hbuf,
      hsig, decStr]
    simp [guard]
  exact key _ rfl hb

theorem messageType_carrier (P : Prims) (o : HOrd) {m : Message} {p h s : Str} {b : Json}
    (hn : NumsOk (carrier m p h s b).body) :
    Message.messageType P ((carrier m p h s b).text o) = .ok .jws := by
  rw [messageType_obj P (parse_message o hn)
    (presence_some (fieldVals_message_custom o (k := c!"signature") (by decide)
      (by rw [carrier_get]; rfl) rfl) (by simp))
    (presence_message o (k := c!"signatures") (by decide) (by rw [carrier_get]; rfl) rfl)
    (presence_message o (k := c!"iv") (by decide) (by rw [carrier_get]; rfl) rfl)]
  rfl

theorem decryptStep_jws {P : Prims} {s : Str} (h : Message.messageType P s = .ok .jws) (o : HOrd)
    (dk ek : Option Bytes) : Message.decryptStep P o s dk ek = .ok s := by
  unfold Message.decryptStep
  rw [h, Res.bind_ok, if_neg (by decide)]

/-- C80, as written, is false: there is a document that the two functions accept under the same key as two
different messages, of any content the signer likes. -/
theorem C80_receive_verify_violated (P : Prims) (a : SignAlg) (sk pk : Bytes) (hpair : SignPair P a sk pk)
    (m₁ m₂ : Message) (hm₁ : m₁.WF P.f64) (hm₂ : m₂.WF P.f64) (hf₁ : HeaderFixed m₁.jwm)
    (hf₂ : HeaderFixed m₂.jwm) :
    ∃ s, ∀ o dk ek,
      Message.verify P o (utf8 s) pk =
        .ok { m₁ with jwm := JwmHeader.dflt, flatJwe := false, flatJws := false } ∧
      Message.receive P o s dk ek (some pk) =
        .ok { m₂ with jwm := JwmHeader.dflt, flatJwe := false, flatJws := false } := by
  obtain ⟨t₁, h₁, -⟩ := C24_sign_verify P a sk pk hpair m₁ hm₁ hf₁ HOrd.id HOrd.id
  obtain ⟨t₂, h₂, -⟩ := C24_sign_verify P a sk pk hpair m₂ hm₂ hf₂ HOrd.id HOrd.id
  have hv₂ : ∀ o, Message.verify P o (utf8 t₂) pk =
      .ok { m₂ with jwm := JwmHeader.dflt, flatJwe := false, flatJws := false } := by
    intro o
    obtain ⟨t', h3, h4⟩ := C24_sign_verify P a sk pk hpair m₂ hm₂ hf₂ HOrd.id o
    rw [h₂] at h3
    rw [Res.ok.inj h3]
    exact h4
  obtain ⟨-, sig₂, -, hs₂⟩ := sign_ok h₂
  obtain ⟨-, sig, hsig, -⟩ := sign_ok h₁
  obtain ⟨-, alg, ha, hofs⟩ := signName (a := a) (h := m₁.jwm)
  unfold SignAlg.signer at hsig
  rw [Res.ofOpt_eq_ok] at hsig
  obtain ⟨s', hs1, hs2⟩ := hpair (Message.signingInput (headerB64 (HOrd.id.sub 0) (signedHeader (m₁.asJws a)))
        (payloadText (HOrd.id.sub 1) (m₁.asJws a)))
  rw [hsig] at hs1
  obtain rfl := Option.some.inj hs1
  have hjw : (m₁.asJws a).WF P.f64 :=
    ⟨by cases a <;> exact hm₁.jwm, hm₁.other, hm₁.to, hm₁.recipients, hm₁.canon, hm₁.nums, hm₁.depth⟩
  have hjf : HeaderFixed (signedHeader (m₁.asJws a)) := by cases a <;> exact hf₁
  have hjh : (signedHeader (m₁.asJws a)).WF := hjw.jwm
  obtain ⟨b, hb, hof⟩ := payload_decodes (F := P.f64) (HOrd.id.sub 1) hjw
  have hbody : toValue P.f64 1 (encJws (HOrd.id.sub 2) (jwsOf (m₂.asJws a)
      (payloadText (HOrd.id.sub 1) (m₂.asJws a)) sig₂)) = some (encJws (HOrd.id.sub 2) (jwsOf (m₂.asJws a)
      (payloadText (HOrd.id.sub 1) (m₂.asJws a)) sig₂)) := by
    unfold toValue
    rw [if_pos (by have := depth_jws (HOrd.id.sub 2) (jwsOf (m₂.asJws a) (payloadText (HOrd.id.sub 1) (m₂.asJws a)) sig₂); omega),
      normJ_canon (canon_jwsOf _ _ _ _)]
  have hK : (carrier m₂ (payloadText (HOrd.id.sub 1) (m₁.asJws a))
      (headerB64 (HOrd.id.sub 0) (signedHeader (m₁.asJws a))) (b64Encode sig)
      (encJws (HOrd.id.sub 2) (jwsOf (m₂.asJws a) (payloadText (HOrd.id.sub 1) (m₂.asJws a)) sig₂))).WF P.f64 := by
    refine ⟨⟨(by intro k hk; cases hk), (by intro k hk; cases hk)⟩, ?_, hm₂.to, (by intro l hl; cases hl),
      canon_jwsOf _ _ _ _, (nice_jws (F := fun t => some t) _ _).2.1, ?_⟩
    · intro k hk
      rw [carrier_get, if_neg, if_neg, if_neg]
      · rintro rfl; revert hk; decide
      · rintro rfl; revert hk; decide
      · rintro rfl; revert hk; decide
    · have := depth_jws (HOrd.id.sub 2) (jwsOf (m₂.asJws a) (payloadText (HOrd.id.sub 1) (m₂.asJws a)) sig₂)
      simp only [carrier]
      omega
  have hofK := ofText_text HOrd.id hK
  have hmt := messageType_carrier P HOrd.id hK.nums
  refine ⟨_, fun o dk ek => ⟨?_, (receive_eq (o := o) (vk := some pk) (decryptStep_jws hmt _ dk ek)).trans ?_⟩⟩
  rotate_right 1
  · have hwd : Message.WF P.f64 { m₂ with jwm := JwmHeader.dflt, flatJwe := false, flatJws := false } :=
      ⟨⟨(by intro k hk; cases hk), (by intro k hk; cases hk)⟩, hm₂.other, hm₂.to, hm₂.recipients, hm₂.canon,
        hm₂.nums, hm₂.depth⟩
    have hv := verifiedOf_message (key := some pk) (k := pk) (o := (o.sub 1).sub 0) hofK
      (by simp [carrier]) rfl (by
        have := hv₂ ((o.sub 1).sub 0)
        rw [hs₂] at this
        exact this)
    unfold Message.verifyStep Message.receiveJws
    rw [hmt, Res.bind_ok, if_pos rfl, hv, Res.bind_ok, Res.ofOpt_some, Res.bind_ok, Res.pure_eq, Res.bind_ok]
    exact congrArg (Res.ofOpt Err.serde) (ofText_text _ hwd)
  · refine verify_first (j := ⟨payloadText (HOrd.id.sub 1) (m₁.asJws a), some (signatureOf (m₁.asJws a) sig), none⟩)
      (s := signatureOf (m₁.asJws a) sig) (l := []) ?_ rfl ?_ hb (hof.trans rfl)
    · rw [Message.text, jws_ofBytes_print (nums_message HOrd.id hK.nums), decJws_carrier HOrd.id hjh hbody]
      rfl
    · rw [verifyOne_signatureOf ha hofs, headerB64_fixed hjf (o.sub 0) (HOrd.id.sub 0)]
      unfold SignAlg.validator
      rw [hs2]
      rfl

/-- C80: two messages to which this applies. -/
example : SignPair (toy fun _ => none) .edDsa (exampleKey 5) (exampleKey 5) ∧
    richMessage.WF (toy fun _ => none).f64 ∧ oneRecipient.WF (toy fun _ => none).f64 ∧
    HeaderFixed richMessage.jwm ∧ HeaderFixed oneRecipient.jwm ∧ richMessage.didcomm.to ≠ oneRecipient.didcomm.to :=
  ⟨toy_signPair _ _ _, richMessage_wf _, oneRecipient_wf _,
    ⟨(by intro k h; cases h), (by intro k h; cases h)⟩, ⟨(by intro k h; cases h), (by intro k h; cases h)⟩,
    by decide⟩

/-- `verify` succeeds only if the first signature names an algorithm. -/
theorem verify_ok_first {P : Prims} {o : HOrd} {s : Str} {k : Bytes} {m : Message}
    (h : Message.verify P o (utf8 s) k = .ok m) :
    ∃ j x l alg, Jws.ofText P.f64 s = some j ∧ Message.signaturesOf j = .ok (x :: l) ∧ x.getAlg = some alg := by
  simp only [Message.verify, Res.bind_eq_ok, Res.ofOpt_eq_ok] at h
  obtain ⟨j, hj, l, hl, b, hb, hm⟩ := h
  rw [jws_ofBytes_utf8] at hj
  cases l with
  | nil =>
    simp only [Message.verifyLoop, Res.ok.injEq] at hb
    subst hb
    cases hm
  | cons x l =>
    refine ⟨j, x, l, ?_⟩
    simp only [Message.verifyLoop, Res.bind_eq_ok, Message.verifyOne, Res.ofOpt_eq_ok] at hb
    obtain ⟨_, ⟨alg, ha, -⟩, -⟩ := hb
    exact ⟨alg, hj, hl, ha⟩

/-- C80, what holds: on a document that is recognised as signed and cannot be read as a plain message,
`receive` with an explicit key returns exactly the messages that `verify` returns, written and read again. -/
theorem C80_receive_verify_partial (P : Prims) (hP : Laws P) (s : Str) (dk ek : Option Bytes) (k : Bytes)
    (hc : Message.messageType P s = .ok .jws) (hn : Message.ofText P.f64 s = none) :
    (∀ o m, Message.receive P o s dk ek (some k) = .ok m →
      ∃ o' v, Message.verify P o' (utf8 s) k = .ok v ∧ Spec.Reread P v m) ∧
    ∀ v m, (∀ o, Message.verify P o (utf8 s) k = .ok v) → Spec.Reread P v m →
      ∀ o, Message.receive P o s dk ek (some k) = .ok m := by
  have hd := fun o => decryptStep_jws hc o dk ek
  refine ⟨?_, ?_⟩
  · intro o m h
    rw [receive_eq (hd _)] at h
    simp only [Message.verifyStep, hc, Res.bind_ok, if_true, Message.receiveJws, Message.verifiedOf, hn,
      Res.bind_eq_ok, Res.ofOpt_eq_ok, Res.pure_eq, Res.ok.injEq] at h
    obtain ⟨_, ⟨mo, hmo, v, rfl, rfl⟩, hm⟩ := h
    split at hmo
    · rw [Res.bind_eq_ok] at hmo
      obtain ⟨l, -, hl⟩ := hmo
      obtain ⟨x, -, o', k', hk, hv⟩ := verifyEach_ok hl
      obtain rfl : k = k' := Res.ok.inj hk
      exact ⟨o', v, hv, (verified_reload hP _ hv).1 hm⟩
    · cases hmo
  · intro v m h hr o
    obtain ⟨j, x, l, alg, h1, h2, h3⟩ := verify_ok_first (h o)
    rw [receive_jws_form hc hn h1 h2 h3 rfl (h _), (verified_reload hP _ (h o)).2 hr]
    rfl

/-- C80: a document to which the second part applies. -/
example : ∃ t, Message.messageType (toy fun _ => none) t = .ok .jws ∧
    Message.ofText (toy fun _ => none).f64 t = none ∧
    ∀ o, Message.verify (toy fun _ => none) o (utf8 t) (exampleKey 5) = .ok richMessage := by
  obtain ⟨t, ht, -⟩ := C24_sign_verify (toy fun _ => none) .es256k _ _ (toy_signPair _ _ (exampleKey 5)) richMessage
    (richMessage_wf _) ⟨(by intro k h; cases h), (by intro k h; cases h)⟩ HOrd.id HOrd.id
  refine ⟨t, ?_, ?_, fun o => ?_⟩
  · obtain ⟨-, sig, -, rfl⟩ := sign_ok ht
    exact (jwsOf_class _ _ _ _).1
  · obtain ⟨-, sig, -, rfl⟩ := sign_ok ht
    exact (jwsOf_class (P := toy fun _ => none) _ _ _ _).2
  · obtain ⟨t', h1, h2⟩ := C24_sign_verify (toy fun _ => none) .es256k _ _ (toy_signPair _ _ (exampleKey 5)) richMessage
      (richMessage_wf _) ⟨(by intro k h; cases h), (by intro k h; cases h)⟩ HOrd.id o
    rw [ht] at h1
    rw [Res.ok.inj h1]
    exact h2

/-! ## C82 -/

/-- The names of the members of encrypted and signed envelopes (RFC 7515 and 7516). -/
def Spec.envelopeNames : List Str :=
  [c!"protected", c!"unprotected", c!"header", c!"encrypted_key", c!"recipients", c!"ciphertext", c!"iv",
    c!"tag", c!"payload", c!"signature", c!"signatures"]

theorem fieldVals_insert {k k' : Str} (h : k' ≠ k) (v : Json) (pre post : List (Str × Json)) :
    fieldVals k (pre ++ (k', v) :: post) = fieldVals k (pre ++ post) := by
  rw [fieldVals_append, fieldVals_append, fieldVals_cons_ne h]

theorem buffered_insert {F : Str → Option Str} {v : Json} (hv : (toValue F 1 v).isSome = true) (k : Str)
    (ks : List Str) (pre post : List (Str × Json)) :
    buffered F ((pre ++ (k, v) :: post).filter fun p => !ks.contains p.1) =
      buffered F ((pre ++ post).filter fun p => !ks.contains p.1) := by
  simp only [buffered, List.filter_append, List.filter_cons, List.all_append]
  split
  · simp [hv]
  · rfl

theorem decJwe_insert {F : Str → Option Str} {k : Str} {v : Json} (hk : k ∉ envelopeNames)
    (hv : (toValue F 1 v).isSome = true) (pre post : List (Str × Json)) :
    decJwe F (.obj (pre ++ (k, v) :: post)) = decJwe F (.obj (pre ++ post)) := by
  have hf : ∀ x ∈ envelopeNames, fieldVals x (pre ++ (k, v) :: post) = fieldVals x (pre ++ post) :=
    fun x hx => fieldVals_insert (by rintro rfl; exact hk hx) v pre post
  have hr : decRecipientE ((pre ++ (k, v) :: post).filter fun p => !jweKeys.contains p.1) =
      decRecipientE ((pre ++ post).filter fun p => !jweKeys.contains p.1) := by
    simp only [decRecipientE, reqField]
    simp only [fieldVals_filter_keys (ks := jweKeys) (k := c!"header") (by decide),
      fieldVals_filter_keys (ks := jweKeys) (k := c!"encrypted_key") (by decide),
      hf c!"header" (by decide), hf c!"encrypted_key" (by decide)]
  simp only [decJwe, mapEntries, Option.bind_eq_bind, Option.bind_some, dfltField, optField, reqField,
    buffered_insert hv, hr, hf c!"protected" (by decide), hf c!"unprotected" (by decide),
    hf c!"recipients" (by decide), hf c!"ciphertext" (by decide), hf c!"iv" (by decide), hf c!"tag" (by decide)]

theorem decJws_insert {F : Str → Option Str} {k : Str} {v : Json} (hk : k ∉ envelopeNames)
    (hv : (toValue F 1 v).isSome = true) (pre post : List (Str × Json)) :
    decJws F (.obj (pre ++ (k, v) :: post)) = decJws F (.obj (pre ++ post)) := by
  have hf : ∀ x ∈ envelopeNames, fieldVals x (pre ++ (k, v) :: post) = fieldVals x (pre ++ post) :=
    fun x hx => fieldVals_insert (by rintro rfl; exact hk hx) v pre post
  have hr : decSignatureE ((pre ++ (k, v) :: post).filter fun p => !jwsKeys.contains p.1) =
      decSignatureE ((pre ++ post).filter fun p => !jwsKeys.contains p.1) := by
    simp only [decSignatureE, dfltField, optField]
    simp only [fieldVals_filter_keys (ks := jwsKeys) (k := c!"header") (by decide),
      fieldVals_filter_keys (ks := jwsKeys) (k := c!"protected") (by decide),
      fieldVals_filter_keys (ks := jwsKeys) (k := c!"signature") (by decide),
      hf c!"header" (by decide), hf c!"protected" (by decide), hf c!"signature" (by decide)]
  simp only [decJws, mapEntries, Option.bind_eq_bind, Option.bind_some, optField, reqField,
    buffered_insert hv, hr, hf c!"payload" (by decide), hf c!"signatures" (by decide)]

/-- C82, what holds: a member with an unknown name changes neither what `receive` makes of an encrypted
document nor what `verify` makes of a signed one (whose signatures are written without escapes), wherever it
is inserted, as long as its value can be read at all (nesting and number range). -/
theorem C82_unknown_member_partial (P : Prims) (s s' : Str) (k : Str) (v : Json) (pre post : List (Str × Json))
    (hs : parseJson s = some (.obj (pre ++ post))) (hs' : parseJson s' = some (.obj (pre ++ (k, v) :: post)))
    (hk : k ∉ envelopeNames) (hv : (toValue P.f64 1 v).isSome = true) :
    (Message.messageType P s = .ok .jwe → Message.presence c!"iv" (pre ++ post) = some true →
      ∀ o sk ek vk, Message.receive P o s' sk ek vk = Message.receive P o s sk ek vk) ∧
    (SignaturesPlain s → SignaturesPlain s' →
      ∀ o key, Message.verify P o (utf8 s') key = Message.verify P o (utf8 s) key) := by
  have hf : ∀ x ∈ envelopeNames, fieldVals x (pre ++ (k, v) :: post) = fieldVals x (pre ++ post) :=
    fun x hx => fieldVals_insert (by rintro rfl; exact hk hx) v pre post
  have hp : ∀ x ∈ envelopeNames,
      Message.presence x (pre ++ (k, v) :: post) = Message.presence x (pre ++ post) := by
    intro x hx
    simp only [Message.presence, optField, hf x hx]
  refine ⟨?_, ?_⟩
  · intro hc hiv o sk ek vk
    refine receive_congr ?_ hc ?_
    · have hc' := hc
      simp only [Message.messageType, hs, hs', structEntries, Res.ofOpt_some, Res.bind_ok,
        hp c!"signature" (by decide), hp c!"signatures" (by decide), hp c!"iv" (by decide), hiv] at hc ⊢
      exact hc
    · simp only [Jwe.ofText, hs, hs', decJwe_insert hk hv]
  · intro hq hq' o key
    simp only [Message.verify, jws_ofBytes_utf8, jws_ofText_plain hs hq, jws_ofText_plain hs' hq',
      decJws_insert hk hv]

theorem ofText_bodyless {F : Str → Option Str} {s : Str} {es : List (Str × Json)} (hs : parseJson s = some (.obj es))
    (hb : fieldVals c!"body" es = []) : Message.ofText F s = none := by
  simp only [Message.ofText, hs, decMessage, mapEntries, Option.bind_eq_bind, Option.bind_some, reqField, hb,
    Option.bind_none, Option.bind_fun_none]

/-- C82, what holds for `receive` of signed documents: a member with an unknown name changes nothing, if the document has
no member `body` (with which it could be read as a plain message, see C80). -/
theorem C82_signed_partial (P : Prims) (s s' : Str) (k : Str) (v : Json) (pre post : List (Str × Json))
    (hs : parseJson s = some (.obj (pre ++ post))) (hs' : parseJson s' = some (.obj (pre ++ (k, v) :: post)))
    (hk : k ∉ envelopeNames) (hv : (toValue P.f64 1 v).isSome = true) (hq : SignaturesPlain s) (hq' : SignaturesPlain s')
    (hc : Message.messageType P s = .ok .jws) (hb : fieldVals c!"body" (pre ++ post) = []) (hkb : k ≠ c!"body")
    (o : HOrd) (sk ek vk : Option Bytes) : Message.receive P o s' sk ek vk = Message.receive P o s sk ek vk := by
  have hf : ∀ x ∈ envelopeNames, fieldVals x (pre ++ (k, v) :: post) = fieldVals x (pre ++ post) :=
    fun x hx => fieldVals_insert (by rintro rfl; exact hk hx) v pre post
  have hp : ∀ x ∈ envelopeNames,
      Message.presence x (pre ++ (k, v) :: post) = Message.presence x (pre ++ post) := by
    intro x hx
    simp only [Message.presence, optField, hf x hx]
  have hn := ofText_bodyless (F := P.f64) hs hb
  have hn' := ofText_bodyless (F := P.f64) hs' (by rw [fieldVals_insert hkb, hb])
  have hc' : Message.messageType P s' = .ok .jws := by
    simp only [Message.messageType, hs, hs', hn, hn', structEntries, Res.ofOpt_some, Res.bind_ok,
      hp c!"signature" (by decide), hp c!"signatures" (by decide), hp c!"iv" (by decide)] at hc ⊢
    exact hc
  have hver := (C82_unknown_member_partial P s s' k v pre post hs hs' hk hv).2 hq hq'
  have hj : Jws.ofText P.f64 s' = Jws.ofText P.f64 s := by
    rw [jws_ofText_plain hs hq, jws_ofText_plain hs' hq', decJws_insert hk hv]
  have he : ∀ (l : List Signature) o, Message.verifyEach P (utf8 s') vk o l = Message.verifyEach P (utf8 s) vk o l := by
    intro l
    induction l with
    | nil => intro o; rfl
    | cons x l ih =>
      intro o
      simp only [Message.verifyEach, hver, ih]
  rw [receive_eq (decryptStep_jws hc _ sk ek), receive_eq (decryptStep_jws hc' _ sk ek)]
  simp only [Message.verifyStep, hc, hc', Res.bind_ok, if_true, Message.receiveJws, Message.verifiedOf, hn, hn', hj, he]

theorem decMembers_none {es : List (Str × Json)} {k : Str} {v : Json} (h : (k, v) ∈ es)
    (hv : decStr v = none) : decMembers decStr es = none := by
  induction es with
  | nil => cases h
  | cons p es ih =>
    obtain ⟨k', v'⟩ := p
    simp only [decMembers]
    rcases List.mem_cons.1 h with h | h
    · cases h
      rw [hv]
    · rw [ih h]
      cases decStr v' <;> rfl

theorem decMessage_nonstring {F : Str → Option Str} {es : List (Str × Json)} {k : Str} {v : Json}
    (h : (k, v) ∈ es) (hk : k ∉ reservedKeys) (hv : ∀ t, v ≠ .str t) : decMessage F (.obj es) = none := by
  cases hd : decMessage F (.obj es) with
  | none => rfl
  | some d =>
    simp only [decMessage, mapEntries, Option.bind_eq_bind, Option.bind_eq_some_iff,
      Option.some.injEq, exists_eq_left'] at hd
    obtain ⟨_, -, _, -, _, -, _, -, _, -, _, hd, -⟩ := hd
    simp only [decDidcommE, Option.bind_eq_bind, Option.bind_eq_some_iff] at hd
    obtain ⟨_, -, _, -, _, -, _, -, _, -, _, -, _, -, _, -, _, -, _, -, _, hd, -⟩ := hd
    simp only [reservedKeys, List.mem_append, not_or] at hk
    obtain ⟨⟨k1, k2⟩, k3⟩ := hk
    rw [decMembers_none (k := k) (v := v)] at hd
    · cases hd
    · refine List.mem_filter.2 ⟨List.mem_filter.2 ⟨List.mem_filter.2 ⟨h, ?_⟩, ?_⟩, ?_⟩
      · simpa using k3
      · simpa using k1
      · simpa using k2
    · cases v <;> simp_all [decStr]

/-- C82, as written, is false: a plain message with one unknown member whose value is anything but a string
is refused, whatever the rest. -/
theorem C82_unknown_member_violated (P : Prims) (s : Str) (k : Str) (v : Json) (es : List (Str × Json))
    (hs : parseJson s = some (.obj es)) (hn : ∀ x ∈ classKeys, fieldVals x es = [])
    (h : (k, v) ∈ es) (hk : k ∉ reservedKeys) (hv : ∀ t, v ≠ .str t) (o : HOrd) (sk ek vk : Option Bytes) :
    Message.receive P o s sk ek vk = .err .serde := by
  have hm : Message.messageType P s = .err .serde := by
    rw [messageType_obj P hs (presence_absent (hn _ (by decide))) (presence_absent (hn _ (by decide)))
      (presence_absent (hn _ (by decide)))]
    simp only [decMessage_nonstring h hk hv]
    rfl
  simp only [Message.receive, Message.decryptStep, hm, Res.bind_err]

/-- C82: a message that is received, and is not any more with one more member. -/
example : ∃ s s' es, parseJson s = some (.obj es) ∧ parseJson s' = some (.obj ((c!"x-n", .bool true) :: es)) ∧
    (∀ x ∈ classKeys, fieldVals x ((c!"x-n", Json.bool true) :: es) = []) ∧ c!"x-n" ∉ reservedKeys ∧
    Message.receive (toy fun _ => none) HOrd.id s none none none = .ok richMessage := by
  obtain ⟨es, he⟩ : ∃ es, encMessage HOrd.id richMessage = .obj es := ⟨_, rfl⟩
  have hn : NumsOk (encMessage HOrd.id richMessage) := nice_of_wf (F := fun t => some t) HOrd.id (richMessage_wf _)
  refine ⟨richMessage.text HOrd.id, printJson (.obj ((c!"x-n", .bool true) :: es)), es,
    (parse_message HOrd.id (richMessage_wf fun t => some t).nums).trans (by rw [he]),
    parseJson_print ?_, ?_, by decide, ?_⟩
  · rw [he] at hn
    exact ⟨trivial, hn⟩
  · intro x hx
    rw [fieldVals_cons_ne (by rintro rfl; revert hx; decide)]
    exact fieldVals_message HOrd.id (classKeys_reserved x hx)
      ((show Avoids richMessage.didcomm.other classKeys by decide) x hx) es he
  · have h1 : richMessage.jwm.typ ≠ .jwe := by decide
    have h2 : richMessage.jwm.typ ≠ .jws := by decide
    have h := C05_plain_roundtrip (toy fun _ => none) HOrd.id HOrd.id richMessage (richMessage_wf _) (by decide) h1 h2
      none none none
    rw [Message.asRawJson, Res.bind_ok] at h
    exact h

/-- C82: an encrypted document with an unknown member. -/
example : ∃ t pre, oneRecipient.sealJwe (toy fun _ => none) exampleRand (exampleKey 3)
      (some [some ((toy fun _ => none).x25519Pub (exampleKey 1))]) = .ok t ∧
    parseJson t = some (.obj (pre ++ [])) ∧ Message.messageType (toy fun _ => none) t = .ok .jwe ∧
    Message.presence c!"iv" (pre ++ []) = some true ∧
    c!"x-n" ∉ envelopeNames ∧ (toValue (toy fun _ => none).f64 1 (.bool true)).isSome = true := by
  obtain ⟨t, ht⟩ := oneRecipient_seals exampleRand oneRecipient rfl rfl
  obtain ⟨pks, rs, a, c, tag, alg, hp, hpl, hk, hto, hfl, hrs, hl, hal, ha, he, -, rfl⟩ := seal_ok ht
  obtain ⟨es, hes⟩ : ∃ es, encJwe (exampleRand.ord.sub 2) (Spec.envelope oneRecipient rs exampleRand.iv.1 c tag) = .obj es :=
    ⟨_, rfl⟩
  refine ⟨_, es, ht, ?_, messageType_jwe _ _, ?_, by decide, by decide⟩
  · rw [List.append_nil, ← hes]
    exact parse_jwe _ _
  · rw [List.append_nil]
    exact (presence_jwe _ _ hes).2.2

/-- C82: a signed document with an unknown member, no escapes. -/
example : ∃ s s' pre post, parseJson s = some (.obj (pre ++ post)) ∧
    parseJson s' = some (.obj (pre ++ (c!"x-n", .bool true) :: post)) ∧ SignaturesPlain s ∧ SignaturesPlain s' ∧
    Message.messageType (toy fun _ => none) s = .ok .jws ∧ fieldVals c!"body" (pre ++ post) = [] := by
  have hq : ∀ s jm', parseStruck s = some (.obj jm') →
      (∀ p ∈ jm', p.1 ≠ c!"signatures" ∧ (p.1 = c!"signature" → p.2 ≠ .bool false)) → SignaturesPlain s := by
    intro s jm' hs hn jm hjm v hv
    rw [← parseStruck_iff, hs] at hjm
    obtain rfl := Option.some.inj hjm
    obtain ⟨es, he, h | ⟨l, x, h, -⟩⟩ := hv
    · cases he; exact (hn _ h).2 rfl
    · cases he; exact absurd rfl (hn _ h).1
  exact ⟨c!"{\"payload\":\"e30\",\"signature\":\"AAAA\"}", c!"{\"payload\":\"e30\",\"x-n\":true,\"signature\":\"AAAA\"}",
    [(c!"payload", .str c!"e30")], [(c!"signature", .str c!"AAAA")], by decide +kernel, by decide +kernel,
    hq _ [(c!"payload", .str c!"e30"), (c!"signature", .str c!"AAAA")] (by decide +kernel) (by decide),
    hq _ [(c!"payload", .str c!"e30"), (c!"x-n", .bool true), (c!"signature", .str c!"AAAA")]
      (by decide +kernel) (by decide),
    (by
      rw [messageType_obj _ (es := [(c!"payload", .str c!"e30"), (c!"signature", .str c!"AAAA")]) (a := true) (b := false)
        (c := false) (by decide +kernel) (by decide) (by decide) (by decide)]
      rfl), by decide⟩

end Verif
