import Verif.Props.Forms
import Verif.Props.Whole

/-!
# Protection within protection

C148.
-/

namespace Verif

open Spec

/-- Whoever opens an envelope opens it with any other content: there is a ciphertext and a tag for it under the same key. -/
theorem opens_any {P : Prims} (hP : Laws P) (ht : AeadTotal P) {o : HOrd} {j : Jwe} {sk p : Bytes} {ek : Option Bytes}
    (h : Opens P o j sk ek p) (pt : Bytes) :
    ∃ c t, Opens P o { j with ciphertext := b64Encode c, tag := some (b64Encode t) } sk ek pt := by
  obtain ⟨alg, spk, key, hdr, c, tt, t, iv, halg, hsup, hspk, h1, h2, hkey, hk32, hh, -, -, -, hiv, hn, hx, ho⟩ := h
  have hbox : ∃ x, 16 ≤ x.length ∧ ContentOpens P alg iv key x (utf8 (headerB64 o hdr)) pt := by
    obtain ⟨t1, t2⟩ := ht key (iv.take 12) (utf8 (headerB64 o hdr)) pt hk32
    rcases ho with ⟨rfl, -⟩ | ⟨rfl, -⟩
    · obtain ⟨x, hx⟩ := (ht key iv (utf8 (headerB64 o hdr)) pt hk32).1 (hx rfl)
      exact ⟨x, by rw [hP.xc_len hx]; omega, .inl ⟨rfl, hP.xc_dec hx⟩⟩
    · have h12 : 12 ≤ iv.length := hn
      obtain ⟨x, hx⟩ := t2 (by simp [h12])
      exact ⟨x, by rw [hP.gcm_len hx]; omega, .inr ⟨rfl, hP.gcm_dec hx⟩⟩
  obtain ⟨x, -, hb⟩ := hbox
  refine ⟨x.take (x.length - 16), x.drop (x.length - 16), alg, spk, key, hdr, _, _, _, iv, halg, hsup, hspk, h1, h2, hkey,
    hk32, hh, b64Decode_encode _, rfl, b64Decode_encode _, hiv, hn, hx, ?_⟩
  rw [List.take_append_drop]
  exact hb

/-- An envelope that is opened to something else than a message. -/
theorem receive_no_message {P : Prims} (hP : Laws P) {o o1 : HOrd} {j : Jwe} {sk pt : Bytes} {ek : Option Bytes} (hw : j.WF)
    (h : Opens P ((o.sub 0).sub 0) j sk ek pt) (hn : Message.ofBytes P.f64 pt = none) (vk : Option Bytes) :
    Message.receive P o (j.text o1) (some sk) ek vk = .err .serde := by
  obtain ⟨alg, spk, key, hdr, c, tt, t, iv, halg, hsup, hspk, h1, h2, hkey, hk32, hh, hc, htt, ht, hiv, hx, hx', ho⟩ := h
  obtain ⟨a, ha⟩ := ofStr_iff.2 hsup
  rw [← (contentKey_outcome hP halg hsup hspk h1 h2).1] at hkey
  have hj := jwe_ofText_text (F := P.f64) o1 hw
  have hd := (decrypter_ok_iff (P := P) ha).2 ⟨hk32, hx, hx', ho⟩
  have hp : j.getPayload = .ok c := by rw [Jwe.getPayload, Res.unwrap_eq_ok]; exact hc
  have hi : j.getIv = .ok iv := by rw [Jwe.getIv, Res.unwrap_eq_ok]; exact hiv
  have hr : Message.receiveJwe P (o.sub 0) (j.text o1) sk ek = .err .serde := by
    simp only [Message.receiveJwe, hj, Res.ofOpt_some, Res.bind_ok, halg, senderKey_iff.2 hspk, arrayRef32_eq_ok.2 ⟨h1, rfl⟩,
      arrayRef32_eq_ok.2 ⟨h2, rfl⟩, ha, hkey, Message.decrypt, jwe_ofBytes, hh, htt, hp, ht, hi, hd, Message.plugErr, hn]
    rfl
  simp only [Message.receive, Message.decryptStep, messageType_jwe, Res.bind_ok, if_true, Res.ofOpt_some, hr]
  rfl

/-- An envelope, written down, is not a message. -/
theorem jwe_no_message {F : Str → Option Str} (o : HOrd) (e : Jwe) : Message.ofText F (e.text o) = none := by
  unfold Message.ofText
  rw [parse_jwe o e]
  refine decMessage_none (k := c!"id") (by decide) ?_
  have hf := fieldVals_flatRecipient (k := c!"id") (o.sub 2) e.recipient (by decide) (by decide)
  rw [show fieldVals c!"id" _ = [] from by look; simp [hf]]
  decide

/-- What is needed for the two violations: a reader who receives an envelope gets an error instead of any content that is not a
message. -/
theorem nested_refused {P : Prims} (hP : Laws P) (ht : AeadTotal P) {o : HOrd} {s : Str} {sk : Bytes} {ek vk : Option Bytes}
    {m : Message} {j : Jwe} (hk : Message.messageType P s = .ok .jwe) (hj : Jwe.ofText P.f64 s = some j)
    (h : Message.receive P o s (some sk) ek vk = .ok m) {x : Str} (hx : Message.ofText P.f64 x = none) (o1 : HOrd) :
    ∃ c t, Opens P ((o.sub 0).sub 0) { j with ciphertext := c, tag := some t } sk ek (utf8 x) ∧
      ∀ vk', Message.receive P o (Jwe.text o1 { j with ciphertext := c, tag := some t }) (some sk) ek vk' = .err .serde := by
  simp only [Message.receive, Message.decryptStep, hk, Res.bind_ok, if_true, Res.ofOpt_some, Res.bind_eq_ok] at h
  obtain ⟨cur, hr, -⟩ := h
  obtain ⟨j', p, -, hj', hop, -⟩ := ((receiveJwe_outcome hP _ _ _ _).1 cur).1 hr
  rw [hj] at hj'
  obtain rfl := Option.some.inj hj'
  obtain ⟨c, t, hop'⟩ := opens_any hP ht hop (utf8 x)
  have w := jwe_ofText_wf hj
  exact ⟨_, _, hop', receive_no_message hP ⟨w.prot, w.unprot, w.recipient, w.recipients⟩ hop' (by rw [ofBytes_utf8, hx])⟩

/-- C148, violated: a signed document in an envelope is not received.  Whoever receives a message in an envelope can open the
envelope with any signed document in place of the message, and gets an error, whatever the key for the signature. -/
theorem C148_signed_violated (P : Prims) (hP : Laws P) (ht : AeadTotal P) (o : HOrd) (s : Str) (sk : Bytes)
    (ek vk : Option Bytes) (m : Message) (j : Jwe) (hk : Message.messageType P s = .ok .jwe)
    (hj : Jwe.ofText P.f64 s = some j) (h : Message.receive P o s (some sk) ek vk = .ok m)
    (n : Message) (on : HOrd) (signer : Bytes → Bytes → Res Bytes) (key : Bytes) (x : Str) (hx : n.sign on signer key = .ok x)
    (o1 : HOrd) :
    ∃ c t, Opens P ((o.sub 0).sub 0) { j with ciphertext := c, tag := some t } sk ek (utf8 x) ∧
      ∀ vk', Message.receive P o (Jwe.text o1 { j with ciphertext := c, tag := some t }) (some sk) ek vk' = .err .serde := by
  obtain ⟨-, sig, -, rfl⟩ := sign_ok hx
  refine nested_refused hP ht hk hj h (jws_class _ _ ?_).2 o1
  unfold Spec.jwsOf
  split
  · exact .inl rfl
  · exact .inr rfl

/-- C148, violated: neither is an envelope in an envelope. -/
theorem C148_envelope_violated (P : Prims) (hP : Laws P) (ht : AeadTotal P) (o : HOrd) (s : Str) (sk : Bytes)
    (ek vk : Option Bytes) (m : Message) (j : Jwe) (hk : Message.messageType P s = .ok .jwe)
    (hj : Jwe.ofText P.f64 s = some j) (h : Message.receive P o s (some sk) ek vk = .ok m)
    (n : Message) (r : Message.SealRand) (nsk : Bytes) (keys : Option (List (Option Bytes))) (x : Str)
    (hx : n.sealJwe P r nsk keys = .ok x) (o1 : HOrd) :
    ∃ c t, Opens P ((o.sub 0).sub 0) { j with ciphertext := c, tag := some t } sk ek (utf8 x) ∧
      ∀ vk', Message.receive P o (Jwe.text o1 { j with ciphertext := c, tag := some t }) (some sk) ek vk' = .err .serde := by
  obtain ⟨-, rs, -, c, tag, -, -, -, -, -, -, -, -, -, -, -, -, rfl⟩ := seal_ok hx
  exact nested_refused hP ht hk hj h (jwe_no_message _ _) o1

/-- C148, violated: a signed document that holds an envelope is not received and not verified either, whatever it is signed with
and however often. -/
theorem C148_signed_envelope_violated (P : Prims) (o o1 o2 : HOrd) (e : Jwe) (l : List Signature) (hl : ∀ x ∈ l, x.WF) :
    (∀ key m, Message.verify P o (utf8 (Jws.text o1 ⟨b64Encode (utf8 (e.text o2)), none, some l⟩)) key ≠ .ok m) ∧
    ∀ sk ek vk m, Message.receive P o (Jws.text o1 ⟨b64Encode (utf8 (e.text o2)), none, some l⟩) sk ek vk ≠ .ok m := by
  have w : Jws.WF ⟨b64Encode (utf8 (e.text o2)), none, some l⟩ := ⟨by rintro s ⟨⟩, by rintro l ⟨⟩; exact hl⟩
  have hj := jws_ofText_text (F := P.f64) o1 w
  obtain ⟨hc, hn⟩ := jws_class (P := P) o1 ⟨b64Encode (utf8 (e.text o2)), none, some l⟩ (.inr rfl)
  have hv : ∀ o key m, Message.verify P o (utf8 (Jws.text o1 ⟨b64Encode (utf8 (e.text o2)), none, some l⟩)) key ≠ .ok m := by
    intro o key m h
    unfold Message.verify at h
    rw [jws_ofBytes_utf8, hj] at h
    simp only [Res.ofOpt_some, Res.bind_ok, Res.bind_eq_ok, Message.signaturesOf] at h
    obtain ⟨ok, -, h⟩ := h
    split at h
    · rw [b64Decode_encode, Res.ofOpt_some, Res.bind_ok, ofBytes_utf8, jwe_no_message] at h
      cases h
    · cases h
  refine ⟨hv o, ?_⟩
  intro sk ek vk m h
  have he : ∀ l' o m, Message.verifyEach P (utf8 (Jws.text o1 ⟨b64Encode (utf8 (e.text o2)), none, some l⟩)) vk o l' ≠ .ok (some m) := by
    intro l'
    induction l' with
    | nil => intro o m h; cases h
    | cons y l' ih =>
      intro o m h
      unfold Message.verifyEach at h
      split at h
      · exact ih _ _ h
      · rw [Res.bind_eq_ok] at h
        obtain ⟨k, -, h⟩ := h
        split at h
        · rename_i hm; exact hv _ _ _ hm
        · exact ih _ _ h
        · cases h
  have hne : ¬ MessageType.jws = MessageType.jwe := by decide
  simp only [Message.receive, Message.decryptStep, Message.verifyStep, hc, Res.bind_ok, hne, if_false, if_true,
    Message.receiveJws, Message.verifiedOf, hn, hj, Message.signaturesOf, Res.bind_eq_ok, Res.ofOpt_eq_ok] at h
  obtain ⟨_, ⟨_, h, v, rfl, -⟩, -⟩ := h
  exact he _ _ _ h

/-- C148, what holds: the content of a received envelope is a message, and what is returned is that message, or the message held by
the signed document that is carried in it. -/
theorem C148_content_partial (P : Prims) (hP : Laws P) (o : HOrd) (s : Str) (sk ek vk : Option Bytes) (m : Message)
    (hk : KindOf P s .jwe) (h : Message.receive P o s sk ek vk = .ok m) :
    ∃ k j pt m0, sk = some k ∧ Jwe.ofText P.f64 s = some j ∧ Opens P ((o.sub 0).sub 0) j k ek pt ∧
      Message.ofBytes P.f64 pt = some m0 ∧ (Reread P m0 m ∨
        ∃ v, Holds P ((o.sub 1).sub 0) (m0.text ((o.sub 0).sub 1)) vk v ∧ Reread P v m) := by
  rcases (C112_receive_iff P hP o s sk ek vk m).1 h with ⟨⟨ty, h1, h2, -⟩, -⟩ | ⟨h1, -⟩ | ⟨-, k, j, pt, m0, t, h1, h2, h3, h4, rfl, h5⟩
  · exact absurd (kind_unique h1 hk) h2
  · exact absurd (kind_unique h1 hk) (by decide)
  · refine ⟨k, j, pt, m0, h1, h2, h3, h4, ?_⟩
    rcases h5 with ⟨-, h5⟩ | ⟨-, h5⟩
    · exact .inl h5
    · exact .inr h5

/-! ## The hypotheses can be met -/

/-- C148: a recipient who receives a message, but neither the same message signed nor the same message sealed once more. -/
example : ∃ t x j rs, oneRecipient.sealJwe (toy fun _ => none) exampleRand (exampleKey 3)
      (some [some ((toy fun _ => none).x25519Pub (exampleKey 1))]) = .ok t ∧
    Message.messageType (toy fun _ => none) t = .ok .jwe ∧ Jwe.ofText (toy fun _ => none).f64 t = some j ∧
    Message.receive (toy fun _ => none) HOrd.rev t (some (exampleKey 1)) (some ((toy fun _ => none).x25519Pub (exampleKey 3))) none =
      .ok { oneRecipient with recipients := some rs } ∧
    (richMessage.asJws .es256).sign HOrd.id (SignAlg.es256.signer (toy fun _ => none)) (exampleKey 5) = .ok x := by
  obtain ⟨t, ht⟩ := oneRecipient_seals exampleRand oneRecipient rfl rfl
  have hw := oneRecipient_wf (toy fun _ => none).f64
  obtain ⟨rs, h⟩ := C16_seal_receive _ (toy_laws _) exampleRand HOrd.rev oneRecipient (exampleKey 3)
    (exampleKey 1) _ t c!"did:e:f" none hw (by decide)
    ⟨(by intro k h; cases h), (by intro k h; cases h)⟩ (by decide) rfl (by decide) ht
  obtain ⟨x, hx, -⟩ := C24_sign_verify (toy fun _ => none) .es256 (exampleKey 5) (exampleKey 5) (toy_signPair _ _ _)
    richMessage (richMessage_wf _) ⟨(by intro k h; cases h), (by intro k h; cases h)⟩ HOrd.id HOrd.id
  obtain ⟨pks, l, a, c, tag, alg, -, -, -, -, hl, hs, -, -, -, -, -, rfl⟩ := seal_ok ht
  exact ⟨_, x, _, rs, ht, messageType_jwe _ _, jwe_ofText_text _ (envelope_wf hw.jwm (sealRecipients_wf hs)), h, hx⟩

end Verif
