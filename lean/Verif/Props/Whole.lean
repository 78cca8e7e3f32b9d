import Verif.Props.Signed

/-!
# Receiving, exactly

C112: which texts `receive` accepts, and what it returns, with no condition on the text or on what is in it.
-/

namespace Verif

open Spec

/-! ## Specification -/

/-- The kind of a text that is an object: encrypted with a member `iv`, else signed with a member `signature` or
`signatures`, else what its `typ` says if it is a message. -/
def Spec.KindOf (P : Prims) (s : Str) (ty : MessageType) : Prop :=
  ∃ es, Document (.obj es) s ∧ (∀ k ∈ classKeys, AtMostOnce k es) ∧
    (HasMember c!"iv" es ∧ ty = .jwe ∨
      ¬HasMember c!"iv" es ∧ (HasMember c!"signature" es ∨ HasMember c!"signatures" es) ∧ ty = .jws ∨
      ¬HasMember c!"iv" es ∧ ¬HasMember c!"signature" es ∧ ¬HasMember c!"signatures" es ∧
        ∃ m, Message.ofText P.f64 s = some m ∧ ty = m.jwm.typ)

/-- The same for a message that is about to be written: a custom header can pass for the mark of an envelope. -/
def Spec.kindWritten (m : Message) : MessageType :=
  if m.didcomm.other.get c!"iv" ≠ none then .jwe
  else if m.didcomm.other.get c!"signature" ≠ none ∨ m.didcomm.other.get c!"signatures" ≠ none then .jws
  else m.jwm.typ

/-- The text is a JWS with a signature that is valid under the key, every one before it being well formed but invalid,
and its payload is `v`. -/
def Spec.Signs (P : Prims) (o : HOrd) (t : Str) (key : Bytes) (v : Message) : Prop :=
  ∃ j i sg pt, Jws.ofText P.f64 t = some j ∧ (Spec.signatures j)[i]? = some sg ∧
    Spec.SigCheck P (Spec.ordAt o i) j.payload key sg true ∧
    (∀ n s', n < i → (Spec.signatures j)[n]? = some s' → Spec.SigCheck P (Spec.ordAt o n) j.payload key s' false) ∧
    b64Decode j.payload = some pt ∧ Message.ofBytes P.f64 pt = some v

/-- The text holds the signed message `v`.  A text that is a message has the JWS as its body and names an algorithm.
Any other text is the JWS; it is checked once for every signature that names an algorithm, with the key of that
signature, until one check succeeds. -/
def Spec.Holds (P : Prims) (o : HOrd) (s : Str) (vk : Option Bytes) (v : Message) : Prop :=
  (∃ x k, Message.ofText P.f64 s = some x ∧ x.jwm.alg ≠ none ∧ CheckKey vk x.jwm.kid k ∧
    Signs P o (printJson x.body) k v) ∨
  (Message.ofText P.f64 s = none ∧ ∃ j i sg k, Jws.ofText P.f64 s = some j ∧ (Spec.signatures j)[i]? = some sg ∧
    sg.getAlg ≠ none ∧ CheckKey vk sg.getKid k ∧ Signs P (Spec.ordAt o i) s k v ∧
    ∀ n x, n < i → (Spec.signatures j)[n]? = some x → x.getAlg ≠ none →
      ∃ k', CheckKey vk x.getKid k' ∧ ∀ v', ¬Signs P (Spec.ordAt o n) s k' v')

/-! ## The parts -/

theorem verify_iff {P : Prims} {o : HOrd} {t : Str} {key : Bytes} {v : Message} :
    Message.verify P o (utf8 t) key = .ok v ↔ Spec.Signs P o t key v := by
  rw [C26_verify_iff, jws_ofBytes_utf8]
  rfl

theorem verifiedOf_iff {P : Prims} {o : HOrd} {s : Str} {vk : Option Bytes} {v : Message} :
    Message.verifiedOf P o s vk = .ok (some v) ↔ Spec.Holds P o s vk v := by
  simp only [verifiedOf_accepts, Spec.CarrierVerifies, Spec.JwsVerifies, ne_eq, verify_iff, Spec.Holds]

theorem kind_iff {P : Prims} {s : Str} {es : List (Str × Json)} (hs : Document (.obj es) s) {ty : MessageType} :
    Message.messageType P s = .ok ty ↔ Spec.KindOf P s ty := by
  have hC := C35_objects P s es hs
  constructor
  · intro h
    have hone : ∀ k ∈ classKeys, AtMostOnce k es := by
      intro k hk
      refine Classical.byContradiction fun hc => ?_
      rw [hC.1 ⟨k, hk, hc⟩] at h
      cases h
    obtain ⟨h1, h2, h3⟩ := hC.2 hone
    refine ⟨es, hs, hone, ?_⟩
    by_cases hi : HasMember c!"iv" es
    · rw [h1 hi] at h
      exact .inl ⟨hi, (Res.ok.inj h).symm⟩
    · by_cases hg : HasMember c!"signature" es ∨ HasMember c!"signatures" es
      · rw [h2 hi hg] at h
        exact .inr (.inl ⟨hi, hg, (Res.ok.inj h).symm⟩)
      · rw [not_or] at hg
        obtain ⟨h4, h5⟩ := h3 hi hg.1 hg.2
        refine .inr (.inr ⟨hi, hg.1, hg.2, ?_⟩)
        cases hm : Message.ofText P.f64 s with
        | none => rw [h5 hm] at h; cases h
        | some m => rw [h4 m hm] at h; exact ⟨m, rfl, (Res.ok.inj h).symm⟩
  · rintro ⟨es', hs', hone, h⟩
    obtain ⟨h1, h2, h3⟩ := (C35_objects P s es' hs').2 hone
    rcases h with ⟨hi, rfl⟩ | ⟨hi, hg, rfl⟩ | ⟨hi, g1, g2, m, hm, rfl⟩
    · exact h1 hi
    · exact h2 hi hg
    · exact (h3 hi g1 g2).1 m hm

theorem text_object (o : HOrd) {m : Message} (hb : NumsOk m.body) : ∃ es, Document (.obj es) (m.text o) :=
  ⟨_, parseJson_iff.1 (parse_message o hb)⟩

/-- The kind of a decoded message once it is written, whether or not it can be read again. -/
theorem messageType_parts {P : Prims} (hP : Laws P) (o : HOrd) {j : Json} {m : Message}
    (h : decMessage P.f64 j = some m) (hn : NumsOk j) :
    Message.messageType P (m.text o) =
      if (m.didcomm.other.get c!"iv").isSome then .ok .jwe
      else if (m.didcomm.other.get c!"signatures").isSome || (m.didcomm.other.get c!"signature").isSome then .ok .jws
      else match Message.ofText P.f64 (m.text o) with
        | some x => .ok x.jwm.typ
        | none => .err .serde := by
  obtain ⟨-, -, -, hb, -⟩ := decMessage_decoded (fun _ _ => hP.f64_tok) h hn
  have pres : ∀ k ∈ classKeys, ∀ es, encMessage o m = .obj es →
      Message.presence k es = some (m.didcomm.other.get k).isSome := by
    intro k hk es he
    cases hg : m.didcomm.other.get k with
    | none => exact presence_message o hk hg he
    | some v =>
      exact presence_some (fieldVals_message_custom o (classKeys_reserved _ hk) hg he) (by simp)
  have hp := parse_message o hb
  have hof : Message.ofText P.f64 (m.text o) = decMessage P.f64 (encMessage o m) := by
    unfold Message.ofText
    rw [hp]
  obtain ⟨es, hes⟩ : ∃ es, encMessage o m = .obj es := ⟨_, rfl⟩
  rw [hof]
  rw [hes] at hp ⊢
  rw [messageType_obj P hp (pres _ (by decide) _ hes) (pres _ (by decide) _ hes) (pres _ (by decide) _ hes)]
  cases decMessage P.f64 (.obj es) <;> rfl

/-- The kind of a decoded message once it is written. -/
theorem messageType_written {P : Prims} (hP : Laws P) (o : HOrd) {j : Json} {m x : Message}
    (h : decMessage P.f64 j = some m) (hn : NumsOk j) (hx : Spec.Reread P m x) :
    Message.messageType P (m.text o) = .ok (Spec.kindWritten m) := by
  rw [messageType_parts hP o h hn, (reread_iff hP o h hn).2 hx]
  have htyp : x.jwm.typ = m.jwm.typ := by
    obtain ⟨-, b, -, rfl⟩ := hx
    rfl
  unfold Spec.kindWritten
  cases m.didcomm.other.get c!"iv" <;> cases m.didcomm.other.get c!"signature" <;>
    cases m.didcomm.other.get c!"signatures" <;> simp [htyp]

theorem kind_unique {P : Prims} {s : Str} {a b : MessageType} (h1 : Spec.KindOf P s a) (h2 : Spec.KindOf P s b) :
    a = b := by
  have h := h1
  obtain ⟨es, hs, -⟩ := h
  have e1 := (kind_iff hs).2 h1
  rw [(kind_iff hs).2 h2] at e1
  exact (Res.ok.inj e1).symm

theorem receiveJws_iff {P : Prims} {o : HOrd} {s t : Str} {vk : Option Bytes} :
    Message.receiveJws P o s vk = .ok t ↔ ∃ v, Spec.Holds P (o.sub 0) s vk v ∧ t = v.text (o.sub 1) := by
  simp only [Message.receiveJws, Res.bind_eq_ok, Res.ofOpt_eq_ok, Res.pure_eq, Res.ok.injEq]
  constructor
  · rintro ⟨_, h, v, rfl, rfl⟩
    exact ⟨v, verifiedOf_iff.1 h, rfl⟩
  · rintro ⟨v, h, rfl⟩
    exact ⟨_, verifiedOf_iff.2 h, v, rfl, rfl⟩

theorem holds_decoded {P : Prims} {o : HOrd} {s : Str} {vk : Option Bytes} {v : Message}
    (h : Spec.Holds P o s vk v) : ∃ pt, Message.ofBytes P.f64 pt = some v := by
  rcases h with ⟨_, _, _, _, _, _, _, _, pt, _, _, _, _, _, h⟩ |
    ⟨-, _, _, _, _, _, _, _, _, ⟨_, _, _, pt, _, _, _, _, _, h⟩, -⟩
  · exact ⟨pt, h⟩
  · exact ⟨pt, h⟩

/-! ## C112 -/

/-- C112.  `receive` returns `m` exactly in these cases.  The text is neither encrypted nor signed and is `m`.  The text
is signed and holds a signed message that is read again as `m`.  The text is encrypted, is opened with the given private
key, and its content is a message that is read again as `m`, or one that, written down, is a signed text holding a message
that is read again as `m`. -/
theorem C112_receive_iff (P : Prims) (hP : Laws P) (o : HOrd) (s : Str) (sk ek vk : Option Bytes) (m : Message) :
    Message.receive P o s sk ek vk = .ok m ↔
      ((∃ ty, KindOf P s ty ∧ ty ≠ .jwe ∧ ty ≠ .jws) ∧ Message.ofText P.f64 s = some m) ∨
      (KindOf P s .jws ∧ ∃ v, Holds P ((o.sub 1).sub 0) s vk v ∧ Reread P v m) ∨
      (KindOf P s .jwe ∧ ∃ k j pt m0 t, sk = some k ∧ Jwe.ofText P.f64 s = some j ∧
        Opens P ((o.sub 0).sub 0) j k ek pt ∧ Message.ofBytes P.f64 pt = some m0 ∧ t = m0.text ((o.sub 0).sub 1) ∧
        (¬KindOf P t .jws ∧ Reread P m0 m ∨
          KindOf P t .jws ∧ ∃ v, Holds P ((o.sub 1).sub 0) t vk v ∧ Reread P v m)) := by
  have mt : ∀ {s ty}, KindOf P s ty → Message.messageType P s = .ok ty := by
    intro s ty h
    have h' := h
    obtain ⟨es, hs, -⟩ := h'
    exact (kind_iff hs).2 h
  have written : ∀ {pt m0}, Message.ofBytes P.f64 pt = some m0 →
      ∃ es, Document (.obj es) (m0.text ((o.sub 0).sub 1)) := by
    intro pt m0 hpt
    obtain ⟨d, hn, hd⟩ := ofBytes_doc hpt
    exact text_object _ (decMessage_decoded (fun _ _ => hP.f64_tok) hd hn).2.2.2.1
  constructor
  · intro h
    obtain ⟨es, hs, -⟩ := C35_only_objects P o s sk ek vk m h
    simp only [Message.receive, Message.decryptStep, Message.verifyStep, Res.bind_eq_ok, Res.ofOpt_eq_ok] at h
    obtain ⟨cur, ⟨t, ht, hd⟩, cur', ⟨t', ht', hv⟩, hm⟩ := h
    have hk := (kind_iff hs).1 ht
    by_cases htj : t = .jwe
    · subst htj
      rw [if_pos rfl] at hd
      simp only [Res.bind_eq_ok, Res.ofOpt_eq_ok, (receiveJwe_outcome hP _ s _ ek).1] at hd
      obtain ⟨k, rfl, j, pt, m0, hj, hop, hpt, rfl⟩ := hd
      obtain ⟨es', hs'⟩ := written hpt
      refine .inr (.inr ⟨hk, k, j, pt, m0, _, rfl, hj, hop, hpt, rfl, ?_⟩)
      by_cases hjs : t' = .jws
      · subst hjs
        rw [if_pos rfl, receiveJws_iff] at hv
        obtain ⟨v, hv, rfl⟩ := hv
        obtain ⟨b, hb⟩ := holds_decoded hv
        exact .inr ⟨(kind_iff hs').1 ht', v, hv, (reread_bytes hP _ hb).1 hm⟩
      · rw [if_neg hjs] at hv
        obtain rfl := Res.ok.inj hv
        refine .inl ⟨fun hc => hjs (Res.ok.inj ?_), (reread_bytes hP _ hpt).1 hm⟩
        rw [← ht', mt hc]
    · rw [if_neg htj] at hd
      obtain rfl := Res.ok.inj hd
      rw [ht] at ht'
      obtain rfl := Res.ok.inj ht'
      by_cases hjs : t = .jws
      · subst hjs
        rw [if_pos rfl, receiveJws_iff] at hv
        obtain ⟨v, hv, rfl⟩ := hv
        obtain ⟨b, hb⟩ := holds_decoded hv
        exact .inr (.inl ⟨hk, v, hv, (reread_bytes hP _ hb).1 hm⟩)
      · rw [if_neg hjs] at hv
        obtain rfl := Res.ok.inj hv
        exact .inl ⟨⟨t, hk, htj, hjs⟩, hm⟩
  · rintro (⟨⟨ty, hk, h1, h2⟩, hm⟩ | ⟨hk, v, hv, hr⟩ | ⟨hk, k, j, pt, m0, _, rfl, hj, hop, hpt, rfl, h⟩)
    · simp [Message.receive, Message.decryptStep, Message.verifyStep, mt hk, h1, h2, hm]
    · obtain ⟨b, hb⟩ := holds_decoded hv
      have := receiveJws_iff.2 ⟨v, hv, rfl⟩
      simp [Message.receive, Message.decryptStep, Message.verifyStep, mt hk, this, (reread_bytes hP _ hb).2 hr]
    · have hopen := ((receiveJwe_outcome hP (o.sub 0) s k ek).1 _).2 ⟨j, pt, m0, hj, hop, hpt, rfl⟩
      rcases h with ⟨hne, hr⟩ | ⟨hjs, v, hv, hr⟩
      · obtain ⟨d, hn, hd⟩ := ofBytes_doc hpt
        obtain ⟨es', hs'⟩ := written hpt
        have hty := messageType_written hP ((o.sub 0).sub 1) hd hn hr
        have hne' : kindWritten m0 ≠ .jws := fun hc => hne ((kind_iff hs').1 (by rw [hty, hc]))
        simp [Message.receive, Message.decryptStep, Message.verifyStep, mt hk, hopen, hty, hne',
          (reread_bytes hP _ hpt).2 hr]
      · obtain ⟨b, hb⟩ := holds_decoded hv
        have := receiveJws_iff.2 ⟨v, hv, rfl⟩
        simp [Message.receive, Message.decryptStep, Message.verifyStep, mt hk, hopen, mt hjs, this,
          (reread_bytes hP _ hb).2 hr]

/-- C112, the kind of the content: a custom header of the content named like the mark of an envelope decides, else `typ`
does. -/
theorem C112_content_kind (P : Prims) (hP : Laws P) (o : HOrd) (pt : Bytes) (m x : Message)
    (h : Message.ofBytes P.f64 pt = some m) (hx : Reread P m x) (ty : MessageType) :
    KindOf P (m.text o) ty ↔ ty = kindWritten m := by
  obtain ⟨d, hn, hd⟩ := ofBytes_doc h
  obtain ⟨es, hs⟩ := text_object o (decMessage_decoded (fun _ _ => hP.f64_tok) hd hn).2.2.2.1
  rw [← kind_iff hs, messageType_written hP o hd hn hx, Res.ok.injEq]
  exact eq_comm

/-! ## C63 -/

/-- C63, exactly, for messages that are not taken for signed ones: a received message, written down, is received without
keys if and only if it is not taken for an encrypted one, has a recipient, and its numbers are in range as they are
printed; what is received is the message, with the numbers that the printed ones are read as. -/
theorem C63_reload_iff_partial (P : Prims) (hP : Laws P) (o o' o'' : HOrd) (s : Str) (sk ek vk : Option Bytes)
    (x z : Message) (h : Message.receive P o s sk ek vk = .ok x) (hj : kindWritten x ≠ .jws) :
    Message.receive P o'' (x.text o') none none none = .ok z ↔ kindWritten x ≠ .jwe ∧ Reread P x z := by
  obtain ⟨cur, hcur⟩ := receive_ofText h
  obtain ⟨d, hd, hn⟩ : ∃ d, decMessage P.f64 d = some x ∧ NumsOk d := by
    unfold Message.ofText at hcur
    split at hcur
    · next j hj => exact ⟨j, hcur, parseJson_numsOk hj⟩
    · cases hcur
  have hre : ∀ y, Message.ofText P.f64 (x.text o') = some y ↔ Reread P x y := fun y => reread_iff hP o' hd hn
  constructor
  · intro hr
    have hpt := messageType_parts hP o' hd hn
    have hz : ∀ y, Message.ofText P.f64 (x.text o') = some y → Message.messageType P (x.text o') = .ok (kindWritten x) :=
      fun y hy => messageType_written hP o' hd hn ((hre y).1 hy)
    simp only [Message.receive, Message.decryptStep, Message.verifyStep, Res.bind_eq_ok, Res.ofOpt_eq_ok] at hr
    obtain ⟨cur, ⟨t, ht, hd'⟩, cur', ⟨t', ht', hv⟩, hm⟩ := hr
    split at hd'
    · simp only [Res.bind_eq_ok, Res.ofOpt_eq_ok] at hd'
      obtain ⟨_, h0, -⟩ := hd'
      cases h0
    · next hne =>
      obtain rfl := Res.ok.inj hd'
      obtain rfl : t = t' := Res.ok.inj (ht.symm.trans ht')
      have hkw : t = kindWritten x := by
        cases hof : Message.ofText P.f64 (x.text o') with
        | some y => exact Res.ok.inj (ht.symm.trans (hz y hof))
        | none =>
          rw [hpt, hof] at ht
          unfold kindWritten
          cases h1 : x.didcomm.other.get c!"iv" <;> cases h2 : x.didcomm.other.get c!"signature" <;>
            cases h3 : x.didcomm.other.get c!"signatures" <;> simp_all
      rw [if_neg (hkw ▸ hj)] at hv
      obtain rfl := Res.ok.inj hv
      exact ⟨hkw ▸ hne, (hre z).1 hm⟩
  · rintro ⟨hne, hr⟩
    have ht := messageType_written hP o' hd hn hr
    simp [Message.receive, Message.decryptStep, Message.verifyStep, ht, hne, hj, (hre z).2 hr]

/-- C112: a signed text that holds a message. -/
example : ∃ t v, KindOf (toy fun _ => none) t .jws ∧
    Holds (toy fun _ => none) ((HOrd.rev.sub 1).sub 0) t none v ∧ Reread (toy fun _ => none) v richMessage := by
  have hl := toy_laws fun _ => none
  have hw := richMessage_wf (toy fun _ => none).f64
  obtain ⟨t, h1, h2⟩ := C24_sign_receive _ .es256 _ _ (toy_signPair (fun _ => none) _ (exampleKey 5))
    { richMessage.setKid (hexEncode (exampleKey 5)) with flatJws := true }
    ⟨hw.jwm, hw.other, hw.to, hw.recipients, hw.canon, hw.nums, hw.depth⟩
    ⟨(by intro k h; cases h), (by intro k h; cases h)⟩ HOrd.id HOrd.rev
  have hr := h2 none none none (.inr ⟨rfl, rfl⟩)
  rcases (C112_receive_iff _ hl _ _ _ _ _ _).1 hr with ⟨⟨ty, hk, -, hne⟩, -⟩ | ⟨hk, v, hv, hm⟩ | ⟨hk, k, _, _, _, _, h, -⟩
  · exfalso
    obtain ⟨es, hs, -⟩ := id hk
    have hj : Message.messageType (toy fun _ => none) t = .ok .jws := by
      obtain ⟨-, sig, -, rfl⟩ := sign_ok h1
      exact (jwsOf_class _ _ _ _).1
    exact hne (Res.ok.inj (((kind_iff hs).2 hk).symm.trans hj))
  · exact ⟨t, v, hk, hv, hm⟩
  · cases h

/-- C112: an encrypted text whose content is read again. -/
example : ∃ t j pt m, KindOf (toy fun _ => none) t .jwe ∧ Jwe.ofText (toy fun _ => none).f64 t = some j ∧
    Opens (toy fun _ => none) ((HOrd.rev.sub 0).sub 0) j (exampleKey 1)
      (some ((toy fun _ => none).x25519Pub (exampleKey 3))) pt ∧
    Message.ofBytes (toy fun _ => none).f64 pt = some m ∧ m.body = exampleMessage.body ∧
    ¬KindOf (toy fun _ => none) (m.text ((HOrd.rev.sub 0).sub 1)) .jws ∧ Reread (toy fun _ => none) m m := by
  have hl := toy_laws fun _ => none
  obtain ⟨t, ht⟩ := C16_seal_total (toy fun _ => none) hl (toy_total _) exampleRand exampleMessage
    (exampleKey 3) (some [some ((toy fun _ => none).x25519Pub (exampleKey 1)),
        some ((toy fun _ => none).x25519Pub (exampleKey 2))]) c!"ECDH-1PU+XC20PKW" (by decide) (by decide)
    (by intro l hl; rw [← Option.some.inj hl]; rfl) (by intro h; cases h) rfl (by decide) (by
      intro i dest hi
      match i with
      | 0 => exact ⟨_, hl.pub_len _, .inl rfl⟩
      | 1 => exact ⟨_, hl.pub_len _, .inl rfl⟩
      | n + 2 => cases hi)
  have htt : Message.messageType (toy fun _ => none) t = .ok .jwe := by
    obtain ⟨pks, rs, a, c, tag, alg, -, -, -, -, -, -, -, -, -, -, -, rfl⟩ := seal_ok ht
    exact messageType_jwe _ _
  obtain ⟨rs, h⟩ := C16_seal_receive _ hl exampleRand HOrd.rev exampleMessage (exampleKey 3) (exampleKey 1)
    _ t c!"did:e:f" none (exampleMessage_wf _) (by decide)
    ⟨(by intro k h; cases h), (by intro k h; cases h)⟩ (by decide) rfl (by decide) ht
  have wrong : ∀ {ty}, KindOf (toy fun _ => none) t ty → ty = .jwe := by
    intro ty hk
    obtain ⟨es, hs, -⟩ := id hk
    exact Res.ok.inj (((kind_iff hs).2 hk).symm.trans htt)
  rcases (C112_receive_iff _ hl _ _ _ _ _ _).1 h with ⟨⟨ty, hk, hne, -⟩, -⟩ | ⟨hk, -⟩ |
    ⟨hk, k, j, pt, m0, _, hsk, hj, ho, hm0, rfl, hc⟩
  · exact absurd (wrong hk) hne
  · exact absurd (wrong hk) (by decide)
  · obtain rfl := Option.some.inj hsk
    obtain ⟨j', rs', -, -, -, hw, hs⟩ := seal_decrypted hl (exampleMessage_wf _)
      ⟨(by intro k h; cases h), (by intro k h; cases h)⟩ (frm := c!"did:e:f") rfl ht
    have hs := hs 0 _ (exampleKey 1) (some ((toy fun _ => none).x25519Pub (exampleKey 3))) (HOrd.rev.sub 0) rfl
      (by decide) (.inl rfl) (.inl rfl) (by intro x hx; cases hx)
    simp only [Message.decryptStep, htt, Res.bind_ok, if_true, Res.ofOpt_some] at hs
    rw [((receiveJwe_outcome hl _ t (exampleKey 1) _).1 _).2 ⟨j, pt, m0, hj, ho, hm0, rfl⟩] at hs
    have hm := read_text_inj hl hw hm0 (Res.ok.inj hs)
    have hr : Reread (toy fun _ => none) m0 m0 := (reread_bytes hl HOrd.id hm0).1 (by rw [hm]; exact ofText_text _ hw)
    refine ⟨t, j, pt, m0, hk, hj, ho, hm0, by rw [hm], ?_, hr⟩
    rw [C112_content_kind _ hl _ pt m0 m0 hm0 hr, hm]
    show ¬MessageType.jws = kindWritten exampleMessage
    decide

/-- C63: a received message that is received again, and one (its `typ` is the encrypted one) that is not. -/
example : ∃ s, Message.receive (toy fun _ => none) HOrd.rev s none none none = .ok richMessage ∧
    kindWritten richMessage ≠ .jws ∧ kindWritten richMessage ≠ .jwe ∧ kindWritten exampleMessage = .jwe ∧
    Reread (toy fun _ => none) richMessage richMessage := by
  have hw := richMessage_wf (toy fun _ => none).f64
  have h := C05_plain_roundtrip (toy fun _ => none) HOrd.id HOrd.rev richMessage hw (by decide) (by decide) (by decide)
    none none none
  simp only [Message.asRawJson, Res.bind_ok] at h
  have hd : decMessage (toy fun _ => none).f64 (encMessage HOrd.id richMessage) = some richMessage := by
    have := ofText_text (F := (toy fun _ => none).f64) HOrd.id hw
    unfold Message.ofText at this
    rw [parse_message HOrd.id hw.nums] at this
    exact this
  refine ⟨_, h, by decide, by decide, by decide, (reread_iff (toy_laws _) HOrd.id hd
    (parseJson_numsOk (parse_message HOrd.id hw.nums))).1 (ofText_text HOrd.id hw)⟩

end Verif
