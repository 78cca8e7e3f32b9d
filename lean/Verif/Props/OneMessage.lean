import Verif.Props.Verify

/-!
# A text stands for one message

C152.  For envelopes this rests on the content key, which is the same for all (C32): under two keys one envelope can have two
contents (C123), so a program with fresh keys has to be looked at again.
-/

namespace Verif

open Spec

theorem typ_aside {h h' : JwmHeader} (e : ({ h with typ := .jws } : JwmHeader) = { h' with typ := .jws }) :
    { h with typ := h'.typ } = h' := by
  cases h; cases h'
  simp only [JwmHeader.mk.injEq] at e ⊢
  simp [e]

/-- C152.  Messages with the same text are the same but for the two flags that are not written. -/
theorem C152_plain (F : Str → Option Str) (m m' : Message) (hm : m.WF F) (hm' : m'.WF F) (o o' : HOrd)
    (h : m.text o = m'.text o') : { m with flatJwe := m'.flatJwe, flatJws := m'.flatJws } = m' := by
  have h1 := ofText_text o hm
  rw [h, ofText_text o' hm', Option.some.injEq] at h1
  cases m; cases m'
  simp only [Message.mk.injEq] at h1 ⊢
  obtain ⟨rfl, rfl, rfl, rfl, -, -, rfl⟩ := h1
  simp

/-- C152.  If two calls of `seal`, by whomever, for whomever and with whatever random choices, give the same envelope, they
sealed the same message. -/
theorem C152_sealed (P : Prims) (hP : Laws P) (r r' : Message.SealRand) (m m' : Message) (sk sk' : Bytes)
    (keys keys' : Option (List (Option Bytes))) (t : Str) (hm : m.WF P.f64) (hm' : m'.WF P.f64)
    (hf : HeaderFixed m.jwm) (hf' : HeaderFixed m'.jwm)
    (h : m.sealJwe P r sk keys = .ok t) (h' : m'.sealJwe P r' sk' keys' = .ok t) :
    { m with recipients := m'.recipients, flatJwe := m'.flatJwe, flatJws := m'.flatJws } = m' := by
  obtain ⟨pks, rs, a, c, tag, alg, hp, hpl, hk, hto, hfl, hrs, hl, hal, ha, he, -, rfl⟩ := seal_ok h
  obtain ⟨pks', rs', a', c', tag', alg', hp', hpl', hk', hto', hfl', hrs', hl', hal', ha', he', -, ht⟩ := seal_ok h'
  have hr := sealRecipients_wf hrs
  have hr' := sealRecipients_wf hrs'
  have hw : Message.WF P.f64 { m with recipients := some rs } :=
    ⟨hm.jwm, hm.other, hm.to, by intro l hl; rw [← Option.some.inj hl]; exact hr, hm.canon, hm.nums, hm.depth⟩
  have hw' : Message.WF P.f64 { m' with recipients := some rs' } :=
    ⟨hm'.jwm, hm'.other, hm'.to, by intro l hl; rw [← Option.some.inj hl]; exact hr', hm'.canon, hm'.nums, hm'.depth⟩
  have e := jwe_ofText_text (F := P.f64) (r.ord.sub 2) (envelope_wf (m := m) (iv := r.iv.1) (c := c) (tag := tag) hm.jwm hr)
  have e' := jwe_ofText_text (F := P.f64) (r'.ord.sub 2) (envelope_wf (m := m') (iv := r'.iv.1) (c := c') (tag := tag') hm'.jwm hr')
  have hA := envelope_alg (rs := rs) (iv := r.iv.1) (c := c) (tag := tag) hal
  have hA' := envelope_alg (rs := rs') (iv := r'.iv.1) (c := c') (tag := tag') hal'
  rw [ht, e', Option.some.injEq] at e
  rw [← e, hA', Option.some.injEq] at hA
  subst hA
  rw [ha', Res.ok.injEq] at ha
  subst ha
  have d := decrypt_envelope (o := HOrd.id) (o3 := r.ord.sub 2) hP (ofStr_ne_cbc ha') hw hf hr he
  have d' := decrypt_envelope (o := HOrd.id) (o3 := r'.ord.sub 2) hP (ofStr_ne_cbc ha') hw' hf' hr' he'
  rw [ht, d', Res.ok.injEq] at d
  clear e e' ht h h' hA' he he' hw hw' d'
  cases m; cases m'
  simp only [Message.mk.injEq] at d ⊢
  obtain ⟨rfl, rfl, -, rfl, -, -, rfl⟩ := d
  simp

/-- C152.  If two calls of `sign`, with whatever signers and keys, give the same document, they signed the same message, of
whatever type the two were. -/
theorem C152_signed (F : Str → Option Str) (m m' : Message) (hm : m.WF F) (hm' : m'.WF F)
    (s s' : Bytes → Bytes → Res Bytes) (k k' : Bytes) (o o' : HOrd) (t : Str)
    (h : m.sign o s k = .ok t) (h' : m'.sign o' s' k' = .ok t) :
    { m with jwm := { m.jwm with typ := m'.jwm.typ }, flatJwe := m'.flatJwe, flatJws := m'.flatJws } = m' := by
  obtain ⟨-, sig, -, rfl⟩ := sign_ok h
  obtain ⟨-, sig', -, ht⟩ := sign_ok h'
  obtain ⟨j, hj, hp, hs⟩ := jwsOf_signatures (F := F) (m := m) (p := Spec.payloadText (o.sub 1) m) (sig := sig) (o.sub 2) hm.jwm
  obtain ⟨j', hj', hp', hs'⟩ := jwsOf_signatures (F := F) (m := m') (p := Spec.payloadText (o'.sub 1) m') (sig := sig')
    (o'.sub 2) hm'.jwm
  have e := ofText_jws (F := F) (o.sub 2) (Spec.jwsOf m (Spec.payloadText (o.sub 1) m) sig)
  have e' := ofText_jws (F := F) (o'.sub 2) (Spec.jwsOf m' (Spec.payloadText (o'.sub 1) m') sig')
  rw [hj] at e
  rw [hj'] at e'
  have ee : (Spec.jwsOf m (Spec.payloadText (o.sub 1) m) sig).text (o.sub 2) =
      (Spec.jwsOf m' (Spec.payloadText (o'.sub 1) m') sig').text (o'.sub 2) := ht
  rw [ee, e', Option.some.injEq] at e
  subst e
  have hhead : ∀ {m : Message} {sig : Bytes} {j : Jws}, m.WF F → (Message.signaturesOf j =
      .ok (if m.flatJws then [Spec.signatureOf m sig] else m.didcomm.to.map fun _ => Spec.signatureOf m sig)) →
      ∃ l, Message.signaturesOf j = .ok (Spec.signatureOf m sig :: l) := by
    intro m sig j hm hs
    rw [hs]
    split
    · exact ⟨[], rfl⟩
    · obtain ⟨x, l, hx⟩ := List.exists_cons_of_ne_nil hm.to
      rw [hx]
      exact ⟨_, rfl⟩
  obtain ⟨l, hl⟩ := hhead hm hs
  obtain ⟨l', hl'⟩ := hhead hm' hs'
  rw [hl', Res.ok.injEq, List.cons.injEq] at hl
  have hh : Spec.signedHeader m' = Spec.signedHeader m := Option.some.inj (congrArg Signature.protected_ hl.1)
  rw [hp'] at hp
  have hb := congrArg b64Decode hp
  simp only [Spec.payloadText, b64Decode_encode, Option.some.injEq] at hb
  have hx := congrArg utf8Decode hb
  simp only [utf8Decode_utf8, Option.some.injEq] at hx
  have hwu : ∀ {m : Message}, m.WF F → (Spec.unsigned m).WF F := fun hm =>
    ⟨⟨(by intro k hk; cases hk), (by intro k hk; cases hk)⟩, hm.other, hm.to, hm.recipients, hm.canon, hm.nums, hm.depth⟩
  have hu := C152_plain F _ _ (hwu hm') (hwu hm) _ _ hx
  have hj := typ_aside hh.symm
  rw [hj]
  clear hs hs' hj hj' e' ee ht h h' hl hl' hhead hp hb hx hp' hh hwu hm hm'
  cases m; cases m'
  simp only [Spec.unsigned, Message.mk.injEq] at hu ⊢
  obtain ⟨-, rfl, rfl, rfl, -, -, rfl⟩ := hu
  simp

/-- C152.  If two calls of `seal_signed` give the same envelope, they signed and sealed the same message. -/
theorem C152_seal_signed (P : Prims) (hP : Laws P) (r r' : Message.SealRand) (o o' : HOrd) (m m' : Message) (sk sk' : Bytes)
    (keys keys' : Option (List (Option Bytes))) (a a' : SignAlg) (k k' : Bytes) (t : Str)
    (hm : m.WF P.f64) (hm' : m'.WF P.f64) (hf : HeaderFixed m.jwm) (hf' : HeaderFixed m'.jwm)
    (h : m.sealSigned P r o sk keys a k = .ok t) (h' : m'.sealSigned P r' o' sk' keys' a' k' = .ok t) :
    { m with jwm := { m.jwm with typ := m'.jwm.typ }, flatJwe := m'.flatJwe, flatJws := m'.flatJws } = m' := by
  obtain ⟨s, hs, sig, hsg, hse⟩ := sealSigned_ok h
  obtain ⟨s', hs', sig', hsg', hse'⟩ := sealSigned_ok h'
  have hw := setBody_wf hm a (o.sub 1) (o.sub 2) sig
  have hw' := setBody_wf hm' a' (o'.sub 1) (o'.sub 2) sig'
  have e := C152_sealed P hP r r' _ _ sk sk' keys keys' t hw hw' hf hf' hse hse'
  have hb := congrArg Message.body e
  have hj : ({ m.jwm with typ := .jws } : JwmHeader) = { m'.jwm with typ := .jws } := congrArg Message.jwm e
  have hb' : encJws (o.sub 2) (Spec.jwsOf (m.asJws a) (Spec.payloadText (o.sub 1) (m.asJws a)) sig) =
      encJws (o'.sub 2) (Spec.jwsOf (m'.asJws a') (Spec.payloadText (o'.sub 1) (m'.asJws a')) sig') := hb
  rw [← hb', ← hsg] at hsg'
  subst hsg'
  have hjw : ∀ {m : Message} (a : SignAlg), m.WF P.f64 → (m.asJws a).WF P.f64 := by
    intro m a hm
    refine ⟨?_, hm.other, hm.to, hm.recipients, hm.canon, hm.nums, hm.depth⟩
    cases a <;> exact hm.jwm
  have hx := C152_signed P.f64 _ _ (hjw a hm) (hjw a' hm') _ _ _ _ _ _ _ hs hs'
  rw [typ_aside hj]
  clear hs hs' hse hse' hw hw' e hb hb' hjw hm hm' hf hf' h h' hsg hj
  cases m; cases m'
  simp only [Message.asJws, Message.mk.injEq] at hx ⊢
  obtain ⟨-, rfl, rfl, rfl, -, -, rfl⟩ := hx
  simp

/-- C152.  A text is of one kind: no text of a message is a signed document, none is an envelope, and no signed document is an
envelope. -/
theorem C152_kinds (P : Prims) (m m' m'' : Message) (hm : m.WF P.f64) (o o' : HOrd) (r : Message.SealRand)
    (s : Bytes → Bytes → Res Bytes) (k sk : Bytes) (keys : Option (List (Option Bytes))) (t t' : Str) (h : m'.sign o' s k = .ok t)
    (h' : m''.sealJwe P r sk keys = .ok t') : m.text o ≠ t ∧ m.text o ≠ t' ∧ t ≠ t' := by
  have h1 := ofText_text o hm
  obtain ⟨-, sig, -, rfl⟩ := sign_ok h
  obtain ⟨hc, hn⟩ := jwsOf_class (P := P) (o'.sub 2) m' (Spec.payloadText (o'.sub 1) m') sig
  obtain ⟨pks, rs, a, c, tag, alg, hp, hpl, hk, hto, hfl, hrs, hl, hal, ha, he, -, rfl⟩ := seal_ok h'
  refine ⟨?_, ?_, ?_⟩
  · intro e
    rw [e] at h1
    exact absurd (h1.symm.trans hn) (by simp)
  · intro e
    rw [e] at h1
    have hp := parse_jwe (r.ord.sub 2) (Spec.envelope m'' rs r.iv.1 c tag)
    unfold Message.ofText at h1
    rw [hp] at h1
    change decMessage P.f64 (.obj _) = _ at h1
    rw [decMessage_none (k := c!"id") (by decide)] at h1
    · cases h1
    · have hfr : fieldVals c!"id" (flatRecipient ((r.ord.sub 2).sub 2) (Spec.envelope m'' rs r.iv.1 c tag).recipient) = [] :=
        fieldVals_flatRecipient _ _ (by decide) (by decide)
      look
      simp [hfr]
  · intro e
    have := messageType_jwe (P := P) (r.ord.sub 2) (Spec.envelope m'' rs r.iv.1 c tag)
    rw [← e] at this
    exact absurd (this.symm.trans hc) (by simp)

/-- C152: two messages that differ in what is not sealed, and give the same envelope. -/
example : ∃ t, exampleMessage.sealJwe (toy fun _ => none) exampleRand (exampleKey 3)
      (some [some ((toy fun _ => none).x25519Pub (exampleKey 1)), some ((toy fun _ => none).x25519Pub (exampleKey 2))]) = .ok t ∧
    { exampleMessage with recipients := some [] }.sealJwe (toy fun _ => none) exampleRand (exampleKey 3)
      (some [some ((toy fun _ => none).x25519Pub (exampleKey 1)), some ((toy fun _ => none).x25519Pub (exampleKey 2))]) = .ok t ∧
    { exampleMessage with recipients := some [] } ≠ exampleMessage := by
  have hl := toy_laws fun _ => none
  obtain ⟨t, ht⟩ := C16_seal_total (toy fun _ => none) hl (toy_total _) exampleRand exampleMessage (exampleKey 3)
    (some [some ((toy fun _ => none).x25519Pub (exampleKey 1)), some ((toy fun _ => none).x25519Pub (exampleKey 2))])
    c!"ECDH-1PU+XC20PKW" (by decide) (by decide)
    (by intro l hl; rw [← Option.some.inj hl]; rfl) (by intro h; cases h) rfl (by decide) (by
      intro i dest hi
      match i with
      | 0 => exact ⟨_, hl.pub_len _, .inl rfl⟩
      | 1 => exact ⟨_, hl.pub_len _, .inl rfl⟩
      | n + 2 => cases hi)
  refine ⟨t, ht, ?_, ?_⟩
  · rw [← ht]
    have h : ∀ l i, Message.sealRecipients (toy fun _ => none) exampleRand.perRec { exampleMessage with recipients := some [] }
        (exampleKey 3) cek i l = Message.sealRecipients (toy fun _ => none) exampleRand.perRec exampleMessage
        (exampleKey 3) cek i l := by
      intro l
      induction l with
      | nil => intro i; rfl
      | cons p l ih =>
        obtain ⟨d, k⟩ := p
        intro i
        simp only [Message.sealRecipients, ih]
        rfl
    simp only [Message.sealJwe, h]
    rfl
  · intro h
    exact absurd (congrArg Message.recipients h) (by decide)

/-- C152: two messages with one text. -/
example (o : HOrd) : richMessage.text o = { richMessage with flatJws := true }.text o ∧
    richMessage ≠ { richMessage with flatJws := true } :=
  ⟨rfl, fun h => absurd (congrArg Message.flatJws h) (by decide)⟩

end Verif
