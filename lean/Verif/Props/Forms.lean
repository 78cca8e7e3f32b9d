import Verif.Props.Accept
import Verif.Props.Auth
import Verif.Props.Cost

/-!
# The two forms of an envelope and of a signed document

C147.
-/

namespace Verif

open Spec

/-! ## What was read can be written -/

theorem headerWF_field {k : Str} {es : List (Str × Json)} {x : Option JwmHeader}
    (h : dfltField none decHeaderB64 k es = some x) : HeaderWF x := by
  rintro y rfl
  unfold dfltField at h
  split at h
  · cases h
  · exact decHeaderB64_wf h
  · cases h

theorem headerWF_plain {k : Str} {es : List (Str × Json)} {x : Option JwmHeader} (h : optField decJwm k es = some x) :
    HeaderWF x := by
  rintro y rfl
  obtain ⟨v, -, hv⟩ := optField_some h
  exact decJwm_wf hv

theorem jwe_ofText_wf {F : Str → Option Str} {s : Str} {j : Jwe} (h : Jwe.ofText F s = some j) : j.WF := by
  unfold Jwe.ofText at h
  split at h
  · simp only [decJwe, Option.bind_eq_bind, Option.bind_eq_some_iff, Option.pure_def, Option.some.injEq] at h
    obtain ⟨es, -, pr, hpr, un, hun, rs, hrs, _, -, _, -, _, -, -, -, rfl⟩ := h
    refine ⟨headerWF_field hpr, headerWF_plain hun, ?_, decRecipients_wf hrs⟩
    intro r hr
    simp only [decRecipientE, Option.bind_eq_bind, Option.bind_eq_some_iff, Option.pure_def, Option.some.injEq] at hr
    obtain ⟨hd, h1, _, -, rfl⟩ := hr
    obtain ⟨v, -, hv⟩ := reqField_some h1
    exact decJwk_wf hv
  · cases h

theorem decSignatureE_wf {es : List (Str × Json)} {x : Signature} (h : decSignatureE es = some x) : x.WF := by
  simp only [decSignatureE, Option.bind_eq_bind, Option.bind_eq_some_iff, Option.pure_def, Option.some.injEq] at h
  obtain ⟨_, h1, _, h2, _, -, rfl⟩ := h
  exact ⟨headerWF_field h1, headerWF_plain h2⟩

theorem jws_ofText_wf {F : Str → Option Str} {s : Str} {j : Jws} (h : Jws.ofText F s = some j) : j.WF := by
  simp only [Jws.ofText, Option.bind_eq_bind, Option.bind_eq_some_iff] at h
  obtain ⟨x, -, jm, -, j0, h, hb⟩ := h
  have w : j0.WF := by
    simp only [decJws, Option.bind_eq_bind, Option.bind_eq_some_iff, Option.pure_def, Option.some.injEq] at h
    obtain ⟨es, -, p, -, l, hl, -, -, rfl⟩ := h
    refine ⟨fun x hx => decSignatureE_wf hx, ?_⟩
    rintro l rfl x hx
    obtain ⟨v, -, hv⟩ := optField_some hl
    cases v <;> simp only [decVec, reduceCtorEq] at hv
    obtain ⟨y, -, hy⟩ := decAll_mem hv hx
    simp only [decSignature, Option.bind_eq_bind, Option.bind_eq_some_iff] at hy
    obtain ⟨es, -, hy⟩ := hy
    exact decSignatureE_wf hy
  rcases borrowed_eq hb with rfl | rfl
  · exact w
  · exact ⟨by rintro s ⟨⟩, w.signatures⟩

/-! ## Encrypted -/

/-- Opening looks at the entries of an envelope only through the list of those that are tried. -/
theorem receive_entries_congr {P : Prims} {o : HOrd} {s s' : Str} {j j' : Jwe} {sk ek vk : Option Bytes}
    (h1 : Message.messageType P s = .ok .jwe) (h2 : Message.messageType P s' = .ok .jwe)
    (hj : Jwe.ofText P.f64 s = some j) (hj' : Jwe.ofText P.f64 s' = some j')
    (he : j' = { j with recipient := j'.recipient, recipients := j'.recipients })
    (hr : Message.recipientsOf j' = Message.recipientsOf j) :
    Message.receive P o s' sk ek vk = Message.receive P o s sk ek vk := by
  have hb : ∀ s, (parseBytes (utf8 s)).bind (decJwe P.f64) = Jwe.ofText P.f64 s := by
    intro s
    rw [parseBytes_utf8]
    unfold Jwe.ofText
    cases parseJson s <;> rfl
  have hp : j'.protected_ = j.protected_ := by rw [he]
  have ht : j'.tag = j.tag := by rw [he]
  have hc : j'.getPayload = j.getPayload := by rw [he]; rfl
  have hi : j'.getIv = j.getIv := by rw [he]; rfl
  have ha : j'.getAlg = j.getAlg := by rw [he]; rfl
  have hs : j'.getSkid = j.getSkid := by rw [he]; rfl
  have hk : Message.senderKey P j' ek = Message.senderKey P j ek := by
    cases ek with
    | some k => rfl
    | none => simp only [Message.senderKey, hs]
  have hfk : ∀ k l, Message.firstKey P j' k ek l = Message.firstKey P j k ek l := by
    intro k l
    induction l with
    | nil => rfl
    | cons x l ih =>
      simp only [Message.firstKey, ih, C73_entry_bound_partial P j' j k x ek ha (.inl hs)]
  have hck : ∀ k p, Message.contentKey P j' k ek p = Message.contentKey P j k ek p := by
    intro k p
    simp only [Message.contentKey, hr, hfk]
  have hd : ∀ o d key, Message.decrypt P o (utf8 s') d key = Message.decrypt P o (utf8 s) d key := by
    intro o d key
    simp only [Message.decrypt, hb, hj, hj', Res.ofOpt_some, Res.bind_ok, hp, ht, hc, hi]
  have hrj : ∀ o k, Message.receiveJwe P o s' k ek = Message.receiveJwe P o s k ek := by
    intro o k
    simp only [Message.receiveJwe, hj, hj', Res.ofOpt_some, Res.bind_ok, ha, hk, hck, hd]
  simp only [Message.receive, Message.decryptStep, h1, h2, Res.bind_ok, if_true, hrj]

/-- C147.  An envelope with one entry is received with the same outcome in either form: the entry among the members of the
envelope or in a list. -/
theorem C147_envelope (P : Prims) (o o1 o2 : HOrd) (j : Jwe) (x : Recipient) (hp : HeaderWF j.protected_)
    (hu : HeaderWF j.unprotected) (hx : x.header.WF) (sk ek vk : Option Bytes) :
    Message.receive P o (Jwe.text o1 { j with recipient := some x, recipients := none }) sk ek vk =
      Message.receive P o (Jwe.text o2 { j with recipient := none, recipients := some [x] }) sk ek vk :=
  receive_entries_congr (messageType_jwe _ _) (messageType_jwe _ _)
    (jwe_ofText_text o2 ⟨hp, hu, by rintro r ⟨⟩, by
      rintro l ⟨⟩ r hr
      obtain rfl := List.mem_singleton.1 hr
      exact hx⟩)
    (jwe_ofText_text o1 ⟨hp, hu, by rintro r ⟨⟩; exact hx, by rintro l ⟨⟩⟩) rfl rfl

/-- C147.  If there is a list of entries, an entry among the members of the envelope is not looked at. -/
theorem C147_envelope_list (P : Prims) (o o1 o2 : HOrd) (j : Jwe) (x : Recipient) (l : List Recipient)
    (hp : HeaderWF j.protected_) (hu : HeaderWF j.unprotected) (hx : x.header.WF) (hl : ∀ r ∈ l, r.header.WF)
    (sk ek vk : Option Bytes) :
    Message.receive P o (Jwe.text o1 { j with recipient := some x, recipients := some l }) sk ek vk =
      Message.receive P o (Jwe.text o2 { j with recipient := none, recipients := some l }) sk ek vk :=
  receive_entries_congr (messageType_jwe _ _) (messageType_jwe _ _)
    (jwe_ofText_text o2 ⟨hp, hu, by rintro r ⟨⟩, by rintro l ⟨⟩; exact hl⟩)
    (jwe_ofText_text o1 ⟨hp, hu, by rintro r ⟨⟩; exact hx, by rintro l ⟨⟩; exact hl⟩) rfl rfl

/-- C147.  The same for any text that is read as an envelope, whoever wrote it: whatever else is in the text, it is received like
the general form of the entries that were read from it. -/
theorem C147_envelope_read (P : Prims) (o o1 : HOrd) (s : Str) (j : Jwe) (l : List Recipient)
    (hc : Message.messageType P s = .ok .jwe) (hj : Jwe.ofText P.f64 s = some j)
    (hl : j.recipients = some l ∨ j.recipients = none ∧ ∃ x, j.recipient = some x ∧ l = [x]) (sk ek vk : Option Bytes) :
    Message.receive P o s sk ek vk =
      Message.receive P o (Jwe.text o1 { j with recipient := none, recipients := some l }) sk ek vk := by
  have w := jwe_ofText_wf hj
  have hw : ∀ r ∈ l, r.header.WF := by
    rcases hl with hl | ⟨-, x, hx, rfl⟩
    · exact w.recipients l hl
    · intro r hr
      obtain rfl := List.mem_singleton.1 hr
      exact w.recipient _ hx
  refine receive_entries_congr (messageType_jwe _ _) hc
    (jwe_ofText_text o1 ⟨w.prot, w.unprot, by rintro r ⟨⟩, by rintro l ⟨⟩; exact hw⟩) hj rfl ?_
  obtain ⟨_, _, re, rs, _, _, _⟩ := j
  rcases hl with hl | ⟨hn, x, hx, rfl⟩
  · cases hl; rfl
  · cases hn; cases hx; rfl

/-- C147: a text of another writer, with other members. -/
example : Message.messageType (toy fun _ => none)
      c!"{ \"iv\": \"AA\", \"x\": [1], \"encrypted_key\": \"AQ\", \"header\": {\"alg\": \"none\", \"key_ops\": []}, \"ciphertext\": \"\" }" = .ok .jwe ∧
    (Jwe.ofText (toy fun _ => none).f64
      c!"{ \"iv\": \"AA\", \"x\": [1], \"encrypted_key\": \"AQ\", \"header\": {\"alg\": \"none\", \"key_ops\": []}, \"ciphertext\": \"\" }").map
        (fun j => (j.recipients, j.recipient.map (·.encryptedKey))) = some (none, some c!"AQ") :=
  ⟨by decide +kernel, by decide +kernel⟩

/-- C147: an envelope made in one form, which its recipient opens in the other, also with another entry beside the list. -/
example : ∃ t, ∃ j : Jwe, ∃ x rs, { oneRecipient with flatJwe := true }.sealJwe (toy fun _ => none) exampleRand (exampleKey 3)
      (some [some ((toy fun _ => none).x25519Pub (exampleKey 1))]) = .ok t ∧
    t = Jwe.text (exampleRand.ord.sub 2) { j with recipient := some x, recipients := none } ∧
    Message.receive (toy fun _ => none) HOrd.rev (Jwe.text HOrd.id { j with recipient := none, recipients := some [x] })
      (some (exampleKey 1)) (some ((toy fun _ => none).x25519Pub (exampleKey 3))) none =
        .ok { oneRecipient with recipients := some rs } ∧
    Message.receive (toy fun _ => none) HOrd.rev
      (Jwe.text HOrd.id { j with recipient := some { x with encryptedKey := c!"AAAA" }, recipients := some [x] })
      (some (exampleKey 1)) (some ((toy fun _ => none).x25519Pub (exampleKey 3))) none =
        .ok { oneRecipient with recipients := some rs } := by
  obtain ⟨t, ht⟩ := oneRecipient_seals exampleRand { oneRecipient with flatJwe := true } rfl rfl
  have hw := oneRecipient_wf (toy fun _ => none).f64
  obtain ⟨rs, h⟩ := C16_seal_receive _ (toy_laws _) exampleRand HOrd.rev { oneRecipient with flatJwe := true } (exampleKey 3)
    (exampleKey 1) _ t c!"did:e:f" none ⟨hw.jwm, hw.other, hw.to, hw.recipients, hw.canon, hw.nums, hw.depth⟩ (by decide)
    ⟨(by intro k h; cases h), (by intro k h; cases h)⟩ (by decide) rfl (by decide) ht
  obtain ⟨pks, l, a, c, tag, alg, -, -, -, -, hl, hs, -, -, -, -, -, rfl⟩ := seal_ok ht
  have hx := sealRecipients_wf hs
  obtain ⟨x, rfl⟩ := List.length_eq_one_iff.1 (hl rfl)
  have we := envelope_wf (m := { oneRecipient with flatJwe := true }) (rs := [x]) (iv := exampleRand.iv.1) (c := c) (tag := tag)
    hw.jwm hx
  refine ⟨_, Spec.envelope { oneRecipient with flatJwe := true } [x] exampleRand.iv.1 c tag, x, rs, ht, rfl, ?_⟩
  rw [C147_envelope_list (toy fun _ => none) HOrd.rev HOrd.id HOrd.id _ { x with encryptedKey := c!"AAAA" } [x] we.prot we.unprot
    (hx x (by simp)) hx, and_self,
    ← C147_envelope (toy fun _ => none) HOrd.rev (exampleRand.ord.sub 2) HOrd.id _ x we.prot we.unprot (hx x (by simp))]
  exact h

/-! ## Signed -/

theorem jws_class {P : Prims} (o : HOrd) (j : Jws) (h : j.signature.isSome ∨ j.signatures.isSome) :
    Message.messageType P (j.text o) = .ok .jws ∧ Message.ofText P.f64 (j.text o) = none := by
  have hp := parse_jws o j
  obtain ⟨p, sg, l⟩ := j
  generalize Jws.text o _ = t at hp ⊢
  constructor
  · cases sg with
    | none =>
      cases l with
      | none => simp at h
      | some l =>
        rw [messageType_obj P hp (a := false) (b := true) (c := false)]
        · rfl
        · exact presence_absent rfl
        · exact presence_some rfl (by simp)
        · exact presence_absent rfl
    | some s =>
      obtain ⟨a, b, c⟩ := s
      rw [messageType_obj P hp (a := true) (b := l.isSome) (c := false)]
      · simp
      · cases a <;> cases b <;> cases l <;> exact presence_some rfl (by simp)
      · cases l with
        | none => cases a <;> cases b <;> exact presence_absent rfl
        | some l => cases a <;> cases b <;> exact presence_some rfl (by simp)
      · cases a <;> cases b <;> cases l <;> exact presence_absent rfl
  · unfold Message.ofText
    rw [hp]
    refine decMessage_none (k := c!"id") (by decide) ?_
    cases sg with
    | none => cases l <;> (show 0 ≠ 1; decide)
    | some s =>
      obtain ⟨a, b, c⟩ := s
      cases a <;> cases b <;> cases l <;> (show 0 ≠ 1; decide)

/-- Verification looks at a signed document only through its payload and the list of signatures that are checked. -/
theorem verify_signatures_congr {P : Prims} {s s' : Str} {j j' : Jws} (hj : Jws.ofText P.f64 s = some j)
    (hj' : Jws.ofText P.f64 s' = some j') (hp : j'.payload = j.payload)
    (hs : Message.signaturesOf j' = Message.signaturesOf j) (o : HOrd) (key : Bytes) :
    Message.verify P o (utf8 s') key = Message.verify P o (utf8 s) key := by
  unfold Message.verify
  rw [jws_ofBytes_utf8, jws_ofBytes_utf8, hj, hj']
  simp only [Res.ofOpt_some, Res.bind_ok, hp, hs]

theorem receive_signed_congr {P : Prims} {o : HOrd} {s s' : Str} {j j' : Jws} {sk ek vk : Option Bytes}
    (h1 : Message.messageType P s = .ok .jws) (h2 : Message.messageType P s' = .ok .jws)
    (n1 : Message.ofText P.f64 s = none) (n2 : Message.ofText P.f64 s' = none)
    (hj : Jws.ofText P.f64 s = some j) (hj' : Jws.ofText P.f64 s' = some j') (hp : j'.payload = j.payload)
    (hs : Message.signaturesOf j' = Message.signaturesOf j) :
    Message.receive P o s' sk ek vk = Message.receive P o s sk ek vk := by
  have hv := verify_signatures_congr (P := P) hj hj' hp hs
  have he : ∀ l o, Message.verifyEach P (utf8 s') vk o l = Message.verifyEach P (utf8 s) vk o l := by
    intro l
    induction l with
    | nil => intro o; rfl
    | cons x l ih => intro o; simp only [Message.verifyEach, ih, hv]
  have hne : ¬ MessageType.jws = MessageType.jwe := by decide
  simp only [Message.receive, Message.decryptStep, Message.verifyStep, h1, h2, Res.bind_ok, hne, if_false, if_true,
    Message.receiveJws, Message.verifiedOf, n1, n2, hj, hj', hs, he]

/-- C147.  A document with one signature is received and verified with the same outcome in either form: the signature among the
members of the document or in a list. -/
theorem C147_signed (P : Prims) (o o1 o2 : HOrd) (p : Str) (x : Signature) (hx : x.WF) :
    (∀ sk ek vk, Message.receive P o (Jws.text o1 ⟨p, some x, none⟩) sk ek vk =
      Message.receive P o (Jws.text o2 ⟨p, none, some [x]⟩) sk ek vk) ∧
    ∀ key, Message.verify P o (utf8 (Jws.text o1 ⟨p, some x, none⟩)) key =
      Message.verify P o (utf8 (Jws.text o2 ⟨p, none, some [x]⟩)) key := by
  have w1 : Jws.WF ⟨p, some x, none⟩ := ⟨by rintro s ⟨⟩; exact hx, by rintro l ⟨⟩⟩
  have w2 : Jws.WF ⟨p, none, some [x]⟩ := ⟨by rintro s ⟨⟩, by
    rintro l ⟨⟩ s hs
    obtain rfl := List.mem_singleton.1 hs
    exact hx⟩
  obtain ⟨c1, n1⟩ := jws_class (P := P) o1 ⟨p, some x, none⟩ (.inl rfl)
  obtain ⟨c2, n2⟩ := jws_class (P := P) o2 ⟨p, none, some [x]⟩ (.inr rfl)
  exact ⟨fun _ _ _ => receive_signed_congr c2 c1 n2 n1 (jws_ofText_text o2 w2) (jws_ofText_text o1 w1) rfl rfl,
    verify_signatures_congr (jws_ofText_text o2 w2) (jws_ofText_text o1 w1) rfl rfl o⟩

/-- C147.  If there is a list of signatures, a signature among the members of the document is not looked at. -/
theorem C147_signed_list (P : Prims) (o o1 o2 : HOrd) (p : Str) (x : Signature) (l : List Signature) (hx : x.WF)
    (hl : ∀ s ∈ l, s.WF) :
    (∀ sk ek vk, Message.receive P o (Jws.text o1 ⟨p, some x, some l⟩) sk ek vk =
      Message.receive P o (Jws.text o2 ⟨p, none, some l⟩) sk ek vk) ∧
    ∀ key, Message.verify P o (utf8 (Jws.text o1 ⟨p, some x, some l⟩)) key =
      Message.verify P o (utf8 (Jws.text o2 ⟨p, none, some l⟩)) key := by
  have w1 : Jws.WF ⟨p, some x, some l⟩ := ⟨by rintro s ⟨⟩; exact hx, by rintro l ⟨⟩; exact hl⟩
  have w2 : Jws.WF ⟨p, none, some l⟩ := ⟨by rintro s ⟨⟩, by rintro l ⟨⟩; exact hl⟩
  obtain ⟨c1, n1⟩ := jws_class (P := P) o1 ⟨p, some x, some l⟩ (.inl rfl)
  obtain ⟨c2, n2⟩ := jws_class (P := P) o2 ⟨p, none, some l⟩ (.inr rfl)
  exact ⟨fun _ _ _ => receive_signed_congr c2 c1 n2 n1 (jws_ofText_text o2 w2) (jws_ofText_text o1 w1) rfl rfl,
    verify_signatures_congr (jws_ofText_text o2 w2) (jws_ofText_text o1 w1) rfl rfl o⟩

/-- C147.  The same for any text that is read as a signed document and not as a message, whoever wrote it. -/
theorem C147_signed_read (P : Prims) (o o1 : HOrd) (s : Str) (j : Jws) (l : List Signature)
    (hc : Message.messageType P s = .ok .jws) (hn : Message.ofText P.f64 s = none) (hj : Jws.ofText P.f64 s = some j)
    (hl : j.signatures = some l ∨ j.signatures = none ∧ ∃ x, j.signature = some x ∧ l = [x]) :
    (∀ sk ek vk, Message.receive P o s sk ek vk =
      Message.receive P o (Jws.text o1 ⟨j.payload, none, some l⟩) sk ek vk) ∧
    ∀ key, Message.verify P o (utf8 s) key = Message.verify P o (utf8 (Jws.text o1 ⟨j.payload, none, some l⟩)) key := by
  have w := jws_ofText_wf hj
  have hw : ∀ x ∈ l, x.WF := by
    rcases hl with hl | ⟨-, x, hx, rfl⟩
    · exact w.signatures l hl
    · intro r hr
      obtain rfl := List.mem_singleton.1 hr
      exact w.signature _ hx
  have w1 : Jws.WF ⟨j.payload, none, some l⟩ := ⟨by rintro s ⟨⟩, by rintro l ⟨⟩; exact hw⟩
  obtain ⟨c1, n1⟩ := jws_class (P := P) o1 ⟨j.payload, none, some l⟩ (.inr rfl)
  have hs : ∀ y, Message.signaturesOf j = Message.signaturesOf ⟨j.payload, y, some l⟩ := by
    intro y
    obtain ⟨_, sg, sgs⟩ := j
    rcases hl with hl | ⟨hn, x, hx, rfl⟩
    · cases hl; rfl
    · cases hn; cases hx; rfl
  exact ⟨fun _ _ _ => receive_signed_congr c1 hc n1 hn (jws_ofText_text o1 w1) hj rfl (hs _),
    verify_signatures_congr (jws_ofText_text o1 w1) hj rfl (hs _) o⟩

/-- C147: a text of another writer, with other members. -/
example : Message.messageType (toy fun _ => none) c!"{ \"signature\": \"AQ\", \"x\": [1], \"payload\": \"e30\" }" = .ok .jws ∧
    Message.ofText (toy fun _ => none).f64 c!"{ \"signature\": \"AQ\", \"x\": [1], \"payload\": \"e30\" }" = none ∧
    Jws.ofText (toy fun _ => none).f64 c!"{ \"signature\": \"AQ\", \"x\": [1], \"payload\": \"e30\" }" =
      some ⟨c!"e30", some ⟨none, none, [1]⟩, none⟩ :=
  ⟨by decide +kernel, by decide +kernel, by decide +kernel⟩

/-- C147: a document signed in one form, which is accepted in the other, also with another signature beside the list. -/
example : ∃ t p x, (richMessage.asFlatJws .es256).sign HOrd.id (SignAlg.es256.signer (toy fun _ => none)) (exampleKey 5) = .ok t ∧
    t = Jws.text (HOrd.id.sub 2) ⟨p, some x, none⟩ ∧
    Message.receive (toy fun _ => none) HOrd.rev (Jws.text HOrd.rev ⟨p, none, some [x]⟩) none none (some (exampleKey 5)) =
      .ok richMessage ∧
    Message.receive (toy fun _ => none) HOrd.rev (Jws.text HOrd.rev ⟨p, some { x with signature := [1] }, some [x]⟩) none none
      (some (exampleKey 5)) = .ok richMessage := by
  have hw := richMessage_wf (toy fun _ => none).f64
  obtain ⟨t, ht, h⟩ := C24_sign_receive (toy fun _ => none) .es256 (exampleKey 5) (exampleKey 5) (toy_signPair _ _ _)
    { richMessage with flatJws := true } ⟨hw.jwm, hw.other, hw.to, hw.recipients, hw.canon, hw.nums, hw.depth⟩
    ⟨(by intro k h; cases h), (by intro k h; cases h)⟩ HOrd.id HOrd.rev
  obtain ⟨-, sig, -, rfl⟩ := sign_ok ht
  have hx : (Spec.signatureOf (({ richMessage with flatJws := true } : Message).asJws .es256) sig).WF :=
    signatureOf_wf ⟨hw.jwm.1, hw.jwm.2⟩
  obtain ⟨p, x, hx, ht, h⟩ : ∃ p x, x.WF ∧
      (richMessage.asFlatJws .es256).sign HOrd.id (SignAlg.es256.signer (toy fun _ => none)) (exampleKey 5) =
        .ok (Jws.text (HOrd.id.sub 2) ⟨p, some x, none⟩) ∧
      Message.receive (toy fun _ => none) HOrd.rev (Jws.text (HOrd.id.sub 2) ⟨p, some x, none⟩) none none
        (some (exampleKey 5)) = .ok richMessage := ⟨_, _, hx, ht, h none none _ (.inl rfl)⟩
  rw [(C147_signed (toy fun _ => none) HOrd.rev (HOrd.id.sub 2) HOrd.rev p x hx).1] at h
  refine ⟨_, p, x, ht, rfl, h, ?_⟩
  rw [(C147_signed_list (toy fun _ => none) HOrd.rev HOrd.rev HOrd.rev p { x with signature := [1] } [x] ⟨hx.1, hx.2⟩ (by
    intro s hs
    obtain rfl := List.mem_singleton.1 hs
    exact hx)).1, h]

end Verif
