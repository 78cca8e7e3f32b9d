import Verif.Spec.Hash
import Verif.Props.Attach
import Verif.Props.Sign
import Verif.Props.Attack

/-!
# What an attachment claims about its content is not checked

C145.  The builder documents the hash of an attachment as an integrity check.  Nothing in the code
compares the hash, the signature or the size of an attachment with its content.
-/

namespace Verif

open Spec

theorem Message.WF.attach {F : Str → Option Str} {m : Message} (h : m.WF F) (as : List Attachment) :
    Message.WF F { m with attachments := as } :=
  ⟨h.jwm, h.other, h.to, h.recipients, h.canon, h.nums, h.depth⟩

theorem attachmentValue_same {α : Type} (dec : Json → Option α) {a b : Attachment} (h : SameContent a b) :
    Message.attachmentValue dec b = Message.attachmentValue dec a := by
  unfold Message.attachmentValue
  rw [h.mediaType, h.json, h.id]

/-- C145, negation.  Reading the attachments of a message gives the same values, or the same error,
whatever the attachments claim about their content. -/
theorem C145_read_violated {α : Type} (dec : Json → Option α) (m : Message) (as : List Attachment)
    (h : AllRel SameContent m.attachments as) (fmt : Str) :
    Message.deserializeAttachments dec { m with attachments := as } fmt = m.deserializeAttachments dec fmt := by
  unfold Message.deserializeAttachments
  split
  · rfl
  · show Message.collectRes _ (as.filter _) = _
    generalize m.attachments = l at h
    induction h with
    | nil => rfl
    | @cons a b l l' h1 _ ih =>
      simp only [List.filter_cons, h1.format]
      split
      · simp only [Message.collectRes, attachmentValue_same dec h1, ih]
      · exact ih

/-- C145, negation.  A plain text with any attachments at all is received: no claim about a content
is ever a reason to refuse it.  What is received are the attachments as they were sent, so a reader can
still check the claims. -/
theorem C145_plain_violated (P : Prims) (o o' : HOrd) (m : Message) (hm : m.WF P.f64)
    (ha : Avoids m.didcomm.other classKeys) (h1 : m.jwm.typ ≠ .jwe) (h2 : m.jwm.typ ≠ .jws)
    (sk ek vk : Option Bytes) (as : List Attachment) :
    ∃ x, (Message.asRawJson o { m with attachments := as } >>= fun t =>
        Message.receive P o' t sk ek vk) = .ok x ∧ x.attachmentIter = as ∧ x.body = m.body :=
  ⟨_, C05_plain_roundtrip P o o' _ (hm.attach as) ha h1 h2 sk ek vk, rfl, rfl⟩

/-- C145, negation.  The same for a signed message. -/
theorem C145_signed_violated (P : Prims) (a : SignAlg) (sk pk : Bytes) (hpair : SignPair P a sk pk)
    (m : Message) (hm : m.WF P.f64) (hf : HeaderFixed m.jwm) (o o' : HOrd) (as : List Attachment) :
    ∃ t x, (Message.asJws { m with attachments := as } a).sign o (a.signer P) sk = .ok t ∧
      Message.verify P o' (utf8 t) pk = .ok x ∧ x.attachmentIter = as ∧ x.body = m.body := by
  obtain ⟨t, h1, h2⟩ := C24_sign_verify P a sk pk hpair _ (hm.attach as) hf o o'
  exact ⟨t, _, h1, h2, rfl, rfl⟩

/-- C145, negation.  The same for an encrypted message: neither its sender nor its recipient refuses
it. -/
theorem C145_sealed_violated (P : Prims) (hP : Laws P) (ht : AeadTotal P) (r : Message.SealRand) (o : HOrd)
    (m : Message) (ssk rsk : Bytes) (dest frm alg : Str) (vk : Option Bytes)
    (hm : m.WF P.f64) (hc : Avoids m.didcomm.other classKeys) (hf : HeaderFixed m.jwm)
    (hj : m.jwm.typ ≠ .jws) (hfrom : m.didcomm.from = some frm) (hto : m.didcomm.to = [dest])
    (hsk : ssk.length = 32) (hrk : rsk.length = 32)
    (hal : m.jwm.alg = some alg) (hs : alg ∈ supportedAlgs) (as : List Attachment) :
    ∃ t x, Message.sealJwe P r { m with attachments := as } ssk (some [some (P.x25519Pub rsk)]) = .ok t ∧
      Message.receive P o t (some rsk) (some (P.x25519Pub ssk)) vk = .ok x ∧
      x.attachmentIter = as ∧ x.body = m.body := by
  obtain ⟨t, h⟩ := C16_seal_total P hP ht r { m with attachments := as } ssk
    (some [some (P.x25519Pub rsk)]) alg hsk (by simp [hto]) (by rintro l ⟨⟩; simp [hto])
    (fun _ => by simp [hto]) hal hs (by
      intro i d hd
      refine ⟨P.x25519Pub rsk, hP.pub_len _, .inl ?_⟩
      have hd' : [dest][i]? = some d := by rw [← hto]; exact hd
      cases i with
      | zero => rfl
      | succ i => simp at hd')
  obtain ⟨rs, hr⟩ := C16_seal_receive P hP r o _ ssk rsk [] t frm vk (hm.attach as) hc hf hj hfrom hrk h
  exact ⟨t, _, h, hr, rfl, rfl⟩

/-- C145, negation.  "MUST be used if the data is referenced via the links data attribute": for every
link there is an attachment made with the builders that refers to it without a hash, and a message with
it is received. -/
theorem C145_link_violated (P : Prims) (o o' : HOrd) (m : Message) (hm : m.WF P.f64)
    (ha : Avoids m.didcomm.other classKeys) (h1 : m.jwm.typ ≠ .jwe) (h2 : m.jwm.typ ≠ .jws)
    (sk ek vk : Option Bytes) (b : AttachmentBuilder) (link now : Str) :
    ∃ x a, ((m.appendAttachment (b.withData (AttachmentData.dflt.withLink link)) now).asRawJson o >>= fun t =>
        Message.receive P o' t sk ek vk) = .ok x ∧ x.attachmentIter = m.attachmentIter ++ [a] ∧
      a.data.links = [link] ∧ a.data.hash = none := by
  refine ⟨_, (b.withData (AttachmentData.dflt.withLink link)).finalize now,
    C05_plain_roundtrip P o o' _ (hm.attach (m.attachments ++ [_])) ha h1 h2 sk ek vk, rfl, ?_⟩
  unfold AttachmentBuilder.finalize
  split <;> exact ⟨rfl, rfl⟩

/-- C145, what is proved of it.  The reader has what a check needs: every claim arrives as it was sent,
together with the content it is about.  Two messages that differ in a claim are never received as the
same. -/
theorem C145_claims_partial (P : Prims) (o o' q q' : HOrd) (m : Message) (hm : m.WF P.f64)
    (ha : Avoids m.didcomm.other classKeys) (h1 : m.jwm.typ ≠ .jwe) (h2 : m.jwm.typ ≠ .jws)
    (sk ek vk : Option Bytes) (as bs : List Attachment)
    (h : (Message.asRawJson o { m with attachments := as } >>= fun t => Message.receive P o' t sk ek vk) =
      (Message.asRawJson q { m with attachments := bs } >>= fun t => Message.receive P q' t sk ek vk)) :
    as = bs := by
  rw [C05_plain_roundtrip P o o' _ (hm.attach as) ha h1 h2 sk ek vk,
    C05_plain_roundtrip P q q' _ (hm.attach bs) ha h1 h2 sk ek vk] at h
  exact congrArg Message.attachments (Res.ok.inj h)

/-! ## The hypotheses can be met -/

/-- An attachment with the content `"hello"`, a hash of nothing, a signature by nobody and a size of 7. -/
def forged : Attachment :=
  { Attachment.dflt with
    format := some c!"application/json", mediaType := some c!"application/json", byteCount := some 7
    data := { AttachmentData.dflt with
      json := some c!"\"hello\"", hash := some c!"deadbeef", jws := some c!"not a signature" } }

/-- C145: the content with no claims and the content with wrong ones read the same. -/
example : AllRel SameContent [{ forged with byteCount := none, data := AttachmentData.dflt.withJson c!"\"hello\"" }]
      [forged] ∧
    Message.deserializeAttachments some { richMessage with attachments := [forged] } c!"application/json" =
      .ok [.str c!"hello"] :=
  ⟨.cons ⟨rfl, rfl, rfl, rfl, rfl, rfl, rfl, rfl, rfl⟩ .nil, by decide +kernel⟩

example : ∃ x, (Message.asRawJson HOrd.id { richMessage with attachments := [forged] } >>= fun t =>
      Message.receive (toy fun _ => none) HOrd.rev t none none none) = .ok x ∧
    x.attachmentIter = [forged] ∧ x.body = richMessage.body :=
  C145_plain_violated _ _ _ richMessage (richMessage_wf _) (by decide) (by decide) (by decide) _ _ _ _

example : ∃ t x, (Message.asJws { richMessage with attachments := [forged] } .es256k).sign HOrd.id
      (SignAlg.es256k.signer (toy fun _ => none)) (exampleKey 5) = .ok t ∧
    Message.verify (toy fun _ => none) HOrd.rev (utf8 t) (exampleKey 5) = .ok x ∧
    x.attachmentIter = [forged] ∧ x.body = richMessage.body :=
  C145_signed_violated _ _ _ _ (toy_signPair _ _ _) richMessage (richMessage_wf _)
    ⟨(by intro k h; cases h), (by intro k h; cases h)⟩ _ _ _

example (vk : Option Bytes) : ∃ t x, Message.sealJwe (toy fun _ => none) exampleRand
      { oneRecipient with attachments := [forged] } (exampleKey 3)
      (some [some ((toy fun _ => none).x25519Pub (exampleKey 1))]) = .ok t ∧
    Message.receive (toy fun _ => none) HOrd.id t (some (exampleKey 1))
      (some ((toy fun _ => none).x25519Pub (exampleKey 3))) vk = .ok x ∧
    x.attachmentIter = [forged] ∧ x.body = oneRecipient.body :=
  C145_sealed_violated _ (toy_laws _) (toy_total _) _ _ oneRecipient _ _ c!"did:a:b" c!"did:e:f"
    c!"ECDH-1PU+XC20PKW" vk (oneRecipient_wf _) (by decide)
    ⟨(by intro k h; cases h), (by intro k h; cases h)⟩ (by decide) rfl rfl (by decide) (by decide) rfl
    (by decide) _

example : ∃ x a, ((richMessage.appendAttachment ((AttachmentBuilder.new true).withData
        (AttachmentData.dflt.withLink c!"https://example.org/file")) c!"now").asRawJson HOrd.id >>= fun t =>
      Message.receive (toy fun _ => none) HOrd.id t none none none) = .ok x ∧
    x.attachmentIter = richMessage.attachmentIter ++ [a] ∧
    a.data.links = [c!"https://example.org/file"] ∧ a.data.hash = none :=
  C145_link_violated _ _ _ richMessage (richMessage_wf _) (by decide) (by decide) (by decide) _ _ _ _ _ _

end Verif
