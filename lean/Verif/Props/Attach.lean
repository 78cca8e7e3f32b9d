import Verif.Spec.Attach
import Verif.Props.Plain

/-!
# Attachments and out-of-band invitations

C48, C51 and C58.
-/

namespace Verif

open Spec

/-! ## C48: builders -/

/-- C48.  Every setter of `AttachmentBuilder` has exactly its documented effect on every field. -/
theorem C48_builder_setters (b : AttachmentBuilder) (s : ASetter) (f : AField) :
    f.get (s.apply b) = (s.effect f).getD (f.get b) := by
  cases s <;> cases f <;> rfl

/-- C48.  The data made by any run of setters of `AttachmentDataBuilder`: the last value given per field,
and all links in order. -/
theorem C48_data_setters (d : AttachmentData) (l : List DSetter) :
    l.foldl DSetter.apply d = ⟨lastJws l d.jws, lastHash l d.hash, d.links ++ allLinks l,
      lastBase64 l d.base64, lastJson l d.json⟩ := by
  induction l generalizing d with
  | nil => simp [lastJws, lastHash, lastBase64, lastJson, allLinks]
  | cons s l ih =>
    rw [List.foldl_cons, ih]
    cases s <;> simp [DSetter.apply, lastJws, lastHash, lastBase64, lastJson, allLinks, AttachmentData.withJws,
      AttachmentData.withHash, AttachmentData.withLink, AttachmentData.withRawPayload,
      AttachmentData.withEncodedPayload, AttachmentData.withJson]

/-- C48.  A raw payload is recovered from the attachment. -/
theorem C48_raw_payload (d : AttachmentData) (b : Bytes) :
    (d.withRawPayload b).base64.bind b64Decode = some b := by
  simp [AttachmentData.withRawPayload]

/-- C48.  A finished attachment has the fields of its builder; the modification time is the clock's if and
only if the builder was made with a time stamp. -/
theorem C48_finalize (b : AttachmentBuilder) (now : Str) :
    b.finalize now = { b.inner with
      lastmodTime := if b.timed = true then some now else b.inner.lastmodTime } := by
  unfold AttachmentBuilder.finalize
  split <;> rfl

theorem finalize_format (b : AttachmentBuilder) (now : Str) : (b.finalize now).format = b.inner.format := by
  rw [C48_finalize]

/-- C48.  The attachment made of a value has the text of the value, its format, the media type of JSON and the time
at which it is appended, and nothing else. -/
theorem C48_of_value (fmt : Str) (v : Json) (now : Str) :
    (AttachmentBuilder.ofValue fmt v).finalize now =
      { id := none, description := none, filename := none, mediaType := some c!"application/json", format := some fmt,
        lastmodTime := some now, byteCount := none,
        data := { jws := none, hash := none, links := [], base64 := none, json := some (printJson v) } } := rfl

/-! ## C48: order -/

/-- C48.  Attachments are kept in the order appended, after those already there; nothing else of the
message changes. -/
theorem C48_order (m : Message) (l : List (AttachmentBuilder × Str)) :
    m.appendAll l = { m with attachments := m.attachments ++ l.map fun p => p.1.finalize p.2 } := by
  induction l generalizing m with
  | nil => simp [Message.appendAll]
  | cons p l ih =>
    obtain ⟨b, now⟩ := p
    simp [Message.appendAll, ih, Message.appendAttachment]

/-! ## C48: reading -/

theorem AllRel.append {α β : Type} {R : α → β → Prop} {l k : List α} {l' k' : List β} (h : AllRel R l l')
    (h' : AllRel R k k') : AllRel R (l ++ k) (l' ++ k') := by
  induction h with
  | nil => exact h'
  | cons h1 _ ih => exact .cons h1 ih

theorem attachmentValue_iff {α : Type} {dec : Json → Option α} {a : Attachment} {v : α} :
    Message.attachmentValue dec a = .ok v ↔ JsonAttachment dec a v := by
  unfold Message.attachmentValue JsonAttachment
  by_cases h : a.mediaType = some c!"application/json"
  · rw [if_pos h]
    cases hj : a.data.json with
    | some s => simp [h, Option.bind_eq_some_iff]
    | none => cases a.id <;> simp
  · rw [if_neg h]
    simp [h]

theorem collectRes_iff {α β : Type} {f : α → Res β} {R : α → β → Prop} (hf : ∀ a b, f a = .ok b ↔ R a b)
    {l : List α} {l' : List β} : Message.collectRes f l = .ok l' ↔ AllRel R l l' := by
  induction l generalizing l' with
  | nil =>
    simp only [Message.collectRes, Res.ok.injEq]
    constructor
    · rintro rfl; exact .nil
    · intro h; cases h; rfl
  | cons a l ih =>
    simp only [Message.collectRes, Res.bind_eq_ok, Res.pure_eq, Res.ok.injEq]
    constructor
    · rintro ⟨b, h1, bs, h2, rfl⟩
      exact .cons ((hf _ _).1 h1) (ih.1 h2)
    · intro h
      cases h with
      | cons h1 h2 => exact ⟨_, (hf _ _).2 h1, _, ih.2 h2, rfl⟩

/-- C48.  Exactly what `deserialize_attachments` returns: the requested type must be `application/json`,
and the result has one value for every attachment of that format, in order. -/
theorem C48_deserialize_iff {α : Type} (dec : Json → Option α) (m : Message) (fmt : Str) (vs : List α) :
    m.deserializeAttachments dec fmt = .ok vs ↔ fmt = c!"application/json" ∧
      AllRel (JsonAttachment dec) (m.attachments.filter fun a => a.format = some fmt) vs := by
  unfold Message.deserializeAttachments
  by_cases h : fmt = c!"application/json"
  · rw [if_neg (by simpa using h), collectRes_iff fun a b => attachmentValue_iff]
    simp [h]
  · rw [if_pos h]
    simp [h]

/-- C48.  Any other requested type is rejected. -/
theorem C48_other_type {α : Type} (dec : Json → Option α) (m : Message) (fmt : Str)
    (h : fmt ≠ c!"application/json") :
    m.deserializeAttachments dec fmt = .err (.attachment "unsupported media type") := by
  simp [Message.deserializeAttachments, h]

/-- C48.  Values appended with format `application/json`, possibly between attachments of other formats,
come back in order after those that were there before. -/
theorem C48_values_roundtrip {α : Type} (enc : α → Json) (dec : Json → Option α)
    (hdec : ∀ v, dec (enc v) = some v) (hn : ∀ v, NumsOk (enc v)) (m : Message)
    (old : List α) (hold : m.deserializeAttachments dec c!"application/json" = .ok old)
    (l : List (α × Str ⊕ AttachmentBuilder × Str))
    (hother : ∀ p, .inr p ∈ l → p.1.inner.format ≠ some c!"application/json") :
    (m.appendAll (l.map fun x => match x with
      | .inl (v, now) => (AttachmentBuilder.ofValue c!"application/json" (enc v), now)
      | .inr p => p)).deserializeAttachments dec c!"application/json" =
      .ok (old ++ (l.filterMap fun x => match x with
        | .inl (v, _) => some v
        | .inr _ => none)) := by
  rw [C48_deserialize_iff] at hold
  rw [C48_deserialize_iff, C48_order]
  refine ⟨rfl, ?_⟩
  simp only [List.filter_append]
  refine AllRel.append hold.2 ?_
  clear hold
  induction l with
  | nil => exact .nil
  | cons x l ih =>
    have ih := ih fun p hp => hother p (List.mem_cons_of_mem _ hp)
    cases x with
    | inl p =>
      obtain ⟨v, now⟩ := p
      rw [List.map_cons, List.map_cons, List.filter_cons_of_pos (by
        simp [AttachmentBuilder.ofValue, AttachmentBuilder.finalize, AttachmentBuilder.new,
          AttachmentBuilder.withMediaType, AttachmentBuilder.withFormat, AttachmentBuilder.withData])]
      refine .cons ⟨rfl, _, _, rfl, parseJson_print (hn v), hdec v⟩ ih
    | inr p =>
      rw [List.map_cons, List.map_cons, List.filter_cons_of_neg (by
        simpa [finalize_format] using hother p (by simp))]
      exact ih

/-- C48: strings as values, with an attachment of another format between them. -/
example : ∃ m : Message, m.deserializeAttachments decStr c!"application/json" = .ok [c!"x", c!"y"] ∧
    m.attachments.length = 3 :=
  ⟨_, C48_values_roundtrip Json.str decStr (fun _ => rfl) (fun _ => trivial) (Message.new c!"i") []
    (by decide) [.inl (c!"x", c!"t"), .inr (AttachmentBuilder.ofValue c!"dif" (.str c!"z"), c!"t"), .inl (c!"y", c!"u")]
    (by
      intro p hp
      simp only [List.mem_cons, reduceCtorEq, Sum.inr.injEq, List.not_mem_nil, or_false, false_or] at hp
      subst hp
      decide), by rw [C48_order]; rfl⟩

/-! ## C58: attachments of JSON media type -/

/-- C58 fails: an attachment of media type `application/json` made by `AttachmentBuilder::try_from` with
any other format is silently left out, although attachments are documented to be selected by media
type. -/
theorem C58_media_type_violated {α : Type} (dec : Json → Option α) (m : Message) (v : Json) (fmt now : Str)
    (hf : fmt ≠ c!"application/json") :
    let a := (AttachmentBuilder.ofValue fmt v).finalize now
    let m' := m.appendAttachment (AttachmentBuilder.ofValue fmt v) now
    a ∈ m'.attachments ∧ a.mediaType = some c!"application/json" ∧ a.data.json = some (printJson v) ∧
      m'.deserializeAttachments dec c!"application/json" = m.deserializeAttachments dec c!"application/json" := by
  refine ⟨by simp [Message.appendAttachment], rfl, rfl, ?_⟩
  unfold Message.deserializeAttachments Message.appendAttachment
  rw [if_neg (by decide), if_neg (by decide), List.filter_append, List.filter_cons_of_neg (by
    simpa [AttachmentBuilder.ofValue, AttachmentBuilder.finalize, AttachmentBuilder.new,
      AttachmentBuilder.withMediaType, AttachmentBuilder.withFormat, AttachmentBuilder.withData] using hf)]
  simp

/-- C58, what holds: an attachment made by `try_from` with format `application/json` is returned. -/
theorem C58_format_partial {α : Type} (dec : Json → Option α) (m : Message) (v : Json) (x : α) (old : List α)
    (now : Str) (hn : NumsOk v) (hd : dec v = some x)
    (hold : m.deserializeAttachments dec c!"application/json" = .ok old) :
    (m.appendAttachment (AttachmentBuilder.ofValue c!"application/json" v) now).deserializeAttachments dec
      c!"application/json" = .ok (old ++ [x]) := by
  rw [C48_deserialize_iff] at hold ⊢
  refine ⟨rfl, ?_⟩
  unfold Message.appendAttachment
  rw [List.filter_append, List.filter_cons_of_pos (by
    simp [AttachmentBuilder.ofValue, AttachmentBuilder.finalize, AttachmentBuilder.new,
      AttachmentBuilder.withMediaType, AttachmentBuilder.withFormat, AttachmentBuilder.withData])]
  exact AllRel.append hold.2 (.cons ⟨rfl, _, _, rfl, parseJson_print hn, hd⟩ .nil)

example : (Message.new c!"i").appendAttachment (AttachmentBuilder.ofValue c!"dif/presentation-exchange" (.str c!"z")) c!"t"
    |>.deserializeAttachments decStr c!"application/json" |> (· = .ok []) :=
  by decide

example : (Message.new c!"i").appendAttachment (AttachmentBuilder.ofValue c!"application/json" (.str c!"z")) c!"t"
    |>.deserializeAttachments decStr c!"application/json" |> (· = .ok [c!"z"]) :=
  by decide

/-! ## C51: out-of-band invitations -/

/-- C51.  Exactly when an invitation is made, and what it is. -/
theorem C51_invitation_iff (P : Prims) (m m' : Message) (body : Bytes)
    (atts : Option (List (AttachmentBuilder × Str))) :
    m.asOutOfBandInvitation P body atts = .ok m' ↔
      ∃ text j v, utf8 text = body ∧ Document j text ∧ j.depth ≤ 127 ∧ Denotes P.f64 j v ∧
        m' = { m with
          jwm := { m.jwm with typ := .raw }
          didcomm := { m.didcomm with mType := c!"https://didcomm.org/out-of-band/2.0/invitation" }
          body := v
          attachments := m.attachments ++ (atts.getD []).map fun p => p.1.finalize p.2 } := by
  have key : m.asOutOfBandInvitation P body atts = Res.unwrap (utf8Decode body) >>= fun t =>
      Message.setBody P { m with
        jwm := { m.jwm with typ := .raw }
        didcomm := { m.didcomm with mType := c!"https://didcomm.org/out-of-band/2.0/invitation" }
        attachments := m.attachments ++ (atts.getD []).map fun p => p.1.finalize p.2 } t := by
    cases atts with
    | none => simp [Message.asOutOfBandInvitation, Message.setTyp, Message.setMType, MessageType.label]
    | some l => simp [Message.asOutOfBandInvitation, Message.setTyp, Message.setMType, MessageType.label, C48_order]
  rw [key]
  cases hu : utf8Decode body with
  | none =>
    constructor
    · intro h; cases h
    · rintro ⟨text, j, v, rfl, -⟩
      rw [utf8Decode_utf8] at hu
      cases hu
  | some t =>
    rw [Res.unwrap_some, Res.bind_ok, C04_set_body]
    have ht := utf8Decode_eq_some.1 hu
    constructor
    · rintro ⟨j, v, h1, h2, h3, rfl⟩
      exact ⟨t, j, v, ht, h1, h2, h3, rfl⟩
    · rintro ⟨t', j, v, h0, h1, h2, h3, rfl⟩
      rw [← h0, utf8Decode_utf8] at hu
      obtain rfl := Option.some.inj hu
      exact ⟨j, v, h1, h2, h3, rfl⟩

/-- C51.  It panics exactly for bodies that are not UTF-8. -/
theorem C51_panic_iff (P : Prims) (m : Message) (body : Bytes) (atts : Option (List (AttachmentBuilder × Str))) :
    m.asOutOfBandInvitation P body atts = .panic ↔ ¬ ∃ text, utf8 text = body := by
  unfold Message.asOutOfBandInvitation
  cases hu : utf8Decode body with
  | none =>
    refine ⟨fun _ => ?_, fun _ => rfl⟩
    rintro ⟨text, rfl⟩
    rw [utf8Decode_utf8] at hu
    cases hu
  | some t =>
    constructor
    · intro h
      rw [Res.unwrap_some, Res.bind_ok] at h
      simp only [Message.setBody] at h
      rcases Res.bind_eq_panic.1 h with h | ⟨_, _, h⟩
      · exact absurd h Res.ofOpt_ne_panic
      · cases h
    · intro h
      exact absurd ⟨t, utf8Decode_eq_some.1 hu⟩ h

/-- C51: both cases occur. -/
example (P : Prims) (m : Message) : m.asOutOfBandInvitation P [255] none = .panic := by
  rfl

example (P : Prims) : ∃ m', (Message.new c!"i").asOutOfBandInvitation P (utf8 c!"{\"goal\": \"x\"}")
    (some [(AttachmentBuilder.new true, c!"now")]) = .ok m' ∧ m'.attachments.length = 1 := by
  refine ⟨_, rfl, rfl⟩

end Verif
