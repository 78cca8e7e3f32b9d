import Verif.Lemma.Nice

/-! # Round trips of messages and envelopes -/

namespace Verif

open Spec (NumsOk)

theorem decAll_encList {α : Type} {d : Json → Option α} {e : HOrd → α → Json} (o : HOrd) (l : List α)
    (h : ∀ o, ∀ a ∈ l, d (e o a) = some a) : decAll d (encList e o l) = some l := by
  induction l generalizing o with
  | nil => rfl
  | cons a l ih =>
    simp [encList, decAll, h (o.sub 0) a (by simp),
      ih (o.sub 1) (fun o x hx => h o x (List.mem_cons_of_mem _ hx))]

theorem dfltField_vecE {α : Type} {d : Json → Option (List α)} {e : List α → Json} {k : Str}
    {es : List (Str × Json)} (l : List α) (h : fieldVals k es = fieldVals k (vecE k e l))
    (hd : d (e l) = some l) : dfltField [] d k es = some l := by
  unfold dfltField
  rw [h]
  cases l with
  | nil => rfl
  | cons a l => simp [vecE, fieldVals, hd]

/-! ## Attachments -/

theorem decStrs (l : List Str) : decVec decStr (.arr (l.map .str)) = some l :=
  decAll_map _ (fun _ _ => rfl)

@[simp] theorem decAttachmentData_enc (d : AttachmentData) :
    decAttachmentData (encAttachmentData d) = some d := by
  simp only [decAttachmentData, encAttachmentData, structEntries]
  rw [Option.bind_eq_bind, Option.bind_some]
  rw [strField d.jws (by look), strField d.hash (by look),
    dfltField_vecE (e := fun l => .arr (l.map .str)) d.links (by look) (decStrs _),
    strField d.base64 (by look), strField d.json (by look)]
  rfl

@[simp] theorem decAttachment_enc (a : Attachment) : decAttachment (encAttachment a) = some a := by
  simp only [decAttachment, encAttachment, structEntries]
  rw [Option.bind_eq_bind, Option.bind_some]
  rw [strField a.id (by look), strField a.description (by look), strField a.filename (by look),
    strField a.mediaType (by look), strField a.format (by look), strField a.lastmodTime (by look),
    u64Field a.byteCount (by look),
    reqField_of (v := encAttachmentData a.data) (by look) (decAttachmentData_enc _)]
  rfl

/-! ## Recipients -/

theorem decRecipientE_enc (o : HOrd) {r : Recipient} (h : r.header.WF) :
    decRecipientE (recipientEntries o r) = some r := by
  simp only [decRecipientE, recipientEntries]
  rw [reqField_of (v := encJwk o r.header) (by look) (decJwk_enc o h),
    reqField_of (v := .str r.encryptedKey) (a := r.encryptedKey) (by look) rfl]
  rfl

theorem decRecipient_enc (o : HOrd) {r : Recipient} (h : r.header.WF) :
    decRecipient (encRecipient o r) = some r := by
  simp only [decRecipient, encRecipient, structEntries]
  rw [Option.bind_eq_bind, Option.bind_some, decRecipientE_enc o h]

/-- All recipient headers are well formed. -/
def RecipientsWF (x : Option (List Recipient)) : Prop := ∀ l, x = some l → ∀ r ∈ l, r.header.WF

theorem recipientsField {o : HOrd} {es : List (Str × Json)} (x : Option (List Recipient))
    (h : fieldVals c!"recipients" es =
      (x.map fun l => Json.arr (encList encRecipient o l)).toList) (hw : RecipientsWF x) :
    optField (decVec decRecipient) c!"recipients" es = some x :=
  optField_of x h (fun l hl => ⟨by
    simp only [decVec]
    exact decAll_encList o l (fun o a ha => decRecipient_enc o (hw l hl a ha)), by simp⟩)

/-! ## Messages -/

/-- Names a custom header must not have. -/
def reservedKeys : List Str := jwmKeys ++ didcommKeys ++ messageKeys

/-- Messages that can be read back. -/
structure Message.WF (F : Str → Option Str) (m : Message) : Prop where
  jwm : m.jwm.WF
  other : Avoids m.didcomm.other reservedKeys
  to : m.didcomm.to ≠ []
  recipients : RecipientsWF m.recipients
  canon : Canon F m.body
  nums : NumsOk m.body
  depth : m.body.depth ≤ 126

/-- Messages that can be read back with the body `b`. -/
structure Message.ReadsAs (F : Str → Option Str) (m : Message) (b : Json) : Prop where
  jwm : m.jwm.WF
  other : Avoids m.didcomm.other reservedKeys
  to : m.didcomm.to ≠ []
  recipients : RecipientsWF m.recipients
  norm : normJ F m.body = some b
  nums : NumsOk m.body
  depth : m.body.depth ≤ 126

theorem Message.WF.reads {F : Str → Option Str} {m : Message} (h : m.WF F) : m.ReadsAs F m.body :=
  ⟨h.jwm, h.other, h.to, h.recipients, normJ_canon h.canon, h.nums, h.depth⟩

theorem Message.ReadsAs.nice {F : Str → Option Str} {m : Message} {b : Json} (h : m.ReadsAs F b) : Nice F 126 m.body :=
  ⟨h.depth, h.nums, by rw [h.norm]; rfl⟩

theorem Avoids.sub {α : Type} {m : HMap α} {ks ks' : List Str} (h : Avoids m ks)
    (hs : ∀ k ∈ ks', k ∈ ks) : Avoids m ks' := fun k hk => h k (hs k hk)

theorem filter_keys_self {ks : List Str} {es : List (Str × Json)}
    (h : ∀ p ∈ es, p.1 ∉ ks) : es.filter (fun p => !ks.contains p.1) = es := by
  rw [List.filter_eq_self]
  intro p hp
  have := h p hp
  simpa using this

theorem filter_keys_nil {ks : List Str} {es : List (Str × Json)}
    (h : ∀ p ∈ es, p.1 ∈ ks) : es.filter (fun p => !ks.contains p.1) = [] := by
  rw [List.filter_eq_nil_iff]
  intro p hp
  have := h p hp
  simpa using this

theorem keys_optE {α : Type} {k : Str} {e : α → Json} {o : Option α} {p : Str × Json}
    (h : p ∈ optE k e o) : p.1 = k := by
  cases o with
  | none => cases h
  | some a => simp only [optE, List.mem_singleton] at h; rw [h]

theorem keys_vecE {α : Type} {k : Str} {e : List α → Json} {l : List α} {p : Str × Json}
    (h : p ∈ vecE k e l) : p.1 = k := by
  cases l with
  | nil => cases h
  | cons a l => simp only [vecE, List.mem_singleton] at h; rw [h]

theorem keys_jwm {o : HOrd} {h : JwmHeader} {p : Str × Json} (hp : p ∈ jwmEntries o h) :
    p.1 ∈ jwmKeys := by
  simp only [jwmEntries, List.mem_cons, List.mem_append] at hp
  rcases hp with rfl | h | h | h | h | h | h | h | h
  · show c!"typ" ∈ jwmKeys; decide
  all_goals rw [keys_optE h]; decide

theorem keys_didcomm {o : HOrd} {h : DidCommHeader} {p : Str × Json}
    (hp : p ∈ didcommEntries o h) :
    p.1 ∈ didcommKeys ∨ ∃ a, h.other.get p.1 = some a := by
  simp only [didcommEntries, List.mem_cons, List.mem_append] at hp
  rcases hp with rfl | h | h | rfl | h | rfl | h | h | h | h | h
  · left; show c!"id" ∈ didcommKeys; decide
  · left; rw [keys_optE h]; decide
  · left; rw [keys_optE h]; decide
  · left; show c!"type" ∈ didcommKeys; decide
  · left; rw [keys_vecE h]; decide
  · left; show c!"from" ∈ didcommKeys; decide
  · left; rw [keys_optE h]; decide
  · left; rw [keys_optE h]; decide
  · left; rw [keys_optE h]; decide
  · left; rw [keys_optE h]; decide
  · right
    obtain ⟨k, v⟩ := p
    obtain ⟨a, ha, -⟩ := mem_mapE.1 h
    exact ⟨a, HMap.mem_entries.1 ha⟩

theorem keys_didcomm_not {o : HOrd} {h : DidCommHeader} {ks : List Str} (ha : Avoids h.other ks)
    (hd : ∀ k ∈ ks, k ∉ didcommKeys) {p : Str × Json} (hp : p ∈ didcommEntries o h) : p.1 ∉ ks := by
  intro hk
  rcases keys_didcomm hp with h1 | ⟨a, h1⟩
  · exact hd _ hk h1
  · rw [ha _ hk] at h1; cases h1

/-- Reading back what was written, at the level of trees. -/
theorem decMessage_reads {F : Str → Option Str} (o : HOrd) {m : Message} {b : Json} (h : m.ReadsAs F b) :
    decMessage F (encMessage o m) = some { m with body := b, flatJwe := false, flatJws := false } := by
  have hdk : ∀ k ∈ messageKeys, fieldVals k (didcommEntries (o.sub 1) m.didcomm) = [] := by
    intro k hk
    apply fieldVals_none
    intro p hp he
    exact keys_didcomm_not (ks := messageKeys) (h.other.sub (by decide)) (by decide) hp (he ▸ hk)
  have hjk : ∀ k ∈ messageKeys, fieldVals k (jwmEntries (o.sub 0) m.jwm) = [] := by
    intro k hk
    apply fieldVals_none
    intro p hp he
    have h1 := keys_jwm hp
    rw [he] at h1
    clear he
    revert k
    decide
  simp only [messageKeys, List.forall_mem_cons] at hdk hjk
  obtain ⟨d1, d2, d3, -⟩ := hdk
  obtain ⟨j1, j2, j3, -⟩ := hjk
  have hnice := niceM_message (F := F) o (m := m) (n := 126) (by omega) h.nice
  simp only [decMessage, encMessage, mapEntries]
  rw [Option.bind_eq_bind, Option.bind_some]
  rw [recipientsField (o := o.sub 2) m.recipients
      (by simp only [fieldVals_append, j1, d1]; look) h.recipients,
    reqField_of (v := m.body) (a := b) (by simp only [fieldVals_append, j2, d2]; look)
      (by unfold toValue; rw [if_pos (by have := h.depth; omega)]; exact h.norm),
    dfltField_vecE (e := fun l => .arr (l.map encAttachment)) m.attachments
      (by simp only [fieldVals_append, j3, d3]; look)
      (by simp only [decVec]; exact decAll_map _ (fun _ _ => decAttachment_enc _)),
    buffered_filter hnice (by omega)]
  have hrest : (jwmEntries (o.sub 0) m.jwm ++ (didcommEntries (o.sub 1) m.didcomm ++
    (optE c!"recipients" (fun l => Json.arr (encList encRecipient (o.sub 2) l)) m.recipients ++
      ((c!"body", m.body) ::
        vecE c!"attachments" (fun l => Json.arr (l.map encAttachment)) m.attachments)))).filter
      (fun p => !messageKeys.contains p.1) =
      jwmEntries (o.sub 0) m.jwm ++ didcommEntries (o.sub 1) m.didcomm := by
    simp only [List.filter_append]
    rw [filter_keys_self (es := jwmEntries (o.sub 0) m.jwm) (fun p hp hk => by
        have h1 := keys_jwm hp
        generalize p.1 = k at h1 hk
        revert k; decide),
      filter_keys_self (es := didcommEntries (o.sub 1) m.didcomm)
        (fun p hp => keys_didcomm_not (h.other.sub (by decide)) (by decide) hp),
      filter_optE (by decide), filter_cons_in (by decide), filter_vecE (by decide)]
    simp
  rw [hrest]
  have hdj : ∀ k ∈ jwmKeys, fieldVals k (didcommEntries (o.sub 1) m.didcomm) = [] := by
    intro k hk
    apply fieldVals_none
    intro p hp he
    exact keys_didcomm_not (ks := jwmKeys) (h.other.sub (by decide)) (by decide) hp (he ▸ hk)
  rw [decJwmE_append h.jwm hdj]
  have hrest2 : (jwmEntries (o.sub 0) m.jwm ++ didcommEntries (o.sub 1) m.didcomm).filter
      (fun p => !jwmKeys.contains p.1) = didcommEntries (o.sub 1) m.didcomm := by
    rw [List.filter_append, filter_keys_nil (fun p hp => keys_jwm hp),
      filter_keys_self (fun p hp => keys_didcomm_not (h.other.sub (by decide)) (by decide) hp)]
    rfl
  simp only [hrest2, decDidcommE_enc (o := o.sub 1) (h.other.sub (ks' := didcommKeys) (by decide)) h.to]
  simp [guard]

/-- Reading back what was written, if the body is read as itself. -/
theorem decMessage_enc {F : Str → Option Str} (o : HOrd) {m : Message} (h : m.WF F) :
    decMessage F (encMessage o m) = some { m with flatJwe := false, flatJws := false } := decMessage_reads o h.reads

/-- Reading back what was written, at the level of texts. -/
theorem ofText_reads {F : Str → Option Str} (o : HOrd) {m : Message} {b : Json} (h : m.ReadsAs F b) :
    Message.ofText F (m.text o) = some { m with body := b, flatJwe := false, flatJws := false } := by
  unfold Message.ofText Message.text
  have hn := nice_message (F := F) o (m := m) (n := 126) (by omega) h.nice
  rw [parseJson_print hn.2.1]
  exact decMessage_reads o h

/-- Reading back what was written, if the body is read as itself. -/
theorem ofText_text {F : Str → Option Str} (o : HOrd) {m : Message} (h : m.WF F) :
    Message.ofText F (m.text o) = some { m with flatJwe := false, flatJws := false } := ofText_reads o h.reads

end Verif
