import Verif.Props.Verify

/-!
# Independence of hash-map iteration order

What is read from a written message does not depend on the iteration orders used for writing it.
-/

namespace Verif

open Spec

/-- The conditions for reading a message back that do not concern the body. -/
structure Message.Parts (m : Message) : Prop where
  jwm : m.jwm.WF
  other : Avoids m.didcomm.other reservedKeys
  recipients : RecipientsWF m.recipients
  nums : NumsOk m.body

/-- Reading a written message whose body need not be canonical. -/
theorem decMessage_enc_parts {F : Str → Option Str} (o : HOrd) {m : Message} (h : m.Parts)
    (hto : m.didcomm.to ≠ []) : decMessage F (encMessage o m) =
      (toValue F 1 m.body).map fun b => { m with body := b, flatJwe := false, flatJws := false } := by
  have hdk : ∀ k ∈ messageKeys, fieldVals k (didcommEntries (o.sub 1) m.didcomm) = [] := by
    intro k hk
    apply fieldVals_none
    intro p hp he
    exact keys_didcomm_not (ks := messageKeys) (h.other.sub (by decide)) (by decide) hp (he ▸ hk)
  have hjk : ∀ k ∈ messageKeys, fieldVals k (jwmEntries (o.sub 0) m.jwm) = [] := by
    intro k hk
    apply fieldVals_none
    intro p hp he
    have h1 := keys_jwm hp
    rw [he] at h1
    clear he
    revert k
    decide
  simp only [messageKeys, List.forall_mem_cons] at hdk hjk
  obtain ⟨d1, d2, d3, -⟩ := hdk
  obtain ⟨j1, j2, j3, -⟩ := hjk
  simp only [decMessage, encMessage, mapEntries]
  rw [Option.bind_eq_bind, Option.bind_some]
  rw [recipientsField (o := o.sub 2) m.recipients
      (by simp only [fieldVals_append, j1, d1]; look) h.recipients]
  have hbv : fieldVals c!"body" (jwmEntries (o.sub 0) m.jwm ++ (didcommEntries (o.sub 1) m.didcomm ++
    (optE c!"recipients" (fun l => Json.arr (encList encRecipient (o.sub 2) l)) m.recipients ++
      ((c!"body", m.body) ::
        vecE c!"attachments" (fun l => Json.arr (l.map encAttachment)) m.attachments)))) = [m.body] := by
    simp only [fieldVals_append, j2, d2]; look
  cases hb : toValue F 1 m.body with
  | none => simp [reqField, hbv, hb]
  | some b =>
  rw [reqField_of (v := m.body) (a := b) hbv hb,
    dfltField_vecE (e := fun l => .arr (l.map encAttachment)) m.attachments
      (by simp only [fieldVals_append, j3, d3]; look)
      (by simp only [decVec]; exact decAll_map _ (fun _ _ => decAttachment_enc _))]
  have hrest : (jwmEntries (o.sub 0) m.jwm ++ (didcommEntries (o.sub 1) m.didcomm ++
    (optE c!"recipients" (fun l => Json.arr (encList encRecipient (o.sub 2) l)) m.recipients ++
      ((c!"body", m.body) ::
        vecE c!"attachments" (fun l => Json.arr (l.map encAttachment)) m.attachments)))).filter
      (fun p => !messageKeys.contains p.1) =
      jwmEntries (o.sub 0) m.jwm ++ didcommEntries (o.sub 1) m.didcomm := by
    simp only [List.filter_append]
    rw [filter_keys_self (es := jwmEntries (o.sub 0) m.jwm) (fun p hp hk => by
        have h1 := keys_jwm hp
        generalize p.1 = k at h1 hk
        revert k; decide),
      filter_keys_self (es := didcommEntries (o.sub 1) m.didcomm)
        (fun p hp => keys_didcomm_not (h.other.sub (by decide)) (by decide) hp),
      filter_optE (by decide), filter_cons_in (by decide), filter_vecE (by decide)]
    simp
  rw [hrest, buffered_nice (niceM_append (niceM_jwm (o.sub 0) m.jwm) (niceM_didcomm (o.sub 1) m.didcomm))
    (by omega)]
  have hdj : ∀ k ∈ jwmKeys, fieldVals k (didcommEntries (o.sub 1) m.didcomm) = [] := by
    intro k hk
    apply fieldVals_none
    intro p hp he
    exact keys_didcomm_not (ks := jwmKeys) (h.other.sub (by decide)) (by decide) hp (he ▸ hk)
  rw [decJwmE_append h.jwm hdj]
  have hrest2 : (jwmEntries (o.sub 0) m.jwm ++ didcommEntries (o.sub 1) m.didcomm).filter
      (fun p => !jwmKeys.contains p.1) = didcommEntries (o.sub 1) m.didcomm := by
    rw [List.filter_append, filter_keys_nil (fun p hp => keys_jwm hp),
      filter_keys_self (fun p hp => keys_didcomm_not (h.other.sub (by decide)) (by decide) hp)]
    rfl
  simp only [hrest2, decDidcommE_enc (o := o.sub 1) (h.other.sub (ks' := didcommKeys) (by decide)) hto]
  simp [guard]

/-- What was read has these properties. -/
theorem decMessage_parts {F : Str → Option Str} (hF : ∀ t u, F t = some u → NumTok u) {j : Json} {m : Message}
    (h : decMessage F j = some m) (hn : NumsOk j) : m.Parts := by
  refine ⟨?_, decMessage_avoids h, ?_, decMessage_nums hF h hn⟩
  all_goals
    simp only [decMessage, Option.bind_eq_bind, Option.bind_eq_some_iff, Option.pure_def,
      Option.some.injEq] at h
    obtain ⟨es, hes, rs, hrs, body, hb, atts, -, -, -, jwm, hjwm, dc, hdc, rfl⟩ := h
  · exact decJwmE_wf hjwm
  · exact decRecipients_wf hrs

/-- Reading a written message, in every order the same. -/
theorem decMessage_order {F : Str → Option Str} {m : Message} (h : m.Parts) (o o' : HOrd) :
    decMessage F (encMessage o m) = decMessage F (encMessage o' m) := by
  by_cases hto : m.didcomm.to = []
  · have key : ∀ o, decMessage F (encMessage o m) = none := by
      intro o
      have := ofText_no_to (P := { (toy fun _ => none) with f64 := F }) o h.nums (h.other _ (by decide)) hto
      simpa only [Message.ofText, parse_message o h.nums] using this
    rw [key, key]
  · rw [decMessage_enc_parts o h hto, decMessage_enc_parts o' h hto]

theorem ofText_order {F : Str → Option Str} {m : Message} (h : m.Parts) (o o' : HOrd) :
    Message.ofText F (m.text o) = Message.ofText F (m.text o') := by
  simp only [Message.ofText, parse_message o h.nums, parse_message o' h.nums]
  exact decMessage_order h o o'

/-- Custom members of a written message, in every order the same. -/
theorem fieldVals_order {m : Message} (o o' : HOrd) {es es' : List (Str × Json)} (he : encMessage o m = .obj es)
    (he' : encMessage o' m = .obj es') {k : Str} (hk : k ∉ reservedKeys) :
    fieldVals k es = fieldVals k es' := by
  cases hg : m.didcomm.other.get k with
  | none => rw [fieldVals_message o hk hg es he, fieldVals_message o' hk hg es' he']
  | some v => rw [fieldVals_message_custom o hk hg he, fieldVals_message_custom o' hk hg he']

theorem messageType_order {P : Prims} {m : Message} (h : m.Parts) (o o' : HOrd) :
    Message.messageType P (m.text o) = Message.messageType P (m.text o') := by
  have hf := fun k (hk : k ∈ classKeys) => fieldVals_order (m := m) o o' rfl rfl (classKeys_reserved k hk)
  simp only [Message.messageType, parse_message o h.nums, parse_message o' h.nums, ofText_order h o o']
  simp only [encMessage, structEntries, Message.presence, optField, Res.ofOpt_some, Res.bind_ok]
  rw [hf c!"signature" (by decide), hf c!"signatures" (by decide), hf c!"iv" (by decide)]

theorem buffered_body {F : Str → Option Str} (o : HOrd) (m : Message) :
    buffered F ((jwmEntries (o.sub 0) m.jwm ++ (didcommEntries (o.sub 1) m.didcomm ++
    (optE c!"recipients" (fun l => Json.arr (encList encRecipient (o.sub 2) l)) m.recipients ++
      ((c!"body", m.body) ::
        vecE c!"attachments" (fun l => Json.arr (l.map encAttachment)) m.attachments)))).filter
      (fun p => !jwsKeys.contains p.1)) = (toValue F 1 m.body).isSome := by
  have hb := niceM_message (F := F) o (m := { m with body := .null }) (n := 126) (by omega) (nice_null _)
  have hq : ∀ p ∈ jwmEntries (o.sub 0) m.jwm ++ (didcommEntries (o.sub 1) m.didcomm ++
    (optE c!"recipients" (fun l => Json.arr (encList encRecipient (o.sub 2) l)) m.recipients ++
        vecE c!"attachments" (fun l => Json.arr (l.map encAttachment)) m.attachments)),
      (toValue F 1 p.2).isSome := by
    intro p hp
    refine toValue_nice (n := 126) (hb p ?_) (by omega)
    simp only [List.mem_append, List.mem_cons] at hp ⊢
    rcases hp with hp | hp | hp | hp
    · exact .inl hp
    · exact .inr (.inl hp)
    · exact .inr (.inr (.inl hp))
    · exact .inr (.inr (.inr (.inr hp)))
  unfold buffered
  rw [Bool.eq_iff_iff, List.all_eq_true]
  constructor
  · intro h
    exact h (c!"body", m.body) (List.mem_filter.2 ⟨by simp, by
      show (!jwsKeys.contains c!"body") = true
      decide⟩)
  · intro h p hp
    have hp := (List.mem_filter.1 hp).1
    simp only [List.mem_append, List.mem_cons] at hp
    rcases hp with hp | hp | hp | rfl | hp
    · exact hq p (by simp [hp])
    · exact hq p (by simp [hp])
    · exact hq p (by simp [hp])
    · exact h
    · exact hq p (by simp [hp])

/-- A written message read as a JWS (custom headers could make it look like one), in every order the
same. -/
theorem decJws_order {F : Str → Option Str} (m : Message) (o o' : HOrd) :
    decJws F (encMessage o m) = decJws F (encMessage o' m) := by
  have hf := fun k (hk : k ∉ reservedKeys) => fieldVals_order (m := m) o o' rfl rfl hk
  have key : ∀ (es es' : List (Str × Json)), (∀ k, k ∉ reservedKeys → fieldVals k es = fieldVals k es') →
      buffered F (es.filter fun p => !jwsKeys.contains p.1) = buffered F (es'.filter fun p => !jwsKeys.contains p.1) →
      decJws F (.obj es) = decJws F (.obj es') := by
    intro es es' h hb
    have hr : ∀ k, k ∉ reservedKeys → k ∉ jwsKeys → fieldVals k (es.filter fun p => !jwsKeys.contains p.1) =
        fieldVals k (es'.filter fun p => !jwsKeys.contains p.1) := by
      intro k hk hk'
      rw [fieldVals_filter_keys hk', fieldVals_filter_keys hk', h k hk]
    have hs : decSignatureE (es.filter fun p => !jwsKeys.contains p.1) =
        decSignatureE (es'.filter fun p => !jwsKeys.contains p.1) := by
      simp only [decSignatureE, dfltField, optField]
      rw [hr c!"protected" (by decide) (by decide), hr c!"header" (by decide) (by decide),
        hr c!"signature" (by decide) (by decide)]
    simp only [decJws, mapEntries, Option.bind_eq_bind, Option.bind_some, hb, hs, reqField, optField]
    rw [h c!"payload" (by decide), h c!"signatures" (by decide)]
  exact key _ _ (fun k hk => hf k hk) (by rw [buffered_body, buffered_body])

theorem jws_ofText_order {F : Str → Option Str} {m : Message} (h : m.Parts) (o o' : HOrd) :
    Jws.ofText F (m.text o) = Jws.ofText F (m.text o') := by
  simp only [Message.text]
  rw [jws_ofText_print (nums_message o h.nums), jws_ofText_print (nums_message o' h.nums)]
  exact decJws_order m o o'

end Verif
