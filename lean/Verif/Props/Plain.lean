import Verif.Lemma.Decode
import Verif.Lemma.Denotes
import Verif.Model.Secure
import Verif.Model.Attachment
import Verif.Spec.Prims

/-!
# Plain messages

C04 – C07, C35, C36.
-/

namespace Verif

open Spec

/-! ## C04: body -/

/-- C04.  Setting the body succeeds exactly for the JSON documents of at most 127 levels whose numbers
are in range; it stores the value the document denotes and changes nothing else. -/
theorem C04_set_body (P : Prims) (m m' : Message) (text : Str) :
    m.setBody P text = .ok m' ↔
      ∃ j v, Document j text ∧ j.depth ≤ 127 ∧ Denotes P.f64 j v ∧ m' = { m with body := v } := by
  simp only [Message.setBody, Res.bind_eq_ok, Res.ofOpt_eq_ok, Res.pure_eq, Res.ok.injEq,
    Message.valueOfText, Option.bind_eq_some_iff, parseJson_iff, toValue]
  constructor
  · rintro ⟨v, ⟨j, hj, hv⟩, rfl⟩
    split at hv
    · rename_i hd
      exact ⟨j, v, hj, by omega, normJ_iff.1 hv, rfl⟩
    · cases hv
  · rintro ⟨j, v, hj, hd, hv, rfl⟩
    refine ⟨v, ⟨j, hj, ?_⟩, rfl⟩
    rw [if_pos (by omega)]
    exact normJ_iff.2 hv

/-- C04.  It never panics, and every failure is a serde error. -/
theorem C04_set_body_error (P : Prims) (m : Message) (text : Str)
    (h : ∀ m', m.setBody P text ≠ .ok m') : m.setBody P text = .err .serde := by
  cases hv : Message.valueOfText P.f64 text with
  | none => simp [Message.setBody, hv]
  | some v => exact absurd (by simp [Message.setBody, hv]) (h { m with body := v })

/-- C04.  `m.body(m.get_body()?)` is `m`, for every body that is a value. -/
theorem C04_get_set (P : Prims) (m : Message) (hc : Canon P.f64 m.body) (hn : NumsOk m.body)
    (hd : m.body.depth ≤ 127) : (m.getBody >>= fun t => m.setBody P t) = .ok m := by
  simp only [Message.getBody, Res.bind_ok, Message.setBody, Message.valueOfText]
  rw [parseJson_print hn, Option.bind_some, toValue, if_pos (by omega), normJ_canon hc]
  rfl

/-- C04.  A body that was set is stable: getting it and setting it again changes nothing. -/
theorem C04_set_get_set (P : Prims) (hP : Laws P) (m m' : Message) (text : Str)
    (h : m.setBody P text = .ok m') (hs : NumsStable P.f64 m'.body) :
    (m'.getBody >>= fun t => m'.setBody P t) = .ok m' := by
  simp only [Message.setBody, Res.bind_eq_ok, Res.ofOpt_eq_ok, Res.pure_eq, Res.ok.injEq,
    Message.valueOfText, Option.bind_eq_some_iff, toValue] at h
  obtain ⟨v, ⟨j, hj, hv⟩, rfl⟩ := h
  split at hv
  · rename_i hd
    have hF : ∀ t u, P.f64 t = some u → NumTok u := fun _ _ => hP.f64_tok
    have := normJ_depth hF hv
    exact C04_get_set P _ (normJ_canonical hF hv hs) (normJ_numsOk hF hv (parseJson_numsOk hj))
      (by show v.depth ≤ 127; omega)
  · cases hv

/-- A concrete case: duplicate and unordered members, white space. -/
example : (Message.new c!"1").setBody (toy fun _ => none) c!"{ \"b\":1, \"a\":[true,0.5], \"b\":2 }" =
    .ok { Message.new c!"1" with
      body := .obj [(c!"a", .arr [.bool true, .num c!"0.5"]), (c!"b", .num c!"2")] } := by
  decide +kernel

/-! ## Reading the members that decide the classification -/

/-- The names looked at by the classification. -/
def classKeys : List Str := [c!"signature", c!"signatures", c!"iv"]

theorem presence_absent {k : Str} {es : List (Str × Json)} (h : fieldVals k es = []) :
    Message.presence k es = some false := by
  simp [Message.presence, optField, h]

theorem messageType_obj (P : Prims) {s : Str} {es : List (Str × Json)}
    (hs : parseJson s = some (.obj es)) {a b c : Bool}
    (h1 : Message.presence c!"signature" es = some a)
    (h2 : Message.presence c!"signatures" es = some b)
    (h3 : Message.presence c!"iv" es = some c) :
    Message.messageType P s =
      if c then .ok .jwe else if b || a then .ok .jws else
        match decMessage P.f64 (.obj es) with
        | some m => .ok m.jwm.typ
        | none => .err .serde := by
  simp only [Message.messageType, hs, structEntries, h1, h2, h3, Res.ofOpt_some, Res.bind_ok,
    Res.pure_eq, Message.ofText]
  cases c
  · cases b <;> cases a <;> simp
    cases decMessage P.f64 (.obj es) <;> simp
  · simp

/-- Members of a written message with a name that is no header name. -/
theorem fieldVals_message (o : HOrd) {m : Message} {k : Str} (hk : k ∉ reservedKeys)
    (ho : m.didcomm.other.get k = none) :
    ∀ es, encMessage o m = .obj es → fieldVals k es = [] := by
  rintro es h
  simp only [encMessage, Json.obj.injEq] at h
  subst h
  apply fieldVals_none
  intro p hp he
  simp only [List.mem_append, List.mem_cons] at hp
  have hr : ∀ x, x ∈ reservedKeys → p.1 ≠ x := by rintro x hx rfl; exact hk (he ▸ hx)
  rcases hp with hp | hp | hp | hp | hp
  · have := keys_jwm hp
    exact hr p.1 (by simp [reservedKeys, this]) rfl
  · rcases keys_didcomm hp with h1 | ⟨a, h1⟩
    · exact hr p.1 (by simp [reservedKeys, h1]) rfl
    · rw [he, ho] at h1; cases h1
  · exact hr _ (by decide) (keys_optE hp)
  · exact hr c!"body" (by decide) (by rw [hp])
  · exact hr _ (by decide) (keys_vecE hp)

theorem nice_of_wf {F : Str → Option Str} (o : HOrd) {m : Message} (h : m.WF F) :
    NumsOk (encMessage o m) :=
  (nice_message (F := F) o (m := m) (n := 126) (by omega)
    ((nice_canon h.canon h.nums).mono h.depth)).2.1

theorem classKeys_reserved : ∀ k ∈ classKeys, k ∉ reservedKeys := by decide

theorem presence_message (o : HOrd) {m : Message} {k : Str} (hk : k ∈ classKeys)
    (ho : m.didcomm.other.get k = none) {es : List (Str × Json)} (he : encMessage o m = .obj es) :
    Message.presence k es = some false :=
  presence_absent (fieldVals_message o (classKeys_reserved k hk) ho es he)

theorem nums_message (o : HOrd) {m : Message} (h : NumsOk m.body) : NumsOk (encMessage o m) := by
  have hj := niceM_jwm (F := fun t => some t) (o.sub 0) m.jwm
  have hd := niceM_didcomm (F := fun t => some t) (o.sub 1) m.didcomm
  simp only [encMessage, NumsOk]
  rw [numsOkM_iff]
  intro p hp
  simp only [List.mem_append, List.mem_cons] at hp
  rcases hp with hp | hp | hp | rfl | hp
  · exact (hj p hp).2.1
  · exact (hd p hp).2.1
  · exact (niceM_optE (F := fun t => some t) (fun l _ => nice_recipients _ l) p hp).2.1
  · exact h
  · exact (niceM_vecE (F := fun t => some t) (e := fun l => .arr (l.map encAttachment))
      (nice_attachments m.attachments) p hp).2.1

theorem parse_message (o : HOrd) {m : Message} (h : NumsOk m.body) :
    parseJson (m.text o) = some (encMessage o m) := parseJson_print (nums_message o h)

/-- Classification of a written message without custom headers that look like an envelope. -/
theorem messageType_reads (P : Prims) (o : HOrd) {m : Message} {b : Json} (h : m.ReadsAs P.f64 b)
    (ha : Avoids m.didcomm.other classKeys) : Message.messageType P (m.text o) = .ok m.jwm.typ := by
  rw [messageType_obj P (parse_message o h.nums)
    (presence_message o (k := c!"signature") (by decide) (ha _ (by decide)) rfl)
    (presence_message o (k := c!"signatures") (by decide) (ha _ (by decide)) rfl)
    (presence_message o (k := c!"iv") (by decide) (ha _ (by decide)) rfl)]
  have := decMessage_reads (F := P.f64) o h
  rw [encMessage] at this
  rw [this]
  rfl

theorem messageType_text (P : Prims) (o : HOrd) {m : Message} (h : m.WF P.f64)
    (ha : Avoids m.didcomm.other classKeys) : Message.messageType P (m.text o) = .ok m.jwm.typ :=
  messageType_reads P o h.reads ha

/-! ## C05: round trip -/

/-- C05.  A plain message is received as itself, whatever keys are passed and whatever the iteration
orders are.  (The two flags that choose the flat serialization are not part of the text.) -/
theorem C05_plain_roundtrip (P : Prims) (o o' : HOrd) (m : Message) (hm : m.WF P.f64)
    (ha : Avoids m.didcomm.other classKeys) (h1 : m.jwm.typ ≠ .jwe) (h2 : m.jwm.typ ≠ .jws)
    (sk ek vk : Option Bytes) :
    (m.asRawJson o >>= fun t => Message.receive P o' t sk ek vk) =
      .ok { m with flatJwe := false, flatJws := false } := by
  simp only [Message.asRawJson, Res.bind_ok, Message.receive, Message.decryptStep,
    Message.verifyStep, messageType_text P o hm ha, h1, h2,
    if_false, ofText_text o hm, Res.ofOpt_some]

/-- A message with every kind of content that meets the hypotheses. -/
def richMessage : Message :=
  { Message.new c!"id1" with
    didcomm := { DidCommHeader.new c!"id1" with
      thid := some c!"t", to := [c!"did:a:b", c!"did:c:d"], «from» := some c!"did:e:f",
      createdTime := some 7, fromPrior := some { sub := none, iss := c!"did:x:y" },
      thread := some (Thread.effectiveImplicitReply c!"t" c!"did:a:b"),
      other := HMap.ofList [(c!"x", c!"\"\n"), (c!"lang", c!"de")] }
    body := .obj [(c!"a", .arr [.null, .num c!"1"]), (c!"b", .obj [])]
    attachments := [{ Attachment.dflt with id := some c!"1", byteCount := some 3 }] }

theorem richMessage_wf (F : Str → Option Str) : richMessage.WF F where
  jwm := ⟨fun k h => by simp [richMessage, Message.new, JwmHeader.dflt] at h,
    fun k h => by simp [richMessage, Message.new, JwmHeader.dflt] at h⟩
  other := by decide
  to := by decide
  recipients := by intro l h; cases h
  canon := by
    refine ⟨⟨by decide, by decide, trivial⟩, ?_, ⟨trivial, trivial⟩, trivial⟩
    refine ⟨trivial, ?_, trivial⟩
    show normNum F c!"1" = _
    rfl
  nums := by
    refine ⟨⟨trivial, ?_, trivial⟩, trivial, trivial⟩
    exact numTok_natDec 1
  depth := by decide

example : Avoids richMessage.didcomm.other classKeys ∧ richMessage.jwm.typ = .raw := by decide

/-! ## C06: messages that cannot be received -/

theorem receive_not_classified (P : Prims) (o o' : HOrd) (m : Message) (hn : NumsOk m.body)
    (ha : Avoids m.didcomm.other classKeys) (hd : decMessage P.f64 (encMessage o m) = none)
    (sk ek vk : Option Bytes) : Message.receive P o' (m.text o) sk ek vk = .err .serde := by
  have := messageType_obj P (parse_message o hn)
    (presence_message o (k := c!"signature") (by decide) (ha _ (by decide)) rfl)
    (presence_message o (k := c!"signatures") (by decide) (ha _ (by decide)) rfl)
    (presence_message o (k := c!"iv") (by decide) (ha _ (by decide)) rfl)
  rw [encMessage] at hd
  rw [hd] at this
  simp only [Message.receive, Message.decryptStep, Message.text, encMessage] at this ⊢
  rw [this]
  rfl

theorem reqField_none {α : Type} {d : Json → Option α} {k : Str} {es : List (Str × Json)}
    (h : (fieldVals k es).length ≠ 1) : reqField d k es = none := by
  unfold reqField
  split
  · rename_i h'; rw [h'] at h; exact absurd rfl h
  · rfl

theorem decDidcommE_none {es : List (Str × Json)} {k : Str} (hk : k ∈ [c!"id", c!"type", c!"to"])
    (h : (fieldVals k es).length ≠ 1) : decDidcommE es = none := by
  simp only [List.mem_cons, List.not_mem_nil, or_false] at hk
  cases hd : decDidcommE es with
  | none => rfl
  | some d =>
    simp only [decDidcommE, Option.bind_eq_bind, Option.bind_eq_some_iff] at hd
    obtain ⟨_, h1, _, -, _, -, _, h2, _, h3, -⟩ := hd
    rcases hk with rfl | rfl | rfl
    · rw [reqField_none h] at h1; cases h1
    · rw [reqField_none h] at h2; cases h2
    · rw [reqField_none h] at h3; cases h3

theorem fieldVals_filter_keys {ks : List Str} {k : Str} (hk : k ∉ ks) (es : List (Str × Json)) :
    fieldVals k (es.filter fun p => !ks.contains p.1) = fieldVals k es :=
  fieldVals_filter es (fun v => by simpa using hk)

theorem decMessage_none {F : Str → Option Str} {es : List (Str × Json)} {k : Str}
    (hk : k ∈ [c!"id", c!"type", c!"to"]) (h : (fieldVals k es).length ≠ 1) :
    decMessage F (.obj es) = none := by
  cases hd : decMessage F (.obj es) with
  | none => rfl
  | some d =>
    simp only [decMessage, mapEntries, Option.bind_eq_bind, Option.bind_eq_some_iff,
      Option.some.injEq, exists_eq_left'] at hd
    obtain ⟨_, -, _, -, _, -, _, -, _, -, _, hd, -⟩ := hd
    rw [decDidcommE_none hk] at hd
    · cases hd
    · rw [fieldVals_filter_keys, fieldVals_filter_keys]
      · exact h
      · simp only [List.mem_cons, List.not_mem_nil, or_false] at hk
        rcases hk with rfl | rfl | rfl <;> decide
      · simp only [List.mem_cons, List.not_mem_nil, or_false] at hk
        rcases hk with rfl | rfl | rfl <;> decide

theorem no_to (o : HOrd) {m : Message} (hto : m.didcomm.to = []) (ha : m.didcomm.other.get c!"to" = none) :
    (fieldVals c!"to" (jwmEntries (o.sub 0) m.jwm ++ (didcommEntries (o.sub 1) m.didcomm ++
      (optE c!"recipients" (fun l => .arr (encList encRecipient (o.sub 2) l)) m.recipients ++
        ((c!"body", m.body) ::
          vecE c!"attachments" (fun l => .arr (l.map encAttachment)) m.attachments))))).length ≠ 1 := by
  have hj : fieldVals c!"to" (jwmEntries (o.sub 0) m.jwm) = [] := by
    apply fieldVals_none
    intro p hp he
    have := keys_jwm hp
    rw [he] at this
    revert this; decide
  have hm : fieldVals c!"to" (mapE ((o.sub 1).sub 1) Json.str m.didcomm.other) = [] :=
    fieldVals_mapE ha
  have ha := fieldVals_vecE_ne (k := c!"to") (k' := c!"attachments") (by decide)
    (fun l => Json.arr (l.map encAttachment)) m.attachments
  generalize hv : vecE c!"attachments" (fun l => Json.arr (l.map encAttachment)) m.attachments = x at ha
  simp only [fieldVals_append, hj, didcommEntries, hto]
  simp [vecE, fieldVals_cons_ne, fieldVals_append, fieldVals_optE_ne, hm, ha]

theorem read_body {F : Str → Option Str} {o : HOrd} {m m' : Message} (ha : Avoids m.didcomm.other reservedKeys)
    (hm : decMessage F (encMessage o m) = some m') : m.body.depth ≤ 126 ∧ ∃ b, normJ F m.body = some b := by
  simp only [decMessage, encMessage, mapEntries, Option.bind_eq_bind, Option.bind_eq_some_iff,
    Option.some.injEq, exists_eq_left'] at hm
  obtain ⟨_, -, b, hb, -⟩ := hm
  obtain ⟨v, hv, hvb⟩ := reqField_some hb
  unfold toValue at hvb
  split at hvb
  · rename_i hle
    have : v = m.body := by
      simp only [List.mem_append, List.mem_cons] at hv
      rcases hv with hv | hv | hv | hv | hv
      · exact absurd (keys_jwm hv) (by show c!"body" ∉ jwmKeys; decide)
      · exact absurd hv (fun h => keys_didcomm_not (ks := [c!"body"]) (ha.sub (by decide))
          (by decide) h (by simp))
      · exact absurd (keys_optE hv) (by show c!"body" ≠ _; decide)
      · exact (Prod.mk.inj hv).2
      · exact absurd (keys_vecE hv) (by show c!"body" ≠ _; decide)
    subst this
    exact ⟨by omega, b, hvb⟩
  · cases hvb

/-- C06 fails: a message without recipients is written but never received. -/
theorem C06_empty_to_violated (P : Prims) (o o' : HOrd) (m : Message) (hn : NumsOk m.body)
    (ha : Avoids m.didcomm.other (c!"to" :: classKeys)) (hto : m.didcomm.to = [])
    (sk ek vk : Option Bytes) :
    ∃ t, m.asRawJson o = .ok t ∧ Message.receive P o' t sk ek vk = .err .serde := by
  refine ⟨_, rfl, receive_not_classified P o o' m hn (ha.sub (by decide)) ?_ sk ek vk⟩
  exact decMessage_none (k := c!"to") (by decide) (no_to o hto (ha _ (by decide)))

/-- C06 fails: a message with a custom header named `id` or `type` is written but never received. -/
theorem C06_clashing_header_violated (P : Prims) (o o' : HOrd) (m : Message) (hn : NumsOk m.body)
    (ha : Avoids m.didcomm.other classKeys) (k v : Str) (hk : k ∈ [c!"id", c!"type"])
    (hv : m.didcomm.other.get k = some v) (sk ek vk : Option Bytes) :
    ∃ t, m.asRawJson o = .ok t ∧ Message.receive P o' t sk ek vk = .err .serde := by
  refine ⟨_, rfl, receive_not_classified P o o' m hn ha ?_ sk ek vk⟩
  have hin : (Json.str v) ∈ fieldVals k (mapE ((o.sub 1).sub 1) Json.str m.didcomm.other) := by
    rw [mem_fieldVals, mem_mapE]
    exact ⟨v, HMap.mem_entries.2 hv, rfl⟩
  have hpos : 1 ≤ (fieldVals k (mapE ((o.sub 1).sub 1) Json.str m.didcomm.other)).length :=
    List.length_pos_of_mem hin
  apply decMessage_none (k := k)
  · simp only [List.mem_cons, List.not_mem_nil, or_false] at hk ⊢
    rcases hk with rfl | rfl <;> simp
  · simp only [List.mem_cons, List.not_mem_nil, or_false] at hk
    simp only [fieldVals_append, didcommEntries, List.length_append]
    rcases hk with rfl | rfl
    · simp only [fieldVals_append, fieldVals_cons_self, List.length_append, List.length_cons]
      rw [fieldVals_cons_ne (k' := c!"type") (by decide)]
      simp only [fieldVals_append, List.length_append]
      rw [fieldVals_cons_ne (k' := c!"from") (by decide)]
      simp only [fieldVals_append, List.length_append]
      omega
    · rw [fieldVals_cons_ne (by decide)]
      simp only [fieldVals_append, fieldVals_cons_self, List.length_append, List.length_cons]
      rw [fieldVals_cons_ne (by decide)]
      simp only [fieldVals_append, List.length_append]
      omega

/-- C06 fails: a body nested 127 levels deep can be set and written but not received. -/
theorem C06_deep_body_violated (P : Prims) (o o' : HOrd) (m : Message) (hn : NumsOk m.body)
    (ha : Avoids m.didcomm.other (c!"body" :: classKeys)) (hd : 127 ≤ m.body.depth)
    (sk ek vk : Option Bytes) :
    ∃ t, m.asRawJson o = .ok t ∧ Message.receive P o' t sk ek vk = .err .serde := by
  refine ⟨_, rfl, receive_not_classified P o o' m hn (ha.sub (by decide)) ?_ sk ek vk⟩
  cases hm : decMessage P.f64 (encMessage o m) with
  | none => rfl
  | some m' =>
    exfalso
    simp only [decMessage, encMessage, mapEntries, Option.bind_eq_bind, Option.bind_eq_some_iff,
      Option.some.injEq, exists_eq_left'] at hm
    obtain ⟨_, -, b, hb, -⟩ := hm
    obtain ⟨v, hv, hvb⟩ := reqField_some hb
    unfold toValue at hvb
    split at hvb
    · rename_i hle
      have : v = m.body := by
        simp only [List.mem_append, List.mem_cons] at hv
        rcases hv with hv | hv | hv | hv | hv
        · exact absurd (keys_jwm hv) (by show c!"body" ∉ jwmKeys; decide)
        · exact absurd hv (fun h => keys_didcomm_not (ks := [c!"body"]) (ha.sub (by decide))
            (by decide) h (by simp))
        · exact absurd (keys_optE hv) (by show c!"body" ≠ _; decide)
        · exact (Prod.mk.inj hv).2
        · exact absurd (keys_vecE hv) (by show c!"body" ≠ _; decide)
      rw [this] at hle
      omega
    · cases hvb

/-- Members named `iv` of a written message come from the custom headers. -/
theorem iv_of_message (o : HOrd) {m : Message} {es : List (Str × Json)}
    (he : encMessage o m = .obj es) {x : Json} :
    (c!"iv", x) ∈ es ↔ ∃ v, m.didcomm.other.get c!"iv" = some v ∧ x = .str v := by
  simp only [encMessage, Json.obj.injEq] at he
  subst he
  simp only [List.mem_append, List.mem_cons]
  constructor
  · rintro (hv | hv | hv | hv | hv)
    · exact absurd (keys_jwm hv) (by show c!"iv" ∉ jwmKeys; decide)
    · simp only [didcommEntries, List.mem_cons, List.mem_append] at hv
      rcases hv with h | h | h | h | h | h | h | h | h | h | h
      · exact absurd (Prod.mk.inj h).1 (by decide)
      · exact absurd (keys_optE h) (by show c!"iv" ≠ _; decide)
      · exact absurd (keys_optE h) (by show c!"iv" ≠ _; decide)
      · exact absurd (Prod.mk.inj h).1 (by decide)
      · exact absurd (keys_vecE h) (by show c!"iv" ≠ _; decide)
      · exact absurd (Prod.mk.inj h).1 (by decide)
      · exact absurd (keys_optE h) (by show c!"iv" ≠ _; decide)
      · exact absurd (keys_optE h) (by show c!"iv" ≠ _; decide)
      · exact absurd (keys_optE h) (by show c!"iv" ≠ _; decide)
      · exact absurd (keys_optE h) (by show c!"iv" ≠ _; decide)
      · obtain ⟨a, h1, h2⟩ := mem_mapE.1 h
        exact ⟨a, HMap.mem_entries.1 h1, h2⟩
    · exact absurd (keys_optE hv) (by show c!"iv" ≠ _; decide)
    · exact absurd (Prod.mk.inj hv).1 (by decide)
    · exact absurd (keys_vecE hv) (by show c!"iv" ≠ _; decide)
  · rintro ⟨v, hv, rfl⟩
    refine .inr (.inl ?_)
    have : (c!"iv", Json.str v) ∈ mapE ((o.sub 1).sub 1) Json.str m.didcomm.other := by
      rw [mem_mapE]
      exact ⟨v, HMap.mem_entries.2 hv, rfl⟩
    simp [didcommEntries, this]

theorem presence_true {k : Str} {es : List (Str × Json)} {b : Bool}
    (h : ∀ x, (k, x) ∈ es → x ≠ .null) (he : ∃ x, (k, x) ∈ es)
    (hb : Message.presence k es = some b) : b = true := by
  unfold Message.presence optField at hb
  split at hb
  · rename_i hnil
    obtain ⟨x, hx⟩ := he
    rw [← mem_fieldVals, hnil] at hx
    cases hx
  · rename_i x hx
    have hxs : x ≠ .null := h x (mem_fieldVals.1 (by rw [hx]; simp))
    cases x <;> simp_all [decOpt]
  · cases hb

/-- C06 fails: a message with a custom header named `iv` is taken for an encrypted one. -/
theorem C06_iv_header_violated (P : Prims) (o o' : HOrd) (m : Message) (hn : NumsOk m.body)
    (v : Str) (hv : m.didcomm.other.get c!"iv" = some v) (ek vk : Option Bytes) :
    ∃ t, m.asRawJson o = .ok t ∧ ∀ r, Message.receive P o' t none ek vk ≠ .ok r := by
  refine ⟨_, rfl, ?_⟩
  intro r hr
  simp only [Message.receive, Message.decryptStep, Res.bind_eq_ok] at hr
  obtain ⟨cur, ⟨t, ht, hc⟩, -⟩ := hr
  have hparse := parse_message o hn
  have htj : t = .jwe := by
    simp only [Message.messageType, hparse, Res.bind_eq_ok, Res.ofOpt_eq_ok, Option.some.injEq,
      exists_eq_left'] at ht
    obtain ⟨es, hes, _, -, _, -, b, hb, ht⟩ := ht
    have he : encMessage o m = .obj es := by
      simp only [encMessage, structEntries, Option.some.injEq] at hes ⊢
      rw [hes]
    have : b = true := presence_true (fun x hx => by
      obtain ⟨w, -, rfl⟩ := (iv_of_message o he).1 hx; simp)
      ⟨_, (iv_of_message o he).2 ⟨v, hv, rfl⟩⟩ hb
    subst this
    simpa using ht.symm
  subst htj
  simp at hc

/-- Instances of the violations. -/
example : Avoids ((Message.new c!"1").addTo []).didcomm.other (c!"to" :: classKeys) ∧
    ((Message.new c!"1").addTo []).didcomm.to = [] := by decide

/-- C06, what holds: messages that avoid these cases are received (see `C05_plain_roundtrip`); the
parts a message is built from by `Message::new` and the setters of single headers are fine. -/
theorem C06_plain_roundtrip_partial (P : Prims) (o o' : HOrd) (m : Message) (hm : m.WF P.f64)
    (ha : Avoids m.didcomm.other classKeys) (h1 : m.jwm.typ ≠ .jwe) (h2 : m.jwm.typ ≠ .jws)
    (hf : m.flatJwe = false ∧ m.flatJws = false) (sk ek vk : Option Bytes) :
    (m.asRawJson o >>= fun t => Message.receive P o' t sk ek vk) = .ok m := by
  rw [C05_plain_roundtrip P o o' m hm ha h1 h2]
  obtain ⟨a, b⟩ := hf
  cases m; simp_all

/-- C06, exactly: what is written of a message whose custom headers have names of their own is read if and only if it has
a recipient, the body is nested at most 126 levels deep and its numbers are in range; it is read as the message with the
value of the body as printed. -/
theorem C06_written_iff (F : Str → Option Str) (o : HOrd) (m x : Message) (hj : m.jwm.WF)
    (ho : Avoids m.didcomm.other reservedKeys) (hr : RecipientsWF m.recipients) (hn : NumsOk m.body) :
    Message.ofText F (m.text o) = some x ↔ m.didcomm.to ≠ [] ∧ m.body.depth ≤ 126 ∧ ∃ b, Denotes F m.body b ∧
      x = { m with body := b, flatJwe := false, flatJws := false } := by
  constructor
  · intro h
    have hd : decMessage F (encMessage o m) = some x := by
      unfold Message.ofText at h
      rw [parse_message o hn] at h
      exact h
    have hto : m.didcomm.to ≠ [] := by
      intro hto
      rw [show decMessage F (encMessage o m) = none from
        decMessage_none (k := c!"to") (by decide) (no_to o hto (ho _ (by decide)))] at hd
      cases hd
    obtain ⟨hdep, b, hb⟩ := read_body ho hd
    have hx := ofText_reads o ⟨hj, ho, hto, hr, hb, hn, hdep⟩
    rw [h] at hx
    exact ⟨hto, hdep, b, normJ_iff.1 hb, Option.some.inj hx⟩
  · rintro ⟨h1, h2, b, hb, rfl⟩
    exact ofText_reads o ⟨hj, ho, h1, hr, normJ_iff.2 hb, hn, h2⟩

/-! ## C07: stability -/

/-- C07.  A message read from any text can be written and read again without change, for all
iteration orders; its numbers have to be printed in a form that reads back as itself. -/
theorem C07_reload (P : Prims) (hP : Laws P) (o : HOrd) (b : Bytes) (m : Message)
    (h : Message.receiveExternalCrypto P b = .ok m) (hto : m.didcomm.to ≠ [])
    (hs : NumsStable P.f64 m.body) :
    Message.receiveExternalCrypto P (utf8 (m.text o)) = .ok m := by
  simp only [Message.receiveExternalCrypto, Message.ofBytes, Res.ofOpt_eq_ok,
    Option.bind_eq_some_iff] at h ⊢
  obtain ⟨j, hj, hm⟩ := h
  have hjn : NumsOk j := by
    unfold parseBytes at hj
    split at hj
    · exact parseJson_numsOk hj
    · cases hj
  obtain ⟨hw, h1, h2⟩ := decMessage_wf (fun _ _ => hP.f64_tok) hm hjn hto hs
  refine ⟨encMessage o m, parseBytes_print (nums_message o hw.nums), ?_⟩
  rw [decMessage_enc o hw]
  cases m; simp_all

/-- C07.  The same for messages that come out of `receive`, whatever the input was. -/
theorem C07_reload_received (P : Prims) (hP : Laws P) (o o' : HOrd) (s : Str)
    (sk ek vk : Option Bytes) (m : Message) (h : Message.receive P o' s sk ek vk = .ok m)
    (hto : m.didcomm.to ≠ []) (hs : NumsStable P.f64 m.body) :
    Message.ofText P.f64 (m.text o) = some m := by
  simp only [Message.receive, Res.bind_eq_ok, Res.ofOpt_eq_ok] at h
  obtain ⟨_, -, cur, -, hm⟩ := h
  obtain ⟨hw, h1, h2⟩ := ofText_wf (fun _ _ => hP.f64_tok) hm hto hs
  rw [ofText_text o hw]
  cases m; simp_all

/-- `x` is what is read of `m` after it was written: the numbers of the body are those that the printed ones are
read as. -/
def Spec.Reread (P : Prims) (m x : Message) : Prop :=
  m.didcomm.to ≠ [] ∧ ∃ b, Denotes P.f64 m.body b ∧ x = { m with body := b }

/-- Reading again what was written of a message that was decoded. -/
theorem reread_iff {P : Prims} (hP : Laws P) (o : HOrd) {j : Json} {m x : Message}
    (h : decMessage P.f64 j = some m) (hn : NumsOk j) :
    Message.ofText P.f64 (m.text o) = some x ↔ Spec.Reread P m x := by
  obtain ⟨h1, h2, h3, h4, h5, h6, h7, -⟩ := decMessage_decoded (fun _ _ => hP.f64_tok) h hn
  rw [C06_written_iff P.f64 o m x h1 h2 h3 h4]
  constructor
  · rintro ⟨a, -, b, c, rfl⟩
    exact ⟨a, b, c, by cases m; simp_all⟩
  · rintro ⟨a, b, c, rfl⟩
    exact ⟨a, h5, b, c, by cases m; simp_all⟩

theorem ofBytes_doc {F : Str → Option Str} {b : Bytes} {m : Message} (h : Message.ofBytes F b = some m) :
    ∃ x, NumsOk x ∧ decMessage F x = some m := by
  unfold Message.ofBytes at h
  rw [Option.bind_eq_some_iff] at h
  obtain ⟨x, hx, h⟩ := h
  refine ⟨x, ?_, h⟩
  unfold parseBytes at hx
  split at hx
  · exact parseJson_numsOk hx
  · cases hx

theorem reread_bytes {P : Prims} (hP : Laws P) (o : HOrd) {pt : Bytes} {m x : Message}
    (h : Message.ofBytes P.f64 pt = some m) :
    Message.ofText P.f64 (m.text o) = some x ↔ Spec.Reread P m x := by
  obtain ⟨j, hn, hj⟩ := ofBytes_doc h
  exact reread_iff hP o hj hn

/-- C07, exactly: a message that was read from a text is read again from what is written of it if and only if it has a
recipient and its numbers are in range as they are printed; it is read as itself but for the numbers of the body, which
are those that the printed ones are read as. -/
theorem C07_reload_iff (P : Prims) (hP : Laws P) (o : HOrd) (s : Str) (m x : Message)
    (h : Message.ofText P.f64 s = some m) :
    Message.ofText P.f64 (m.text o) = some x ↔
      m.didcomm.to ≠ [] ∧ ∃ b, Denotes P.f64 m.body b ∧ x = { m with body := b } := by
  unfold Message.ofText at h
  split at h
  · rename_i j hj
    exact reread_iff hP o h (parseJson_numsOk hj)
  · cases h

/-- C06: a message whose number is printed as `0.5` but read as `0.25` is read, with the other number. -/
example (F : Str → Option Str) (hF : normNum F c!"0.5" = some c!"0.25") (r : Message) (hw : r.WF F)
    (h1 : r.flatJwe = false) (h2 : r.flatJws = false) :
    Message.ofText F (Message.text HOrd.rev { r with body := .obj [(c!"a", .num c!"0.5")] }) =
      some { r with body := .obj [(c!"a", .num c!"0.25")] } := by
  have hd : Denotes F (.obj [(c!"a", .num c!"0.5")]) (.obj [(c!"a", .num c!"0.25")]) := by
    apply normJ_iff.1
    simp [normJ, normM, hF, entriesOf, insertEntry]
  have hn : NumsOk (.obj [(c!"a", .num c!"0.5")]) :=
    parseJson_numsOk (s := c!"{\"a\":0.5}") (by decide +kernel)
  refine (C06_written_iff F _ { r with body := .obj [(c!"a", .num c!"0.5")] } _ hw.jwm hw.other hw.recipients hn).2
    ⟨hw.to, (by show Json.depth (.obj [(c!"a", .num c!"0.5")]) ≤ 126; decide), _, hd, ?_⟩
  cases r; simp_all

/-- C07: a message that is read again. -/
example : ∃ s b, Message.ofText (toy fun _ => none).f64 s = some richMessage ∧
    Denotes (toy fun _ => none).f64 richMessage.body b ∧ richMessage.didcomm.to ≠ [] := by
  have hw := richMessage_wf (toy fun _ => none).f64
  have h := ofText_text HOrd.id hw
  obtain ⟨h1, b, h2, -⟩ := (C07_reload_iff _ (toy_laws _) HOrd.rev _ _ _ h).1 (ofText_text HOrd.rev hw)
  exact ⟨_, b, h, h2, h1⟩

end Verif
