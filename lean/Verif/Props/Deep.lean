import Verif.Props.RawReceive

/-!
# How deep a body can be

C153.
-/

namespace Verif

open Spec

variable {F : Str → Option Str}

/-- Lists in each other, `n` of them. -/
def Spec.nest : Nat → Json
  | 0 => .null
  | n + 1 => .arr [nest n]

/-- A text for `n` lists in each other that is itself not deep. -/
def Spec.nestText : Nat → Str
  | 0 => c!"null"
  | n + 1 => printJson (.arr [.obj [(rawToken, .str (nestText n))]])

theorem depth_nest : ∀ n, (nest n).depth = n
  | 0 => rfl
  | n + 1 => by simp [nest, Json.depth, Json.depth.depthL, depth_nest n, Nat.add_comm]

theorem numsOk_nest : ∀ n, NumsOk (nest n)
  | 0 => trivial
  | n + 1 => ⟨numsOk_nest n, trivial⟩

theorem noToken_nest : ∀ n, NoToken (nest n)
  | 0 => trivial
  | n + 1 => ⟨noToken_nest n, trivial⟩

theorem nestText_read : ∀ n, rawValueOfText F (nestText n) = some (nest n)
  | 0 => by
    rw [rawValueOfText, rawText, nestText, show parseJson c!"null" = some .null by decide +kernel, Option.bind_some,
      if_pos (by decide), rawJ, nest]
  | n + 1 => by
    have hp : parseJson (nestText (n + 1)) = some (.arr [.obj [(rawToken, .str (nestText n))]]) :=
      parseJson_print (j := .arr [.obj [(rawToken, .str (nestText n))]]) ⟨⟨trivial, trivial⟩, trivial⟩
    have hl : (nestText n).length < (nestText (n + 1)).length := (parseJson_strsLt hp).1.1
    unfold rawValueOfText
    rw [rawText, hp, Option.bind_some, if_pos (by simp [Json.depth, Json.depth.depthL, Json.depth.depthM])]
    simp only [rawJ, rawL, if_true]
    rw [rawText_enough (nestText n) _ ((nestText n).length + 1) hl (by omega)]
    have := nestText_read n
    unfold rawValueOfText at this
    rw [this]
    rfl

/-- C153, violated: a body can be as deep as one likes, whatever the recursion limit; it is set from a text that is two levels
deep. -/
theorem C153_set_violated (P : Prims) (m : Message) (n : Nat) : ∃ t j b, parseJson t = some j ∧ j.depth ≤ 2 ∧
    m.setBodyRaw P t = .ok { m with body := b } ∧ b.depth = n := by
  refine ⟨nestText n, match n with | 0 => .null | n + 1 => .arr [.obj [(rawToken, .str (nestText n))]], nest n, ?_, ?_, ?_,
    depth_nest n⟩
  · cases n with
    | zero => exact (by decide +kernel : parseJson c!"null" = some .null)
    | succ n => exact parseJson_print (j := .arr [.obj [(rawToken, .str (nestText n))]]) ⟨⟨trivial, trivial⟩, trivial⟩
  · cases n with
    | zero => exact Nat.zero_le _
    | succ n => simp [Json.depth, Json.depth.depthL, Json.depth.depthM]
  · simp [Message.setBodyRaw, nestText_read]

/-- C153, violated: whoever receives a plain message can be given a body as deep as the sender likes. -/
theorem C153_received_violated (P : Prims) (m : Message) (hm : m.WF P.f64) (hc : Avoids m.didcomm.other classKeys)
    (h1 : m.jwm.typ ≠ .jwe) (h2 : m.jwm.typ ≠ .jws) (n : Nat) : ∃ t b, b.depth = n ∧
      ∀ o sk ek vk, Message.receiveRaw P o t sk ek vk = .ok { m with body := b, flatJwe := false, flatJws := false } := by
  refine ⟨{ m with body := .obj [(rawToken, .str (nestText n))] }.text HOrd.id, nest n, depth_nest n, ?_⟩
  intro o sk ek vk
  have hr := C150_read_violated P.f64 HOrd.id m hm (nestText n) (nest n) (nestText_read n)
  have hw : Message.WF P.f64 { m with body := .obj [(rawToken, .str (nestText n))] } :=
    ⟨hm.jwm, hm.other, hm.to, hm.recipients, ⟨⟨by simp, trivial⟩, trivial, trivial⟩, ⟨trivial, trivial⟩,
      by simp [Json.depth, Json.depth.depthM]⟩
  have ht : Message.messageTypeRaw P ({ m with body := .obj [(rawToken, .str (nestText n))] }.text HOrd.id) = .ok m.jwm.typ := by
    have := messageType_text P HOrd.id hw hc
    simp only [Message.messageType, ofText_text HOrd.id hw, Res.ofOpt_some, Res.bind_ok] at this
    simp only [Message.messageTypeRaw, hr, Res.ofOpt_some, Res.bind_ok]
    exact this
  simp only [Message.receiveRaw, Message.decryptStepRaw, Message.verifyStepRaw, ht, Res.bind_ok, h1, h2, if_false, hr,
    Res.ofOpt_some]

theorem decMessageRaw_deep {again : Str → Option Json} {es : List (Str × Json)} {v : Json}
    (hf : fieldVals c!"body" es = [v]) (hb : 126 < v.depth) : decMessageRaw F again (.obj es) = none := by
  have h2 : reqField (fun v => if 1 + v.depth ≤ 127 then rawJ F again v else none) c!"body" es = none := by
    simp only [reqField, hf]
    rw [if_neg (by omega)]
  simp only [decMessageRaw, h2, mapEntries, Option.bind_eq_bind, Option.bind_some, Option.bind_none]
  cases optField (decVec decRecipient) c!"recipients" es <;> rfl

/-- C153, violated: what was received so cannot be stored and read again. -/
theorem C153_again_violated (F : Str → Option Str) (m : Message) (ho : Avoids m.didcomm.other reservedKeys) (hn : NumsOk m.body)
    (hd : 126 < m.body.depth) (o : HOrd) : Message.ofTextRaw F (m.text o) = none := by
  unfold Message.ofTextRaw
  rw [parse_message o hn, Option.bind_some, show encMessage o m = Json.obj _ from rfl]
  exact decMessageRaw_deep (fieldVals_body_message o ho) hd

theorem messageTypeRaw_message (P : Prims) (o : HOrd) {m : Message} (hn : NumsOk m.body) (ha : Avoids m.didcomm.other classKeys) :
    Message.messageTypeRaw P (m.text o) = (Res.ofOpt .serde (Message.ofTextRaw P.f64 (m.text o)) >>= fun x => pure x.jwm.typ) := by
  have hp := parse_message o hn
  rw [show encMessage o m = Json.obj _ from rfl] at hp
  simp only [Message.messageTypeRaw, hp, structEntries, Res.ofOpt_some, Res.bind_ok,
    presence_message o (k := c!"signature") (by decide) (ha _ (by decide)) rfl,
    presence_message o (k := c!"signatures") (by decide) (ha _ (by decide)) rfl,
    presence_message o (k := c!"iv") (by decide) (ha _ (by decide)) rfl]
  rfl

/-- C153, violated: the same text in an envelope is opened by its recipients and then refused, if it is too deep.  So a body that is
received in a plain message is not received in an envelope. -/
theorem C153_sealed_violated (P : Prims) (hP : Laws P) (r : Message.SealRand) (m : Message)
    (ssk : Bytes) (keys : Option (List (Option Bytes))) (t frm : Str) (n : Nat) (hd : 126 < n)
    (hm : m.WF P.f64) (hb : m.body = .obj [(rawToken, .str (nestText n))])
    (hc : Avoids m.didcomm.other classKeys) (hf : HeaderFixed m.jwm)
    (hfrom : m.didcomm.from = some frm) (hseal : m.sealJwe P r ssk keys = .ok t) :
    ∃ j rs, Jwe.ofText P.f64 t = some j ∧ Message.recipientsOf j = some rs ∧ rs.length = m.didcomm.to.length ∧
      ∀ (i : Nat) (dest : Str) (rsk : Bytes) (ek vk : Option Bytes) (o : HOrd),
        m.didcomm.to[i]? = some dest → rsk.length = 32 →
        KeyFor P dest (Spec.keyAt keys i) (P.x25519Pub rsk) → KeyFor P frm ek (P.x25519Pub ssk) →
        (∀ x ∈ rs.take i, ∀ c, decryptCek P j rsk x ek = .ok c → c = cek) →
        Message.receiveRaw P o t (some rsk) ek vk = .err .serde := by
  obtain ⟨j, rs, o1, h1, h2, h3, h4, h5⟩ := seal_decryptedRaw hP hm.jwm hf hfrom hseal
  obtain ⟨w1, -⟩ := recipients_wf hm h4
  refine ⟨j, rs, h1, h2, h3, ?_⟩
  intro i dest rsk ek vk o hi hrk hkr hks hbe
  have hr := C150_read_violated P.f64 o1 { m with recipients := some rs } w1 (nestText n) (nest n) (nestText_read n)
  have he : ({ m with recipients := some rs } : Message) =
      { m with recipients := some rs, body := .obj [(rawToken, .str (nestText n))] } := by rw [← hb]
  unfold Message.receiveRaw
  rw [h5 i dest rsk ek (o.sub 0) hi hrk hkr hks hbe, he, hr, Res.ofOpt_some, Res.bind_ok, Res.pure_eq, Res.bind_ok]
  unfold Message.verifyStepRaw
  rw [messageTypeRaw_message P ((o.sub 0).sub 1)
      (m := { m with recipients := some rs, body := nest n, flatJwe := false, flatJws := false }) (numsOk_nest n) hc,
    C153_again_violated P.f64 { m with recipients := some rs, body := nest n, flatJwe := false, flatJws := false } hm.other
      (numsOk_nest n) (by show 126 < (nest n).depth; rw [depth_nest]; exact hd)]
  rfl

/-- C153, what holds: a body that is set from a text without the name is at most 127 levels deep. -/
theorem C153_set_partial (P : Prims) (hP : Laws P) (m m' : Message) (t : Str) (h : ∀ j, parseJson t = some j → NoToken j)
    (hs : m.setBodyRaw P t = .ok m') : m'.body.depth ≤ 127 := by
  rw [C150_set_partial P m t h] at hs
  simp only [Message.setBody, Message.valueOfText, Res.bind_eq_ok, Res.ofOpt_eq_ok, Option.bind_eq_some_iff, toValue] at hs
  obtain ⟨v, ⟨j, hj, hv⟩, e⟩ := hs
  split at hv
  · next hd =>
    rw [← Res.ok.inj e]
    exact Nat.le_trans (normJ_depth (fun _ _ => hP.f64_tok) hv) (by omega)
  · cases hv

/-- C153, what holds: a body that is read from a message without the name is at most 126 levels deep. -/
theorem C153_read_partial (P : Prims) (hP : Laws P) (m : Message) (s : Str)
    (h : ∀ es, parseJson s = some (.obj es) → ∀ v ∈ fieldVals c!"body" es, NoToken v)
    (hs : Message.ofTextRaw P.f64 s = some m) : m.body.depth ≤ 126 := by
  rw [C150_read_partial P.f64 s h] at hs
  unfold Message.ofText at hs
  split at hs
  · simp only [decMessage, Option.bind_eq_bind, Option.bind_eq_some_iff, Option.pure_def] at hs
    obtain ⟨es, hes, rs, -, b, hb, _, -, _, -, _, -, _, -, e⟩ := hs
    rw [← Option.some.inj e]
    unfold reqField at hb
    split at hb
    · unfold toValue at hb
      split at hb
      · exact Nat.le_trans (normJ_depth (fun _ _ => hP.f64_tok) hb) (by omega)
      · cases hb
    · cases hb
  · cases hs

/-- C153: a message to which the violations apply, with a body a thousand levels deep; it cannot be read again. -/
example : ∃ t b, (∀ o sk ek vk, Message.receiveRaw (toy fun _ => none) o t sk ek vk = .ok { richMessage with body := b }) ∧
    b.depth = 1000 := by
  obtain ⟨t, b, h1, h2⟩ := C153_received_violated (toy fun _ => none) richMessage (richMessage_wf _) (by decide) (by decide)
    (by decide) 1000
  exact ⟨t, b, h2, h1⟩

example (o : HOrd) : Message.ofTextRaw (fun t => some t) ({ richMessage with body := nest 1000 }.text o) = none :=
  C153_again_violated _ { richMessage with body := nest 1000 } (by decide) (numsOk_nest 1000)
    (by show 126 < (nest 1000).depth; rw [depth_nest]; omega) o

/-- C153: an envelope that is refused. -/
example : ∃ t, { exampleMessage with body := .obj [(rawToken, .str (nestText 200))] }.sealJwe (toy fun _ => none)
      exampleRand (exampleKey 3) (some [some ((toy fun _ => none).x25519Pub (exampleKey 1)),
        some ((toy fun _ => none).x25519Pub (exampleKey 2))]) = .ok t ∧
    Message.receiveRaw (toy fun _ => none) HOrd.rev t (some (exampleKey 1))
      (some ((toy fun _ => none).x25519Pub (exampleKey 3))) none = .err .serde := by
  have hl := toy_laws fun _ => none
  have hw := exampleMessage_wf (toy fun _ => none).f64
  generalize hn : nestText 200 = x
  obtain ⟨t, ht⟩ := C16_seal_total (toy fun _ => none) hl (toy_total _) exampleRand
    { exampleMessage with body := .obj [(rawToken, .str x)] } (exampleKey 3)
    (some [some ((toy fun _ => none).x25519Pub (exampleKey 1)), some ((toy fun _ => none).x25519Pub (exampleKey 2))])
    c!"ECDH-1PU+XC20PKW" (by decide) (show exampleMessage.didcomm.to ≠ [] by decide)
    (by intro l hl; rw [← Option.some.inj hl]; rfl) (by intro h; cases h) rfl (by decide) (by
      intro i dest hi
      match i with
      | 0 => exact ⟨_, hl.pub_len _, .inl rfl⟩
      | 1 => exact ⟨_, hl.pub_len _, .inl rfl⟩
      | n + 2 => cases hi)
  obtain ⟨j, rs, -, -, -, h⟩ := C153_sealed_violated (toy fun _ => none) hl exampleRand
    { exampleMessage with body := .obj [(rawToken, .str x)] } (exampleKey 3) _ t c!"did:e:f" 200 (by decide)
    ⟨hw.jwm, hw.other, hw.to, hw.recipients, ⟨⟨by simp, trivial⟩, trivial, trivial⟩, ⟨trivial, trivial⟩,
      by simp [Json.depth, Json.depth.depthM]⟩ (by rw [hn]) (show Avoids exampleMessage.didcomm.other classKeys by decide)
    ⟨(by intro k h; cases h), (by intro k h; cases h)⟩ rfl ht
  exact ⟨t, ht, h 0 _ (exampleKey 1) _ none HOrd.rev rfl (by decide) (.inl rfl) (.inl rfl) (by simp)⟩

end Verif
