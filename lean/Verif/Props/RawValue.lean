import Verif.Model.RawValue
import Verif.Props.Exact

/-!
# Objects that are not taken for objects

C150.
-/

namespace Verif

open Spec

variable {F : Str → Option Str}

/-! ## Texts inside texts are shorter -/

mutual
/-- All string values are shorter than `n`. -/
def StrsLt (n : Nat) : Json → Prop
  | .str s => s.length < n
  | .arr l => StrsLtL n l
  | .obj es => StrsLtM n es
  | _ => True
/-- for elements -/
def StrsLtL (n : Nat) : List Json → Prop
  | [] => True
  | j :: l => StrsLt n j ∧ StrsLtL n l
/-- for members -/
def StrsLtM (n : Nat) : List (Str × Json) → Prop
  | [] => True
  | (_, v) :: l => StrsLt n v ∧ StrsLtM n l
end

theorem text_strsLt {j : Json} {t : Str} (h : Text j t) : ∀ n, t.length ≤ n → StrsLt n j := by
  refine TextW.rec (motive_1 := fun j t _ => ∀ n, t.length ≤ n → StrsLt n j)
    (motive_2 := fun l t _ => ∀ n, t.length ≤ n → StrsLtL n l)
    (motive_3 := fun es t _ => ∀ n, t.length ≤ n → StrsLtM n es) ?_ ?_ ?_ ?_ ?_ ?_ ?_ ?_ ?_ ?_ ?_ ?_ ?_ h
  · intro n _; trivial
  · intro n _; trivial
  · intro n _; trivial
  · intro tok _ n _; trivial
  · intro s t hb n hn
    have := strBody_length hb
    simp only [List.length_cons, List.length_append, List.length_nil] at hn
    show s.length < n
    omega
  · intro w _ n _; trivial
  · intro l t _ ih n hn
    simp only [List.length_cons, List.length_append, List.length_nil] at hn
    exact ih n (by omega)
  · intro w _ n _; trivial
  · intro es t _ ih n hn
    simp only [List.length_cons, List.length_append, List.length_nil] at hn
    exact ih n (by omega)
  · intro j w t w' _ _ _ ih n hn
    simp only [List.length_append] at hn
    exact ⟨ih n (by omega), trivial⟩
  · intro j w t w' l r _ _ _ _ ih1 ih2 n hn
    simp only [List.length_append, List.length_cons] at hn
    exact ⟨ih1 n (by omega), ih2 n (by omega)⟩
  · intro k v w0 ks w1 w2 t w3 _ _ _ _ _ _ ih n hn
    simp only [List.length_append, List.length_cons] at hn
    exact ⟨ih n (by omega), trivial⟩
  · intro k v w0 ks w1 w2 t w3 es r _ _ _ _ _ _ _ ih1 ih2 n hn
    simp only [List.length_append, List.length_cons] at hn
    exact ⟨ih1 n (by omega), ih2 n (by omega)⟩

theorem parseJson_strsLt {s : Str} {j : Json} (h : parseJson s = some j) : StrsLt s.length j := by
  obtain ⟨w, t, w', _, ht, _, rfl⟩ := parseJson_iff.1 h
  exact text_strsLt ht _ (by simp; omega)

mutual
theorem rawJ_congr {a b : Str → Option Json} {n : Nat} (h : ∀ t, t.length < n → a t = b t) :
    ∀ j, StrsLt n j → rawJ F a j = rawJ F b j
  | .null, _ => by simp [rawJ]
  | .bool _, _ => by simp [rawJ]
  | .num _, _ => by simp [rawJ]
  | .str _, _ => by simp [rawJ]
  | .arr l, hj => by simp only [rawJ]; rw [rawL_congr h l hj]
  | .obj [], _ => by simp [rawJ]
  | .obj ((k, v) :: es), hj => by
    simp only [rawJ]
    rw [rawJ_congr h v hj.1, rawM_congr h es hj.2]
    split
    · cases v <;> cases es <;> first | rfl | exact h _ hj.1
    · rfl
theorem rawL_congr {a b : Str → Option Json} {n : Nat} (h : ∀ t, t.length < n → a t = b t) :
    ∀ l, StrsLtL n l → rawL F a l = rawL F b l
  | [], _ => by simp [rawL]
  | j :: l, hj => by simp only [rawL]; rw [rawJ_congr h j hj.1, rawL_congr h l hj.2]
theorem rawM_congr {a b : Str → Option Json} {n : Nat} (h : ∀ t, t.length < n → a t = b t) :
    ∀ es, StrsLtM n es → rawM F a es = rawM F b es
  | [], _ => by simp [rawM]
  | (k, v) :: es, hj => by simp only [rawM]; rw [rawJ_congr h v hj.1, rawM_congr h es hj.2]
end

/-- The bound on texts inside each other has no influence. -/
theorem rawText_enough (s : Str) : ∀ n m, s.length < n → s.length < m → rawText F n s = rawText F m s := by
  induction hl : s.length using Nat.strongRecOn generalizing s with
  | ind l ih =>
    subst hl
    intro n m hn hm
    obtain ⟨n, rfl⟩ : ∃ k, n = k + 1 := ⟨n - 1, by omega⟩
    obtain ⟨m, rfl⟩ : ∃ k, m = k + 1 := ⟨m - 1, by omega⟩
    simp only [rawText]
    cases hp : parseJson s with
    | none => rfl
    | some j =>
      simp only [Option.bind_some]
      split
      · exact rawJ_congr (fun t ht => ih t.length ht t rfl n m (by omega) (by omega)) j (parseJson_strsLt hp)
      · rfl

/-! ## C150 -/

/-- C150, violated: an object whose only member has the name `RawValue` is known by and holds a JSON text is not set as body.  In
its place comes the value of the text, whatever it is, in every spelling of the object. -/
theorem C150_replaced_violated (P : Prims) (m : Message) (t x : Str) (ht : parseJson t = some (.obj [(rawToken, .str x)]))
    (v : Json) (hx : rawValueOfText P.f64 x = some v) : m.setBodyRaw P t = .ok { m with body := v } := by
  have hl : x.length < t.length := (parseJson_strsLt ht).1
  have hv : rawValueOfText P.f64 t = some v := by
    unfold rawValueOfText
    rw [rawText, ht, Option.bind_some, if_pos (by simp [Json.depth, Json.depth.depthM])]
    simp only [rawJ, if_true]
    rw [rawText_enough x t.length (x.length + 1) hl (by omega)]
    exact hx
  simp [Message.setBodyRaw, hv]

theorem strsLt_field {n : Nat} {k : Str} : ∀ {es : List (Str × Json)}, StrsLtM n es → ∀ v ∈ fieldVals k es, StrsLt n v
  | [], _, v, h => by cases h
  | (k', w) :: es, hs, v, h => by
    unfold fieldVals at h
    split at h
    · rcases List.mem_cons.1 h with rfl | h
      · exact hs.1
      · exact strsLt_field hs.2 v h
    · exact strsLt_field hs.2 v h

/-- Reading a message with and without a look at the name. -/
theorem decMessageRaw_of {again : Str → Option Json} {es : List (Str × Json)} {v b b' : Json} {m : Message}
    (hf : fieldVals c!"body" es = [v]) (hd : v.depth ≤ 126) (hv : normJ F v = some b) (hb : rawJ F again v = some b')
    (h : decMessage F (.obj es) = some m) : decMessageRaw F again (.obj es) = some { m with body := b' } := by
  have h1 : reqField (toValue F 1) c!"body" es = some b := by
    simp only [reqField, hf, toValue]
    rw [if_pos (by omega), hv]
  have h2 : reqField (fun v => if 1 + v.depth ≤ 127 then rawJ F again v else none) c!"body" es = some b' := by
    simp only [reqField, hf]
    rw [if_pos (by omega), hb]
  simp only [decMessage, decMessageRaw, h1, h2, mapEntries, Option.bind_eq_bind, Option.bind_some, Option.bind_eq_some_iff,
    Option.pure_def] at h ⊢
  obtain ⟨rs, hr, at_, ha, u, hu, jw, hj, d, hd, h⟩ := h
  refine ⟨rs, hr, at_, ha, u, hu, jw, hj, d, hd, ?_⟩
  rw [← Option.some.inj h]

theorem decMessageRaw_none {again : Str → Option Json} {es : List (Str × Json)} {v : Json}
    (hf : fieldVals c!"body" es = [v]) (hb : rawJ F again v = none) : decMessageRaw F again (.obj es) = none := by
  have h2 : reqField (fun v => if 1 + v.depth ≤ 127 then rawJ F again v else none) c!"body" es = none := by
    simp only [reqField, hf, hb, ite_self]
  simp only [decMessageRaw, h2, mapEntries, Option.bind_eq_bind, Option.bind_some, Option.bind_none]
  cases optField (decVec decRecipient) c!"recipients" es <;> rfl

/-- C150, violated: the same when a message is read.  Two texts of messages that differ in the body, the one an object with a
string, the other any value, are read alike. -/
theorem C150_read_violated (F : Str → Option Str) (o : HOrd) (m : Message) (hm : m.WF F) (x : Str) (v : Json)
    (hx : rawValueOfText F x = some v) :
    Message.ofTextRaw F ({ m with body := .obj [(rawToken, .str x)] }.text o) =
      some { m with body := v, flatJwe := false, flatJws := false } := by
  have hw : Message.WF F { m with body := .obj [(rawToken, .str x)] } :=
    ⟨hm.jwm, hm.other, hm.to, hm.recipients, ⟨⟨by simp, trivial⟩, trivial, trivial⟩, ⟨trivial, trivial⟩,
      by simp [Json.depth, Json.depth.depthM]⟩
  have hp := parse_message o hw.nums
  have hf := fieldVals_body_message o hw.other
  have hl := parseJson_strsLt hp
  have hd := decMessage_enc o hw
  unfold Message.ofTextRaw
  rw [hp, Option.bind_some]
  have hx' : x.length < (Message.text o { m with body := .obj [(rawToken, .str x)] }).length := by
    have h : StrsLt _ (Json.obj [(rawToken, .str x)]) := strsLt_field hl _ (by rw [hf]; exact List.mem_singleton.2 rfl)
    exact h.1
  rw [show encMessage o _ = Json.obj _ from rfl] at hd ⊢
  rw [decMessageRaw_of (b' := v) hf (by simp [Json.depth, Json.depth.depthM]) (normJ_canon hw.canon) (by
    simp only [rawJ, if_true]
    rw [rawText_enough x _ (x.length + 1) hx' (by omega)]
    exact hx) hd]

/-- C150, violated: a body that was set cannot be read again.  If the name comes after another member the object is set as it is
written; members are written in the order of their names, so that the name comes first, and then the rest of the object is an
error for whoever reads the message. -/
theorem C150_lost_violated (P : Prims) (m : Message) (ho : Avoids m.didcomm.other reservedKeys) (t k x : Str)
    (w w' : Json) (hk : strLt rawToken k = true) (ht : parseJson t = some (.obj [(k, w), (rawToken, .str x)]))
    (hd : w.depth ≤ 126) (hw : rawJ P.f64 (rawText P.f64 t.length) w = some w') (hn : NumsOk w') :
    m.setBodyRaw P t = .ok { m with body := .obj [(rawToken, .str x), (k, w')] } ∧
    ∀ o, Message.ofTextRaw P.f64 ({ m with body := .obj [(rawToken, .str x), (k, w')] }.text o) = none := by
  have hne : ¬ k = rawToken := by
    rintro rfl
    revert hk
    decide
  have hv : rawValueOfText P.f64 t = some (.obj [(rawToken, .str x), (k, w')]) := by
    unfold rawValueOfText
    rw [rawText, ht, Option.bind_some, if_pos (by simp [Json.depth, Json.depth.depthM]; omega)]
    simp only [rawJ, hne, if_false, hw, rawM, entriesOf, List.foldl_cons, List.foldl_nil, insertEntry, Ne.symm hne, hk, if_true]
  refine ⟨by simp [Message.setBodyRaw, hv], ?_⟩
  intro o
  have hp := parse_message (m := { m with body := .obj [(rawToken, .str x), (k, w')] }) o ⟨trivial, hn, trivial⟩
  unfold Message.ofTextRaw
  rw [hp, Option.bind_some, show encMessage o _ = Json.obj _ from rfl]
  exact decMessageRaw_none (fieldVals_body_message (m := { m with body := .obj [(rawToken, .str x), (k, w')] }) o ho)
    (by simp only [rawJ, if_true])

mutual
/-- No object begins with the name. -/
def Spec.NoToken : Json → Prop
  | .arr l => NoTokenL l
  | .obj [] => True
  | .obj ((k, v) :: es) => k ≠ rawToken ∧ NoToken v ∧ NoTokenM es
  | _ => True
/-- for elements -/
def Spec.NoTokenL : List Json → Prop
  | [] => True
  | j :: l => NoToken j ∧ NoTokenL l
/-- for members -/
def Spec.NoTokenM : List (Str × Json) → Prop
  | [] => True
  | (_, v) :: l => NoToken v ∧ NoTokenM l
end

mutual
theorem rawJ_noToken (again : Str → Option Json) : ∀ j, NoToken j → rawJ F again j = normJ F j
  | .null, _ => by simp [rawJ, normJ]
  | .bool _, _ => by simp [rawJ, normJ]
  | .num _, _ => by simp [rawJ, normJ]
  | .str _, _ => by simp [rawJ, normJ]
  | .arr l, h => by simp only [rawJ, normJ]; rw [rawL_noToken again l h]
  | .obj [], _ => by simp [rawJ, normJ, normM, entriesOf]
  | .obj ((k, v) :: es), h => by
    simp only [rawJ, normJ, normM]
    rw [if_neg h.1, rawJ_noToken again v h.2.1, rawM_noToken again es h.2.2]
    cases normJ F v <;> cases normM F es <;> rfl
theorem rawL_noToken (again : Str → Option Json) : ∀ l, NoTokenL l → rawL F again l = normL F l
  | [], _ => by simp [rawL, normL]
  | j :: l, h => by simp only [rawL, normL]; rw [rawJ_noToken again j h.1, rawL_noToken again l h.2]; cases normJ F j <;> cases normL F l <;> rfl
theorem rawM_noToken (again : Str → Option Json) : ∀ es, NoTokenM es → rawM F again es = normM F es
  | [], _ => by simp [rawM, normM]
  | (k, v) :: es, h => by simp only [rawM, normM]; rw [rawJ_noToken again v h.1, rawM_noToken again es h.2]; cases normJ F v <;> cases normM F es <;> rfl
end

/-- C150, what holds: a text in which no object begins with the name is set as the rest of this model says. -/
theorem C150_set_partial (P : Prims) (m : Message) (t : Str) (h : ∀ j, parseJson t = some j → NoToken j) :
    m.setBodyRaw P t = m.setBody P t := by
  have hv : rawValueOfText P.f64 t = Message.valueOfText P.f64 t := by
    unfold rawValueOfText Message.valueOfText
    rw [rawText]
    cases hp : parseJson t with
    | none => rfl
    | some j => simp only [Option.bind_some, toValue, Nat.zero_add, rawJ_noToken _ j (h j hp)]
  simp only [Message.setBodyRaw, Message.setBody, hv]

/-- C150, what holds: a text without such an object in its member `body` is read as the rest of this model says. -/
theorem C150_read_partial (F : Str → Option Str) (s : Str)
    (h : ∀ es, parseJson s = some (.obj es) → ∀ v ∈ fieldVals c!"body" es, NoToken v) :
    Message.ofTextRaw F s = Message.ofText F s := by
  unfold Message.ofTextRaw Message.ofText
  cases hp : parseJson s with
  | none => rfl
  | some j =>
    simp only [Option.bind_some]
    cases j with
    | obj es =>
      have hb : reqField (fun v => if 1 + v.depth ≤ 127 then rawJ F (rawText F s.length) v else none) c!"body" es =
          reqField (toValue F 1) c!"body" es := by
        have hn := h es hp
        unfold reqField
        split
        · next v hv => simp only [toValue, rawJ_noToken _ v (hn v (by rw [hv]; exact List.mem_singleton.2 rfl))]
        · rfl
      simp only [decMessageRaw, decMessage, mapEntries, hb, Option.bind_eq_bind, Option.bind_some]
    | _ => rfl

/-- C150, what holds: a message whose body has no such object is read back by whoever reads its text. -/
theorem C150_written_partial (F : Str → Option Str) (o : HOrd) (m : Message) (hm : m.WF F) (h : NoToken m.body) :
    Message.ofTextRaw F (m.text o) = some { m with flatJwe := false, flatJws := false } := by
  rw [C150_read_partial, ofText_text o hm]
  intro es hp v hv
  rw [parse_message o hm.nums] at hp
  obtain rfl := Json.obj.inj (Option.some.inj hp)
  rw [fieldVals_body_message o hm.other] at hv
  rw [List.mem_singleton.1 hv]
  exact h

/-- C150: a body that becomes a number. -/
example (P : Prims) (m : Message) :
    m.setBodyRaw P c!"{\"$serde_json::private::RawValue\": \" 42\"}" = .ok { m with body := .num c!"42" } :=
  C150_replaced_violated P m _ c!" 42" (by decide +kernel) (.num c!"42") (by
    rw [rawValueOfText, rawText, show parseJson c!" 42" = some (.num c!"42") by decide +kernel, Option.bind_some,
      if_pos (by decide), rawJ, show normNum P.f64 c!"42" = some c!"42" from rfl]
    rfl)

/-- C150: a body that is set and lost. -/
example (P : Prims) (o : HOrd) : ∃ m, (Message.new c!"1").setBodyRaw P
      c!"{\"a\":null,\"$serde_json::private::RawValue\":\"x\"}" = .ok m ∧ Message.ofTextRaw P.f64 (m.text o) = none := by
  obtain ⟨h1, h2⟩ := C150_lost_violated P (Message.new c!"1") (by decide) c!"{\"a\":null,\"$serde_json::private::RawValue\":\"x\"}"
    c!"a" c!"x" .null .null (by decide) (by decide +kernel) (by decide) (by simp [rawJ]) trivial
  exact ⟨_, h1, h2 o⟩

/-- C150: a message to which the last part applies. -/
example : NoToken richMessage.body := by
  refine ⟨by decide, ⟨trivial, trivial, trivial⟩, trivial, trivial⟩

end Verif
