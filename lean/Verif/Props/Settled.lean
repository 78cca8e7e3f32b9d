import Verif.Props.RawAccept

/-!
# Reading what was read

C155: with the feature `raw_value` a message that was read is read alike by whoever gets its text, or it is not read at all.
-/

namespace Verif

open Spec

variable {F : Str → Option Str}

mutual
/-- No object consists of the name alone. -/
def Spec.Settled : Json → Prop
  | .arr l => SettledL l
  | .obj es => (∀ v, es ≠ [(rawToken, v)]) ∧ SettledM es
  | _ => True
/-- for elements -/
def Spec.SettledL : List Json → Prop
  | [] => True
  | j :: l => Settled j ∧ SettledL l
/-- for members -/
def Spec.SettledM : List (Str × Json) → Prop
  | [] => True
  | (_, v) :: l => Settled v ∧ SettledM l
end

theorem settledM_iff {es : List (Str × Json)} : SettledM es ↔ ∀ p ∈ es, Settled p.2 := by
  induction es with
  | nil => simp [SettledM]
  | cons p es ih => obtain ⟨k, v⟩ := p; simp [SettledM, ih]

/-- What is true of every value that was read. -/
def RawOut (F : Str → Option Str) (j : Json) : Prop := (NumsStable F j → Canon F j) ∧ NumsOk j ∧ Settled j

theorem entriesOf_head {α : Type} (k : Str) (v : α) (l : List (Str × α)) : ∃ w, (k, w) ∈ entriesOf ((k, v) :: l) := by
  have h : ∀ (l acc : List (Str × α)), (∃ w, (k, w) ∈ acc) →
      ∃ w, (k, w) ∈ l.foldl (fun acc p => insertEntry p.1 p.2 acc) acc := by
    intro l
    induction l with
    | nil => intro acc h; exact h
    | cons p l ih =>
      intro acc h
      refine ih _ ?_
      clear ih
      induction acc with
      | nil => obtain ⟨w, h⟩ := h; cases h
      | cons q acc ih =>
        obtain ⟨w, h⟩ := h
        obtain ⟨k', v'⟩ := q
        simp only [insertEntry]
        split
        · rename_i he
          rcases List.mem_cons.1 h with h | h
          · obtain ⟨rfl, -⟩ := Prod.mk.inj h
            exact ⟨p.2, by rw [← he]; exact List.mem_cons_self⟩
          · exact ⟨w, List.mem_cons_of_mem _ h⟩
        · split
          · exact ⟨w, List.mem_cons_of_mem _ h⟩
          · rcases List.mem_cons.1 h with h | h
            · exact ⟨w, by rw [h]; exact List.mem_cons_self⟩
            · obtain ⟨w', h'⟩ := ih ⟨w, h⟩
              exact ⟨w', List.mem_cons_of_mem _ h'⟩
  exact h l [(k, v)] ⟨v, List.mem_cons_self⟩

mutual
theorem rawJ_out (hF : ∀ t u, F t = some u → NumTok u) {again : Str → Option Json}
    (ha : ∀ s b, again s = some b → RawOut F b) : ∀ j b, NumsOk j → rawJ F again j = some b → RawOut F b
  | .null, b, _, h => by
    simp only [rawJ, Option.some.injEq] at h; subst h; exact ⟨fun _ => trivial, trivial, trivial⟩
  | .bool _, b, _, h => by
    simp only [rawJ, Option.some.injEq] at h; subst h; exact ⟨fun _ => trivial, trivial, trivial⟩
  | .str _, b, _, h => by
    simp only [rawJ, Option.some.injEq] at h; subst h; exact ⟨fun _ => trivial, trivial, trivial⟩
  | .num t, b, hn, h => by
    simp only [rawJ, Option.map_eq_some_iff] at h
    obtain ⟨u, hu, rfl⟩ := h
    exact ⟨fun h => h, normNum_tok hF hn hu, trivial⟩
  | .arr l, b, hn, h => by
    simp only [rawJ, Option.map_eq_some_iff] at h
    obtain ⟨u, hu, rfl⟩ := h
    exact rawL_out hF ha l u hn hu
  | .obj [], b, _, h => by
    simp only [rawJ, Option.some.injEq] at h; subst h
    exact ⟨fun _ => ⟨trivial, trivial⟩, trivial, by simp, trivial⟩
  | .obj ((k, v) :: es), b, hn, h => by
    simp only [rawJ] at h
    split at h
    · split at h
      · exact ha _ _ h
      · cases h
    · rename_i hk
      split at h
      · rename_i v' es' hv he
        obtain rfl := Option.some.inj h
        have hv' := rawJ_out hF ha v v' hn.1 hv
        have he' := rawM_out hF ha es es' hn.2 he
        have hm : ∀ p ∈ entriesOf ((k, v') :: es'), RawOut F p.2 := by
          intro p hp
          rcases List.mem_cons.1 (mem_entriesOf hp) with rfl | hp
          · exact hv'
          · exact he' p hp
        refine ⟨fun hs => ⟨sorted_entriesOf _, canonM_iff.2 fun p hp => (hm p hp).1 (numsStableM_iff.1 hs p hp)⟩,
          numsOkM_iff.2 fun p hp => (hm p hp).2.1, ?_, settledM_iff.2 fun p hp => (hm p hp).2.2⟩
        intro w hw
        obtain ⟨x, hx⟩ := entriesOf_head k v' es'
        rw [hw] at hx
        exact hk (Prod.mk.inj (List.mem_singleton.1 hx)).1
      · cases h
theorem rawL_out (hF : ∀ t u, F t = some u → NumTok u) {again : Str → Option Json}
    (ha : ∀ s b, again s = some b → RawOut F b) : ∀ l b, NumsOkL l → rawL F again l = some b →
      (NumsStableL F b → CanonL F b) ∧ NumsOkL b ∧ SettledL b
  | [], b, _, h => by simp only [rawL, Option.some.injEq] at h; subst h; exact ⟨fun _ => trivial, trivial, trivial⟩
  | j :: l, b, hn, h => by
    simp only [rawL] at h
    split at h
    · rename_i j' l' hj hl
      obtain rfl := Option.some.inj h
      obtain ⟨a1, a2, a3⟩ := rawJ_out hF ha j j' hn.1 hj
      obtain ⟨b1, b2, b3⟩ := rawL_out hF ha l l' hn.2 hl
      exact ⟨fun h => ⟨a1 h.1, b1 h.2⟩, ⟨a2, b2⟩, ⟨a3, b3⟩⟩
    · cases h
theorem rawM_out (hF : ∀ t u, F t = some u → NumTok u) {again : Str → Option Json}
    (ha : ∀ s b, again s = some b → RawOut F b) : ∀ l b, NumsOkM l → rawM F again l = some b → ∀ p ∈ b, RawOut F p.2
  | [], b, _, h => by simp only [rawM, Option.some.injEq] at h; subst h; intro p hp; cases hp
  | (k, v) :: l, b, hn, h => by
    simp only [rawM] at h
    split at h
    · rename_i j' l' hj hl
      obtain rfl := Option.some.inj h
      intro p hp
      rcases List.mem_cons.1 hp with rfl | hp
      · exact rawJ_out hF ha v j' hn.1 hj
      · exact rawM_out hF ha l l' hn.2 hl p hp
    · cases h
end

theorem rawText_out (hF : ∀ t u, F t = some u → NumTok u) : ∀ n s b, rawText F n s = some b → RawOut F b
  | 0, _, _, h => by cases h
  | n + 1, s, b, h => by
    rw [rawText, Option.bind_eq_some_iff] at h
    obtain ⟨j, hj, h⟩ := h
    split at h
    · exact rawJ_out hF (rawText_out hF n) j b (parseJson_numsOk hj) h
    · cases h

mutual
theorem noToken_of_rawJ {again : Str → Option Json} : ∀ j b, Settled j → rawJ F again j = some b → NoToken j
  | .null, _, _, _ => trivial
  | .bool _, _, _, _ => trivial
  | .str _, _, _, _ => trivial
  | .num _, _, _, _ => trivial
  | .arr l, b, hs, h => by
    simp only [rawJ, Option.map_eq_some_iff] at h
    obtain ⟨u, hu, -⟩ := h
    exact noTokenL_of_rawL l u hs hu
  | .obj [], _, _, _ => trivial
  | .obj ((k, v) :: es), b, hs, h => by
    simp only [rawJ] at h
    split at h
    · rename_i hk
      split at h
      · exact absurd (by rw [hk]) (hs.1 _)
      · cases h
    · rename_i hk
      split at h
      · rename_i v' es' hv he
        exact ⟨hk, noToken_of_rawJ v v' hs.2.1 hv, noTokenM_of_rawM es es' hs.2.2 he⟩
      · cases h
theorem noTokenL_of_rawL {again : Str → Option Json} : ∀ l b, SettledL l → rawL F again l = some b → NoTokenL l
  | [], _, _, _ => trivial
  | j :: l, b, hs, h => by
    simp only [rawL] at h
    split at h
    · rename_i j' l' hj hl
      exact ⟨noToken_of_rawJ j j' hs.1 hj, noTokenL_of_rawL l l' hs.2 hl⟩
    · cases h
theorem noTokenM_of_rawM {again : Str → Option Json} : ∀ l b, SettledM l → rawM F again l = some b → NoTokenM l
  | [], _, _, _ => trivial
  | (k, v) :: l, b, hs, h => by
    simp only [rawM] at h
    split at h
    · rename_i j' l' hj hl
      exact ⟨noToken_of_rawJ v j' hs.1 hj, noTokenM_of_rawM l l' hs.2 hl⟩
    · cases h
end

/-- What is true of every message that was read. -/
theorem ofTextRaw_out (hF : ∀ t u, F t = some u → NumTok u) {s : Str} {m : Message} (h : Message.ofTextRaw F s = some m) :
    RawOut F m.body ∧ m.jwm.WF ∧ Avoids m.didcomm.other reservedKeys ∧ RecipientsWF m.recipients ∧
      m.flatJwe = false ∧ m.flatJws = false := by
  obtain ⟨b, hb⟩ := C154_read F s m h
  obtain ⟨h1, h2, h3, -, -, h6, h7⟩ := ofText_decoded hF hb
  refine ⟨?_, h1, h2, h3, h6, h7⟩
  unfold Message.ofTextRaw at h
  rw [Option.bind_eq_some_iff] at h
  obtain ⟨j, hj, h⟩ := h
  simp only [decMessageRaw, Option.bind_eq_bind, Option.bind_eq_some_iff, Option.pure_def, Option.some.injEq] at h
  obtain ⟨es, he, rs, -, b', hb, at_, -, u, -, jw, -, d, -, rfl⟩ := h
  have hn := parseJson_numsOk hj
  cases j <;> simp only [mapEntries, reduceCtorEq, Option.some.injEq] at he
  subst he
  obtain ⟨v, hv, hvb⟩ := reqField_some hb
  split at hvb
  · exact rawJ_out hF (rawText_out hF _) v _ (numsOkM_iff.1 hn _ hv) hvb
  · cases hvb

/-- C155.  A message that was read in the build as it is, with numbers that are printed as they are read, is read again from any of
its texts exactly if it has a recipient, its body is at most 126 levels deep and no object in it begins with the name of
`RawValue`; and then it is the same message. -/
theorem C155_again (P : Prims) (hP : Laws P) (s : Str) (m : Message) (h : Message.ofTextRaw P.f64 s = some m)
    (hs : NumsStable P.f64 m.body) (o : HOrd) (m' : Message) :
    Message.ofTextRaw P.f64 (m.text o) = some m' ↔
      m' = m ∧ m.didcomm.to ≠ [] ∧ m.body.depth ≤ 126 ∧ NoToken m.body := by
  obtain ⟨⟨hc, hn, hset⟩, hj, ho, hr, hf1, hf2⟩ := ofTextRaw_out (fun _ _ => hP.f64_tok) h
  have hm0 : { m with flatJwe := false, flatJws := false } = m := by
    cases m; simp only at hf1 hf2; subst hf1 hf2; rfl
  constructor
  · intro h'
    have hto : m.didcomm.to ≠ [] := by
      intro hto
      obtain ⟨b, hb⟩ := C154_read _ _ _ h'
      rw [ofText_no_to o hn (ho _ (by decide)) hto] at hb
      cases hb
    have hd : m.body.depth ≤ 126 := by
      refine Nat.le_of_not_lt fun hd => ?_
      rw [C153_again_violated P.f64 m ho hn hd o] at h'
      cases h'
    have hnt : NoToken m.body := by
      unfold Message.ofTextRaw at h'
      rw [parse_message o hn, Option.bind_some, show encMessage o m = Json.obj _ from rfl] at h'
      cases hb : rawJ P.f64 (rawText P.f64 (m.text o).length) m.body with
      | none => rw [decMessageRaw_none (fieldVals_body_message o ho) hb] at h'; cases h'
      | some b => exact noToken_of_rawJ _ _ hset hb
    have hw : m.WF P.f64 := ⟨hj, ho, hto, hr, hc hs, hn, hd⟩
    rw [C150_written_partial P.f64 o m hw hnt, hm0] at h'
    exact ⟨(Option.some.inj h').symm, hto, hd, hnt⟩
  · rintro ⟨rfl, hto, hd, hnt⟩
    rw [C150_written_partial P.f64 o m' ⟨hj, ho, hto, hr, hc hs, hn, hd⟩ hnt, hm0]

/-- C155, the same for messages that were received, in whatever way. -/
theorem C155_received (P : Prims) (hP : Laws P) (o : HOrd) (s : Str) (sk ek vk : Option Bytes) (m : Message)
    (h : Message.receiveRaw P o s sk ek vk = .ok m) (hs : NumsStable P.f64 m.body) (o' : HOrd) (m' : Message) :
    Message.ofTextRaw P.f64 (m.text o') = some m' ↔
      m' = m ∧ m.didcomm.to ≠ [] ∧ m.body.depth ≤ 126 ∧ NoToken m.body := by
  simp only [Message.receiveRaw, Res.bind_eq_ok, Res.ofOpt_eq_ok] at h
  obtain ⟨_, -, cur, -, hm⟩ := h
  exact C155_again P hP cur m hm hs o' m'

/-- C155: a message with the name in its body that is read, and read again. -/
example (P : Prims) (hP : Laws P) (o : HOrd) : ∃ s m, Message.ofTextRaw P.f64 s = some m ∧ m.body = .num c!"42" ∧
    Message.ofTextRaw P.f64 (m.text o) = some m := by
  have hw := exampleMessage_wf P.f64
  have h := C150_read_violated P.f64 HOrd.id exampleMessage hw c!" 42" (.num c!"42") (by
    rw [rawValueOfText, rawText, show parseJson c!" 42" = some (.num c!"42") by decide +kernel, Option.bind_some,
      if_pos (by decide), rawJ, show normNum P.f64 c!"42" = some c!"42" from rfl]
    rfl)
  exact ⟨_, _, h, rfl, (C155_again P hP _ _ h rfl o _).2 ⟨rfl, (by decide), (by decide), trivial⟩⟩

/-- C155: a message that is read, and not again. -/
example (P : Prims) (hP : Laws P) : ∃ s m, Message.ofTextRaw P.f64 s = some m ∧ m.didcomm.to ≠ [] ∧ m.body.depth ≤ 126 ∧
    ∀ o, Message.ofTextRaw P.f64 (m.text o) = none := by
  have h := C150_read_violated P.f64 HOrd.id exampleMessage (exampleMessage_wf P.f64)
    c!"{\"a\":null,\"$serde_json::private::RawValue\":\"x\"}" (.obj [(rawToken, .str c!"x"), (c!"a", .null)]) (by
      rw [rawValueOfText, rawText, show parseJson c!"{\"a\":null,\"$serde_json::private::RawValue\":\"x\"}" =
        some (.obj [(c!"a", .null), (rawToken, .str c!"x")]) by decide +kernel, Option.bind_some, if_pos (by decide)]
      simp only [rawJ, rawM, show ¬ c!"a" = rawToken by decide, if_false]
      exact congrArg (fun l => some (Json.obj l)) rfl)
  refine ⟨_, _, h, (by decide), (by decide), fun o => ?_⟩
  refine Option.eq_none_iff_forall_ne_some.2 fun m' h' => ?_
  exact ((C155_again P hP _ _ h ⟨trivial, trivial, trivial⟩ o m').1 h').2.2.2.1 rfl

end Verif
