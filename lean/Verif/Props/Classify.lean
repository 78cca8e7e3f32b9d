import Verif.Props.Plain

/-!
# Classification of received texts

C35, C36.
-/

namespace Verif

open Spec

/-- The object has a member `k` that is not `null`. -/
def HasMember (k : Str) (es : List (Str × Json)) : Prop := ∃ v, v ≠ .null ∧ (k, v) ∈ es

/-- The object has at most one member `k`. -/
def AtMostOnce (k : Str) (es : List (Str × Json)) : Prop := (es.filter fun p => p.1 = k).length ≤ 1

theorem fieldVals_length (k : Str) (es : List (Str × Json)) :
    (fieldVals k es).length = (es.filter fun p => p.1 = k).length := by
  induction es with
  | nil => rfl
  | cons p es ih =>
    obtain ⟨k', v⟩ := p
    by_cases h : k' = k
    · subst h; simp [fieldVals_cons_self, ih]
    · rw [fieldVals_cons_ne h]; simp [h, ih]

theorem presence_eq {k : Str} {es : List (Str × Json)} :
    (AtMostOnce k es ∧ HasMember k es ∧ Message.presence k es = some true) ∨
    (AtMostOnce k es ∧ ¬HasMember k es ∧ Message.presence k es = some false) ∨
    (¬AtMostOnce k es ∧ Message.presence k es = none) := by
  unfold Message.presence optField AtMostOnce
  rw [← fieldVals_length]
  split
  · rename_i h
    refine .inr (.inl ⟨by rw [h]; simp, ?_, rfl⟩)
    rintro ⟨v, -, hv⟩
    rw [← mem_fieldVals, h] at hv; cases hv
  · rename_i x h
    have hx : ∀ v, (k, v) ∈ es → v = x := by
      intro v hv
      rw [← mem_fieldVals, h, List.mem_singleton] at hv; exact hv
    have hm : (k, x) ∈ es := mem_fieldVals.1 (by rw [h]; simp)
    by_cases hn : x = .null
    · subst hn
      refine .inr (.inl ⟨by rw [h]; simp, ?_, rfl⟩)
      rintro ⟨v, hv, hv'⟩
      exact hv (hx v hv')
    · refine .inl ⟨by rw [h]; simp, ⟨x, hn, hm⟩, ?_⟩
      cases x <;> simp_all [decOpt]
  · rename_i h1 h2
    refine .inr (.inr ⟨?_, rfl⟩)
    intro hl
    rcases hf : fieldVals k es with _ | ⟨a, _ | ⟨b, l⟩⟩
    · exact h1 hf
    · exact h2 _ hf
    · rw [hf] at hl; simp at hl

theorem messageType_no_panic {P : Prims} {s : Str} : Message.messageType P s ≠ .panic := by
  intro h
  simp only [Message.messageType, Res.bind_eq_panic, Res.ofOpt_ne_panic, false_or] at h
  obtain ⟨_, -, _, -, _, -, _, -, _, -, h⟩ := h
  split at h
  · cases h
  · split at h
    · cases h
    · simp [Res.bind_eq_panic, Res.ofOpt_ne_panic] at h

theorem messageType_err {P : Prims} {s : Str} {e : Err} (h : Message.messageType P s = .err e) :
    e = .serde := by
  have key : ∀ {α β : Type} (x : Option α) (f : α → Res β),
      (Res.ofOpt .serde x >>= f) = .err e → e = .serde ∨ ∃ a, f a = .err e := by
    intro α β x f h
    cases x with
    | none => simp only [Res.ofOpt, Res.bind_err, Res.err.injEq] at h; exact .inl h.symm
    | some a => exact .inr ⟨a, h⟩
  unfold Message.messageType at h
  rcases key _ _ h with h | ⟨_, h⟩
  · exact h
  rcases key _ _ h with h | ⟨_, h⟩
  · exact h
  rcases key _ _ h with h | ⟨_, h⟩
  · exact h
  rcases key _ _ h with h | ⟨_, h⟩
  · exact h
  rcases key _ _ h with h | ⟨_, h⟩
  · exact h
  split at h
  · cases h
  · split at h
    · cases h
    · rcases key _ _ h with h | ⟨_, h⟩
      · exact h
      · cases h

/-- C35.  Classification of objects: `iv` first, then `signature` and `signatures`, then the typ of a
plain message; `null` members count as absent, repeated ones are an error. -/
theorem C35_objects (P : Prims) (s : Str) (es : List (Str × Json)) (hs : Document (.obj es) s) :
    ((∃ k ∈ classKeys, ¬AtMostOnce k es) → Message.messageType P s = .err .serde) ∧
    ((∀ k ∈ classKeys, AtMostOnce k es) →
      (HasMember c!"iv" es → Message.messageType P s = .ok .jwe) ∧
      (¬HasMember c!"iv" es → HasMember c!"signature" es ∨ HasMember c!"signatures" es →
        Message.messageType P s = .ok .jws) ∧
      (¬HasMember c!"iv" es → ¬HasMember c!"signature" es → ¬HasMember c!"signatures" es →
        (∀ m, Message.ofText P.f64 s = some m → Message.messageType P s = .ok m.jwm.typ) ∧
        (Message.ofText P.f64 s = none → Message.messageType P s = .err .serde))) := by
  have hp := parseJson_iff.2 hs
  constructor
  · rintro ⟨k, hk, hc⟩
    have hk' : Message.presence k es = none := by
      rcases presence_eq (k := k) (es := es) with h | h | h
      · exact absurd h.1 hc
      · exact absurd h.1 hc
      · exact h.2
    cases ht : Message.messageType P s with
    | ok t =>
      exfalso
      simp only [Message.messageType, hp, structEntries, Res.ofOpt_some, Res.bind_ok,
        Res.bind_eq_ok, Res.ofOpt_eq_ok] at ht
      obtain ⟨_, h1, _, h2, _, h3, -⟩ := ht
      simp only [classKeys, List.mem_cons, List.not_mem_nil, or_false] at hk
      rcases hk with rfl | rfl | rfl
      · rw [hk'] at h1; cases h1
      · rw [hk'] at h2; cases h2
      · rw [hk'] at h3; cases h3
    | err e => rw [messageType_err ht]
    | panic => exact absurd ht messageType_no_panic
  · intro hall
    have pres : ∀ k ∈ classKeys, ∃ b, Message.presence k es = some b ∧ (b = true ↔ HasMember k es) := by
      intro k hk
      rcases presence_eq (k := k) (es := es) with ⟨-, h, e⟩ | ⟨-, h, e⟩ | ⟨h, -⟩
      · exact ⟨true, e, by simp [h]⟩
      · exact ⟨false, e, by simp [h]⟩
      · exact absurd (hall k hk) h
    obtain ⟨a, ha, ha'⟩ := pres c!"signature" (by decide)
    obtain ⟨b, hb, hb'⟩ := pres c!"signatures" (by decide)
    obtain ⟨c, hc, hc'⟩ := pres c!"iv" (by decide)
    have hof : Message.ofText P.f64 s = decMessage P.f64 (.obj es) := by simp [Message.ofText, hp]
    rw [messageType_obj P hp ha hb hc, hof, ← ha', ← hb', ← hc']
    refine ⟨fun h => by rw [if_pos h], fun h h2 => ?_, fun h h1 h2 => ?_⟩
    · rw [if_neg h, if_pos (by rcases h2 with h2 | h2 <;> simp [h2])]
    · rw [if_neg h, if_neg (by simp [h1, h2])]
      exact ⟨fun m hm => by rw [hm], fun hm => by rw [hm]⟩

/-- C35.  Everything `receive` accepts is a JSON object. -/
theorem C35_only_objects (P : Prims) (o : HOrd) (s : Str) (sk ek vk : Option Bytes) (m : Message)
    (h : Message.receive P o s sk ek vk = .ok m) :
    ∃ es, Document (.obj es) s ∧ ∀ k ∈ classKeys, AtMostOnce k es := by
  simp only [Message.receive, Message.decryptStep, Message.verifyStep, Res.bind_eq_ok,
    Res.ofOpt_eq_ok] at h
  obtain ⟨cur, ⟨t, ht, hd⟩, cur', ⟨t', ht', hv⟩, hm⟩ := h
  have hex : ∃ j, parseJson s = some j := by
    simp only [Message.messageType, Res.bind_eq_ok, Res.ofOpt_eq_ok] at ht
    obtain ⟨j, hj, -⟩ := ht
    exact ⟨j, hj⟩
  obtain ⟨j, hj⟩ := hex
  have hobj : ∃ es, j = .obj es := by
    cases j with
    | obj es => exact ⟨es, rfl⟩
    | _ =>
      exfalso
      have e1 : Message.ofText P.f64 s = none := by simp [Message.ofText, hj, decMessage, mapEntries]
      have e2 : Jwe.ofText P.f64 s = none := by simp [Jwe.ofText, hj, decJwe, mapEntries]
      have e3 : Jws.ofText P.f64 s = none := by simp [Jws.ofText, hj, decJws, mapEntries]
      split at hd
      · simp [Message.receiveJwe, e2, Res.bind_eq_ok] at hd
      · obtain rfl : s = cur := Res.ok.inj hd
        split at hv
        · simp [Message.receiveJws, Message.verifiedOf, e1, e3] at hv
        · obtain rfl : s = cur' := Res.ok.inj hv
          rw [e1] at hm; cases hm
  obtain ⟨es, rfl⟩ := hobj
  refine ⟨es, parseJson_iff.1 hj, fun k hk => ?_⟩
  refine Classical.byContradiction fun hc => ?_
  rw [(C35_objects P s es (parseJson_iff.1 hj)).1 ⟨k, hk, hc⟩] at ht
  cases ht

/-- Concrete classifications. -/
example : Message.messageType (toy fun _ => none) c!"{\"x\":[], \"iv\":0, \"signature\":1}" = .ok .jwe ∧
    Message.messageType (toy fun _ => none) c!"{\"iv\":null,\"signatures\":[]}" = .ok .jws ∧
    Message.messageType (toy fun _ => none) c!"{\"iv\":1,\"iv\":2}" = .err .serde := by
  decide +kernel

/-! ## C36 -/

/-- C36.  Without a private key encrypted input fails. -/
theorem C36_needs_key (P : Prims) (o : HOrd) (s : Str) (ek vk : Option Bytes)
    (h : Message.messageType P s = .ok .jwe) :
    Message.receive P o s none ek vk =
      .err (.generic "missing encryption recipient private key") := by
  simp [Message.receive, Message.decryptStep, h]

/-- C36.  On other input the decryption keys do not matter. -/
theorem C36_other_input (P : Prims) (o : HOrd) (s : Str) (sk sk' ek ek' vk : Option Bytes)
    (h : Message.messageType P s ≠ .ok .jwe) :
    Message.receive P o s sk ek vk = Message.receive P o s sk' ek' vk := by
  simp only [Message.receive, Message.decryptStep]
  cases ht : Message.messageType P s with
  | err e => simp only [Res.bind_err]
  | panic => simp only [Res.bind_panic]
  | ok t =>
    have : t ≠ .jwe := by rintro rfl; exact h ht
    simp [this]

/-- C36.  On input that is neither encrypted nor signed no key matters, nor does an iteration order. -/
theorem C36_plain_input (P : Prims) (o o' : HOrd) (s : Str) (sk sk' ek ek' vk vk' : Option Bytes)
    (h1 : Message.messageType P s ≠ .ok .jwe) (h2 : Message.messageType P s ≠ .ok .jws) :
    Message.receive P o s sk ek vk = Message.receive P o' s sk' ek' vk' := by
  simp only [Message.receive, Message.decryptStep, Message.verifyStep]
  cases ht : Message.messageType P s with
  | err e => simp only [Res.bind_err]
  | panic => simp only [Res.bind_panic]
  | ok t =>
    have h1 : t ≠ .jwe := by rintro rfl; exact h1 ht
    have h2 : t ≠ .jws := by rintro rfl; exact h2 ht
    simp [h1, h2, ht]

/-- C36.  If the decrypted content is not signed, the verification key does not matter. -/
theorem C36_verification_key (P : Prims) (o : HOrd) (s : Str) (sk ek vk vk' : Option Bytes)
    (h : ∀ t, Message.decryptStep P (o.sub 0) s sk ek = .ok t → Message.messageType P t ≠ .ok .jws) :
    Message.receive P o s sk ek vk = Message.receive P o s sk ek vk' := by
  simp only [Message.receive, Message.verifyStep]
  cases ht : Message.decryptStep P (o.sub 0) s sk ek with
  | err e => simp only [Res.bind_err]
  | panic => simp only [Res.bind_panic]
  | ok t =>
    have h := h t ht
    cases hm : Message.messageType P t with
    | err e => simp [hm]
    | panic => simp [hm]
    | ok u =>
      have : u ≠ .jws := by rintro rfl; exact h hm
      simp [hm, this]

example : Message.messageType (toy fun _ => none) ((Message.new c!"1").text HOrd.id) = .ok .raw := by
  decide +kernel

end Verif
