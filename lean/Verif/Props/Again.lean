import Verif.Props.Extreme
import Verif.Props.Whole

/-!
# What could be read can be read again

C139.
-/

namespace Verif

open Spec

/-- The values that a document has after one, two, … readings. -/
def rereads (j : Json) : Nat → Json
  | 0 => j
  | i + 1 => (normJ Algo.f64Text (rereads j i)).getD .null

theorem rereads_of {n : Nat} {j v : Json} (h : Readings Algo.f64Text n j v) (i : Nat) (x : Json) (hx : rereads x i = j) :
    rereads x (i + n) = v := by
  induction h generalizing i with
  | zero => exact hx
  | @succ n j v w h1 _ ih =>
    rw [show i + (n + 1) = i + 1 + n by omega]
    exact ih (i + 1) (by rw [rereads, hx, normJ_iff.2 h1]; rfl)

theorem readings_snoc {F : Str → Option Str} {n : Nat} {j v : Json} (h : Readings F (n + 1) j v) :
    ∃ u, Readings F n j u ∧ Denotes F u v := by
  induction n generalizing j with
  | zero =>
    cases h with
    | succ h1 h2 => cases h2; exact ⟨j, .zero _, h1⟩
  | succ n ih =>
    cases h with
    | succ h1 h2 =>
      obtain ⟨u, h3, h4⟩ := ih h2
      exact ⟨u, .succ h1 h3, h4⟩

/-- C139.  A document that can be read, whatever its numbers are, can be read and printed any number of times. -/
theorem C139_readings (j v : Json) (h : Denotes Algo.f64Text j v) :
    ∃ a : Nat → Json, a 0 = j ∧ ∀ i, Denotes Algo.f64Text (a i) (a (i + 1)) := by
  refine ⟨rereads j, rfl, fun i => ?_⟩
  obtain ⟨w, hw⟩ := Algo.read_again h i
  obtain ⟨u, h1, h2⟩ := readings_snoc hw
  have e1 := rereads_of h1 0 j rfl
  have e2 := rereads_of hw 0 j rfl
  rw [Nat.zero_add] at e1 e2
  rwa [e1, e2]

/-- C139.  If a body can be set, then the message can be passed on as plain JSON for ever: every hop accepts what the
one before it printed. -/
theorem C139_passed_on (P : Prims) (m m' : Message) (text : Str) (j : Json) (hm : m.WF P.f64)
    (hc : Avoids m.didcomm.other classKeys) (h1 : m.jwm.typ ≠ .jwe) (h2 : m.jwm.typ ≠ .jws) (h : Document j text)
    (hd : j.depth ≤ 126) (hset : m.setBody P.floats text = .ok m') :
    ∃ a : Nat → Json, m' = { m with body := a 0 } ∧
      (∀ i (o o' : HOrd) (sk ek vk : Option Bytes),
        ({ m with body := a i }.asRawJson o >>= fun t => Message.receive P.floats o' t sk ek vk) =
          .ok { m with body := a (i + 1), flatJwe := false, flatJws := false }) ∧
      ∀ i, Denotes Algo.f64Text (a i) (a (i + 1)) := by
  obtain ⟨j', v, hj', -, hv, rfl⟩ := (C04_set_body _ _ _ _).1 hset
  obtain rfl : j = j' := Option.some.inj ((parseJson_iff.2 h).symm.trans (parseJson_iff.2 hj'))
  obtain ⟨a, h3, h4⟩ := C139_readings j v hv
  have e : a 1 = v := by
    have h5 := normJ_iff.2 (h4 0)
    rw [h3, show normJ Algo.f64Text j = some v from normJ_iff.2 hv] at h5
    exact (Option.some.inj h5).symm
  have hok : ∀ i, NumsOk (a i) ∧ (a i).depth ≤ 126 := by
    intro i
    induction i with
    | zero => rw [h3]; exact ⟨parseJson_numsOk (parseJson_iff.2 h), hd⟩
    | succ i ih =>
      have := normJ_iff.2 (h4 i)
      exact ⟨normJ_numsOk floats_tok this ih.1, Nat.le_trans (normJ_depth floats_tok this) ih.2⟩
  refine ⟨fun i => a (i + 1), by simp only [Nat.zero_add, e], ?_, fun i => h4 (i + 1)⟩
  intro i o o' sk ek vk
  have hr : ({ m with body := a (i + 1) } : Message).ReadsAs P.floats.f64 (a (i + 1 + 1)) :=
    ⟨hm.jwm, hm.other, hm.to, hm.recipients, normJ_iff.2 (h4 (i + 1)), (hok _).1, (hok _).2⟩
  simp only [Message.asRawJson, Res.bind_ok, Message.receive, Message.decryptStep, Message.verifyStep,
    messageType_reads P.floats o hr hc, h1, h2, if_false, ofText_reads o hr, Res.ofOpt_some]

/-- C139.  If a body can be set and the message can be sealed, then the receiver reads the message, whatever numbers the
body has. -/
theorem C139_received (P : Prims) (hP : Laws P) (r : Message.SealRand) (o : HOrd) (m m' : Message)
    (text : Str) (j : Json) (ssk rsk : Bytes) (rest : List (Option Bytes)) (t frm : Str) (vk : Option Bytes)
    (hm : m.WF P.f64) (hc : Avoids m.didcomm.other classKeys) (hf : HeaderFixed m.jwm) (ht : m.jwm.typ ≠ .jws)
    (hfrom : m.didcomm.from = some frm) (hrk : rsk.length = 32) (h : Document j text) (hd : j.depth ≤ 126)
    (hset : m.setBody P.floats text = .ok m')
    (hseal : m'.sealJwe P.floats r ssk (some (some (P.x25519Pub rsk) :: rest)) = .ok t) :
    ∃ q, Message.receive P.floats o t (some rsk) (some (P.x25519Pub ssk)) vk = .ok q ∧
      Readings Algo.f64Text 3 j q.body := by
  obtain ⟨j', v, hj', -, hv, -⟩ := (C04_set_body _ _ _ _).1 hset
  obtain rfl : j = j' := Option.some.inj ((parseJson_iff.2 h).symm.trans (parseJson_iff.2 hj'))
  obtain ⟨w, hw⟩ := Algo.read_again hv 2
  obtain ⟨q, h4, rfl⟩ := received_readings P hP r o m m' text j w ssk rsk rest t frm vk hm hc hf ht hfrom hrk h hd hw hset hseal
  exact ⟨q, h4, hw⟩

/-- The body of a message that was read is the value of something. -/
theorem body_of_read {F : Str → Option Str} {s : Str} {m : Message} (h : Message.ofText F s = some m) :
    ∃ v, Denotes F v m.body := by
  unfold Message.ofText at h
  split at h
  · simp only [decMessage, Option.bind_eq_bind, Option.bind_eq_some_iff, Option.pure_def, Option.some.injEq] at h
    obtain ⟨es, hes, rs, hrs, body, hb, atts, -, -, -, jwm, hjwm, dc, hdc, rfl⟩ := h
    obtain ⟨v, -, hv⟩ := reqField_some hb
    unfold toValue at hv
    split at hv
    · exact ⟨v, normJ_iff.1 hv⟩
    · cases hv
  · cases h

theorem reread_seq {P : Prims} {s : Str} {m : Message} (h : Message.ofText P.floats.f64 s = some m) (hto : m.didcomm.to ≠ []) :
    ∃ a : Nat → Message, a 0 = m ∧ (∀ i, a i = { m with body := (a i).body }) ∧ ∀ i, Reread P.floats (a i) (a (i + 1)) := by
  obtain ⟨v, hv⟩ := body_of_read h
  obtain ⟨b, h3, h4⟩ := C139_readings v m.body hv
  have e : b 1 = m.body := by
    have h5 := normJ_iff.2 (h4 0)
    rw [h3, show normJ Algo.f64Text v = some m.body from normJ_iff.2 hv] at h5
    exact (Option.some.inj h5).symm
  refine ⟨fun i => { m with body := b (i + 1) }, ?_, fun i => rfl, fun i => ⟨hto, _, h4 (i + 1), rfl⟩⟩
  simp only [Nat.zero_add, e]

/-- C139.  A message that was read from whatever text can be stored and read again for ever, and all but the numbers of
its body stays as it is. -/
theorem C139_reload (P : Prims) (hP : Laws P) (s : Str) (m : Message) (h : Message.ofText P.floats.f64 s = some m)
    (hto : m.didcomm.to ≠ []) :
    ∃ a : Nat → Message, a 0 = m ∧ (∀ i, a i = { m with body := (a i).body }) ∧
      (∀ i o, Message.ofText P.floats.f64 ((a i).text o) = some (a (i + 1))) ∧
      ∀ i, Denotes Algo.f64Text (a i).body (a (i + 1)).body := by
  obtain ⟨a, h1, h2, h3⟩ := reread_seq h hto
  have key : ∀ i, ∃ s, Message.ofText P.floats.f64 s = some (a i) := by
    intro i
    induction i with
    | zero => exact ⟨s, by rw [h1, h]⟩
    | succ i ih =>
      obtain ⟨s, hs⟩ := ih
      exact ⟨_, (C07_reload_iff P.floats (laws_floats hP) HOrd.rev s _ _ hs).2 (h3 i)⟩
  refine ⟨a, h1, h2, fun i o => ?_, fun i => ?_⟩
  rotate_left
  · obtain ⟨-, b, hb, e⟩ := h3 i
    rw [e]
    exact hb
  obtain ⟨s, hs⟩ := key i
  exact (C07_reload_iff P.floats (laws_floats hP) o s _ _ hs).2 (h3 i)

/-- C139.  A message that was received, with whatever keys, and that is not written as an encrypted or signed one can be
passed on as plain JSON for ever. -/
theorem C139_forwarded (P : Prims) (hP : Laws P) (o : HOrd) (s : Str) (sk ek vk : Option Bytes) (m : Message)
    (h : Message.receive P.floats o s sk ek vk = .ok m) (hto : m.didcomm.to ≠ []) (h1 : kindWritten m ≠ .jwe)
    (h2 : kindWritten m ≠ .jws) :
    ∃ a : Nat → Message, a 0 = m ∧ (∀ i, a i = { m with body := (a i).body }) ∧
      ∀ i (o o' : HOrd), ((a i).asRawJson o >>= fun t => Message.receive P.floats o' t none none none) = .ok (a (i + 1)) := by
  obtain ⟨cur, hcur⟩ := receive_ofText h
  obtain ⟨a, e1, e2, e3⟩ := reread_seq hcur hto
  have hk : ∀ i, kindWritten (a i) = kindWritten m := fun i => by rw [e2 i]; rfl
  have key : ∀ i, ∃ o s sk ek vk, Message.receive P.floats o s sk ek vk = .ok (a i) := by
    intro i
    induction i with
    | zero => exact ⟨o, s, sk, ek, vk, by rw [e1, h]⟩
    | succ i ih =>
      obtain ⟨o, s, sk, ek, vk, hs⟩ := ih
      exact ⟨o, _, none, none, none, (C63_reload_iff_partial P.floats (laws_floats hP) o o o s sk ek vk _ _ hs
        (by rwa [hk])).2 ⟨by rwa [hk], e3 i⟩⟩
  refine ⟨a, e1, e2, fun i o o' => ?_⟩
  obtain ⟨o1, s, sk, ek, vk, hs⟩ := key i
  exact (C63_reload_iff_partial P.floats (laws_floats hP) o1 o o' s sk ek vk _ _ hs (by rwa [hk])).2 ⟨by rwa [hk], e3 i⟩

/-! ## Examples -/

/-- A body with the largest number, the smallest, one that is lost and one that drifts. -/
def extremeText : Str := c!"{\"n\": [1.7976931348623157e308, -5e-324, 1e-400, 6.374619365083466e161, -0, 18446744073709551616]}"

theorem extreme_set (P : Prims) (m : Message) : ∃ m', m.setBody P.floats extremeText = .ok m' := by
  have : ∃ j, Document j extremeText ∧ j.depth ≤ 127 ∧ ∃ v, Denotes Algo.f64Text j v := by
    have h1 : (parseJson extremeText).isSome = true := by decide +kernel
    obtain ⟨j, hj⟩ := Option.isSome_iff_exists.1 h1
    have h2 : ((parseJson extremeText).bind fun j => if j.depth ≤ 127 then normJ Algo.f64Text j else none).isSome = true := by
      decide +kernel
    rw [hj, Option.bind_some] at h2
    obtain ⟨v, hv⟩ := Option.isSome_iff_exists.1 h2
    split at hv
    · next hd => exact ⟨j, parseJson_iff.1 hj, hd, v, normJ_iff.1 hv⟩
    · cases hv
  obtain ⟨j, h1, h2, v, h3⟩ := this
  exact ⟨_, (C04_set_body _ _ _ _).2 ⟨j, v, h1, h2, h3, rfl⟩⟩

/-- C139: such a body is passed on for ever. -/
example : ∃ a : Nat → Json, ∀ i (o o' : HOrd),
    ({ richMessage with body := a i }.asRawJson o >>= fun t => Message.receive (toy fun _ => none).floats o' t none none none) =
      .ok { richMessage with body := a (i + 1), flatJwe := false, flatJws := false } := by
  obtain ⟨m', h⟩ := extreme_set (toy fun _ => none) richMessage
  obtain ⟨j, v, h1, h2, -, -⟩ := (C04_set_body _ _ _ _).1 h
  have hd : j.depth ≤ 126 := by
    have h3 : ((parseJson extremeText).map Json.depth) = some 2 := by decide +kernel
    rw [parseJson_iff.2 h1] at h3
    have := Option.some.inj h3
    omega
  obtain ⟨a, -, h4, -⟩ := C139_passed_on (toy fun _ => none) richMessage m' extremeText j (richMessage_wf _) (by decide)
    (by decide) (by decide) h1 hd h
  exact ⟨a, fun i o o' => h4 i o o' none none none⟩

/-- C139: a document with such numbers is received and passed on for ever. -/
example : ∃ (m : Message) (a : Nat → Message), a 0 = m ∧
    Message.receive (toy fun _ => none).floats HOrd.rev
      c!"{\"id\":\"1\",\"typ\":\"application/didcomm-plain+json\",\"type\":\"\",\"to\":[\"did:e:a\"],\"body\":{\"a\":[1.7976931348623157e308,3e-324]}}" none none none = .ok m ∧
    ∀ i (o o' : HOrd), ((a i).asRawJson o >>= fun t => Message.receive (toy fun _ => none).floats o' t none none none) = .ok (a (i + 1)) := by
  have h1 : (match Message.receive (toy fun _ => none).floats HOrd.rev
      c!"{\"id\":\"1\",\"typ\":\"application/didcomm-plain+json\",\"type\":\"\",\"to\":[\"did:e:a\"],\"body\":{\"a\":[1.7976931348623157e308,3e-324]}}" none none none with
      | .ok q => decide (q.didcomm.to ≠ []) && decide (kindWritten q ≠ .jwe) && decide (kindWritten q ≠ .jws) | _ => false) = true := by
    decide +kernel
  split at h1
  · next m hm =>
    simp only [Bool.and_eq_true, decide_eq_true_eq] at h1
    obtain ⟨a, h2, -, h3⟩ := C139_forwarded (toy fun _ => none) (toy_laws _) _ _ _ _ _ m hm h1.1.1 h1.1.2 h1.2
    exact ⟨m, a, h2, hm, h3⟩
  · cases h1

end Verif
