import Verif.Props.Flow

/-!
# Conversations

C113: threads over any number of answers, each sealed and received.
-/

namespace Verif

open Spec

/-- `y` arrived as an answer to `x`: somebody made a message that is in no thread yet an answer to `x`, gave it whatever
other content, sealed it, and the first recipient received it as `y`. -/
def Spec.Answer (P : Prims) (x y : Message) : Prop :=
  ∃ (m a : Message) (r : Message.SealRand) (o : HOrd) (ssk rsk : Bytes) (rest : List (Option Bytes)) (t frm : Str)
    (vk : Option Bytes),
    m.didcomm.thid = none ∧ m.didcomm.thread = none ∧
    a.didcomm.thid = (m.replyTo x).didcomm.thid ∧ a.didcomm.thread = (m.replyTo x).didcomm.thread ∧
    a.WF P.f64 ∧ Avoids a.didcomm.other classKeys ∧ HeaderFixed a.jwm ∧ a.jwm.typ ≠ .jws ∧
    a.didcomm.from = some frm ∧ rsk.length = 32 ∧
    a.sealJwe P r ssk (some (some (P.x25519Pub rsk) :: rest)) = .ok t ∧
    Message.receive P o t (some rsk) (some (P.x25519Pub ssk)) vk = .ok y

/-- `y` is the last message of a conversation of any length that `x` opened. -/
inductive Spec.Conversation (P : Prims) (x : Message) : Message → Prop
  | opened : Conversation P x x
  | answer {y z} : Conversation P x y → Spec.Answer P y z → Conversation P x z

/-- What an answer says of its thread. -/
theorem answer_thread {P : Prims} (hP : Laws P) {x y : Message} (h : Spec.Answer P x y) :
    ∃ m : Message, m.didcomm.thid = none ∧ m.didcomm.thread = none ∧
      y.didcomm.thid = (m.replyTo x).didcomm.thid ∧ y.didcomm.thread = (m.replyTo x).didcomm.thread := by
  obtain ⟨m, a, r, o, ssk, rsk, rest, t, frm, vk, h1, h2, h3, h4, hw, hc, hf, hj, hfrom, hrk, hs, hr⟩ := h
  obtain ⟨rs, h⟩ := C16_seal_receive P hP r o a ssk rsk rest t frm vk hw hc hf hj hfrom hrk hs
  rw [h] at hr
  obtain rfl := Res.ok.inj hr
  exact ⟨m, h1, h2, h3, h4⟩

/-- C113 fails: an answer to a message that opens a conversation, with or without the thread decorator made for that by
`Thread::implicit`, does not say which message it answers: the answer is the same for any two such messages of one
sender. -/
theorem C113_names_message_violated (m x x' : Message) (hx : x.didcomm.thid = none) (hx' : x'.didcomm.thid = none)
    (ht : x.didcomm.thread = none ∨ x.didcomm.thread = some (Thread.implicit x.didcomm.id))
    (ht' : x'.didcomm.thread = none ∨ x'.didcomm.thread = some (Thread.implicit x'.didcomm.id))
    (hf : x.didcomm.from = x'.didcomm.from) (hp : x.didcomm.pthid = x'.didcomm.pthid) :
    m.replyTo x = m.replyTo x' ∧ (m.replyTo x).didcomm.thid = none := by
  have key : ∀ z : Message, z.didcomm.thread = none ∨ z.didcomm.thread = some (Thread.implicit z.didcomm.id) →
      z.didcomm.thid = none → m.replyTo z = { m with didcomm := { m.didcomm with
        thid := none, pthid := z.didcomm.pthid, «to» := m.didcomm.to ++ [z.didcomm.from.getD []] } } := by
    rintro z (hz | hz) hn <;>
      simp [Message.replyTo, DidCommHeader.replyTo, hz, hn, Thread.isImplicitReply, Thread.implicit]
  rw [key x ht hx, key x' ht' hx', hf, hp]
  exact ⟨rfl, rfl⟩

/-- C113 fails in conversations of any length: if the first message has no thread, no message has one. -/
theorem C113_never_threaded_violated (P : Prims) (hP : Laws P) (x y : Message) (h : Spec.Conversation P x y)
    (hx : x.didcomm.thid = none)
    (ht : x.didcomm.thread = none ∨ x.didcomm.thread = some (Thread.implicit x.didcomm.id)) :
    y.didcomm.thid = none ∧ (y = x ∨ y.didcomm.thread = none) := by
  induction h with
  | opened => exact ⟨hx, .inl rfl⟩
  | @answer y z _ ha ih =>
    obtain ⟨m, h1, h2, h3, h4⟩ := answer_thread hP ha
    have hy : y.didcomm.thread = none ∨ y.didcomm.thread = some (Thread.implicit y.didcomm.id) := by
      rcases ih.2 with rfl | h
      · exact ht
      · exact .inl h
    rw [h3, h4]
    constructor
    · exact (C113_names_message_violated m y y ih.1 ih.1 hy hy rfl rfl).2
    · refine .inr ?_
      rcases hy with hy | hy <;>
        simp [Message.replyTo, DidCommHeader.replyTo, hy, h2, Thread.isImplicitReply, Thread.implicit]

/-- C113, what holds: if the first message has a thread id, and its decorator, if any, names the same thread, then every
message of the conversation carries that id, as header and in its decorator. -/
theorem C113_one_thread_partial (P : Prims) (hP : Laws P) (x y : Message) (t : Str) (h : Spec.Conversation P x y)
    (hx : x.didcomm.thid = some t) (ht : ∀ d, x.didcomm.thread = some d → d.thid = t) :
    y.didcomm.thid = some t ∧ ∀ d, y.didcomm.thread = some d → d.thid = t := by
  induction h with
  | opened => exact ⟨hx, ht⟩
  | @answer y z _ ha ih =>
    obtain ⟨m, h1, h2, h3, h4⟩ := answer_thread hP ha
    rw [h3, h4]
    cases hd : y.didcomm.thread with
    | none => simp [Message.replyTo, DidCommHeader.replyTo, hd, ih.1, h2]
    | some d =>
      have hdt := ih.2 d hd
      by_cases hi : d.isImplicitReply y.didcomm.id = true
      · simp [Message.replyTo, DidCommHeader.replyTo, hd, hi, hdt, Thread.implicitReply]
      · simp [Message.replyTo, DidCommHeader.replyTo, hd, hi, ih.1, h2]

/-- C113, what holds for openers with the decorator `Thread::implicit_reply` of another message: the answers carry the
thread id of the decorator. -/
theorem C113_decorator_partial (P : Prims) (hP : Laws P) (x y : Message) (t : Str) (h : Spec.Answer P x y)
    (ht : x.didcomm.thread = some (Thread.implicitReply t)) (hne : t ≠ x.didcomm.id) :
    y.didcomm.thid = some t ∧ y.didcomm.thread = some (Thread.implicitReply t) := by
  obtain ⟨m, h1, h2, h3, h4⟩ := answer_thread hP h
  rw [h3, h4]
  simp [Message.replyTo, DidCommHeader.replyTo, ht, Thread.isImplicitReply, Thread.implicitReply, Thread.dflt, hne]

/-- The example message in another thread. -/
def threadMessage (thid : Option Str) : Message :=
  { exampleMessage with didcomm := { exampleMessage.didcomm with thid := thid, thread := none } }

/-- C113: an answer that is sealed and received, to a message with or without thread id. -/
example (thid : Option Str) : ∃ y, Spec.Answer (toy fun _ => none)
    ((Message.new c!"1").setDidcomm { DidCommHeader.new c!"1" with thid := thid }) y ∧ y.didcomm.thid = thid := by
  have hl := toy_laws fun _ => none
  have hw := exampleMessage_wf (toy fun _ => none).f64
  have hw' : Message.WF (toy fun _ => none).f64
      (threadMessage thid) :=
    ⟨hw.jwm, hw.other, hw.to, hw.recipients, hw.canon, hw.nums, hw.depth⟩
  have hf : HeaderFixed exampleMessage.jwm := ⟨(by intro k h; cases h), (by intro k h; cases h)⟩
  have ho : Avoids exampleMessage.didcomm.other classKeys := by decide
  have hj : exampleMessage.jwm.typ ≠ .jws := by decide
  obtain ⟨t, ht⟩ := C16_seal_total (toy fun _ => none) hl (toy_total _) exampleRand
    (threadMessage thid) (exampleKey 3) (some [some ((toy fun _ => none).x25519Pub (exampleKey 1)),
        some ((toy fun _ => none).x25519Pub (exampleKey 2))]) c!"ECDH-1PU+XC20PKW" rfl hw'.to
    (by intro l hl; rw [← Option.some.inj hl]; rfl) (by intro h; cases h) rfl (by decide) (by
      intro i dest hi
      match i with
      | 0 => exact ⟨_, hl.pub_len _, .inl rfl⟩
      | 1 => exact ⟨_, hl.pub_len _, .inl rfl⟩
      | n + 2 => cases hi)
  obtain ⟨rs, h⟩ := C16_seal_receive _ hl exampleRand HOrd.rev (threadMessage thid) (exampleKey 3) (exampleKey 1)
    _ t c!"did:e:f" none hw' ho hf hj rfl (by decide) ht
  exact ⟨_, ⟨Message.new c!"2", threadMessage thid, exampleRand, HOrd.rev, exampleKey 3, exampleKey 1, _, t, c!"did:e:f", none, rfl, rfl,
    rfl, rfl, hw', ho, hf, hj, rfl, by decide, ht, h⟩, rfl⟩

end Verif
