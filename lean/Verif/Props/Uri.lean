import Verif.Props.Api

/-!
# What the URI of a message identifies

C12.
-/

namespace Verif

/-- C12, violated for every message: there is another with the same URI which differs from it in `thid` or `pthid`. -/
theorem C12_every_uri_violated (m : Message) :
    ∃ n : Message, n.messageUri = m.messageUri ∧
      ¬ (n.didcomm.thid = m.didcomm.thid ∧ n.didcomm.pthid = m.didcomm.pthid) := by
  cases ht : m.didcomm.thid with
  | some t =>
    refine ⟨{ m with didcomm := { m.didcomm with id := m.didcomm.id ++ t, thid := none } }, ?_, ?_⟩
    · simp [Message.messageUri, DidCommHeader.messageUri, ht]
    · rintro ⟨h, -⟩
      cases h
  | none =>
    refine ⟨{ m with didcomm := { m.didcomm with id := [], thid := some m.didcomm.id } }, ?_, ?_⟩
    · simp [Message.messageUri, DidCommHeader.messageUri, ht]
    · rintro ⟨h, -⟩
      cases h

/-- C12, violated also for one id, so that ids that are never used twice do not help: a message of the thread `t` and one whose
parent thread is `t` have the same URI, as have a message in thread and parent thread with any cut between the two. -/
theorem C12_thread_or_parent_violated (m : Message) (t : Str) (u v : Str) :
    ({ m with didcomm := { m.didcomm with thid := some t, pthid := none } } : Message).messageUri =
      ({ m with didcomm := { m.didcomm with thid := none, pthid := some t } } : Message).messageUri ∧
    ({ m with didcomm := { m.didcomm with thid := some (t ++ u), pthid := some v } } : Message).messageUri =
      ({ m with didcomm := { m.didcomm with thid := some t, pthid := some (u ++ v) } } : Message).messageUri := by
  simp [Message.messageUri, DidCommHeader.messageUri]

/-- C12, what holds, exactly: with ids of equal length, as those this crate draws have, two messages have the same URI if and only
if they have the same id and the same text of `thid` and `pthid` one after the other, those that are missing counted as empty. -/
theorem C12_uri_iff_partial (m n : Message) (hid : m.didcomm.id.length = n.didcomm.id.length) :
    m.messageUri = n.messageUri ↔ m.didcomm.id = n.didcomm.id ∧
      m.didcomm.thid.getD [] ++ m.didcomm.pthid.getD [] = n.didcomm.thid.getD [] ++ n.didcomm.pthid.getD [] := by
  simp only [Message.messageUri, DidCommHeader.messageUri, List.append_assoc, List.append_cancel_left_eq]
  constructor
  · intro h
    exact List.append_inj h hid
  · rintro ⟨h1, h2⟩
    rw [h1, h2]

/-- C12: two messages with ids of the same length and different URIs. -/
example : (Message.new c!"ab").didcomm.id.length = (Message.new c!"cd").didcomm.id.length ∧
    (Message.new c!"ab").messageUri ≠ (Message.new c!"cd").messageUri := by decide

end Verif
