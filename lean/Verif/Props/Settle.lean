import Verif.Lemma.Algo.Settle
import Verif.Props.Again

/-!
# Whether the numbers of a body settle

C140.
-/

namespace Verif

open Spec

/-- A message with one number that is passed on for ever. -/
theorem amount_passed_on (P : Prims) (m : Message) (hm : m.WF P.f64) (hc : Avoids m.didcomm.other classKeys)
    (h1 : m.jwm.typ ≠ .jwe) (h2 : m.jwm.typ ≠ .jws) {t u : Str} (ht : NumTok t) (h : normNum Algo.f64Text t = some u)
    (o o' : HOrd) (sk ek vk : Option Bytes) :
    ({ m with body := amount t }.asRawJson o >>= fun t => Message.receive P.floats o' t sk ek vk) =
      .ok { m with body := amount u, flatJwe := false, flatJws := false } := by
  have hr : ({ m with body := amount t } : Message).ReadsAs P.floats.f64 (amount u) :=
    ⟨hm.jwm, hm.other, hm.to, hm.recipients, normJ_iff.2 (denotes_amount h), ⟨ht, trivial⟩,
      by show Json.depth (.obj [(_, .num _)]) ≤ 126; simp [Json.depth, Json.depth.depthM]⟩
  simp only [Message.asRawJson, Res.bind_ok, Message.receive, Message.decryptStep, Message.verifyStep,
    messageType_reads P.floats o hr hc, h1, h2, if_false, ofText_reads o hr, Res.ofOpt_some]

/-- The two numbers that are read as each other. -/
def swing (i : Nat) : Str := if i % 2 = 0 then c!"7.0177686167805915e-9" else c!"7.017768616780591e-9"

/-- C140, as written, is false: this number is set without an error and is read as another one at every hop, for ever;
after two hops it is the first again. -/
theorem C140_swing_violated (P : Prims) (m : Message) (hm : m.WF P.f64)
    (hc : Avoids m.didcomm.other classKeys) (h1 : m.jwm.typ ≠ .jwe) (h2 : m.jwm.typ ≠ .jws) :
    ∃ a : Nat → Str, m.setBody P.floats c!"{\"amount\":7.017768616780591e-9}" = .ok { m with body := amount (a 0) } ∧
      ∀ i, (∀ (o o' : HOrd) (sk ek vk : Option Bytes),
          ({ m with body := amount (a i) }.asRawJson o >>= fun t => Message.receive P.floats o' t sk ek vk) =
            .ok { m with body := amount (a (i + 1)), flatJwe := false, flatJws := false }) ∧
        ¬ SameValue (a i) (a (i + 1)) ∧ a (i + 2) = a i := by
  have e1 : normNum Algo.f64Text c!"7.0177686167805915e-9" = some c!"7.017768616780591e-9" := by decide +kernel
  have e2 : normNum Algo.f64Text c!"7.017768616780591e-9" = some c!"7.0177686167805915e-9" := by decide +kernel
  have hn1 : ¬ SameValue c!"7.0177686167805915e-9" c!"7.017768616780591e-9" := by
    rintro ⟨neg, s, e, neg', s', e', d1, d2, h⟩
    have e1 := Algo.decimal_decOf d1
    have e2 := Algo.decimal_decOf d2
    rw [show Algo.decOf c!"7.0177686167805915e-9" = (false, 70177686167805915, -25) from by decide +kernel] at e1
    rw [show Algo.decOf c!"7.017768616780591e-9" = (false, 7017768616780591, -24) from by decide +kernel] at e2
    simp only [Prod.mk.injEq] at e1 e2
    obtain ⟨rfl, rfl, rfl⟩ := e1
    obtain ⟨rfl, rfl, rfl⟩ := e2
    unfold decimalVal at h
    norm_num at h
  have hn2 : ¬ SameValue c!"7.017768616780591e-9" c!"7.0177686167805915e-9" := by
    rintro ⟨neg, s, e, neg', s', e', d1, d2, h⟩
    exact hn1 ⟨neg', s', e', neg, s, e, d2, d1, h.symm⟩
  have t1 : NumTok c!"7.0177686167805915e-9" := by
    rcases normNum_iff.1 e2 with ⟨-, h⟩ | ⟨-, h⟩
    · exact absurd h (by decide)
    · exact floats_tok _ _ h
  have t2 : NumTok c!"7.017768616780591e-9" := by
    rcases normNum_iff.1 e1 with ⟨-, h⟩ | ⟨-, h⟩
    · exact absurd h (by decide)
    · exact floats_tok _ _ h
  refine ⟨swing, (C04_set_body _ _ _ _).2 ⟨amount c!"7.017768616780591e-9", _, parseJson_iff.1 (by decide +kernel), by decide,
      denotes_amount e2, rfl⟩, fun i => ?_⟩
  rcases Nat.mod_two_eq_zero_or_one i with hi | hi
  · have a0 : swing i = c!"7.0177686167805915e-9" := if_pos hi
    have a1 : swing (i + 1) = c!"7.017768616780591e-9" := if_neg (by omega)
    have a2 : swing (i + 2) = c!"7.0177686167805915e-9" := if_pos (by omega)
    rw [a0, a1, a2]
    exact ⟨amount_passed_on P m hm hc h1 h2 t1 e1, hn1, rfl⟩
  · have a0 : swing i = c!"7.017768616780591e-9" := if_neg (by omega)
    have a1 : swing (i + 1) = c!"7.0177686167805915e-9" := if_pos (by omega)
    have a2 : swing (i + 2) = c!"7.017768616780591e-9" := if_neg (by omega)
    rw [a0, a1, a2]
    exact ⟨amount_passed_on P m hm hc h1 h2 t2 e2, hn2, rfl⟩

/-- C140, what holds: there are numbers `N` and `p`, the same for all messages, such that after `N` hops the body is the
same every `p` hops, whatever numbers it has.  Missing: `p = 1`, which is false. -/
theorem C140_periodic_partial : ∃ N p, 0 < p ∧ ∀ (P : Prims) (m m' : Message) (text : Str) (j : Json), m.WF P.f64 →
    Avoids m.didcomm.other classKeys → m.jwm.typ ≠ .jwe → m.jwm.typ ≠ .jws → Document j text → j.depth ≤ 126 →
    m.setBody P.floats text = .ok m' →
    ∃ a : Nat → Json, m' = { m with body := a 0 } ∧
      (∀ i (o o' : HOrd) (sk ek vk : Option Bytes),
        ({ m with body := a i }.asRawJson o >>= fun t => Message.receive P.floats o' t sk ek vk) =
          .ok { m with body := a (i + 1), flatJwe := false, flatJws := false }) ∧
      ∀ i, N ≤ i → a (i + p) = a i := by
  obtain ⟨N, p, hp, h⟩ := Algo.read_periodic
  refine ⟨N, p, hp, fun P m m' text j hm hc h1 h2 hj hd hset => ?_⟩
  obtain ⟨a, e1, e2, e3⟩ := C139_passed_on P m m' text j hm hc h1 h2 hj hd hset
  exact ⟨a, e1, e2, h a e3⟩

/-- C140, what holds: the same of every message that was read from whatever text and is stored and read again. -/
theorem C140_reload_partial : ∃ N p, 0 < p ∧ ∀ (P : Prims), Laws P → ∀ (s : Str) (m : Message),
    Message.ofText P.floats.f64 s = some m → m.didcomm.to ≠ [] →
    ∃ a : Nat → Message, a 0 = m ∧ (∀ i o, Message.ofText P.floats.f64 ((a i).text o) = some (a (i + 1))) ∧
      ∀ i, N ≤ i → a (i + p) = a i := by
  obtain ⟨N, p, hp, h⟩ := Algo.read_periodic
  refine ⟨N, p, hp, fun P hP s m hs hto => ?_⟩
  obtain ⟨a, e1, e2, e3, e4⟩ := C139_reload P hP s m hs hto
  refine ⟨a, e1, e3, fun i hi => ?_⟩
  rw [e2 (i + p), e2 i, h (fun i => (a i).body) e4 i hi]

/-! ## Examples -/

/-- C140: a message whose number swings. -/
example : ∃ a : Nat → Str, richMessage.setBody (toy fun _ => none).floats c!"{\"amount\":7.017768616780591e-9}" =
    .ok { richMessage with body := amount (a 0) } ∧ ∀ i, ¬ SameValue (a i) (a (i + 1)) ∧ a (i + 2) = a i := by
  obtain ⟨a, h1, h2⟩ := C140_swing_violated (toy fun _ => none) richMessage (richMessage_wf _) (by decide) (by decide) (by decide)
  exact ⟨a, h1, fun i => (h2 i).2⟩

/-- C140: three numbers that follow each other. -/
example : ∃ t u v, Algo.f64Text t = some u ∧ Algo.f64Text u = some v ∧ Algo.f64Text v = some t ∧ t ≠ u ∧ u ≠ v ∧ v ≠ t :=
  ⟨c!"7.259686709385084e-90", c!"7.259686709385085e-90", c!"7.2596867093850855e-90", by decide +kernel, by decide +kernel, by decide +kernel, by decide, by decide, by decide⟩

/-- C140: the body with the extreme numbers comes again. -/
example : ∃ N p, 0 < p ∧ ∃ a : Nat → Json, (∀ i (o o' : HOrd),
    ({ richMessage with body := a i }.asRawJson o >>= fun t => Message.receive (toy fun _ => none).floats o' t none none none) =
      .ok { richMessage with body := a (i + 1), flatJwe := false, flatJws := false }) ∧ ∀ i, N ≤ i → a (i + p) = a i := by
  obtain ⟨N, p, hp, h⟩ := C140_periodic_partial
  obtain ⟨m', hs⟩ := extreme_set (toy fun _ => none) richMessage
  obtain ⟨j, v, h1, h2, -, -⟩ := (C04_set_body _ _ _ _).1 hs
  have hd : j.depth ≤ 126 := by
    have h3 : ((parseJson extremeText).map Json.depth) = some 2 := by decide +kernel
    rw [parseJson_iff.2 h1] at h3
    have := Option.some.inj h3
    omega
  obtain ⟨a, -, h4, h5⟩ := h (toy fun _ => none) richMessage m' extremeText j (richMessage_wf _) (by decide)
    (by decide) (by decide) h1 hd hs
  exact ⟨N, p, hp, a, fun i o o' => h4 i o o' none none none, h5⟩

end Verif
