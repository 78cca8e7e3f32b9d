import Verif.Lemma.Algo.Again
import Verif.Props.Accuracy
import Verif.Props.Schema
import Verif.Props.Whole
import Verif.Spec.Extreme

/-!
# Numbers that are too large or too small

C137.
-/

namespace Verif

open Spec

/-- A number is read as no text: neither is a document that holds it. -/
theorem SomeNum.not_denotes {p : Str → Prop} {F : Str → Option Str} (hp : ∀ t, p t → ¬ IntTok t ∧ F t = none) {j : Json}
    (h : SomeNum p j) : ∀ v, ¬ Denotes F j v := by
  induction h with
  | num h =>
    intro v hv
    cases hv with
    | num hv =>
      rcases hv with ⟨h1, -⟩ | ⟨-, h1⟩
      · exact (hp _ h).1 h1
      · rw [(hp _ h).2] at h1
        cases h1
  | @arr l a ha _ ih =>
    intro v hv
    cases hv with
    | @arr _ l' hl hv =>
      obtain ⟨i, hi⟩ := List.mem_iff_getElem?.1 ha
      have hlt : i < l'.length := by rw [← hl]; exact (List.getElem?_eq_some_iff.1 hi).1
      exact ih _ (hv i a _ hi (List.getElem?_eq_getElem hlt))
  | obj hm _ ih =>
    intro v hv
    cases hv with
    | obj w h1 _ _ => exact ih _ (h1 _ _ hm)

theorem big_refused {j : Json} (h : SomeNum BigNum j) (v : Json) : ¬ Denotes Algo.f64Text j v :=
  SomeNum.not_denotes (fun _ ⟨_, _, _, h1, h2, h3⟩ => Algo.f64Text_large h1 h2 h3) h v

/-- C137.  A body that holds a number that is too large, wherever it stands, is refused; the message is not changed. -/
theorem C137_set (P : Prims) (m : Message) (text : Str) (j : Json) (h : Document j text) (hb : SomeNum BigNum j) :
    m.setBody P.floats text = .err .serde := by
  refine C04_set_body_error _ _ _ fun m' hm => ?_
  obtain ⟨j', v, h1, -, h2, -⟩ := (C04_set_body _ _ _ _).1 hm
  rw [← parseJson_iff] at h h1
  rw [h] at h1
  obtain rfl := Option.some.inj h1
  exact big_refused hb v h2

/-- C137.  A document with such a number in its body, or in a member that the library does not know, is never received,
whatever else it holds and whatever keys are given. -/
theorem C137_received (P : Prims) (hP : Laws P) (o : HOrd) (s : Str) (es : List (Str × Json)) (k : Str) (v : Json)
    (h : Document (.obj es) s) (hk : (k, v) ∈ es) (hb : SomeNum BigNum v)
    (hn : k ∉ [c!"protected", c!"unprotected", c!"recipients", c!"ciphertext", c!"iv", c!"tag", c!"payload", c!"signatures",
      c!"attachments"])
    (sk ek vk : Option Bytes) (q : Message) : Message.receive P.floats o s sk ek vk ≠ .ok q := by
  have hkeep : ¬ Keeps P.floats.f64 1 v := fun ⟨_, _, _, w, hw⟩ => big_refused hb w hw
  simp only [List.mem_cons, List.not_mem_nil, or_false, not_or] at hn
  have uniq : ∀ {es'}, Document (.obj es') s → es' = es := by
    intro es' h'
    rw [← parseJson_iff] at h h'
    rw [h] at h'
    exact (Json.obj.inj (Option.some.inj h')).symm
  have hm : ∀ m, Message.ofText P.floats.f64 s ≠ some m := by
    intro m hm
    obtain ⟨es', h1, -, h2⟩ := (C95_message _ _).1 ⟨m, hm⟩
    obtain rfl := uniq h1
    exact hkeep (h2 (k, v) hk hn.2.2.1 hn.2.2.2.2.2.2.2.2)
  have hj : ∀ m, Jwe.ofText P.floats.f64 s ≠ some m := by
    intro m hm
    obtain ⟨es', h1, -, h2⟩ := (C95_jwe _ _).1.1 ⟨m, hm⟩
    obtain rfl := uniq h1
    exact hkeep (h2 (k, v) hk (by simp [jweNames, hn]))
  have hs : ∀ m, Jws.ofText P.floats.f64 s ≠ some m := by
    intro m hm
    obtain ⟨es', h1, -, h2, -⟩ := (C95_jws _ _).1 ⟨m, hm⟩
    obtain rfl := uniq h1
    exact hkeep (h2 (k, v) hk (by simp [hn]))
  intro hr
  rcases (C112_receive_iff P.floats (laws_floats hP) o s sk ek vk q).1 hr with ⟨-, h1⟩ | ⟨-, v', h1, -⟩ | ⟨-, _, j, _, _, _, -, h1, -⟩
  · exact hm _ h1
  · rcases h1 with ⟨x, _, h1, -⟩ | ⟨-, j, _, _, _, h1, -⟩
    · exact hm _ h1
    · exact hs _ h1
  · exact hj _ h1

theorem zero_text (neg : Bool) : ZeroNum (if neg = true then c!"-0.0" else c!"0.0") := by
  refine ⟨neg, -1, ['0'], ['0'], ['.', '0'], [], 0, ?_, by unfold Digits; decide, .inl rfl,
    .inr ⟨by unfold Digits; decide, rfl⟩, .inl ⟨rfl, rfl⟩, rfl, rfl⟩
  cases neg <;> rfl

/-- C137, as written, is false: a number that is too small is taken without an error, and whoever receives the sealed
message gets zero. -/
theorem C137_lost_violated (P : Prims) (hP : Laws P) (m : Message) (hm : m.WF P.f64)
    (hc : Avoids m.didcomm.other classKeys) (hf : HeaderFixed m.jwm) (ht : m.jwm.typ ≠ .jws) (frm : Str)
    (hfrom : m.didcomm.from = some frm) (x text : Str) (hx : TinyNum x) (hdoc : Document (amount x) text) :
    ∃ m' u, m.setBody P.floats text = .ok m' ∧ ZeroNum u ∧ ¬ ZeroNum x ∧
      ∀ (r : Message.SealRand) (o : HOrd) (ssk rsk : Bytes) (rest : List (Option Bytes)) (t : Str) (vk : Option Bytes),
        rsk.length = 32 → m'.sealJwe P.floats r ssk (some (some (P.x25519Pub rsk) :: rest)) = .ok t →
        ∃ q, Message.receive P.floats o t (some rsk) (some (P.x25519Pub ssk)) vk = .ok q ∧ q.body = amount u := by
  obtain ⟨neg, s, e, hd, hl, hs, hv⟩ := hx
  obtain ⟨hi, hu⟩ := Algo.f64Text_tiny hd hl hs hv
  have hz := zero_text neg
  have h1 : normNum Algo.f64Text x = some (if neg = true then c!"-0.0" else c!"0.0") := normNum_iff.2 (.inr ⟨hi, hu⟩)
  have h2 : normNum Algo.f64Text (if neg = true then c!"-0.0" else c!"0.0") =
      some (if neg = true then c!"-0.0" else c!"0.0") := by cases neg <;> decide +kernel
  generalize (if neg = true then c!"-0.0" else c!"0.0" : Str) = u at h1 h2 hz hu
  have hset : ∀ m : Message, m.setBody P.floats text = .ok { m with body := amount u } := fun m =>
    (C04_set_body _ _ _ _).2 ⟨amount x, _, hdoc, by show (amount []).depth ≤ 127; decide, denotes_amount h1, rfl⟩
  refine ⟨_, u, hset m, hz, ?_, ?_⟩
  · rintro ⟨neg', e', h3⟩
    have e1 := Algo.decimal_decOf hd
    rw [Algo.decimal_decOf h3] at e1
    simp only [Prod.mk.injEq] at e1
    omega
  · intro r o ssk rsk rest t vk hrk hseal
    have hm' : ({ m with body := .null } : Message).WF P.floats.f64 :=
      ⟨hm.jwm, hm.other, hm.to, hm.recipients, trivial, trivial, by show Json.null.depth ≤ 126; decide⟩
    obtain ⟨rs, h⟩ := C111_sealed_body P.floats (laws_floats hP) r o { m with body := .null } _ text (amount u) (amount u)
      ssk rsk rest t frm vk hm' hc hf ht hfrom hrk (hset _) (by show (amount []).depth ≤ 126; decide) (denotes_amount h2)
      (denotes_amount h2) hseal
    exact ⟨_, h, rfl⟩

/-- C137, what holds: numbers that are neither too small nor very large arrive as zero exactly if they are zero.  Missing:
numbers that are not zero but smaller than 2.5 * 10^-324. -/
theorem C137_kept_partial (P : Prims) (hP : Laws P) (r : Message.SealRand) (o : HOrd) (m m' : Message)
    (text : Str) (j : Json) (ssk rsk : Bytes) (rest : List (Option Bytes)) (t frm : Str) (vk : Option Bytes)
    (hm : m.WF P.f64) (hc : Avoids m.didcomm.other classKeys) (hf : HeaderFixed m.jwm) (ht : m.jwm.typ ≠ .jws)
    (hfrom : m.didcomm.from = some frm) (hrk : rsk.length = 32) (h : Document j text) (hd : j.depth ≤ 126)
    (hs : AllNums KeptNum j) (hset : m.setBody P.floats text = .ok m')
    (hseal : m'.sealJwe P.floats r ssk (some (some (P.x25519Pub rsk) :: rest)) = .ok t) :
    ∃ q F, Message.receive P.floats o t (some rsk) (some (P.x25519Pub ssk)) vk = .ok q ∧
      Denotes F j q.body ∧ ∀ t u, F t = some u → (ZeroNum u ↔ ZeroNum t) := by
  obtain ⟨w, h1, h2⟩ := Algo.read_kept (n := 3) (by norm_num) hs
  obtain ⟨q, h4, rfl⟩ := received_readings P hP r o m m' text j w ssk rsk rest t frm vk hm hc hf ht hfrom hrk h hd h1 hset hseal
  exact ⟨q, _, h4, h2, fun t u hu => Algo.keeps_iff hu⟩

/-- C137, what holds: the same of a message that is passed on any number of times as plain JSON.  Missing: as above. -/
theorem C137_passed_on_partial (P : Prims) (m : Message) (text : Str) (j : Json) (n : Nat) (hm : m.WF P.f64)
    (hc : Avoids m.didcomm.other classKeys) (h1 : m.jwm.typ ≠ .jwe) (h2 : m.jwm.typ ≠ .jws) (h : Document j text)
    (hd : j.depth ≤ 126) (hs : AllNums KeptNum j) :
    ∃ (a : Nat → Json) (F : Str → Option Str), m.setBody P.floats text = .ok { m with body := a 0 } ∧
      (∀ i < n, ∀ (o o' : HOrd) (sk ek vk : Option Bytes),
        ({ m with body := a i }.asRawJson o >>= fun t => Message.receive P.floats o' t sk ek vk) =
          .ok { m with body := a (i + 1), flatJwe := false, flatJws := false }) ∧
      Denotes F j (a n) ∧ ∀ t u, F t = some u → (ZeroNum u ↔ ZeroNum t) := by
  obtain ⟨v, h3, h4⟩ := Algo.read_kept (n := n + 1) (by omega) hs
  obtain ⟨a, h6, h7, rfl⟩ := passed_readings P m text j v n hm hc h1 h2 h hd h3
  exact ⟨a, _, h6, h7, h4, fun t u hu => Algo.keeps_iff hu⟩

/-! ## Examples -/

theorem big_num : BigNum c!"-1.5e999999999999" := by
  refine ⟨true, 15, 999999999998, ⟨c!"1", c!"5", c!".5", c!"e999999999999", 999999999999, rfl,
    by unfold Digits; decide, .inr (by decide), .inr ⟨by unfold Digits; decide, rfl⟩,
    .inr ⟨'e', c!"999999999999", .inl rfl, by unfold Digits; decide, .inl ⟨rfl, by decide +kernel⟩⟩, by decide +kernel, by decide⟩,
    by decide, ?_⟩
  have h1 : (10 : ℚ) ^ (309 : Int) ≤ 10 ^ (999999999998 : Int) := zpow_le_zpow_right₀ (by norm_num) (by norm_num)
  have h2 : (18 : ℚ) * 10 ^ (307 : Int) ≤ 10 ^ (309 : Int) := by
    rw [show (309 : Int) = 2 + 307 from rfl, zpow_add₀ (by norm_num)]
    exact mul_le_mul_of_nonneg_right (by norm_num) (zpow_pos (by norm_num) _).le
  exact le_trans h2 (le_trans h1 (Algo.ten_le (by norm_num) _))

theorem tiny_num : TinyNum c!"-7e-400" := by
  refine ⟨true, 7, -400, ⟨c!"7", [], [], c!"e-400", -400, rfl,
    by unfold Digits; decide, .inr (by decide), .inl ⟨rfl, rfl⟩,
    .inr ⟨'e', c!"400", .inl rfl, by unfold Digits; decide, .inr (.inr ⟨rfl, by decide +kernel⟩)⟩, by decide +kernel, by decide⟩,
    by decide, by norm_num, ?_⟩
  have h1 : (10 : ℚ) ^ (20 + -400 : Int) ≤ 10 ^ (-325 : Int) := zpow_le_zpow_right₀ (by norm_num) (by norm_num)
  have h2 : (10 : ℚ) ^ (-325 : Int) ≤ 24 * 10 ^ (-325 : Int) :=
    le_mul_of_one_le_left (zpow_pos (by norm_num) _).le (by norm_num)
  exact le_trans (Algo.ten_lt (by norm_num) _).le (le_trans h1 h2)

theorem edge_nums : TinyNum c!"24e-325" ∧ KeptNum c!"-2.5e-324" := by
  constructor
  · exact ⟨false, 24, -325, ⟨c!"24", [], [], c!"e-325", -325, rfl,
      by unfold Digits; decide, .inr (by decide), .inl ⟨rfl, rfl⟩,
      .inr ⟨'e', c!"325", .inl rfl, by unfold Digits; decide, .inr (.inr ⟨rfl, by decide +kernel⟩)⟩, by decide +kernel, by decide⟩,
      by decide, by norm_num, by rw [Nat.cast_ofNat]⟩
  · refine .inr ⟨true, 25, -325, ⟨c!"2", c!"5", c!".5", c!"e-324", -324, rfl,
      by unfold Digits; decide, .inr (by decide), .inr ⟨by unfold Digits; decide, rfl⟩,
      .inr ⟨'e', c!"324", .inl rfl, by unfold Digits; decide, .inr (.inr ⟨rfl, by decide +kernel⟩)⟩, by decide +kernel, by decide⟩,
      by decide, .inr ⟨by rw [Nat.cast_ofNat], ?_⟩⟩
    have h1 : (10 : ℚ) ^ (20 + -325 : Int) ≤ 10 ^ (306 : Int) := zpow_le_zpow_right₀ (by norm_num) (by norm_num)
    have h2 : (10 : ℚ) ^ (306 : Int) ≤ 179 * 10 ^ (306 : Int) :=
      le_mul_of_one_le_left (zpow_pos (by norm_num) _).le (by norm_num)
    exact le_trans (Algo.ten_lt (by norm_num) _).le (le_trans h1 h2)

/-- C137: numbers next to each other: one is lost when a body is set, one is kept, one is refused. -/
example : Algo.f64Text c!"24e-325" = some c!"0.0" ∧ Algo.f64Text c!"-2.5e-324" = some c!"-5e-324" ∧
    Algo.f64Text c!"1.79e308" = some c!"1.79e308" ∧ Algo.f64Text c!"1.8e308" = none := by
  decide +kernel

/-- C137: a body with a very small number that is kept, passed on a million times. -/
example : ∃ (a : Nat → Json) (F : Str → Option Str), a 0 = amount c!"-5e-324" ∧
    Denotes F (amount c!"-2.5e-324") (a 1000000) ∧ ∀ t u, F t = some u → (ZeroNum u ↔ ZeroNum t) := by
  obtain ⟨a, F, h1, -, h3, h4⟩ := C137_passed_on_partial (toy fun _ => none) richMessage c!"{\"amount\":-2.5e-324}"
    (amount c!"-2.5e-324") 1000000 (richMessage_wf _)
    (by decide) (by decide) (by decide) (parseJson_iff.1 (by decide +kernel)) (by decide)
    (.obj fun k v h => by
      simp only [List.mem_cons, Prod.mk.injEq, List.not_mem_nil, or_false] at h
      obtain ⟨-, rfl⟩ := h
      exact .num edge_nums.2)
  have h5 : richMessage.setBody (toy fun _ => none).floats c!"{\"amount\":-2.5e-324}" =
      .ok { richMessage with body := amount c!"-5e-324" } :=
    (C04_set_body _ _ _ _).2 ⟨amount c!"-2.5e-324", _, parseJson_iff.1 (by decide +kernel), by decide, normJ_iff.1 (by
      show normJ Algo.f64Text _ = _
      decide +kernel), rfl⟩
  rw [h5] at h1
  exact ⟨a, F, (congrArg Message.body (Res.ok.inj h1)).symm, h3, h4⟩

/-- C137: a body with such a number in an array, and in a member that comes twice. -/
example (P : Prims) (m : Message) :
    m.setBody P.floats c!"{\"n\": [1, {\"a\": -1.5e999999999999, \"a\": 2}]}" = .err .serde :=
  C137_set P m _ (.obj [(c!"n", .arr [.num c!"1", .obj [(c!"a", .num c!"-1.5e999999999999"), (c!"a", .num c!"2")]])])
    (parseJson_iff.1 (by decide +kernel))
    (.obj (List.mem_singleton.2 rfl) (.arr (List.mem_cons_of_mem _ (List.mem_singleton.2 rfl))
      (.obj List.mem_cons_self (.num big_num))))

theorem received_of {r : Res Message} (h : (match r with | .ok _ => true | _ => false) = true) : ∃ q, r = .ok q := by
  cases r with
  | ok q => exact ⟨q, rfl⟩
  | _ => cases h

/-- C137: a document that would be a message but for such a number. -/
example : (∃ q, Message.receive (toy fun _ => none).floats HOrd.rev
      c!"{\"id\":\"1\",\"typ\":\"application/didcomm-plain+json\",\"type\":\"\",\"to\":[],\"body\":{\"a\":-1.5e99}}" none none none = .ok q) ∧
    ∀ q, Message.receive (toy fun _ => none).floats HOrd.rev
      c!"{\"id\":\"1\",\"typ\":\"application/didcomm-plain+json\",\"type\":\"\",\"to\":[],\"body\":{\"a\":-1.5e999999999999}}" none none none ≠ .ok q := by
  constructor
  · exact received_of (by decide +kernel)
  · intro q
    refine C137_received _ (toy_laws _) _ _ [(c!"id", .str c!"1"), (c!"typ", .str c!"application/didcomm-plain+json"),
      (c!"type", .str []), (c!"to", .arr []), (c!"body", .obj [(c!"a", .num c!"-1.5e999999999999")])] c!"body"
      (.obj [(c!"a", .num c!"-1.5e999999999999")]) (parseJson_iff.1 (by decide +kernel)) (by simp) (.obj (List.mem_singleton.2 rfl) (.num big_num)) (by decide) _ _ _ _

/-- C137: a number that is lost. -/
example : ∃ m' u t q, exampleMessage.setBody (toy fun _ => none).floats c!"{\"amount\":-7e-400}" = .ok m' ∧ ZeroNum u ∧
    m'.sealJwe (toy fun _ => none).floats exampleRand (exampleKey 3)
      (some [some ((toy fun _ => none).x25519Pub (exampleKey 1)), some ((toy fun _ => none).x25519Pub (exampleKey 2))]) = .ok t ∧
    Message.receive (toy fun _ => none).floats HOrd.rev t (some (exampleKey 1))
      (some ((toy fun _ => none).x25519Pub (exampleKey 3))) none = .ok q ∧ q.body = amount u := by
  obtain ⟨m', u, h1, h2, -, h3⟩ := C137_lost_violated (toy fun _ => none) (toy_laws _) exampleMessage (exampleMessage_wf _)
    (by decide) ⟨(by intro k h; cases h), (by intro k h; cases h)⟩ (by decide) c!"did:e:f" rfl _ c!"{\"amount\":-7e-400}"
    tiny_num (parseJson_iff.1 (by decide +kernel))
  obtain ⟨_, v, -, -, -, hm'⟩ := (C04_set_body _ _ _ _).1 h1
  obtain ⟨t, ht⟩ := C16_seal_total (toy fun _ => none).floats (laws_floats (toy_laws _)) (toy_total fun _ => none)
    exampleRand m'
    (exampleKey 3) (some [some ((toy fun _ => none).x25519Pub (exampleKey 1)),
        some ((toy fun _ => none).x25519Pub (exampleKey 2))]) c!"ECDH-1PU+XC20PKW" (by decide) (by subst hm'; exact List.cons_ne_nil _ _)
    (by intro l hl; rw [← Option.some.inj hl]; subst hm'; rfl) (by subst hm'; intro h; cases h) (by subst hm'; rfl) (by decide) (by
      intro i dest hi
      subst hm'
      match i with
      | 0 => exact ⟨_, (toy_laws _).pub_len _, .inl rfl⟩
      | 1 => exact ⟨_, (toy_laws _).pub_len _, .inl rfl⟩
      | n + 2 => cases hi)
  obtain ⟨q, h4, h5⟩ := h3 exampleRand HOrd.rev (exampleKey 3) (exampleKey 1) _ t none (by decide) ht
  exact ⟨m', u, t, q, h1, h2, ht, h4, h5⟩

end Verif
