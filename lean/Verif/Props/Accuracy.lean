import Verif.Lemma.Algo.Readings
import Verif.Props.Number

/-!
# How accurate the numbers of a body are

C136.
-/

namespace Verif

open Spec

theorem floats_tok (t u : Str) (h : Algo.f64Text t = some u) : NumTok u := (floatLaw_f64Text t u h).1

theorem readings_nums {n : Nat} {j v : Json} (h : Readings Algo.f64Text n j v) (hn : NumsOk j) (hd : j.depth ≤ 126) :
    NumsOk v ∧ v.depth ≤ 126 := by
  induction h with
  | zero => exact ⟨hn, hd⟩
  | succ h1 _ ih =>
    exact ih (normJ_numsOk floats_tok (normJ_iff.2 h1) hn) (Nat.le_trans (normJ_depth floats_tok (normJ_iff.2 h1)) hd)

/-- C136.  A document whose numbers are neither very small nor very large can be read and printed `n` times, and then
each of its numbers differs from the number it was by at most the part `n / 2 ^ 49`; integers of 64 bits do not change. -/
theorem C136_readings (n : Nat) (h0 : 0 < n) (hn : n ≤ 2 ^ 48) (j : Json) (h : AllNums MidNum j) :
    ∃ v F, Readings Algo.f64Text n j v ∧ Denotes F j v ∧ ∀ t u, F t = some u → NearValue ((n : ℚ) / 2 ^ 49) t u := by
  obtain ⟨v, h1, h2⟩ := Algo.read_mid h0 hn h
  exact ⟨v, _, h1, h2, fun _ _ => Algo.near_near⟩

/-- C136.  Such a body can be set, and its numbers are near those of the text. -/
theorem C136_set (P : Prims) (m : Message) (text : Str) (j : Json) (h : Document j text) (hd : j.depth ≤ 126)
    (hs : AllNums MidNum j) :
    ∃ v F, m.setBody P.floats text = .ok { m with body := v } ∧ Denotes F j v ∧
      ∀ t u, F t = some u → NearValue (1 / 2 ^ 49) t u := by
  obtain ⟨v, F, h1, h2, h3⟩ := C136_readings 1 (by norm_num) (by norm_num) j hs
  cases h1 with
  | succ h1 h4 =>
    cases h4
    exact ⟨v, F, (C04_set_body _ _ _ _).2 ⟨j, v, h, by omega, h1, rfl⟩, h2, by simpa using h3⟩

/-- Whoever receives the sealed message gets the body that is read three times. -/
theorem received_readings (P : Prims) (hP : Laws P) (r : Message.SealRand) (o : HOrd) (m m' : Message)
    (text : Str) (j w : Json) (ssk rsk : Bytes) (rest : List (Option Bytes)) (t frm : Str) (vk : Option Bytes)
    (hm : m.WF P.f64) (hc : Avoids m.didcomm.other classKeys) (hf : HeaderFixed m.jwm) (ht : m.jwm.typ ≠ .jws)
    (hfrom : m.didcomm.from = some frm) (hrk : rsk.length = 32) (h : Document j text) (hd : j.depth ≤ 126)
    (h1 : Readings Algo.f64Text 3 j w) (hset : m.setBody P.floats text = .ok m')
    (hseal : m'.sealJwe P.floats r ssk (some (some (P.x25519Pub rsk) :: rest)) = .ok t) :
    ∃ q, Message.receive P.floats o t (some rsk) (some (P.x25519Pub ssk)) vk = .ok q ∧ q.body = w := by
  cases h1 with
  | @succ _ _ v _ h1 h4 =>
    cases h4 with
    | @succ _ _ b _ h4 h5 =>
      cases h5 with
      | @succ _ _ c _ h5 h6 =>
        cases h6
        have e := (C04_set_body P.floats m _ text).2 ⟨j, v, h, by omega, h1, rfl⟩
        rw [hset] at e
        obtain rfl := Res.ok.inj e
        have hdv : v.depth ≤ 126 := Nat.le_trans (normJ_depth floats_tok (normJ_iff.2 h1)) hd
        have hr : ({ m with body := v } : Message).ReadsAs P.floats.f64 b :=
          ⟨hm.jwm, hm.other, hm.to, hm.recipients, normJ_iff.2 h4,
            normJ_numsOk floats_tok (normJ_iff.2 h1) (parseJson_numsOk (parseJson_iff.2 h)), hdv⟩
        obtain ⟨_, rs, -, -, -, hrec⟩ := every_recipient_reads P.floats (laws_floats hP) r _ ssk _ t frm hr
          (normJ_iff.2 h5) hc hf ht hfrom hseal
        cases hto : m.didcomm.to with
        | nil => exact absurd hto hm.to
        | cons d l =>
          exact ⟨_, hrec 0 d rsk _ vk o (by show m.didcomm.to[0]? = _; rw [hto]; rfl) hrk (.inl rfl) (.inl rfl) (by simp), rfl⟩

/-- C136.  Whoever receives the sealed message reads numbers that are near those of the text. -/
theorem C136_received (P : Prims) (hP : Laws P) (r : Message.SealRand) (o : HOrd) (m m' : Message)
    (text : Str) (j : Json) (ssk rsk : Bytes) (rest : List (Option Bytes)) (t frm : Str) (vk : Option Bytes)
    (hm : m.WF P.f64) (hc : Avoids m.didcomm.other classKeys) (hf : HeaderFixed m.jwm) (ht : m.jwm.typ ≠ .jws)
    (hfrom : m.didcomm.from = some frm) (hrk : rsk.length = 32) (h : Document j text) (hd : j.depth ≤ 126)
    (hs : AllNums MidNum j) (hset : m.setBody P.floats text = .ok m')
    (hseal : m'.sealJwe P.floats r ssk (some (some (P.x25519Pub rsk) :: rest)) = .ok t) :
    ∃ q F, Message.receive P.floats o t (some rsk) (some (P.x25519Pub ssk)) vk = .ok q ∧
      Denotes F j q.body ∧ ∀ t u, F t = some u → NearValue (3 / 2 ^ 49) t u := by
  obtain ⟨w, F, h1, h2, h3⟩ := C136_readings 3 (by norm_num) (by norm_num) j hs
  obtain ⟨q, h4, rfl⟩ := received_readings P hP r o m m' text j w ssk rsk rest t frm vk hm hc hf ht hfrom hrk h hd h1 hset hseal
  exact ⟨q, F, h4, h2, by simpa using h3⟩

theorem readings_seq {F : Str → Option Str} {n : Nat} {j v : Json} (h : Readings F n j v) :
    ∃ a : Nat → Json, a 0 = j ∧ a n = v ∧ ∀ i < n, Denotes F (a i) (a (i + 1)) := by
  induction h with
  | zero j => exact ⟨fun _ => j, rfl, rfl, fun i hi => absurd hi (by omega)⟩
  | @succ n j v w h1 _ ih =>
    obtain ⟨a, h2, h3, h4⟩ := ih
    refine ⟨fun i => if i = 0 then j else a (i - 1), rfl, by simpa using h3, fun i hi => ?_⟩
    cases i with
    | zero => simpa [h2] using h1
    | succ i => simpa using h4 i (by omega)

/-- A message that is passed on `n` times as plain JSON: its body is read each time. -/
theorem passed_readings (P : Prims) (m : Message) (text : Str) (j v : Json) (n : Nat) (hm : m.WF P.f64)
    (hc : Avoids m.didcomm.other classKeys) (h1 : m.jwm.typ ≠ .jwe) (h2 : m.jwm.typ ≠ .jws) (h : Document j text)
    (hd : j.depth ≤ 126) (h3 : Readings Algo.f64Text (n + 1) j v) :
    ∃ a : Nat → Json, m.setBody P.floats text = .ok { m with body := a 0 } ∧
      (∀ i < n, ∀ (o o' : HOrd) (sk ek vk : Option Bytes),
        ({ m with body := a i }.asRawJson o >>= fun t => Message.receive P.floats o' t sk ek vk) =
          .ok { m with body := a (i + 1), flatJwe := false, flatJws := false }) ∧ a n = v := by
  obtain ⟨a, h6, h7, h8⟩ := readings_seq h3
  have hok : ∀ i ≤ n + 1, NumsOk (a i) ∧ (a i).depth ≤ 126 := by
    intro i
    induction i with
    | zero => intro _; rw [h6]; exact ⟨parseJson_numsOk (parseJson_iff.2 h), hd⟩
    | succ i ih =>
      intro hi
      obtain ⟨k1, k2⟩ := ih (by omega)
      have := normJ_iff.2 (h8 i (by omega))
      exact ⟨normJ_numsOk floats_tok this k1, Nat.le_trans (normJ_depth floats_tok this) k2⟩
  refine ⟨fun i => a (i + 1), (C04_set_body _ _ _ _).2 ⟨j, _, h, by omega, ?_, rfl⟩, ?_, h7⟩
  · rw [← h6]
    exact h8 0 (by omega)
  · intro i hi o o' sk ek vk
    have hr : ({ m with body := a (i + 1) } : Message).ReadsAs P.floats.f64 (a (i + 1 + 1)) :=
      ⟨hm.jwm, hm.other, hm.to, hm.recipients, normJ_iff.2 (h8 (i + 1) (by omega)), (hok _ (by omega)).1, (hok _ (by omega)).2⟩
    simp only [Message.asRawJson, Res.bind_ok, Message.receive, Message.decryptStep, Message.verifyStep,
      messageType_reads P.floats o hr hc, h1, h2, if_false, ofText_reads o hr, Res.ofOpt_some]

/-- C136.  A message that is passed on `n` times as plain JSON arrives each time, and its numbers are near those of the
text. -/
theorem C136_passed_on (P : Prims) (m : Message) (text : Str) (j : Json) (n : Nat) (hm : m.WF P.f64)
    (hc : Avoids m.didcomm.other classKeys) (h1 : m.jwm.typ ≠ .jwe) (h2 : m.jwm.typ ≠ .jws) (h : Document j text)
    (hd : j.depth ≤ 126) (hs : AllNums MidNum j) (hn : n < 2 ^ 48) :
    ∃ (a : Nat → Json) (F : Str → Option Str), m.setBody P.floats text = .ok { m with body := a 0 } ∧
      (∀ i < n, ∀ (o o' : HOrd) (sk ek vk : Option Bytes),
        ({ m with body := a i }.asRawJson o >>= fun t => Message.receive P.floats o' t sk ek vk) =
          .ok { m with body := a (i + 1), flatJwe := false, flatJws := false }) ∧
      Denotes F j (a n) ∧ ∀ t u, F t = some u → NearValue (((n + 1 : Nat) : ℚ) / 2 ^ 49) t u := by
  obtain ⟨v, F, h3, h4, h5⟩ := C136_readings (n + 1) (by omega) (by omega) j hs
  obtain ⟨a, h6, h7, rfl⟩ := passed_readings P m text j v n hm hc h1 h2 h hd h3
  exact ⟨a, F, h6, h7, h4, h5⟩

/-! ## Examples -/

/-- A body with numbers that do not all keep their values: a long fraction, a number that drifts, one with many digits
before the point, and a negative zero. -/
def ledgerText : Str :=
  c!"{\"pi\": 3.14159265358979323846264338327950288, \"n\": [6.374619365083466e161, -18446744073709551619.3, -0]}"

def ledger : Json := .obj [(c!"pi", .num c!"3.14159265358979323846264338327950288"),
  (c!"n", .arr [.num c!"6.374619365083466e161", .num c!"-18446744073709551619.3", .num c!"-0"])]

theorem ledgerText_doc : Document ledger ledgerText := parseJson_iff.1 (by decide +kernel)

theorem ledger_mid : AllNums MidNum ledger := by
  have h1 : MidNum c!"3.14159265358979323846264338327950288" := by
    refine .inr ⟨false, 314159265358979323846264338327950288, -35, ⟨c!"3", c!"14159265358979323846264338327950288",
      c!".14159265358979323846264338327950288", [], 0, rfl, by unfold Digits; decide, .inr (by decide),
      .inr ⟨by unfold Digits; decide, rfl⟩, .inl ⟨rfl, rfl⟩, by decide +kernel, by decide⟩, by decide, .inr ⟨?_, ?_⟩⟩
    · refine le_trans (zpow_le_one_of_nonpos₀ (by norm_num) (by norm_num)) (by norm_num)
    · refine le_trans (b := (10 : ℚ) ^ (1 : Int)) (by norm_num) (zpow_le_zpow_right₀ (by norm_num) (by norm_num))
  have h2 : MidNum c!"6.374619365083466e161" := by
    refine .inr ⟨false, 6374619365083466, 146, ⟨c!"6", c!"374619365083466", c!".374619365083466", c!"e161", 161, rfl,
      by unfold Digits; decide, .inr (by decide), .inr ⟨by unfold Digits; decide, rfl⟩,
      .inr ⟨'e', c!"161", .inl rfl, by unfold Digits; decide, .inl ⟨rfl, by decide⟩⟩, by decide +kernel, by decide⟩,
      by decide, .inr ⟨?_, ?_⟩⟩
    · refine le_trans (zpow_le_one_of_nonpos₀ (by norm_num) (by norm_num)) (by norm_num)
    · rw [show (299 : Int) = 153 + 146 from by norm_num, zpow_add₀ (by norm_num)]
      exact mul_le_mul_of_nonneg_right (by norm_num) (by positivity)
  have h3 : MidNum c!"-18446744073709551619.3" := by
    refine .inr ⟨true, 184467440737095516193, -1, ⟨c!"18446744073709551619", c!"3", c!".3", [], 0, rfl,
      by unfold Digits; decide, .inr (by decide), .inr ⟨by unfold Digits; decide, rfl⟩, .inl ⟨rfl, rfl⟩, by decide +kernel,
      by decide⟩, by decide, .inr ⟨?_, ?_⟩⟩
    · refine le_trans (zpow_le_one_of_nonpos₀ (by norm_num) (by norm_num)) (by norm_num)
    · refine le_trans (b := (10 : ℚ) ^ (20 : Int)) (by norm_num) (zpow_le_zpow_right₀ (by norm_num) (by norm_num))
  have h4 : MidNum c!"-0" := .inr ⟨true, 0, 0, ⟨c!"0", [], [], [], 0, rfl, by unfold Digits; decide, .inl rfl,
      .inl ⟨rfl, rfl⟩, .inl ⟨rfl, rfl⟩, by decide, by decide⟩, by decide, .inl ⟨rfl, by decide, by decide⟩⟩
  refine .obj fun k v h => ?_
  simp only [List.mem_cons, Prod.mk.injEq, List.not_mem_nil, or_false] at h
  rcases h with ⟨-, rfl⟩ | ⟨-, rfl⟩
  · exact .num h1
  · refine .arr fun a ha => ?_
    simp only [List.mem_cons, List.not_mem_nil, or_false] at ha
    rcases ha with rfl | rfl | rfl
    · exact .num h2
    · exact .num h3
    · exact .num h4

/-- What is read: the digits behind the first ones are lost, and of the third number a digit in the middle. -/
def ledgerBody : Json := .obj [(c!"n", .arr [.num c!"6.374619365083465e161", .num c!"-1.8446744073709552e19", .num c!"-0.0"]),
  (c!"pi", .num c!"3.141592653589793")]

theorem ledgerText_set (P : Prims) (m : Message) : m.setBody P.floats ledgerText = .ok { m with body := ledgerBody } := by
  refine (C04_set_body _ _ _ _).2 ⟨_, _, ledgerText_doc, by decide, normJ_iff.1 ?_, rfl⟩
  show normJ Algo.f64Text _ = _
  decide +kernel

/-- C136: this body, sealed and received. -/
example : ∃ m' t q F, exampleMessage.setBody (toy fun _ => none).floats ledgerText = .ok m' ∧
    m'.sealJwe (toy fun _ => none).floats exampleRand (exampleKey 3)
      (some [some ((toy fun _ => none).x25519Pub (exampleKey 1)), some ((toy fun _ => none).x25519Pub (exampleKey 2))]) = .ok t ∧
    Message.receive (toy fun _ => none).floats HOrd.rev t (some (exampleKey 1))
      (some ((toy fun _ => none).x25519Pub (exampleKey 3))) none = .ok q ∧ Denotes F ledger q.body ∧
    ∀ t u, F t = some u → NearValue (3 / 2 ^ 49) t u := by
  have hset := ledgerText_set (toy fun _ => none) exampleMessage
  obtain ⟨t, ht⟩ := C16_seal_total (toy fun _ => none).floats (laws_floats (toy_laws _)) (toy_total fun _ => none)
    exampleRand
    { exampleMessage with body := ledgerBody }
    (exampleKey 3) (some [some ((toy fun _ => none).x25519Pub (exampleKey 1)),
        some ((toy fun _ => none).x25519Pub (exampleKey 2))]) c!"ECDH-1PU+XC20PKW" (by decide) (by decide)
    (by intro l hl; rw [← Option.some.inj hl]; rfl) (by intro h; cases h) rfl (by decide) (by
      intro i dest hi
      match i with
      | 0 => exact ⟨_, (toy_laws _).pub_len _, .inl rfl⟩
      | 1 => exact ⟨_, (toy_laws _).pub_len _, .inl rfl⟩
      | n + 2 => cases hi)
  obtain ⟨q, F, h1, h2, h3⟩ := C136_received (toy fun _ => none) (toy_laws _) exampleRand HOrd.rev exampleMessage _ ledgerText _
    (exampleKey 3) (exampleKey 1) _ t c!"did:e:f" none (exampleMessage_wf _) (by decide)
    ⟨(by intro k h; cases h), (by intro k h; cases h)⟩ (by decide) rfl (by decide) ledgerText_doc (by decide) ledger_mid
    hset ht
  exact ⟨_, t, q, F, hset, ht, h1, h2, h3⟩

/-- C136: the same body, passed on a thousand times. -/
example : ∃ (a : Nat → Json) (F : Str → Option Str), a 0 = ledgerBody ∧ Denotes F ledger (a 1000) ∧
    ∀ t u, F t = some u → NearValue (1001 / 2 ^ 49) t u := by
  obtain ⟨a, F, h1, -, h3, h4⟩ := C136_passed_on (toy fun _ => none) richMessage ledgerText ledger 1000 (richMessage_wf _)
    (by decide) (by decide) (by decide) ledgerText_doc (by decide) ledger_mid (by norm_num)
  rw [ledgerText_set] at h1
  exact ⟨a, F, (congrArg Message.body (Res.ok.inj h1)).symm, h3, by simpa using h4⟩

/-- C136: numbers that differ by more are not near. -/
example : ¬ NearValue (3 / 2 ^ 49) c!"1.5" c!"1.50000001" := by
  rintro ⟨neg, s, e, s', e', h1, h2, h3⟩
  have e1 := Algo.decimal_decOf h1
  have e2 := Algo.decimal_decOf h2
  rw [show Algo.decOf c!"1.5" = (false, 15, -1) from by decide +kernel] at e1
  rw [show Algo.decOf c!"1.50000001" = (false, 150000001, -8) from by decide +kernel] at e2
  simp only [Prod.mk.injEq] at e1 e2
  obtain ⟨rfl, rfl, rfl⟩ := e1
  obtain ⟨-, rfl, rfl⟩ := e2
  unfold decimalVal at h3
  norm_num [abs_of_pos] at h3

end Verif
