import Verif.Lemma.Algo.Number
import Verif.Props.Plug
import Verif.Props.DidKey

/-!
# Numbers

C111 (what becomes of the numbers of a body).  The numbers are read and printed as `serde_json` does it.
-/

namespace Verif

open Spec

theorem floatLaw_f64Text : FloatLaw Algo.f64Text := fun _ _ h => by
  obtain ⟨⟨neg, s, e, h1⟩, h2⟩ := Algo.f64Text_decimal h
  exact ⟨Algo.Decimal.numTok h1, h2⟩

theorem laws_floats {P : Prims} (hP : Laws P) : Laws P.floats :=
  { hP with f64_tok := fun {_ _} h => (floatLaw_f64Text _ _ h).1 }

/-- With all algorithms and the numbers written down nothing is left to assume. -/
theorem laws_standard (P : Prims) (nonce : Bytes → Bytes → Nat) : Laws (P.floats.didKey.signed nonce).std :=
  std_laws _ fun {_ _} h => (floatLaw_f64Text _ _ h).1

/-! ## Every body -/

theorem reads_set {P : Prims} (hP : Laws P) {m m' : Message} {text : Str} {b : Json} (hm : m.WF P.f64)
    (hset : m.setBody P text = .ok m') (hd : m'.body.depth ≤ 126) (h1 : Denotes P.f64 m'.body b) :
    m' = { m with body := m'.body } ∧ m'.ReadsAs P.f64 b := by
  have hF : ∀ t u, P.f64 t = some u → NumTok u := fun _ _ => hP.f64_tok
  obtain ⟨j, v, hj, -, hv, rfl⟩ := (C04_set_body P m m' text).1 hset
  exact ⟨rfl, hm.jwm, hm.other, hm.to, hm.recipients, normJ_iff.2 h1,
    normJ_numsOk hF (normJ_iff.2 hv) (parseJson_numsOk (parseJson_iff.2 hj)), hd⟩

/-- C111.  What becomes of a body that was set and is sealed: the recipient reads it, prints it and reads it again. -/
theorem C111_sealed_body (P : Prims) (hP : Laws P) (r : Message.SealRand) (o : HOrd) (m m' : Message) (text : Str)
    (b b' : Json) (ssk rsk : Bytes) (rest : List (Option Bytes)) (t frm : Str) (vk : Option Bytes) (hm : m.WF P.f64)
    (hc : Avoids m.didcomm.other classKeys) (hf : HeaderFixed m.jwm) (ht : m.jwm.typ ≠ .jws)
    (hfrom : m.didcomm.from = some frm) (hrk : rsk.length = 32) (hset : m.setBody P text = .ok m')
    (hd : m'.body.depth ≤ 126) (h1 : Denotes P.f64 m'.body b) (h2 : Denotes P.f64 b b')
    (hseal : m'.sealJwe P r ssk (some (some (P.x25519Pub rsk) :: rest)) = .ok t) :
    ∃ rs, Message.receive P o t (some rsk) (some (P.x25519Pub ssk)) vk =
      .ok { m with recipients := some rs, body := b', flatJwe := false, flatJws := false } := by
  obtain ⟨he, hr⟩ := reads_set hP hm hset hd h1
  generalize m'.body = v at he hr
  subst he
  obtain ⟨j, rs, -, -, -, h⟩ := every_recipient_reads P hP r _ ssk _ t frm hr (normJ_iff.2 h2) hc hf ht hfrom hseal
  cases hto : m.didcomm.to with
  | nil => exact absurd hto hm.to
  | cons d l =>
    exact ⟨rs, h 0 d rsk _ vk o (by show m.didcomm.to[0]? = _; rw [hto]; rfl) hrk (.inl rfl) (.inl rfl) (by simp)⟩

/-- C111.  What becomes of a body that was set and is sent as plain JSON: the recipient reads it. -/
theorem C111_plain_body (P : Prims) (hP : Laws P) (o o' : HOrd) (m m' : Message) (text : Str) (b : Json)
    (sk ek vk : Option Bytes) (hm : m.WF P.f64) (hc : Avoids m.didcomm.other classKeys) (h1 : m.jwm.typ ≠ .jwe)
    (h2 : m.jwm.typ ≠ .jws) (hset : m.setBody P text = .ok m') (hd : m'.body.depth ≤ 126) (hb : Denotes P.f64 m'.body b) :
    (m'.asRawJson o >>= fun t => Message.receive P o' t sk ek vk) =
      .ok { m with body := b, flatJwe := false, flatJws := false } := by
  obtain ⟨he, hr⟩ := reads_set hP hm hset hd hb
  have hc' : Avoids m'.didcomm.other classKeys := by rw [he]; exact hc
  have h1' : m'.jwm.typ ≠ .jwe := by rw [he]; exact h1
  have h2' : m'.jwm.typ ≠ .jws := by rw [he]; exact h2
  simp only [Message.asRawJson, Res.bind_ok, Message.receive, Message.decryptStep, Message.verifyStep,
    messageType_reads P o hr hc', h1', h2', if_false, ofText_reads o hr, Res.ofOpt_some]
  rw [he]

/-! ## Bodies that arrive unchanged -/

/-- C111, what holds: the numbers of a body keep their values if they are integers of 64 bits or have at most 15 digits
and are not too large or small; the body that is set is in a form that stays as it is. -/
theorem C111_set_short_partial (P : Prims) (m : Message) (text : Str) (j : Json) (h : Document j text) (hd : j.depth ≤ 126)
    (hs : ShortNums j) :
    ∃ v F, m.setBody P.floats text = .ok { m with body := v } ∧ v.depth ≤ 126 ∧ Denotes F j v ∧
      (∀ t u, F t = some u → SameValue t u) ∧ Canon P.floats.f64 v := by
  obtain ⟨v, h1, h2, h3⟩ := Algo.short_all.1 j hs
  have hF : ∀ t u, Algo.f64Text t = some u → NumTok u := fun t u h => (floatLaw_f64Text t u h).1
  exact ⟨v, Algo.keeping, (C04_set_body _ _ _ _).2 ⟨j, v, h, by omega, normJ_iff.1 h1, rfl⟩,
    Nat.le_trans (normJ_depth hF h1) hd, normJ_iff.1 h2, fun _ _ => Algo.keeping_same, normJ_canonical hF h1 h3⟩

/-- C111, what holds: such a body is received as it was set, and every number in it has the value it had in the text. -/
theorem C111_received_short_partial (P : Prims) (hP : Laws P) (r : Message.SealRand) (o : HOrd) (m m' : Message)
    (text : Str) (j : Json) (ssk rsk : Bytes) (rest : List (Option Bytes)) (t frm : Str) (vk : Option Bytes)
    (hm : m.WF P.f64) (hc : Avoids m.didcomm.other classKeys) (hf : HeaderFixed m.jwm) (ht : m.jwm.typ ≠ .jws)
    (hfrom : m.didcomm.from = some frm) (hrk : rsk.length = 32) (h : Document j text) (hd : j.depth ≤ 126)
    (hs : ShortNums j) (hset : m.setBody P.floats text = .ok m')
    (hseal : m'.sealJwe P.floats r ssk (some (some (P.x25519Pub rsk) :: rest)) = .ok t) :
    ∃ q F, Message.receive P.floats o t (some rsk) (some (P.x25519Pub ssk)) vk = .ok q ∧ q.body = m'.body ∧
      Denotes F j q.body ∧ ∀ t u, F t = some u → SameValue t u := by
  obtain ⟨v, F, h1, h2, h3, h4, h5⟩ := C111_set_short_partial P m text j h hd hs
  rw [hset] at h1
  obtain rfl := Res.ok.inj h1
  have hF : ∀ t u, P.floats.f64 t = some u → NumTok u := fun t u h => (floatLaw_f64Text t u h).1
  have hn : NumsOk v := by
    obtain ⟨j', v', hj', -, hv', he⟩ := (C04_set_body _ _ _ _).1 hset
    have : v = v' := congrArg Message.body he
    rw [this]
    exact normJ_numsOk hF (normJ_iff.2 hv') (parseJson_numsOk (parseJson_iff.2 hj'))
  obtain ⟨rs, hr⟩ := C16_seal_receive P.floats (laws_floats hP) r o { m with body := v } ssk rsk rest t frm vk
    ⟨hm.jwm, hm.other, hm.to, hm.recipients, h5, hn, h2⟩ hc hf ht hfrom hrk hseal
  exact ⟨_, F, hr, rfl, h3, h4⟩

/-! ## Bodies that do not -/

/-- A body with one number. -/
def amount (t : Str) : Json := .obj [(c!"amount", .num t)]

theorem denotes_amount {F : Str → Option Str} {t u : Str} (h : normNum F t = some u) : Denotes F (amount t) (amount u) :=
  normJ_iff.1 (by simp [amount, normJ, normM, h, entriesOf, insertEntry])

/-- C111, as written, is false: a body that holds 7.3037954186947e15 is set with this value, but whoever receives the
sealed message gets 7303795418694701, one more. -/
theorem C111_one_more_violated (P : Prims) (hP : Laws P) (m : Message) (hm : m.WF P.f64)
    (hc : Avoids m.didcomm.other classKeys) (hf : HeaderFixed m.jwm) (ht : m.jwm.typ ≠ .jws) (frm : Str)
    (hfrom : m.didcomm.from = some frm) :
    ∃ m', m.setBody P.floats c!"{\"amount\":7.3037954186947e15}" = .ok m' ∧
      (∀ (r : Message.SealRand) (o : HOrd) (ssk rsk : Bytes) (rest : List (Option Bytes)) (t : Str) (vk : Option Bytes),
        rsk.length = 32 → m'.sealJwe P.floats r ssk (some (some (P.x25519Pub rsk) :: rest)) = .ok t →
        ∃ q, Message.receive P.floats o t (some rsk) (some (P.x25519Pub ssk)) vk = .ok q ∧
          q.body = amount c!"7303795418694701.0") ∧
      ¬ SameValue c!"7.3037954186947e15" c!"7303795418694701.0" := by
  have h1 : normNum Algo.f64Text c!"7.3037954186947e15" = some c!"7303795418694700.0" := by decide +kernel
  have h2 : normNum Algo.f64Text c!"7303795418694700.0" = some c!"7303795418694701.0" := by decide +kernel
  have h3 : normNum Algo.f64Text c!"7303795418694701.0" = some c!"7303795418694701.0" := by decide +kernel
  have hset : m.setBody P.floats c!"{\"amount\":7.3037954186947e15}" =
      .ok { m with body := amount c!"7303795418694700.0" } :=
    (C04_set_body _ _ _ _).2 ⟨amount c!"7.3037954186947e15", _, parseJson_iff.1 (by decide +kernel), by decide,
      denotes_amount h1, rfl⟩
  refine ⟨_, hset, ?_, ?_⟩
  · intro r o ssk rsk rest t vk hrk hseal
    have hm' : ({ m with body := .null } : Message).WF P.floats.f64 :=
      ⟨hm.jwm, hm.other, hm.to, hm.recipients, trivial, trivial, by show Json.null.depth ≤ 126; decide⟩
    obtain ⟨rs, h⟩ := C111_sealed_body P.floats (laws_floats hP) r o { m with body := .null } _
      c!"{\"amount\":7.3037954186947e15}" (amount c!"7303795418694701.0") (amount c!"7303795418694701.0") ssk rsk rest t frm
      vk hm' hc hf ht hfrom hrk
      ((C04_set_body _ _ _ _).2 ⟨amount c!"7.3037954186947e15", _, parseJson_iff.1 (by decide +kernel), by decide,
        denotes_amount h1, rfl⟩)
      (by show (amount c!"7303795418694700.0").depth ≤ 126; decide) (denotes_amount h2) (denotes_amount h3) hseal
    exact ⟨_, h, rfl⟩
  · rintro ⟨neg, s, e, neg', s', e', d1, d2, h⟩
    have e1 := Algo.decimal_decOf d1
    have e2 := Algo.decimal_decOf d2
    rw [show Algo.decOf c!"7.3037954186947e15" = (false, 73037954186947, 2) from by decide +kernel] at e1
    rw [show Algo.decOf c!"7303795418694701.0" = (false, 73037954186947010, -1) from by decide +kernel] at e2
    simp only [Prod.mk.injEq] at e1 e2
    obtain ⟨rfl, rfl, rfl⟩ := e1
    obtain ⟨rfl, rfl, rfl⟩ := e2
    unfold decimalVal at h
    norm_num at h

/-- The values of printed numbers from 10^140 on. -/
def scaledOf (t : Str) : Nat := (Algo.decOf t).2.1 * 10 ^ ((Algo.decOf t).2.2 - 140).toNat

/-- The number gets smaller `n` times. -/
def drifts : Nat → Str → Bool
  | 0, _ => true
  | n + 1, t =>
    match normNum Algo.f64Text t with
    | some u => decide ((Algo.decOf u).1 = false ∧ 140 ≤ (Algo.decOf u).2.2 ∧ scaledOf u < scaledOf t) && drifts n u
    | none => false

/-- The number after `i` messages. -/
def driftAt (i : Nat) : Str := (fun t => (normNum Algo.f64Text t).getD t)^[i] c!"6.374619365083466e161"

theorem scale_up (s : Nat) {e k : Int} (h : k ≤ e) : (s : ℚ) * 10 ^ e = ((s * 10 ^ (e - k).toNat : Nat) : ℚ) * 10 ^ k := by
  push_cast
  rw [mul_assoc, ← zpow_natCast, ← zpow_add₀ (by norm_num)]
  congr 2
  omega

theorem drifts_at {n : Nat} {t : Str} (h : drifts n t = true) (ht : ∃ s e, Decimal t false s e) (hb : 140 ≤ (Algo.decOf t).2.2) :
    ∀ i < n, ∀ x, x = (fun t => (normNum Algo.f64Text t).getD t)^[i] t → ∃ u s e s' e', normNum Algo.f64Text x = some u ∧
      u ≠ x ∧ Decimal x false s e ∧ Decimal u false s' e' ∧ decimalVal false s' e' < decimalVal false s e := by
  induction n generalizing t with
  | zero => intro i hi; omega
  | succ n ih =>
    unfold drifts at h
    cases hu : normNum Algo.f64Text t with
    | none => rw [hu] at h; cases h
    | some u =>
      rw [hu] at h
      simp only [Bool.and_eq_true, decide_eq_true_eq] at h
      obtain ⟨⟨h1, h2, h3⟩, h4⟩ := h
      have hdu : ∃ s e, Decimal u false s e := by
        rcases normNum_iff.1 hu with ⟨-, rfl⟩ | ⟨-, h5⟩
        · exact ht
        · obtain ⟨⟨neg, s, e, hd⟩, -⟩ := Algo.f64Text_decimal h5
          have := Algo.decimal_decOf hd
          rw [this] at h1
          obtain rfl : neg = false := h1
          exact ⟨s, e, hd⟩
      intro i hi x hx
      cases i with
      | zero =>
        obtain rfl : x = t := hx
        obtain ⟨s, e, d1⟩ := ht
        obtain ⟨s', e', d2⟩ := hdu
        have e1 := Algo.decimal_decOf d1
        have e2 := Algo.decimal_decOf d2
        refine ⟨u, s, e, s', e', hu, by rintro rfl; omega, d1, d2, ?_⟩
        unfold scaledOf at h3
        rw [e1, e2] at h3
        rw [e2] at h2
        rw [e1] at hb
        simp only at h2 h3 hb
        unfold decimalVal
        simp only [Bool.false_eq_true, if_false, one_mul]
        rw [scale_up s hb, scale_up s' h2]
        exact mul_lt_mul_of_pos_right (by exact_mod_cast h3) (by positivity)
      | succ i =>
        refine ih h4 hdu h2 i (by omega) x ?_
        rw [hx, Function.iterate_succ_apply, hu]
        rfl

/-- C111, as written, is false: the number 6.374619365083466e161 gets smaller each time a message is received and passed
on, 66 times in a row. -/
theorem C111_drift_violated (P : Prims) (m : Message) (hm : m.WF P.f64)
    (hc : Avoids m.didcomm.other classKeys) (h1 : m.jwm.typ ≠ .jwe) (h2 : m.jwm.typ ≠ .jws) :
    ∃ a : Nat → Str, a 0 = c!"6.374619365083466e161" ∧
      ∀ i < 66, (∀ (o o' : HOrd) (sk ek vk : Option Bytes),
          ({ m with body := amount (a i) }.asRawJson o >>= fun t => Message.receive P.floats o' t sk ek vk) =
            .ok { m with body := amount (a (i + 1)), flatJwe := false, flatJws := false }) ∧
        ∃ s e s' e', Decimal (a i) false s e ∧ Decimal (a (i + 1)) false s' e' ∧
          decimalVal false s' e' < decimalVal false s e := by
  refine ⟨driftAt, rfl, fun i hi => ?_⟩
  have hd0 : Decimal c!"6.374619365083466e161" false 6374619365083466 146 :=
    ⟨c!"6", c!"374619365083466", c!".374619365083466", c!"e161", 161, rfl, by unfold Digits; decide, .inr (by decide),
      .inr ⟨by unfold Digits; decide, rfl⟩, .inr ⟨'e', c!"161", .inl rfl, by unfold Digits; decide, .inl ⟨rfl, by decide⟩⟩,
      by decide +kernel, by decide⟩
  obtain ⟨u, s, e, s', e', h3, -, h4, h5, h6⟩ := drifts_at (n := 66) (t := c!"6.374619365083466e161") (by decide +kernel)
    ⟨_, _, hd0⟩ (by decide +kernel) i hi _ rfl
  have hsucc : driftAt (i + 1) = u := by
    unfold driftAt
    rw [Function.iterate_succ_apply', h3]
    rfl
  rw [hsucc]
  refine ⟨fun o o' sk ek vk => ?_, s, e, s', e', h4, h5, h6⟩
  have hr : ({ m with body := amount (driftAt i) } : Message).ReadsAs P.floats.f64 (amount u) :=
    ⟨hm.jwm, hm.other, hm.to, hm.recipients, normJ_iff.2 (denotes_amount h3), ⟨Algo.Decimal.numTok h4, trivial⟩,
      by show Json.depth (.obj [(_, .num _)]) ≤ 126; simp [Json.depth, Json.depth.depthM]⟩
  simp only [Message.asRawJson, Res.bind_ok, Message.receive, Message.decryptStep, Message.verifyStep,
    messageType_reads P.floats o hr hc, h1, h2, if_false, ofText_reads o hr, Res.ofOpt_some]

/-! ## Examples -/

/-- A body whose numbers keep their values. -/
def priceText : Str := c!"{\"qty\": 3, \"price\": 12.50, \"rates\": [-1.5e-3, 18446744073709551615]}"

theorem priceText_doc : Document (.obj [(c!"qty", .num c!"3"), (c!"price", .num c!"12.50"),
    (c!"rates", .arr [.num c!"-1.5e-3", .num c!"18446744073709551615"])]) priceText :=
  parseJson_iff.1 (by decide +kernel)

theorem priceText_short : ShortNums (.obj [(c!"qty", .num c!"3"), (c!"price", .num c!"12.50"),
    (c!"rates", .arr [.num c!"-1.5e-3", .num c!"18446744073709551615"])]) := by
  have h1 : ShortNum c!"3" := .inl (.inl (by unfold AllDigits; decide))
  have h2 : ShortNum c!"12.50" := by
    refine .inr ⟨false, 1250, -2, ⟨c!"12", c!"50", c!".50", [], 0, rfl, by unfold Digits; decide, .inr (by decide),
      .inr ⟨by unfold Digits; decide, rfl⟩, .inl ⟨rfl, rfl⟩, by decide, by decide⟩, by decide, by decide, by decide, by decide, .inl ?_⟩
    norm_num
  have h3 : ShortNum c!"-1.5e-3" := by
    refine .inr ⟨true, 15, -4, ⟨c!"1", c!"5", c!".5", c!"e-3", -3, rfl, by unfold Digits; decide, .inr (by decide),
      .inr ⟨by unfold Digits; decide, rfl⟩, .inr ⟨'e', c!"3", .inl rfl, by unfold Digits; decide, .inr (.inr ⟨rfl, by decide⟩)⟩,
      by decide, by decide⟩, by decide, by decide, by decide, by decide, .inl ?_⟩
    norm_num
  have h4 : ShortNum c!"18446744073709551615" := .inl (.inl (by unfold AllDigits; decide))
  refine .obj fun k v h => ?_
  simp only [List.mem_cons, Prod.mk.injEq, List.not_mem_nil, or_false] at h
  rcases h with ⟨-, rfl⟩ | ⟨-, rfl⟩ | ⟨-, rfl⟩
  · exact .num h1
  · exact .num h2
  · refine .arr fun a ha => ?_
    simp only [List.mem_cons, List.not_mem_nil, or_false] at ha
    rcases ha with rfl | rfl
    · exact .num h3
    · exact .num h4

/-- What becomes of it. -/
def priceBody : Json := .obj [(c!"price", .num c!"12.5"), (c!"qty", .num c!"3"),
  (c!"rates", .arr [.num c!"-0.0015", .num c!"18446744073709551615"])]

theorem priceText_set (P : Prims) (m : Message) :
    m.setBody P.floats priceText = .ok { m with body := priceBody } := by
  refine (C04_set_body _ _ _ _).2 ⟨_, _, priceText_doc, by decide, normJ_iff.1 ?_, rfl⟩
  show normJ Algo.f64Text _ = _
  decide +kernel

/-- C111: a body that is received as it was set, and one that is not. -/
example : ∃ m' t q F, exampleMessage.setBody (toy fun _ => none).floats priceText = .ok m' ∧
    m'.sealJwe (toy fun _ => none).floats exampleRand (exampleKey 3)
      (some [some ((toy fun _ => none).x25519Pub (exampleKey 1)), some ((toy fun _ => none).x25519Pub (exampleKey 2))]) = .ok t ∧
    Message.receive (toy fun _ => none).floats HOrd.rev t (some (exampleKey 1))
      (some ((toy fun _ => none).x25519Pub (exampleKey 3))) none = .ok q ∧ q.body = m'.body ∧
    Denotes F (.obj [(c!"qty", .num c!"3"), (c!"price", .num c!"12.50"),
      (c!"rates", .arr [.num c!"-1.5e-3", .num c!"18446744073709551615"])]) q.body := by
  have hset := priceText_set (toy fun _ => none) exampleMessage
  obtain ⟨t, ht⟩ := C16_seal_total (toy fun _ => none).floats (laws_floats (toy_laws _)) (toy_total fun _ => none)
    exampleRand
    { exampleMessage with body := priceBody }
    (exampleKey 3) (some [some ((toy fun _ => none).x25519Pub (exampleKey 1)),
        some ((toy fun _ => none).x25519Pub (exampleKey 2))]) c!"ECDH-1PU+XC20PKW" (by decide) (by decide)
    (by intro l hl; rw [← Option.some.inj hl]; rfl) (by intro h; cases h) rfl (by decide) (by
      intro i dest hi
      match i with
      | 0 => exact ⟨_, (toy_laws _).pub_len _, .inl rfl⟩
      | 1 => exact ⟨_, (toy_laws _).pub_len _, .inl rfl⟩
      | n + 2 => cases hi)
  obtain ⟨q, F, h1, h2, h3, -⟩ := C111_received_short_partial (toy fun _ => none) (toy_laws _) exampleRand HOrd.rev exampleMessage _ priceText _
    (exampleKey 3) (exampleKey 1) _ t c!"did:e:f" none (exampleMessage_wf _) (by decide)
    ⟨(by intro k h; cases h), (by intro k h; cases h)⟩ (by decide) rfl (by decide) priceText_doc (by decide) priceText_short
    hset ht
  exact ⟨_, t, q, F, hset, ht, h1, h2, h3⟩

example (frm : Str) (h : exampleMessage.didcomm.from = some frm) :
    ∃ m', exampleMessage.setBody (toy fun _ => none).floats c!"{\"amount\":7.3037954186947e15}" = .ok m' :=
  (C111_one_more_violated (toy fun _ => none) (toy_laws _) exampleMessage (exampleMessage_wf _) (by decide)
    ⟨(by intro k h; cases h), (by intro k h; cases h)⟩ (by decide) frm h).imp fun _ h => h.1

example : ∃ a : Nat → Str, a 0 = c!"6.374619365083466e161" :=
  (C111_drift_violated (toy fun _ => none) richMessage (richMessage_wf _) (by decide) (by decide) (by decide)).imp fun _ h => h.1

/-- C87, C75: the float code of `serde_json` meets what is assumed there. -/
example : FloatLaw Algo.f64Text := floatLaw_f64Text

end Verif
