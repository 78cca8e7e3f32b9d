import Verif.Lemma.Algo.Monotone
import Verif.Spec.Compare
import Verif.Props.Accuracy

/-!
# Whether the numbers of a body keep their order

C141.
-/

namespace Verif

open Spec

/-! ## They do not -/

/-- A body with two numbers. -/
def twoNums (high low : Str) : Json := .obj [(c!"high", .num high), (c!"low", .num low)]

/-- The same in the order of the text. -/
def twoText (low high : Str) : Json := .obj [(c!"low", .num low), (c!"high", .num high)]

theorem denotes_two {F : Str → Option Str} {t u t' u' : Str} (h : normNum F t = some t') (h' : normNum F u = some u') :
    Denotes F (twoNums t u) (twoNums t' u') := by
  refine normJ_iff.1 ?_
  simp only [twoNums, normJ, normM, h, h', Option.map_some]
  rw [show entriesOf [(c!"high", Json.num t'), (c!"low", Json.num u')] = [(c!"high", Json.num t'), (c!"low", Json.num u')] from by
    simp [entriesOf, insertEntry, strLt]]

theorem denotes_twoText {F : Str → Option Str} {t u t' u' : Str} (h : normNum F t = some t') (h' : normNum F u = some u') :
    Denotes F (twoText u t) (twoNums t' u') := by
  refine normJ_iff.1 ?_
  simp only [twoText, normJ, normM, h, h', Option.map_some]
  rw [show entriesOf [(c!"low", Json.num u'), (c!"high", Json.num t')] = [(c!"high", Json.num t'), (c!"low", Json.num u')] from by
    simp [entriesOf, insertEntry, strLt]]
  rfl

theorem two_received (P : Prims) (hP : Laws P) (m : Message) (hm : m.WF P.f64) (hc : Avoids m.didcomm.other classKeys)
    (hf : HeaderFixed m.jwm) (ht : m.jwm.typ ≠ .jws) (frm : Str) (hfrom : m.didcomm.from = some frm) (text t u t' u' : Str)
    (hd : Document (twoText u t) text) (h1 : normNum Algo.f64Text t = some t') (h2 : normNum Algo.f64Text u = some u')
    (h3 : normNum Algo.f64Text t' = some t') (h4 : normNum Algo.f64Text u' = some u') :
    m.setBody P.floats text = .ok { m with body := twoNums t' u' } ∧
      ∀ (r : Message.SealRand) (o : HOrd) (ssk rsk : Bytes) (rest : List (Option Bytes)) (s : Str) (vk : Option Bytes),
        rsk.length = 32 →
        ({ m with body := twoNums t' u' } : Message).sealJwe P.floats r ssk (some (some (P.x25519Pub rsk) :: rest)) = .ok s →
        ∃ q, Message.receive P.floats o s (some rsk) (some (P.x25519Pub ssk)) vk = .ok q ∧ q.body = twoNums t' u' := by
  have hdep : (twoText u t).depth = 1 := by simp [twoText, Json.depth, Json.depth.depthM]
  have hset : m.setBody P.floats text = .ok { m with body := twoNums t' u' } :=
    (C04_set_body _ _ _ _).2 ⟨_, _, hd, by omega, denotes_twoText h1 h2, rfl⟩
  refine ⟨hset, fun r o ssk rsk rest s vk hrk hseal => ?_⟩
  exact received_readings P hP r o m _ text _ _ ssk rsk rest s frm vk hm hc hf ht hfrom hrk hd (by omega)
    (.succ (denotes_twoText h1 h2) (.succ (denotes_two h3 h4) (.succ (denotes_two h3 h4) (.zero _)))) hset hseal

theorem dec_sci {c : Char} {fd d : Str} (h0 : Digits [c]) (hc : c ≠ '0') (hf : Digits fd) (hd : Digits d) :
    Decimal (c :: '.' :: (fd ++ 'e' :: '-' :: d)) false (digitsVal (c :: fd) 0) (-(digitsVal d 0 : Int) - fd.length) :=
  ⟨[c], fd, '.' :: fd, 'e' :: '-' :: d, _, rfl, h0, .inr (by simpa using hc), .inr ⟨hf, rfl⟩,
    .inr ⟨'e', d, .inl rfl, hd, .inr (.inr ⟨rfl, rfl⟩)⟩, rfl, rfl⟩

theorem dec_low : Decimal c!"9.626009694122739e-8" false 9626009694122739 (-23) :=
  dec_sci (c := '9') (fd := c!"626009694122739") (d := c!"8") (by unfold Digits; decide) (by decide) (by unfold Digits; decide)
    (by unfold Digits; decide)

theorem dec_high : Decimal c!"9.62600969412274e-8" false 962600969412274 (-22) :=
  dec_sci (c := '9') (fd := c!"62600969412274") (d := c!"8") (by unfold Digits; decide) (by decide) (by unfold Digits; decide)
    (by unfold Digits; decide)

theorem dec_raised : Decimal c!"9.626009694122741e-8" false 9626009694122741 (-23) :=
  dec_sci (c := '9') (fd := c!"626009694122741") (d := c!"8") (by unfold Digits; decide) (by decide) (by unfold Digits; decide)
    (by unfold Digits; decide)

theorem dec_three : Decimal c!"3e-22" false 3 (-22) :=
  ⟨c!"3", [], [], c!"e-22", -22, rfl, by unfold Digits; decide, .inr (by decide), .inl ⟨rfl, rfl⟩,
    .inr ⟨'e', c!"22", .inl rfl, by unfold Digits; decide, .inr (.inr ⟨rfl, by decide⟩)⟩, by decide, by decide⟩

theorem dec_threePoint : Decimal c!"3.0e-22" false 30 (-23) :=
  dec_sci (c := '3') (fd := c!"0") (d := c!"22") (by unfold Digits; decide) (by decide) (by unfold Digits; decide)
    (by unfold Digits; decide)

theorem dec_threeMore : Decimal c!"3.0000000000000004e-22" false 30000000000000004 (-38) :=
  dec_sci (c := '3') (fd := c!"0000000000000004") (d := c!"22") (by unfold Digits; decide) (by decide)
    (by unfold Digits; decide) (by unfold Digits; decide)

/-- C141, as written, is false: of these two numbers the smaller one is the larger one in the message whose body is set,
and for everyone who receives the message. -/
theorem C141_order_violated (P : Prims) (hP : Laws P) (m : Message) (hm : m.WF P.f64)
    (hc : Avoids m.didcomm.other classKeys) (hf : HeaderFixed m.jwm) (ht : m.jwm.typ ≠ .jws) (frm : Str)
    (hfrom : m.didcomm.from = some frm) :
    LessValue c!"9.626009694122739e-8" c!"9.62600969412274e-8" ∧
    ∃ high low m', LessValue high low ∧
      m.setBody P.floats c!"{\"low\":9.626009694122739e-8,\"high\":9.62600969412274e-8}" = .ok m' ∧
      m'.body = .obj [(c!"high", .num high), (c!"low", .num low)] ∧
      ∀ (r : Message.SealRand) (o : HOrd) (ssk rsk : Bytes) (rest : List (Option Bytes)) (s : Str) (vk : Option Bytes),
        rsk.length = 32 → m'.sealJwe P.floats r ssk (some (some (P.x25519Pub rsk) :: rest)) = .ok s →
        ∃ q, Message.receive P.floats o s (some rsk) (some (P.x25519Pub ssk)) vk = .ok q ∧ q.body = m'.body := by
  have h1 : normNum Algo.f64Text c!"9.626009694122739e-8" = some c!"9.626009694122741e-8" := by decide +kernel
  have h2 : normNum Algo.f64Text c!"9.62600969412274e-8" = some c!"9.62600969412274e-8" := by decide +kernel
  have h3 : normNum Algo.f64Text c!"9.626009694122741e-8" = some c!"9.626009694122741e-8" := by decide +kernel
  obtain ⟨h4, h5⟩ := two_received P hP m hm hc hf ht frm hfrom
    c!"{\"low\":9.626009694122739e-8,\"high\":9.62600969412274e-8}" c!"9.62600969412274e-8" c!"9.626009694122739e-8" _ _
    (parseJson_iff.1 (by decide +kernel)) h2 h1 h2 h3
  refine ⟨⟨_, _, _, _, _, _, dec_low, dec_high, ?_⟩, _, _, _, ⟨_, _, _, _, _, _, dec_high, dec_raised, ?_⟩, h4, rfl, h5⟩
  · unfold decimalVal; norm_num
  · unfold decimalVal; norm_num

/-- C141, as written, is false: these two numbers are the same, and are set and received as different ones. -/
theorem C141_equal_violated (P : Prims) (hP : Laws P) (m : Message) (hm : m.WF P.f64)
    (hc : Avoids m.didcomm.other classKeys) (hf : HeaderFixed m.jwm) (ht : m.jwm.typ ≠ .jws) (frm : Str)
    (hfrom : m.didcomm.from = some frm) :
    SameValue c!"3e-22" c!"3.0e-22" ∧
    ∃ high low m', LessValue low high ∧
      m.setBody P.floats c!"{\"low\":3e-22,\"high\":3.0e-22}" = .ok m' ∧
      m'.body = .obj [(c!"high", .num high), (c!"low", .num low)] ∧
      ∀ (r : Message.SealRand) (o : HOrd) (ssk rsk : Bytes) (rest : List (Option Bytes)) (s : Str) (vk : Option Bytes),
        rsk.length = 32 → m'.sealJwe P.floats r ssk (some (some (P.x25519Pub rsk) :: rest)) = .ok s →
        ∃ q, Message.receive P.floats o s (some rsk) (some (P.x25519Pub ssk)) vk = .ok q ∧ q.body = m'.body := by
  have h1 : normNum Algo.f64Text c!"3e-22" = some c!"3e-22" := by decide +kernel
  have h2 : normNum Algo.f64Text c!"3.0e-22" = some c!"3.0000000000000004e-22" := by decide +kernel
  have h3 : normNum Algo.f64Text c!"3.0000000000000004e-22" = some c!"3.0000000000000004e-22" := by decide +kernel
  obtain ⟨h4, h5⟩ := two_received P hP m hm hc hf ht frm hfrom
    c!"{\"low\":3e-22,\"high\":3.0e-22}" c!"3.0e-22" c!"3e-22" _ _ (parseJson_iff.1 (by decide +kernel)) h2 h1 h3 h1
  refine ⟨⟨_, _, _, _, _, _, dec_three, dec_threePoint, ?_⟩, _, _, _, ⟨_, _, _, _, _, _, dec_three, dec_threeMore, ?_⟩, h4, rfl, h5⟩
  · unfold decimalVal; norm_num
  · unfold decimalVal; norm_num

/-! ## What holds -/

theorem near_less {d : ℚ} {t u t' u' : Str} (h1 : NearValue d t t') (h2 : NearValue d u u') (h : FarBelow d t u) :
    LessValue t' u' := by
  obtain ⟨neg, s, e, neg', s', e', d1, d2, h⟩ := h
  obtain ⟨n1, s1, e1, s2, e2, a1, a2, a3⟩ := h1
  obtain ⟨n3, s3, e3, s4, e4, b1, b2, b3⟩ := h2
  have c1 := Algo.decimal_decOf d1
  have c2 := Algo.decimal_decOf d2
  rw [Algo.decimal_decOf a1] at c1
  rw [Algo.decimal_decOf b1] at c2
  simp only [Prod.mk.injEq] at c1 c2
  obtain ⟨rfl, rfl, rfl⟩ := c1
  obtain ⟨rfl, rfl, rfl⟩ := c2
  refine ⟨_, _, _, _, _, _, a2, b2, ?_⟩
  have x1 := (abs_le.1 a3).2
  have x2 := (abs_le.1 b3).1
  linarith

/-- Integers are near themselves. -/
theorem near_val {F : Str → Option Str} {d : ℚ} (hd : 0 ≤ d) (hF : ∀ t u, F t = some u → NearValue d t u) {t u : Str}
    (h : NumVal F t u) (ht : ∃ neg s e, Decimal t neg s e) : NearValue d t u := by
  rcases h with ⟨-, rfl⟩ | ⟨-, h⟩
  · obtain ⟨neg, s, e, h⟩ := ht
    exact ⟨neg, s, e, s, e, h, h, by rw [sub_self, abs_zero]; positivity⟩
  · exact hF _ _ h

theorem far_kept {F : Str → Option Str} {d : ℚ} (hd : 0 ≤ d) (hF : ∀ t u, F t = some u → NearValue d t u)
    (t u t' u' : Str) (h : FarBelow d t u) (h1 : NumVal F t t') (h2 : NumVal F u u') : LessValue t' u' := by
  obtain ⟨neg, s, e, neg', s', e', d1, d2, -⟩ := id h
  exact near_less (near_val hd hF h1 ⟨_, _, _, d1⟩) (near_val hd hF h2 ⟨_, _, _, d2⟩) h

/-- C141, what holds: two numbers of a body that differ by more than the part 3 / 2^49 of their sizes keep their order for
whoever receives the sealed message.  Missing: numbers that are closer, for which it is false. -/
theorem C141_received_partial (P : Prims) (hP : Laws P) (r : Message.SealRand) (o : HOrd) (m m' : Message)
    (text : Str) (j : Json) (ssk rsk : Bytes) (rest : List (Option Bytes)) (t frm : Str) (vk : Option Bytes)
    (hm : m.WF P.f64) (hc : Avoids m.didcomm.other classKeys) (hf : HeaderFixed m.jwm) (ht : m.jwm.typ ≠ .jws)
    (hfrom : m.didcomm.from = some frm) (hrk : rsk.length = 32) (h : Document j text) (hd : j.depth ≤ 126)
    (hs : AllNums MidNum j) (hset : m.setBody P.floats text = .ok m')
    (hseal : m'.sealJwe P.floats r ssk (some (some (P.x25519Pub rsk) :: rest)) = .ok t) :
    ∃ q F, Message.receive P.floats o t (some rsk) (some (P.x25519Pub ssk)) vk = .ok q ∧ Denotes F j q.body ∧
      ∀ t u t' u', FarBelow (3 / 2 ^ 49) t u → NumVal F t t' → NumVal F u u' → LessValue t' u' := by
  obtain ⟨q, F, h1, h2, h3⟩ := C136_received P hP r o m m' text j ssk rsk rest t frm vk hm hc hf ht hfrom hrk h hd hs hset hseal
  exact ⟨q, F, h1, h2, far_kept (by positivity) h3⟩

/-- C141, what holds: the same after `n` hops, for numbers that differ by more than the part (n + 1) / 2^49. -/
theorem C141_passed_on_partial (P : Prims) (m : Message) (text : Str) (j : Json) (n : Nat) (hm : m.WF P.f64)
    (hc : Avoids m.didcomm.other classKeys) (h1 : m.jwm.typ ≠ .jwe) (h2 : m.jwm.typ ≠ .jws) (h : Document j text)
    (hd : j.depth ≤ 126) (hs : AllNums MidNum j) (hn : n < 2 ^ 48) :
    ∃ (a : Nat → Json) (F : Str → Option Str), m.setBody P.floats text = .ok { m with body := a 0 } ∧
      (∀ i < n, ∀ (o o' : HOrd) (sk ek vk : Option Bytes),
        ({ m with body := a i }.asRawJson o >>= fun t => Message.receive P.floats o' t sk ek vk) =
          .ok { m with body := a (i + 1), flatJwe := false, flatJws := false }) ∧
      Denotes F j (a n) ∧
      ∀ t u t' u', FarBelow (((n + 1 : Nat) : ℚ) / 2 ^ 49) t u → NumVal F t t' → NumVal F u u' → LessValue t' u' := by
  obtain ⟨a, F, k1, k2, k3, k4⟩ := C136_passed_on P m text j n hm hc h1 h2 h hd hs hn
  exact ⟨a, F, k1, k2, k3, far_kept (by positivity) k4⟩

/-- C141, what holds: numbers whose last digits stand at the same place, like amounts with two decimals, are set in their
order, however close they are, though they may become equal.  Missing: the readings after the first, and numbers
with different numbers of decimals, for which it is false. -/
theorem C141_aligned_partial (P : Prims) (m m' : Message) (text : Str) (h : m.setBody P.floats text = .ok m') :
    ∃ j F, Document j text ∧ Denotes F j m'.body ∧
      ∀ t u t' u', AlignedAtMost t u → NumVal F t t' → NumVal F u u' → AtMostValue t' u' := by
  obtain ⟨j, v, h1, -, h2, rfl⟩ := (C04_set_body _ _ _ _).1 h
  refine ⟨j, Algo.f64Text, h1, h2, ?_⟩
  rintro t u t' u' ⟨neg, s, neg', s', e, d1, d2, he, he1, he2, hs, hs', hl, hl', hv⟩ n1 n2
  rcases n1 with ⟨hi, -⟩ | ⟨-, f1⟩
  · exact absurd (Algo.IntTok.decimal hi d1).2 he
  · rcases n2 with ⟨hi, -⟩ | ⟨-, f2⟩
    · exact absurd (Algo.IntTok.decimal hi d2).2 he
    · obtain ⟨a, c, a', c', g1, g2, g3⟩ := Algo.f64Text_mono d1 d2 hv hs hs' hl hl' he1 he2 f1 f2
      exact ⟨_, _, _, _, _, _, g1, g2, g3⟩

/-! ## Examples -/

/-- C141: a message whose numbers change their order, sealed and received. -/
example : ∃ m' t q high low, exampleMessage.setBody (toy fun _ => none).floats
      c!"{\"low\":9.626009694122739e-8,\"high\":9.62600969412274e-8}" = .ok m' ∧
    m'.sealJwe (toy fun _ => none).floats exampleRand (exampleKey 3)
      (some [some ((toy fun _ => none).x25519Pub (exampleKey 1)), some ((toy fun _ => none).x25519Pub (exampleKey 2))]) = .ok t ∧
    Message.receive (toy fun _ => none).floats HOrd.rev t (some (exampleKey 1))
      (some ((toy fun _ => none).x25519Pub (exampleKey 3))) none = .ok q ∧
    q.body = .obj [(c!"high", .num high), (c!"low", .num low)] ∧ LessValue high low := by
  obtain ⟨-, high, low, m', h1, h2, h3, h4⟩ := C141_order_violated (toy fun _ => none) (toy_laws _) exampleMessage
    (exampleMessage_wf _) (by decide) ⟨(by intro k h; cases h), (by intro k h; cases h)⟩ (by decide) c!"did:e:f" rfl
  have hb : m' = { exampleMessage with body := m'.body } := by
    obtain ⟨_, v, -, -, -, e⟩ := (C04_set_body _ _ _ _).1 h2
    rw [e]
  obtain ⟨t, ht⟩ := C16_seal_total (toy fun _ => none).floats (laws_floats (toy_laws _)) (toy_total fun _ => none)
    exampleRand
    { exampleMessage with body := m'.body }
    (exampleKey 3) (some [some ((toy fun _ => none).x25519Pub (exampleKey 1)),
        some ((toy fun _ => none).x25519Pub (exampleKey 2))]) c!"ECDH-1PU+XC20PKW" (by decide)
    (by show exampleMessage.didcomm.to ≠ []; decide)
    (by intro l hl; rw [← Option.some.inj hl]; rfl) (by intro h; cases h) rfl (by decide) (by
      intro i dest hi
      match i with
      | 0 => exact ⟨_, (toy_laws _).pub_len _, .inl rfl⟩
      | 1 => exact ⟨_, (toy_laws _).pub_len _, .inl rfl⟩
      | n + 2 => cases hi)
  rw [← hb] at ht
  obtain ⟨q, h5, h6⟩ := h4 exampleRand HOrd.rev (exampleKey 3) (exampleKey 1) _ t none (by decide) ht
  exact ⟨m', t, q, high, low, h2, ht, h5, by rw [h6, h3], h1⟩

/-- C141: two of the numbers of the ledger, passed on a thousand times. -/
example : ∃ (a : Nat → Json) (F : Str → Option Str), Denotes F ledger (a 1000) ∧
    ∀ t' u', NumVal F c!"-18446744073709551619.3" t' → NumVal F c!"3.14159265358979323846264338327950288" u' →
      LessValue t' u' := by
  obtain ⟨a, F, -, -, h3, h4⟩ := C141_passed_on_partial (toy fun _ => none) richMessage ledgerText ledger 1000 (richMessage_wf _)
    (by decide) (by decide) (by decide) ledgerText_doc (by decide) ledger_mid (by norm_num)
  refine ⟨a, F, h3, fun t' u' => h4 _ _ _ _ ⟨true, 184467440737095516193, -1, false, 314159265358979323846264338327950288, -35,
    ⟨c!"18446744073709551619", c!"3", c!".3", [], 0, rfl,
      by unfold Digits; decide, .inr (by decide), .inr ⟨by unfold Digits; decide, rfl⟩, .inl ⟨rfl, rfl⟩, by decide +kernel,
      by decide⟩,
    ⟨c!"3", c!"14159265358979323846264338327950288",
      c!".14159265358979323846264338327950288", [], 0, rfl, by unfold Digits; decide, .inr (by decide),
      .inr ⟨by unfold Digits; decide, rfl⟩, .inl ⟨rfl, rfl⟩, by decide +kernel, by decide⟩, ?_⟩⟩
  simp only [decimalVal, if_true, Bool.false_eq_true, if_false]
  rw [abs_of_nonpos (by norm_num), abs_of_nonneg (by norm_num)]
  norm_num

/-- C141: two amounts that differ by a cent, and become equal. -/
example : AlignedAtMost c!"90071992547409931.00" c!"90071992547409931.01" ∧
    Algo.f64Text c!"90071992547409931.00" = some c!"9.007199254740994e16" ∧
    Algo.f64Text c!"90071992547409931.01" = some c!"9.007199254740994e16" := by
  refine ⟨⟨false, 9007199254740993100, false, 9007199254740993101, -2,
    ⟨c!"90071992547409931", c!"00", c!".00", [], 0, rfl, by unfold Digits; decide, .inr (by decide),
      .inr ⟨by unfold Digits; decide, rfl⟩, .inl ⟨rfl, rfl⟩, by decide +kernel, by decide⟩,
    ⟨c!"90071992547409931", c!"01", c!".01", [], 0, rfl, by unfold Digits; decide, .inr (by decide),
      .inr ⟨by unfold Digits; decide, rfl⟩, .inl ⟨rfl, rfl⟩, by decide +kernel, by decide⟩,
    by norm_num, by norm_num, by norm_num, by norm_num, by norm_num, by decide, by decide, ?_⟩, by decide +kernel, by decide +kernel⟩
  unfold decimalVal
  norm_num

end Verif
