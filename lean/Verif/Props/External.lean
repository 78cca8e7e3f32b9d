import Verif.Props.Robust
import Verif.Lemma.Lookup

/-!
# External cryptography and anonymous envelopes

C43, C44, C45, C50.
-/

namespace Verif

open Spec

/-! ## C43 -/

theorem b64Decode_brace (s : Str) : b64Decode ('{' :: s) = none := by
  cases h : b64Decode ('{' :: s) with
  | none => rfl
  | some b =>
    obtain ⟨k, hs, -⟩ := b64Decode_sound h
    have h1 : '{' ∈ b64Encode b ++ List.replicate k '=' := hs ▸ List.mem_cons_self
    rcases List.mem_append.1 h1 with h1 | h1
    · exact absurd ((isBase64Url_encode b).1 _ h1) (by decide)
    · exact absurd (List.eq_of_mem_replicate h1) (by decide)

theorem jwe_text_head (o : HOrd) (j : Jwe) : ∃ s, j.text o = '{' :: s := by
  unfold Jwe.text encJwe
  exact ⟨_, rfl⟩

theorem fieldVals_jwe_iv (o : HOrd) (j : Jwe) {es : List (Str × Json)} (he : encJwe o j = .obj es) :
    fieldVals c!"iv" es = [.str j.iv] := by
  have hfr : fieldVals c!"iv" (flatRecipient (o.sub 2) j.recipient) = [] :=
    fieldVals_flatRecipient _ _ (by decide) (by decide)
  simp only [encJwe, Json.obj.injEq] at he
  subst he
  look
  simp [hfr]

theorem utf8_ascii_length {s : Str} (h : ∀ c ∈ s, c.toNat < 128) : (utf8 s).length = s.length := by
  induction s with
  | nil => rfl
  | cons c s ih =>
    have hc := h c (by simp)
    have := ih fun d hd => h d (by simp [hd])
    simp only [utf8, List.flatMap_cons, List.length_append, List.length_cons] at *
    have h1 : (utf8Char c).length = 1 := by
      unfold utf8Char
      rw [if_pos hc]
      rfl
    omega

theorem alphabet_ascii : ∀ c ∈ Spec.alphabet, c.toNat < 128 := by decide

/-- `get_iv` on an envelope with a base64url iv of 24 bytes fails. -/
theorem getIv_jwe (P : Prims) (o : HOrd) (j : Jwe) (iv : Bytes) (hl : iv.length = 24)
    (hj : j.iv = b64Encode iv) : ∃ e, Message.getIv P (utf8 (j.text o)) = .err e := by
  unfold Message.getIv
  rw [utf8Decode_utf8, Res.ofOpt_some, Res.bind_ok]
  unfold Message.ivSource
  split
  · obtain ⟨s, hs⟩ := jwe_text_head o j
    rw [hs, List.takeWhile_cons, if_pos (by decide), b64Decode_brace]
    exact ⟨_, rfl⟩
  · have h1 : Message.valueOfText P.f64 (j.text o) = toValue P.f64 0 (encJwe o j) := by
      unfold Message.valueOfText
      rw [parse_jwe]
      rfl
    obtain ⟨v, hv⟩ : ∃ v, normJ P.f64 (encJwe o j) = some v :=
      Option.isSome_iff_exists.1 (nice_jwe (F := P.f64) o j).2.2
    obtain ⟨es', rfl, -, hlook⟩ := lookup_norm (by rw [← hv]; rfl) c!"iv"
    rw [fieldVals_jwe_iv o j rfl] at hlook
    have h2 : toValue P.f64 0 (encJwe o j) = some (.obj es') := by
      unfold toValue
      rw [if_pos (by have := (nice_jwe (F := P.f64) o j).1; omega), hv]
    rw [h1, h2, Res.ofOpt_some, Res.bind_ok]
    unfold Message.valueGet
    simp only [hlook, List.getLast?_singleton, Option.bind_some, normJ]
    rw [if_pos]
    · exact ⟨_, rfl⟩
    · rw [hj, utf8_ascii_length, b64Encode_length, hl]
      · decide
      · intro c hc
        exact alphabet_ascii c ((isBase64Url_encode iv).1 c hc)

/-- C43 fails: `get_iv` fails on every sealed envelope. -/
theorem C43_get_iv_violated (P : Prims) (r : Message.SealRand) (m : Message) (ssk : Bytes)
    (keys : Option (List (Option Bytes))) (t : Str) (h : m.sealJwe P r ssk keys = .ok t) :
    ∃ e, Message.getIv P (utf8 t) = .err e := by
  obtain ⟨pks, rs, a, c, tag, alg, -, -, -, -, -, -, -, -, -, -, -, rfl⟩ := seal_ok h
  exact getIv_jwe P _ _ r.iv.1 r.iv.2 rfl

/-- C43, what holds: on a text without dots, `get_iv` gives the member `iv` of a JSON object exactly if
that is a string of 24 bytes; the bytes are those of the text, not decoded. -/
theorem C43_get_iv_partial (P : Prims) (s : Str) (hdot : '.' ∉ s) (b : Bytes) :
    Message.getIv P (utf8 s) = .ok b ↔
      ∃ es iv, Message.valueOfText P.f64 s = some (.obj es) ∧ lookupEntry c!"iv" es = some (.str iv) ∧
        b = utf8 iv ∧ b.length = 24 := by
  unfold Message.getIv
  rw [utf8Decode_utf8, Res.ofOpt_some, Res.bind_ok]
  unfold Message.ivSource
  rw [if_neg (by simpa using hdot)]
  cases hv : Message.valueOfText P.f64 s with
  | none => simp
  | some v =>
    rw [Res.ofOpt_some, Res.bind_ok]
    constructor
    · intro h
      split at h
      · rename_i t ht
        split at h
        · cases h
        · rename_i hl
          obtain rfl := Res.ok.inj h
          cases v with
          | obj es => exact ⟨es, t, rfl, ht, rfl, by omega⟩
          | _ => cases ht
      · cases h
      · cases h
    · rintro ⟨es, iv, hes, hl, rfl, h24⟩
      obtain rfl := Option.some.inj hes
      simp [Message.valueGet, hl, h24]

example : ∃ s b, '.' ∉ s ∧ Message.getIv (toy fun _ => none) (utf8 s) = .ok b :=
  ⟨c!"{\"iv\":\"abcdefghijklmnopqrstuvwx\"}", utf8 c!"abcdefghijklmnopqrstuvwx", by decide,
    by decide +kernel⟩

/-- C43, what holds of compact texts: the text up to the first dot is decoded and looked at in the same way;
whatever follows the dot does not matter. -/
theorem C43_get_iv_compact_partial (P : Prims) (h rest : Str) (hdot : '.' ∉ h) (b : Bytes) :
    Message.getIv P (utf8 (h ++ '.' :: rest)) = .ok b ↔
      ∃ t es iv, b64Decode h = some (utf8 t) ∧ Message.valueOfText P.f64 t = some (.obj es) ∧
        lookupEntry c!"iv" es = some (.str iv) ∧ b = utf8 iv ∧ b.length = 24 := by
  unfold Message.getIv
  rw [utf8Decode_utf8, Res.ofOpt_some, Res.bind_ok]
  unfold Message.ivSource
  rw [if_pos (by simp)]
  have htw : (h ++ '.' :: rest).takeWhile (· != '.') = h := by
    rw [List.takeWhile_append_of_pos (fun c hc => by
      simp only [bne_iff_ne, ne_eq]; rintro rfl; exact hdot hc), List.takeWhile_cons, if_neg (by simp), List.append_nil]
  rw [htw]
  constructor
  · intro hg
    simp only [Res.bind_eq_ok, Res.ofOpt_eq_ok] at hg
    obtain ⟨v, ⟨bs, hbs, t, ht, hv⟩, hg⟩ := hg
    have hu := utf8Decode_eq_some.1 ht
    split at hg
    · rename_i iv hiv
      split at hg
      · cases hg
      · rename_i hl
        obtain rfl := Res.ok.inj hg
        cases v with
        | obj es => exact ⟨t, es, iv, by rw [hbs, hu], hv, hiv, rfl, by omega⟩
        | _ => cases hiv
    · cases hg
    · cases hg
  · rintro ⟨t, es, iv, hb, hv, hl, rfl, h24⟩
    rw [hb, Res.ofOpt_some, Res.bind_ok, utf8Decode_utf8, Res.ofOpt_some, Res.bind_ok, hv, Res.ofOpt_some, Res.bind_ok]
    simp [Message.valueGet, hl, h24]

example : Message.getIv (toy fun _ => none)
    (utf8 (b64Encode (utf8 c!"{\"iv\":\"abcdefghijklmnopqrstuvwx\"}") ++ '.' :: c!"a.b")) =
      .ok (utf8 c!"abcdefghijklmnopqrstuvwx") := by decide +kernel

/-! ## C44 -/

/-- The header members outside of the protected header written by `seal_pre_encrypted`. -/
theorem sealPre_ok {o : HOrd} {iv : Iv} {m : Message} {ct : Bytes} {t : Str}
    (h : m.sealPreEncrypted o iv ct = .ok t) : ∃ kid,
      t = (Jwe.mk (some m.jwm) (some { JwmHeader.dflt with skid := m.didcomm.from, kid := kid }) none
        m.recipients (b64Encode ct) (b64Encode iv.1) none).text o := by
  simp only [Message.sealPreEncrypted, Res.bind_eq_ok, Res.pure_eq, Res.ok.injEq] at h
  obtain ⟨u, hu, rfl⟩ := h
  unfold Message.preHeader at hu
  simp only at hu
  split at hu
  · rw [← Res.ok.inj hu]
    exact ⟨none, rfl⟩
  · simp only [Res.bind_eq_ok, Res.pure_eq, Res.ok.injEq] at hu
    obtain ⟨k, -, rfl⟩ := hu
    exact ⟨some k, rfl⟩

/-- C44 fails: the iv of the envelope built by `seal_pre_encrypted` is a random one (`iv'`), unrelated to
the one handed out by `export_for_encryption` (`iv`); they agree only if the generator happens to repeat
itself. -/
theorem C44_exported_iv_violated (P : Prims) (o o' : HOrd) (iv iv' : Iv) (m : Message) (ct : Bytes)
    (t : Str) (hj : m.jwm.WF) (hr : RecipientsWF m.recipients)
    (h : m.sealPreEncrypted o' iv' ct = .ok t) :
    ∃ n payload j, m.exportForEncryption o iv = .ok (n, payload) ∧ Jwe.ofText P.f64 t = some j ∧
      (b64Decode j.iv = some n ↔ iv = iv') := by
  obtain ⟨kid, rfl⟩ := sealPre_ok h
  refine ⟨iv.1, utf8 (m.text o), _, by simp [Message.exportForEncryption], jwe_ofText_text (F := P.f64) _ ?_, ?_⟩
  · refine ⟨?_, ?_, ?_, hr⟩
    · intro x hx; rw [← Option.some.inj hx]; exact hj
    · intro x hx; rw [← Option.some.inj hx]
      exact ⟨(by intro k hk; cases hk), (by intro k hk; cases hk)⟩
    · intro x hx; cases hx
  · simp only [b64Decode_encode, Option.some.injEq]
    exact ⟨fun h => Subtype.ext h.symm, fun h => by rw [h]⟩

/-- C44: a message sealed with another iv than the one that was handed out. -/
example : ∃ t n payload j iv, iv ≠ exampleRand.iv ∧ exampleMessage.sealPreEncrypted HOrd.id exampleRand.iv [1, 2, 3] = .ok t ∧
    exampleMessage.exportForEncryption HOrd.id iv = .ok (n, payload) ∧ Jwe.ofText (toy fun _ => none).f64 t = some j ∧
    b64Decode j.iv ≠ some n := by
  obtain ⟨n, payload, j, h1, h2, h3⟩ := C44_exported_iv_violated (toy fun _ => none) HOrd.id HOrd.id
    ⟨List.replicate 24 9, by decide⟩ exampleRand.iv exampleMessage [1, 2, 3] _ (exampleMessage_wf (toy fun _ => none).f64).jwm
    (exampleMessage_wf (toy fun _ => none).f64).recipients rfl
  have hne : (⟨List.replicate 24 9, by decide⟩ : Iv) ≠ exampleRand.iv := by decide
  exact ⟨_, n, payload, j, _, hne, rfl, h1, h2, fun h => hne (h3.1 h)⟩

/-- C44, what holds: the exported payload reads back as the message, and `received_as_jwe` gives access
to the ciphertext put into the envelope, if the message has a sender. -/
theorem C44_external_partial (P : Prims) (o o' : HOrd) (iv iv' : Iv) (m : Message) (ct : Bytes)
    (t : Str) (hm : m.WF P.f64) (hfrom : m.didcomm.from ≠ none)
    (h : m.sealPreEncrypted o' iv' ct = .ok t) :
    (∃ n payload, m.exportForEncryption o iv = .ok (n, payload) ∧ n = iv.1 ∧
      Message.receiveExternalCrypto P payload = .ok { m with flatJwe := false, flatJws := false }) ∧
    ∃ j, Message.receivedAsJwe P (utf8 t) = some j ∧ j.getPayload = .ok ct ∧
      j.protected_ = some m.jwm ∧ j.recipients = m.recipients ∧ j.tag = none := by
  refine ⟨⟨iv.1, utf8 (m.text o), by simp [Message.exportForEncryption], rfl, ?_⟩, ?_⟩
  · unfold Message.receiveExternalCrypto
    rw [ofBytes_utf8, ofText_text o hm]
    rfl
  · obtain ⟨kid, rfl⟩ := sealPre_ok h
    have hw : (Jwe.mk (some m.jwm) (some { JwmHeader.dflt with skid := m.didcomm.from, kid := kid }) none
        m.recipients (b64Encode ct) (b64Encode iv'.1) none).WF := by
      refine ⟨?_, ?_, ?_, hm.recipients⟩
      · intro x hx; rw [← Option.some.inj hx]; exact hm.jwm
      · intro x hx; rw [← Option.some.inj hx]
        exact ⟨(by intro k hk; cases hk), (by intro k hk; cases hk)⟩
      · intro x hx; cases hx
    refine ⟨Jwe.mk (some m.jwm) (some { JwmHeader.dflt with skid := m.didcomm.from, kid := kid }) none
        m.recipients (b64Encode ct) (b64Encode iv'.1) none, ?_, ?_, rfl, rfl, rfl⟩
    · unfold Message.receivedAsJwe
      rw [parseBytes_utf8, parse_jwe, Option.bind_some, decJwe_enc o' hw]
      simp only
      rw [if_pos]
      unfold Jwe.getSkid Jwe.getter fallback
      simp only [Option.bind_some]
      split
      · rfl
      · cases hf : m.didcomm.from with
        | none => exact absurd hf hfrom
        | some f => rfl
    · simp [Jwe.getPayload]

example : ∃ m : Message, ∃ t, m.WF (toy fun _ => none).f64 ∧ m.didcomm.from ≠ none ∧
    m.sealPreEncrypted HOrd.id exampleRand.iv [1, 2, 3] = .ok t :=
  ⟨exampleMessage, _, exampleMessage_wf _, by decide, rfl⟩

/-! ## C45 -/

/-- C45 fails: an envelope sealed without `from` can never be received, with any keys. -/
theorem C45_anonymous_violated (P : Prims) (r : Message.SealRand) (m : Message) (ssk : Bytes)
    (keys : Option (List (Option Bytes))) (t : Str) (hm : m.jwm.WF) (hfrom : m.didcomm.from = none)
    (h : m.sealJwe P r ssk keys = .ok t) (o : HOrd) (sk ek vk : Option Bytes) :
    (∀ m', Message.receive P o t sk ek vk ≠ .ok m') ∧
      ((∀ k, sk = some k → 32 ≤ k.length) → (∀ k, ek = some k → 32 ≤ k.length) →
        ∃ e, Message.receive P o t sk ek vk = .err e) := by
  obtain ⟨pks, rs, a, c, tag, alg, -, -, -, hto, hfl, hrs, hlen, hal, ha, -, -, rfl⟩ := seal_ok h
  have hr := sealRecipients_wf hrs
  have hof := jwe_ofText_text (F := P.f64) (r.ord.sub 2)
    (envelope_wf (iv := r.iv.1) (c := c) (tag := tag) hm hr)
  have hskid : (Spec.envelope m rs r.iv.1 c tag).getSkid = none := by rw [envelope_skid, hfrom]
  have halg := envelope_alg (rs := rs) (iv := r.iv.1) (c := c) (tag := tag) hal
  have hcek : ∀ k rc, decryptCek P (Spec.envelope m rs r.iv.1 c tag) k rc ek =
      .err (.generic "missing 'skid' in header") := by
    intro k rc
    simp only [decryptCek, halg, hskid, Res.ofOpt_some, Res.ofOpt_none, Res.bind_ok, Res.bind_err]
  have hfk : ∀ k l, ∃ e, Message.firstKey P (Spec.envelope m rs r.iv.1 c tag) k ek l = .err e := by
    intro k l
    induction l with
    | nil => exact ⟨_, rfl⟩
    | cons x l ih => simp only [Message.firstKey, hcek]; exact ih
  unfold Message.receive Message.decryptStep
  rw [messageType_envelope, Res.bind_ok, if_pos rfl]
  cases sk with
  | none => exact ⟨by simp, fun _ _ => ⟨_, rfl⟩⟩
  | some k =>
    rw [Res.ofOpt_some, Res.bind_ok]
    unfold Message.receiveJwe
    simp only [hof, halg, Res.ofOpt_some, Res.bind_ok]
    cases ek with
    | none =>
      simp only [Message.senderKey, hskid, Res.ofOpt_none, Res.bind_err]
      exact ⟨by simp, fun _ _ => ⟨_, rfl⟩⟩
    | some p =>
      simp only [Message.senderKey, Res.bind_ok]
      have hck : ∀ x, ∃ e, Message.contentKey P (Spec.envelope m rs r.iv.1 c tag) k (some p) x =
          .err e := by
        intro x
        unfold Message.contentKey
        rw [envelope_recipients hfl]
        exact hfk k rs
      constructor
      · intro m' hm'
        simp only [Res.bind_eq_ok] at hm'
        obtain ⟨_, ⟨_, -, _, -, _, -, _, hck', -⟩, -⟩ := hm'
        obtain ⟨e, he⟩ := hck (P.x25519 _ _)
        rw [he] at hck'
        cases hck'
      · intro h1 h2
        rw [arrayRef32_eq_ok.2 ⟨h1 k rfl, rfl⟩, Res.bind_ok, arrayRef32_eq_ok.2 ⟨h2 p rfl, rfl⟩,
          Res.bind_ok, ha, Res.bind_ok]
        obtain ⟨e, he⟩ := hck (P.x25519 (k.take 32) (p.take 32))
        rw [he]
        exact ⟨e, rfl⟩

/-- Sealing without `from` does succeed, so C45 is not vacuous. -/
theorem C45_anonymous_seal_succeeds : ∃ (m : Message) (t : Str), m.jwm.WF ∧ m.didcomm.from = none ∧
    m.WF (toy fun _ => none).f64 ∧
    m.sealJwe (toy fun _ => none) exampleRand (exampleKey 3)
      (some [some ((toy fun _ => none).x25519Pub (exampleKey 1)),
        some ((toy fun _ => none).x25519Pub (exampleKey 2))]) = .ok t := by
  let m := { exampleMessage with didcomm := { exampleMessage.didcomm with «from» := none } }
  have hw := exampleMessage_wf (toy fun _ => none).f64
  obtain ⟨t, ht⟩ := C16_seal_total (toy fun _ => none) (toy_laws _) (toy_total _) exampleRand m
    (exampleKey 3) (some [some ((toy fun _ => none).x25519Pub (exampleKey 1)),
        some ((toy fun _ => none).x25519Pub (exampleKey 2))]) c!"ECDH-1PU+XC20PKW" (by decide) (by decide)
    (by intro l hl; rw [← Option.some.inj hl]; rfl) (by intro h; cases h) rfl (by decide) (by
      intro i dest hi
      match i with
      | 0 => exact ⟨_, toyPad_length _, .inl rfl⟩
      | 1 => exact ⟨_, toyPad_length _, .inl rfl⟩
      | n + 2 => exact absurd (show exampleMessage.didcomm.to[n + 2]? = some dest from hi) (by
          rw [show exampleMessage.didcomm.to = [c!"did:a:b", c!"did:c:d"] from rfl]; simp))
  exact ⟨m, t, hw.jwm, rfl, ⟨hw.jwm, hw.other, hw.to, hw.recipients, hw.canon, hw.nums, hw.depth⟩, ht⟩

/-- C45, what holds: with `from` set, every listed recipient receives the envelope (see C17). -/
theorem C45_named_partial (P : Prims) (hP : Laws P) (r : Message.SealRand) (o : HOrd)
    (m : Message) (ssk rsk : Bytes) (keys : Option (List (Option Bytes))) (t dest frm : Str)
    (ek vk : Option Bytes)
    (hm : m.WF P.f64) (hc : Avoids m.didcomm.other classKeys) (hf : HeaderFixed m.jwm)
    (hj : m.jwm.typ ≠ .jws) (hfrom : m.didcomm.from = some frm)
    (hseal : m.sealJwe P r ssk keys = .ok t) (hi : m.didcomm.to[0]? = some dest) (hrk : rsk.length = 32)
    (hkr : KeyFor P dest (Spec.keyAt keys 0) (P.x25519Pub rsk)) (hks : KeyFor P frm ek (P.x25519Pub ssk)) :
    ∃ rs, Message.receive P o t (some rsk) ek vk =
      .ok { m with recipients := some rs, flatJwe := false, flatJws := false } := by
  obtain ⟨j, rs, -, -, -, h⟩ := C17_every_recipient P hP r m ssk _ t frm hm hc hf hj hfrom hseal
  exact ⟨rs, h 0 dest rsk ek vk o hi hrk hkr hks (by simp)⟩

/-! ## C50 -/

/-- C50: `received_as_jwe` returns an envelope exactly if the bytes are a JWE document one of whose two
headers has a `skid`; then that is the envelope. -/
theorem C50_received_as_jwe (P : Prims) (b : Bytes) (j : Jwe) :
    Message.receivedAsJwe P b = some j ↔
      ∃ doc, parseBytes b = some doc ∧ decJwe P.f64 doc = some j ∧
        ∃ h s, (j.protected_ = some h ∨ j.unprotected = some h) ∧ h.skid = some s := by
  have hskid : j.getSkid.isSome = true ↔
      ∃ h s, (j.protected_ = some h ∨ j.unprotected = some h) ∧ h.skid = some s := by
    unfold Jwe.getSkid Jwe.getter fallback
    constructor
    · intro hs
      split at hs
      · rename_i v hv
        obtain ⟨h, h1, h2⟩ := Option.bind_eq_some_iff.1 hv
        exact ⟨h, v, .inl h1, h2⟩
      · obtain ⟨v, hv⟩ := Option.isSome_iff_exists.1 hs
        obtain ⟨h, h1, h2⟩ := Option.bind_eq_some_iff.1 hv
        exact ⟨h, v, .inr h1, h2⟩
    · rintro ⟨h, s, h1 | h1, h2⟩
      · simp [h1, h2]
      · split
        · rfl
        · simp [h1, h2]
  unfold Message.receivedAsJwe
  constructor
  · intro h
    split at h
    · rename_i j' hj'
      split at h
      · rename_i hs
        obtain rfl := Option.some.inj h
        obtain ⟨doc, h1, h2⟩ := Option.bind_eq_some_iff.1 hj'
        exact ⟨doc, h1, h2, hskid.1 hs⟩
      · cases h
    · cases h
  · rintro ⟨doc, h1, h2, h3⟩
    simp only [h1, Option.bind_some, h2, hskid.2 h3, if_true]

/-- C50 for sealed envelopes: they are recognised exactly if the message has a sender, and the payload
handed out is the transmitted ciphertext. -/
theorem C50_sealed (P : Prims) (r : Message.SealRand) (m : Message) (ssk : Bytes)
    (keys : Option (List (Option Bytes))) (t : Str) (hm : m.jwm.WF)
    (h : m.sealJwe P r ssk keys = .ok t) :
    (m.didcomm.from = none → Message.receivedAsJwe P (utf8 t) = none) ∧
    (m.didcomm.from ≠ none → ∃ j c, Message.receivedAsJwe P (utf8 t) = some j ∧
      Jwe.ofText P.f64 t = some j ∧ j.getPayload = .ok c ∧ j.ciphertext = b64Encode c) := by
  obtain ⟨pks, rs, a, c, tag, alg, -, -, -, hto, hfl, hrs, hlen, hal, ha, -, -, rfl⟩ := seal_ok h
  have hw := envelope_wf (iv := r.iv.1) (c := c) (tag := tag) hm (sealRecipients_wf hrs)
  unfold Message.receivedAsJwe
  rw [parseBytes_utf8, parse_jwe, Option.bind_some, decJwe_enc (F := P.f64) _ hw]
  simp only [envelope_skid]
  constructor
  · intro hf
    simp [hf]
  · intro hf
    cases hf' : m.didcomm.from with
    | none => exact absurd hf' hf
    | some f =>
      refine ⟨_, c, rfl, jwe_ofText_text (F := P.f64) _ hw, ?_, rfl⟩
      simp [Jwe.getPayload, Spec.envelope]

/-- C45, C50: an envelope with a sender. -/
example : ∃ t, exampleMessage.jwm.WF ∧ exampleMessage.didcomm.from ≠ none ∧
    exampleMessage.sealJwe (toy fun _ => none) exampleRand (exampleKey 3) exampleKeys = .ok t :=
  let ⟨t, ht⟩ := exampleSealed
  ⟨t, (exampleMessage_wf (toy fun _ => none).f64).jwm, by decide, ht⟩

end Verif
