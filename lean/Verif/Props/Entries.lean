import Verif.Props.Keys
import Verif.Props.Accept

/-!
# The list of recipients an envelope shows

C118 (entries are not protected).
-/

namespace Verif

open Spec

theorem parseBytes_ofText (F : Str → Option Str) (s : Str) :
    (parseBytes (utf8 s)).bind (decJwe F) = Jwe.ofText F s := by
  rw [parseBytes_utf8]
  unfold Jwe.ofText
  cases parseJson s <;> rfl

/-- What is received from a text with the content of a sealed envelope and other entries, once the content
key is found. -/
theorem receive_entries {P : Prims} (hP : Laws P) {m : Message} {rs : List Recipient}
    {iv c tag key : Bytes} {o o1 o2 : HOrd} {alg frm s : Str} {a : CryptoAlg}
    {b b' : Json} (hal : m.jwm.alg = some alg) (ha : CryptoAlg.ofStr alg = .ok a)
    (hw : m.ReadsAs P.f64 b) (hb : normJ P.f64 b = some b') (hc : Avoids m.didcomm.other classKeys)
    (hf : HeaderFixed m.jwm) (hj : m.jwm.typ ≠ .jws) (hr : ∀ rc ∈ rs, rc.header.WF)
    (he : a.encryptor P iv key (utf8 ({ m with recipients := some rs }.text o1))
        (utf8 (headerB64 o2 (Spec.publicHeader m))) = .ok (c ++ tag))
    (hfrom : m.didcomm.from = some frm) {sk pk : Bytes} {ek vk : Option Bytes}
    (hsk : sk.length = 32) (hpk : pk.length = 32) (hks : KeyFor P frm ek pk)
    {l : Option (List Recipient)} {x : Option Recipient}
    (hty : Message.messageType P s = .ok .jwe)
    (hs : Jwe.ofText P.f64 s = some { Spec.envelope m rs iv c tag with recipients := l, recipient := x })
    (hfk : Message.contentKey P { Spec.envelope m rs iv c tag with recipients := l, recipient := x }
      sk ek (P.x25519 sk pk) = .ok key) :
    Message.receive P o s (some sk) ek vk =
      .ok { m with recipients := some rs, body := b', flatJwe := false, flatJws := false } := by
  have hF : ∀ t u, P.f64 t = some u → Spec.NumTok u := fun _ _ => hP.f64_tok
  have hwr : Message.ReadsAs P.f64 { m with recipients := some rs } b :=
    ⟨hw.jwm, hw.other, hw.to, by intro l hl; rw [← Option.some.inj hl]; exact hr, hw.norm, hw.nums,
      hw.depth⟩
  have hwf : Message.ReadsAs P.f64 { m with recipients := some rs, body := b, flatJwe := false, flatJws := false } b' :=
    ⟨hwr.jwm, hwr.other, hwr.to, hwr.recipients, hb, normJ_numsOk hF hw.norm hw.nums,
      Nat.le_trans (normJ_depth hF hw.norm) hw.depth⟩
  have hga : Jwe.getAlg { Spec.envelope m rs iv c tag with recipients := l, recipient := x } = some alg :=
    envelope_alg (rs := rs) (iv := iv) (c := c) (tag := tag) hal
  have hgs : Jwe.getSkid { Spec.envelope m rs iv c tag with recipients := l, recipient := x } = some frm := by
    rw [← hfrom]
    exact envelope_skid (m := m) (rs := rs) (iv := iv) (c := c) (tag := tag)
  have hdec : ∀ o, Message.decrypt P o (utf8 s) (a.decrypter P) key =
      .ok { m with recipients := some rs, body := b, flatJwe := false, flatJws := false } := by
    intro o
    have h2 := C55_decrypt_encrypt P hP a (ofStr_ne_cbc ha) _ _ _ _ _ he
    have h3 : Message.ofBytes P.f64 (utf8 ({ m with recipients := some rs }.text o1)) =
        some { m with recipients := some rs, body := b, flatJwe := false, flatJws := false } := by
      rw [ofBytes_utf8, ofText_reads o1 hwr]
    unfold Message.decrypt
    rw [parseBytes_ofText, hs]
    simp only [Res.ofOpt_some, Res.bind_ok, Spec.envelope, Jwe.getPayload, Jwe.getIv,
      b64Decode_encode, Res.unwrap_some]
    rw [headerB64_fixed (publicHeader_fixed hf) o o2, h2]
    simp only [Message.plugErr, Res.bind_ok, h3, Res.ofOpt_some]
  have hrec : ∀ o, Message.receiveJwe P o s sk ek = .ok ({ m with
      recipients := some rs, body := b, flatJwe := false, flatJws := false }.text (o.sub 1)) := by
    intro o
    simp only [Message.receiveJwe, hs, Res.ofOpt_some, Res.bind_ok, hga, senderKey_ok hgs hks,
      arrayRef32_of hsk, arrayRef32_of hpk, ha, hfk, hdec, Res.pure_eq]
  simp only [Message.receive, Message.decryptStep, hty, Res.bind_ok, if_true,
    Res.ofOpt_some, hrec, Message.verifyStep, messageType_reads P ((o.sub 0).sub 1) hwf hc, hj,
    if_false, ofText_reads ((o.sub 0).sub 1) hwf]

/-- C118, what holds: whatever entries are shown by an envelope that otherwise is as it was sealed, in
whichever text and form: if the content key is found among them, the message received is the one sealed, and
it reports the entries made by the sender, not those shown; if it is not found, nothing is received. -/
theorem C118_reported_partial (P : Prims) (hP : Laws P) (r : Message.SealRand) (m : Message)
    (ssk : Bytes) (keys : Option (List (Option Bytes))) (t frm : Str)
    (hm : m.WF P.f64) (hc : Avoids m.didcomm.other classKeys) (hf : HeaderFixed m.jwm)
    (hj : m.jwm.typ ≠ .jws) (hfrom : m.didcomm.from = some frm)
    (hseal : m.sealJwe P r ssk keys = .ok t) :
    ∃ j rs, Jwe.ofText P.f64 t = some j ∧ Message.recipientsOf j = some rs ∧
      ∀ (l : List Recipient) (x : Option Recipient) (j' : Jwe) (s : Str) (rsk : Bytes) (ek vk : Option Bytes)
        (o : HOrd), rsk.length = 32 → KeyFor P frm ek (P.x25519Pub ssk) →
        j' = { j with recipients := some l, recipient := x } ∨
          j' = { j with recipients := none, recipient := x } ∧ x.toList = l →
        l ≠ [] → Message.messageType P s = .ok .jwe → Jwe.ofText P.f64 s = some j' →
        ((∃ i rc, l[i]? = some rc ∧ decryptCek P j rsk rc ek = .ok cek ∧
            ∀ y ∈ l.take i, ∃ e, decryptCek P j rsk y ek = .err e) →
          Message.receive P o s (some rsk) ek vk =
            .ok { m with recipients := some rs, flatJwe := false, flatJws := false }) ∧
        ((∀ y ∈ l, ∃ e, decryptCek P j rsk y ek = .err e) →
          ∃ e, Message.receive P o s (some rsk) ek vk = .err e) := by
  obtain ⟨pks, rs, a, c, tag, alg, hp, hpl, hk, hto, hfl, hrs, hl, hal, ha, he, -, rfl⟩ := seal_ok hseal
  have hr := sealRecipients_wf hrs
  refine ⟨_, rs, jwe_ofText_text (F := P.f64) _ (envelope_wf hm.jwm hr), envelope_recipients hfl, ?_⟩
  intro l x j' s rsk ek vk o hrk hks hj' hne hty hs
  obtain ⟨l', rfl, hro⟩ : ∃ l', j' = { Spec.envelope m rs r.iv.1 c tag with recipients := l', recipient := x } ∧
      Message.recipientsOf { Spec.envelope m rs r.iv.1 c tag with recipients := l', recipient := x } = some l := by
    rcases hj' with rfl | ⟨rfl, hx⟩
    · exact ⟨_, rfl, rfl⟩
    · refine ⟨_, rfl, ?_⟩
      cases x with
      | none => exact absurd hx.symm hne
      | some x => rw [← hx]; rfl
  have hdc : ∀ y, decryptCek P { Spec.envelope m rs r.iv.1 c tag with recipients := l', recipient := x } rsk y ek =
      decryptCek P (Spec.envelope m rs r.iv.1 c tag) rsk y ek := fun _ => rfl
  constructor
  · rintro ⟨i, rc, hi, hd, hb⟩
    refine receive_entries hP hal ha hm.reads (normJ_canon hm.canon) hc hf hj hr he hfrom hrk (hP.pub_len _)
      hks hty hs ?_
    unfold Message.contentKey
    rw [hro]
    refine firstKey_of hi hd fun y hy => ?_
    obtain ⟨e, h⟩ := hb y hy
    rw [hdc, h]
    exact ⟨(by intro h; cases h), (by intro c h; cases h)⟩
  · intro h
    have hga : Jwe.getAlg { Spec.envelope m rs r.iv.1 c tag with recipients := l', recipient := x } = some alg :=
      envelope_alg (rs := rs) (iv := r.iv.1) (c := c) (tag := tag) hal
    have hgs : Jwe.getSkid { Spec.envelope m rs r.iv.1 c tag with recipients := l', recipient := x } = some frm := by
      rw [← hfrom]
      exact envelope_skid (m := m) (rs := rs) (iv := r.iv.1) (c := c) (tag := tag)
    have hfk : ∃ e, Message.firstKey P { Spec.envelope m rs r.iv.1 c tag with recipients := l', recipient := x }
        rsk ek l = .err e := by
      clear hne hro hj'
      induction l with
      | nil => exact ⟨_, rfl⟩
      | cons y l ih =>
        obtain ⟨e, he⟩ := h y (by simp)
        simp only [Message.firstKey, hdc, he]
        exact ih fun z hz => h z (by simp [hz])
    obtain ⟨e, hfk⟩ := hfk
    refine ⟨e, ?_⟩
    simp only [Message.receive, Message.decryptStep, hty, Res.bind_ok, if_true, Res.ofOpt_some,
      Message.receiveJwe, hs, hga, senderKey_ok hgs hks, arrayRef32_of hrk, arrayRef32_of (hP.pub_len ssk), ha,
      Message.contentKey, hro, hfk, Res.bind_err]

/-- C118, as written, is false: of every sealed envelope all entries but one can be removed, any others
added after it and the form changed; the recipient of that entry receives the message as if nothing had
happened. -/
theorem C118_violated (P : Prims) (hP : Laws P) (r : Message.SealRand) (m : Message)
    (ssk : Bytes) (keys : Option (List (Option Bytes))) (t frm : Str)
    (hm : m.WF P.f64) (hc : Avoids m.didcomm.other classKeys) (hf : HeaderFixed m.jwm)
    (hj : m.jwm.typ ≠ .jws) (hfrom : m.didcomm.from = some frm)
    (hseal : m.sealJwe P r ssk keys = .ok t) :
    ∃ j rs, Jwe.ofText P.f64 t = some j ∧ Message.recipientsOf j = some rs ∧
      rs.length = m.didcomm.to.length ∧
      ∀ (i : Nat) (dest : Str), m.didcomm.to[i]? = some dest → ∃ rc, rs[i]? = some rc ∧
        ∀ (l : List Recipient), (∀ x ∈ l, x.header.WF) → ∃ t₁ t₂ : Str,
          Jwe.ofText P.f64 t₁ = some { j with recipients := some (rc :: l), recipient := none } ∧
          Jwe.ofText P.f64 t₂ = some { j with recipients := none, recipient := some rc } ∧
          ∀ (rsk : Bytes) (ek vk : Option Bytes) (o : HOrd), rsk.length = 32 →
            KeyFor P dest (Spec.keyAt keys i) (P.x25519Pub rsk) → KeyFor P frm ek (P.x25519Pub ssk) →
            Message.receive P o t₁ (some rsk) ek vk =
              .ok { m with recipients := some rs, flatJwe := false, flatJws := false } ∧
            Message.receive P o t₂ (some rsk) ek vk =
              .ok { m with recipients := some rs, flatJwe := false, flatJws := false } := by
  obtain ⟨j, rs, hjt, hrs, hrep⟩ := C118_reported_partial P hP r m ssk keys t frm hm hc hf hj hfrom hseal
  obtain ⟨pks, rs', a, c, tag, alg, hp, hpl, hk, hto, hfl, hrs', hl, hal, ha, he, -, rfl⟩ := seal_ok hseal
  have hr := sealRecipients_wf hrs'
  have hwe := envelope_wf (m := m) (rs := rs') (iv := r.iv.1) (c := c) (tag := tag) hm.jwm hr
  rw [jwe_ofText_text (F := P.f64) _ hwe] at hjt
  obtain rfl := Option.some.inj hjt
  rw [envelope_recipients hfl] at hrs
  obtain rfl := Option.some.inj hrs
  refine ⟨_, rs', jwe_ofText_text (F := P.f64) _ hwe, envelope_recipients hfl, hl, ?_⟩
  intro i dest hi
  have hil : i < rs'.length := by
    rw [hl]; exact (List.getElem?_eq_some_iff.1 hi).1
  obtain ⟨d, k, h1, h2⟩ := (sealRecipients_ok hrs').2 i _ (List.getElem?_eq_getElem hil)
  obtain ⟨hd, hk'⟩ := zip_get h1
  rw [hi] at hd
  obtain rfl := Option.some.inj hd
  rw [sealKeys_get hp hk'] at h2
  refine ⟨rs'[i], List.getElem?_eq_getElem hil, fun l hlw => ?_⟩
  have hrw := hr rs'[i] (List.getElem_mem hil)
  have hw1 : Jwe.WF { Spec.envelope m rs' r.iv.1 c tag with
      recipients := some (rs'[i] :: l), recipient := none } :=
    ⟨hwe.prot, hwe.unprot, (by intro x hx; cases hx), (by
      intro x hx y hy
      rw [← Option.some.inj hx] at hy
      rcases List.mem_cons.1 hy with rfl | hy
      · exact hrw
      · exact hlw y hy)⟩
  have hw2 : Jwe.WF { Spec.envelope m rs' r.iv.1 c tag with recipients := none, recipient := some rs'[i] } :=
    ⟨hwe.prot, hwe.unprot, (by intro x hx; rw [← Option.some.inj hx]; exact hrw),
      (by intro x hx; cases hx)⟩
  refine ⟨_, _, jwe_ofText_text (F := P.f64) HOrd.id hw1, jwe_ofText_text (F := P.f64) HOrd.id hw2, ?_⟩
  intro rsk ek vk o hrk hkr hks
  have hopen : decryptCek P (Spec.envelope m rs' r.iv.1 c tag) rsk rs'[i] ek = .ok cek :=
    decryptCek_encryptCek hP h2 hal (envelope_alg hal) (by rw [envelope_skid, hfrom]) hk hrk hkr hks
  exact ⟨(hrep (rs'[i] :: l) none _ _ rsk ek vk o hrk hks (.inl rfl) (by simp) (messageType_jwe _ _)
      (jwe_ofText_text (F := P.f64) HOrd.id hw1)).1
        ⟨0, _, rfl, hopen, by intro y hy; cases hy⟩,
    (hrep [rs'[i]] (some rs'[i]) _ _ rsk ek vk o hrk hks (.inr ⟨rfl, rfl⟩) (by simp) (messageType_jwe _ _)
      (jwe_ofText_text (F := P.f64) HOrd.id hw2)).1
        ⟨0, _, rfl, hopen, by intro y hy; cases hy⟩⟩

theorem two_of_length {α : Type} {l : List α} (h : l.length = 2) : ∃ a b, l = [a, b] := by
  match l, h with
  | [a, b], _ => exact ⟨a, b, rfl⟩

/-- C118: from an envelope for two, an envelope that shows only the second recipient, read by it. -/
example : ∃ (t t' : Str) (j : Jwe) (rc₁ rc₂ : Recipient),
    exampleMessage.sealJwe (toy fun _ => none) exampleRand (exampleKey 3) exampleKeys = .ok t ∧
    Jwe.ofText (toy fun _ => none).f64 t = some j ∧ j.recipients = some [rc₁, rc₂] ∧
    Jwe.ofText (toy fun _ => none).f64 t' = some { j with recipients := some [rc₂], recipient := none } ∧
    Message.receive (toy fun _ => none) HOrd.id t' (some (exampleKey 2))
      (some ((toy fun _ => none).x25519Pub (exampleKey 3))) none =
        .ok { exampleMessage with recipients := some [rc₁, rc₂] } := by
  obtain ⟨t, ht⟩ := exampleSealed
  obtain ⟨j, rs, hj, hrs, hlen, h⟩ := C118_violated _ (toy_laws fun _ => none) exampleRand exampleMessage
    (exampleKey 3) exampleKeys t c!"did:e:f" (exampleMessage_wf _) (by decide)
    ⟨(by intro k h; cases h), (by intro k h; cases h)⟩ (by decide) rfl ht
  obtain ⟨rc, hrc, h⟩ := h 1 c!"did:c:d" rfl
  obtain ⟨t₁, t₂, h1, -, h3⟩ := h [] (by intro x hx; cases hx)
  have h4 := (h3 (exampleKey 2) (some ((toy fun _ => none).x25519Pub (exampleKey 3))) none HOrd.id (by decide)
    (.inl rfl) (.inl rfl)).1
  have hlen2 : rs.length = 2 := hlen
  obtain ⟨a, b, rfl⟩ := two_of_length hlen2
  obtain rfl : b = rc := by simpa using hrc
  refine ⟨t, t₁, j, a, b, ht, hj, ?_, h1, h4⟩
  unfold Message.recipientsOf at hrs
  cases hr : j.recipients with
  | some l => rw [hr] at hrs; exact hrs
  | none =>
    rw [hr] at hrs
    cases hx : j.recipient <;> rw [hx] at hrs <;> simp at hrs

end Verif
