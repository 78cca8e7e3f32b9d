import Verif.Props.Seal

/-!
# `encrypt` and `decrypt` with plugged in ciphers

C83 (what `encrypt` writes and when it fails), C84 (`decrypt` undoes `encrypt` for every pair of
ciphers), C85 (envelopes without recipient entries are opened by `receive` with the shared secret), C86
(sizes of what a sealed envelope contains).
-/

namespace Verif

open Spec

/-- The protected header that `encrypt` should write: sender in `skid`, the encrypted type unless the
message is a forward message, and, if there are no recipient entries, the first recipient in `kid`. -/
def Spec.rawHeader (m : Message) : JwmHeader :=
  { m.jwm with
    typ := if m.jwm.typ = .forward then .forward else .jwe
    skid := m.didcomm.from
    kid := if m.recipients = none then m.didcomm.to.head? else m.jwm.kid }

/-- The envelope that `encrypt` should write. -/
def Spec.rawEnvelope (m : Message) (iv c tag : Bytes) : Jwe :=
  { protected_ := some (rawHeader m)
    unprotected := none
    recipient := if m.flatJwe then m.recipients.bind List.head? else none
    recipients := if m.flatJwe then none else m.recipients
    ciphertext := b64Encode c
    iv := b64Encode iv
    tag := some (b64Encode tag) }

/-- What `encrypt` asks of the cipher. -/
def Spec.rawOutput (m : Message) (o : HOrd) (iv : Bytes) (e : SymMethod) (key : Bytes) : Res Bytes :=
  e iv key (utf8 (m.text (o.sub 1))) (utf8 (headerB64 (o.sub 0) (rawHeader m)))

theorem jweHeader_eq (m : Message) : m.jweHeader =
    if m.recipients = none ∧ m.didcomm.to = [] then .panic else .ok (rawHeader m) := by
  unfold Message.jweHeader rawHeader
  cases hr : m.recipients with
  | some l =>
    simp only [reduceCtorEq, false_and, if_false]
    by_cases ht : m.jwm.typ = .forward
    · simp only [ht, ne_eq, not_true, if_false, if_true]
    · simp only [ht, ne_eq, not_false_iff, if_true, if_false]
  | none =>
    cases hto : m.didcomm.to with
    | nil => simp [Res.unwrap]
    | cons d l =>
      simp only [List.head?_cons, Res.unwrap_some, Res.bind_ok, Res.pure_eq, reduceCtorEq, and_false, if_false, if_true]
      by_cases ht : m.jwm.typ = .forward
      · simp only [ht, ne_eq, not_true, if_false, if_true]
      · simp only [ht, ne_eq, not_false_iff, if_true, if_false]

/-- C83.  All outcomes of `encrypt`, for every cipher: it panics without recipient, if the cipher panics
and if its output has no room for a tag; it returns the cipher's error; the flat form needs exactly one
recipient entry; otherwise the text of the envelope is returned, with the last 16 bytes of the cipher's
output as tag. -/
theorem C83_encrypt_outcomes (m : Message) (o : HOrd) (iv : Iv) (e : SymMethod) (key : Bytes) :
    (m.recipients = none → m.didcomm.to = [] → m.encrypt o iv e key = .panic) ∧
    ((m.recipients = none → m.didcomm.to ≠ []) →
      (∀ x, rawOutput m o iv.1 e key = .err x → m.encrypt o iv e key = .err x) ∧
      (rawOutput m o iv.1 e key = .panic → m.encrypt o iv e key = .panic) ∧
      (∀ b, rawOutput m o iv.1 e key = .ok b → b.length < 16 → m.encrypt o iv e key = .panic) ∧
      (∀ c tag, rawOutput m o iv.1 e key = .ok (c ++ tag) → tag.length = 16 →
        (m.flatJwe = true → (m.recipients.getD []).length ≠ 1 →
          ∃ x, m.encrypt o iv e key = .err (.generic x)) ∧
        ((m.flatJwe = true → (m.recipients.getD []).length = 1) →
          m.encrypt o iv e key = .ok ((rawEnvelope m iv.1 c tag).text (o.sub 2))))) := by
  refine ⟨fun h1 h2 => ?_, fun h => ?_⟩
  · simp only [Message.encrypt, jweHeader_eq, h1, h2, and_self, if_true, Res.bind_panic]
  have hh : m.jweHeader = .ok (rawHeader m) := by
    rw [jweHeader_eq, if_neg (fun hx => h hx.1 hx.2)]
  have he : m.encrypt o iv e key = (rawOutput m o iv.1 e key >>= fun ct => splitTag ct >>= fun p =>
      m.jweOf iv (rawHeader m) p.1 p.2 >>= fun jwe => .ok (jwe.text (o.sub 2))) := by
    simp only [Message.encrypt, hh, Res.bind_ok, b64Decode_encode, Res.ofOpt_some, rawOutput, Res.pure_eq]
  rw [he]
  refine ⟨fun x hx => by rw [hx]; rfl, fun hx => by rw [hx]; rfl, fun b hb hl => ?_, fun c tag hc ht => ?_⟩
  · rw [hb, Res.bind_ok, splitTag, if_neg (by omega)]; rfl
  have hs : splitTag (c ++ tag) = .ok (c, tag) := by
    unfold splitTag
    rw [if_pos (by simp [ht]), List.length_append, ht, Nat.add_sub_cancel]
    simp
  rw [hc, Res.bind_ok, hs, Res.bind_ok]
  refine ⟨fun hf hl => ?_, fun hf => ?_⟩
  · simp only [Message.jweOf, hf, if_true]
    cases hr : m.recipients with
    | none => exact ⟨_, rfl⟩
    | some l =>
      rw [hr] at hl
      match l, hl with
      | [], _ => exact ⟨_, rfl⟩
      | [x], hl => exact absurd rfl hl
      | x :: y :: l, _ => exact ⟨_, rfl⟩
  · by_cases hfl : m.flatJwe = true
    · have hl := hf hfl
      simp only [Message.jweOf, hfl, if_true]
      cases hr : m.recipients with
      | none => rw [hr] at hl; cases hl
      | some l =>
        rw [hr] at hl
        obtain ⟨x, rfl⟩ := List.length_eq_one_iff.1 hl
        simp [rawEnvelope, Jwe.newFlat, hfl, hr]
    · simp [Message.jweOf, rawEnvelope, Jwe.new, hfl]

theorem rawHeader_wf {m : Message} (h : m.jwm.WF) : (rawHeader m).WF := h

theorem rawHeader_fixed {m : Message} (h : HeaderFixed m.jwm) : HeaderFixed (rawHeader m) := h

theorem rawEnvelope_wf {m : Message} {iv c tag : Bytes} (h : m.jwm.WF) (hr : RecipientsWF m.recipients) :
    (rawEnvelope m iv c tag).WF where
  prot := by
    intro x hx
    rw [← Option.some.inj hx]
    exact rawHeader_wf h
  unprot := by intro x hx; cases hx
  recipient := by
    intro x hx
    simp only [rawEnvelope] at hx
    split at hx
    · obtain ⟨l, h1, h2⟩ := Option.bind_eq_some_iff.1 hx
      exact hr l h1 x (List.mem_of_mem_head? h2)
    · cases hx
  recipients := by
    intro l hx
    simp only [rawEnvelope] at hx
    split at hx
    · cases hx
    · exact hr l hx

/-- What a successful `encrypt` did. -/
theorem encrypt_ok {m : Message} {o : HOrd} {iv : Iv} {e : SymMethod} {key : Bytes} {t : Str}
    (h : m.encrypt o iv e key = .ok t) : ∃ c tag, rawOutput m o iv.1 e key = .ok (c ++ tag) ∧ tag.length = 16 ∧
      (m.recipients = none → m.didcomm.to ≠ []) ∧ (m.flatJwe = true → (m.recipients.getD []).length = 1) ∧
      t = (rawEnvelope m iv.1 c tag).text (o.sub 2) := by
  obtain ⟨h1, h2⟩ := C83_encrypt_outcomes m o iv e key
  have hto : m.recipients = none → m.didcomm.to ≠ [] := by
    intro hr hn; rw [h1 hr hn] at h; cases h
  obtain ⟨h3, h4, h5, h6⟩ := h2 hto
  cases hout : rawOutput m o iv.1 e key with
  | err x => rw [h3 x hout] at h; cases h
  | panic => rw [h4 hout] at h; cases h
  | ok b =>
    by_cases hb : b.length < 16
    · rw [h5 b hout hb] at h; cases h
    · have hsplit : b.take (b.length - 16) ++ b.drop (b.length - 16) = b := List.take_append_drop _ _
      have hl : (b.drop (b.length - 16)).length = 16 := by rw [List.length_drop]; omega
      obtain ⟨h7, h8⟩ := h6 (b.take (b.length - 16)) (b.drop (b.length - 16)) (by rw [hsplit]; exact hout) hl
      by_cases hf : m.flatJwe = true → (m.recipients.getD []).length = 1
      · exact ⟨_, _, by rw [hsplit], hl, hto, hf, (Res.ok.inj ((h8 hf).symm.trans h)).symm⟩
      · have hfl : m.flatJwe = true := Classical.byContradiction fun hx => hf fun hy => absurd hy hx
        obtain ⟨x, hx⟩ := h7 hfl (fun hy => hf fun _ => hy)
        rw [hx] at h; cases h

/-- C83.  Reading back what `encrypt` wrote: the protected header, nothing unprotected, the cipher's output
and the nonce it was given. -/
theorem C83_encrypt_document (F : Str → Option Str) (m : Message) (o : HOrd) (iv : Iv) (e : SymMethod)
    (key : Bytes) (t : Str) (hw : m.jwm.WF) (hr : RecipientsWF m.recipients)
    (h : m.encrypt o iv e key = .ok t) :
    ∃ j c tag, Jwe.ofText F t = some j ∧ j.protected_ = some (rawHeader m) ∧ j.unprotected = none ∧
      rawOutput m o iv.1 e key = .ok (c ++ tag) ∧ tag.length = 16 ∧
      b64Decode j.ciphertext = some c ∧ j.tag.bind b64Decode = some tag ∧ b64Decode j.iv = some iv.1 ∧
      (m.flatJwe = false → j.recipients = m.recipients ∧ j.recipient = none) ∧
      (m.flatJwe = true → j.recipients = none ∧ ∃ r, m.recipients = some [r] ∧ j.recipient = some r) := by
  obtain ⟨c, tag, h1, h2, h3, h4, rfl⟩ := encrypt_ok h
  refine ⟨_, c, tag, jwe_ofText_text (F := F) _ (rawEnvelope_wf hw hr), rfl, rfl, h1, h2, b64Decode_encode _,
    b64Decode_encode _, b64Decode_encode _, ?_, ?_⟩
  · intro hf; simp [rawEnvelope, hf]
  · intro hf
    have hl := h4 hf
    cases hr : m.recipients with
    | none => rw [hr] at hl; cases hl
    | some l =>
      rw [hr] at hl
      obtain ⟨x, rfl⟩ := List.length_eq_one_iff.1 hl
      simp [rawEnvelope, hf, hr]

theorem decrypt_raw {P : Prims} {m : Message} {iv : Iv} {c tag key : Bytes} {o o3 : HOrd} {d : SymMethod}
    (hw : m.jwm.WF) (hr : RecipientsWF m.recipients) :
    Message.decrypt P o (utf8 ((rawEnvelope m iv.1 c tag).text o3)) d key =
      (Message.plugErr (d iv.1 key (c ++ tag) (utf8 (headerB64 o (rawHeader m)))) >>= fun raw =>
        Res.ofOpt .serde (Message.ofBytes P.f64 raw)) := by
  have h1 := decJwe_enc (F := P.f64) o3 (rawEnvelope_wf (m := m) (iv := iv.1) (c := c) (tag := tag) hw hr)
  unfold Message.decrypt
  rw [parseBytes_utf8, parse_jwe, Option.bind_some, h1]
  simp only [Res.ofOpt_some, Res.bind_ok, rawEnvelope, Jwe.getPayload, Jwe.getIv,
    b64Decode_encode, Res.unwrap_some]

/-- C84.  For every cipher and every decipher that undoes it under the key, `decrypt` returns the message
given to `encrypt`, whatever the map orders; the flags for flat forms are not part of the text. -/
theorem C84_decrypt_encrypt (P : Prims) (m : Message) (o o' : HOrd) (iv : Iv) (e d : SymMethod) (key : Bytes)
    (t : Str) (hm : m.WF P.f64) (hf : HeaderFixed m.jwm)
    (hpair : ∀ n p a c, e n key p a = .ok c → d n key c a = .ok p)
    (h : m.encrypt o iv e key = .ok t) :
    Message.decrypt P o' (utf8 t) d key = .ok { m with flatJwe := false, flatJws := false } := by
  obtain ⟨c, tag, h1, h2, h3, h4, rfl⟩ := encrypt_ok h
  rw [decrypt_raw hm.jwm hm.recipients, headerB64_fixed (rawHeader_fixed hf) o' (o.sub 0), hpair _ _ _ _ h1]
  simp only [Message.plugErr, Res.bind_ok, ofBytes_utf8, ofText_text _ hm, Res.ofOpt_some]

/-- C84.  When the decipher refuses, under whatever key and for whatever reason, the error is the same. -/
theorem C84_refusal_uniform (P : Prims) (m : Message) (o o' : HOrd) (iv : Iv) (e d : SymMethod)
    (key key' : Bytes) (t : Str) (hw : m.jwm.WF) (hr : RecipientsWF m.recipients)
    (hd : ∀ n c a, ∃ x, d n key' c a = .err x) (h : m.encrypt o iv e key = .ok t) :
    Message.decrypt P o' (utf8 t) d key' = .err .plugCryptoFailure := by
  obtain ⟨c, tag, h1, h2, h3, h4, rfl⟩ := encrypt_ok h
  rw [decrypt_raw hw hr]
  obtain ⟨x, hx⟩ := hd iv.1 (c ++ tag) (utf8 (headerB64 o' (rawHeader m)))
  rw [hx]
  rfl

/-- C85.  A message encrypted without recipient entries under the secret shared by sender and recipient
is opened by `receive` with the recipient's private key. -/
theorem C85_shared_secret (P : Prims) (hP : Laws P) (m : Message) (o o' : HOrd) (iv : Iv)
    (ssk rsk : Bytes) (a : CryptoAlg) (alg frm t : Str) (ek vk : Option Bytes)
    (hm : m.WF P.f64) (hc : Avoids m.didcomm.other classKeys) (hf : HeaderFixed m.jwm)
    (hj : m.jwm.typ ≠ .jws) (hrec : m.recipients = none) (hal : m.jwm.alg = some alg)
    (ha : CryptoAlg.ofStr alg = .ok a) (hfrom : m.didcomm.from = some frm)
    (hs : ssk.length = 32) (hrk : rsk.length = 32) (hks : KeyFor P frm ek (P.x25519Pub ssk))
    (h : m.encrypt o iv (a.encryptor P) (P.x25519 ssk (P.x25519Pub rsk)) = .ok t) :
    Message.receive P o' t (some rsk) ek vk = .ok { m with flatJwe := false, flatJws := false } := by
  have hdec := C84_decrypt_encrypt P m o ((o'.sub 0).sub 0) iv _ (a.decrypter P) _ t hm hf
    (fun n p ad c hx => C55_decrypt_encrypt P hP a (ofStr_ne_cbc ha) _ _ _ _ _ hx) h
  obtain ⟨c, tag, h1, h2, h3, h4, rfl⟩ := encrypt_ok h
  have hwf : Message.WF P.f64 { m with flatJwe := false, flatJws := false } :=
    ⟨hm.jwm, hm.other, hm.to, hm.recipients, hm.canon, hm.nums, hm.depth⟩
  have hof := jwe_ofText_text (F := P.f64) (o.sub 2)
    (rawEnvelope_wf (m := m) (iv := iv.1) (c := c) (tag := tag) hm.jwm hm.recipients)
  have hga : (rawEnvelope m iv.1 c tag).getAlg = some alg := by
    simp [Jwe.getAlg, Jwe.getter, fallback, rawEnvelope, rawHeader, hal]
  have hgs : (rawEnvelope m iv.1 c tag).getSkid = some frm := by
    simp [Jwe.getSkid, Jwe.getter, fallback, rawEnvelope, rawHeader, hfrom]
  have hro : Message.recipientsOf (rawEnvelope m iv.1 c tag) = none := by
    simp [Message.recipientsOf, rawEnvelope, hrec]
  have hcomm : P.x25519 rsk (P.x25519Pub ssk) = P.x25519 ssk (P.x25519Pub rsk) := hP.dh hrk hs
  have hrj : Message.receiveJwe P (o'.sub 0) ((rawEnvelope m iv.1 c tag).text (o.sub 2)) rsk ek =
      .ok ({ m with flatJwe := false, flatJws := false }.text ((o'.sub 0).sub 1)) := by
    simp only [Message.receiveJwe, hof, Res.ofOpt_some, Res.bind_ok, hga, senderKey_ok hgs hks,
      arrayRef32_of hrk, arrayRef32_of (hP.pub_len ssk), ha, Message.contentKey, hro, hcomm, hdec, Res.pure_eq]
  simp only [Message.receive, Message.decryptStep, messageType_jwe, Res.bind_ok, if_true,
    Res.ofOpt_some, hrj, Message.verifyStep, messageType_text P ((o'.sub 0).sub 1) hwf hc, hj,
    if_false, ofText_text ((o'.sub 0).sub 1) hwf]

/-! ## C86 -/

theorem encryptor_len {P : Prims} (hP : Laws P) {a : CryptoAlg} (ha : a ≠ .a256cbc) {nonce key msg aad ct : Bytes}
    (h : a.encryptor P nonce key msg aad = .ok ct) : ct.length = msg.length + 16 := by
  cases a with
  | xc20p =>
    simp only [CryptoAlg.encryptor, Res.bind_eq_ok, Res.ofOpt_eq_ok] at h
    obtain ⟨u, h0, n, h1, k, h2, h3⟩ := h
    exact hP.xc_len h3
  | a256gcm =>
    simp only [CryptoAlg.encryptor, Res.bind_eq_ok, Res.ofOpt_eq_ok] at h
    obtain ⟨u, h0, k, h2, h3⟩ := h
    exact hP.gcm_len h3
  | a256cbc => exact absurd rfl ha

/-- Sizes of the parts of a recipient entry. -/
def Spec.EntrySizes (n : Nat) (rc : Recipient) : Prop :=
  (∃ k, b64Decode rc.encryptedKey = some k ∧ k.length = 32) ∧
  (∃ iv, (rc.header.other.get c!"iv").bind b64Decode = some iv ∧ iv.length = n) ∧
  (∃ tag, (rc.header.other.get c!"tag").bind b64Decode = some tag ∧ tag.length = 16) ∧
  ∃ e x, rc.header.epk = some e ∧ b64Decode e.x = some x ∧ x.length = 32

/-- C86.  Sizes in a sealed envelope: the ciphertext is as long as the text of the message (with its
recipient entries), so there is no padding and the length of the message shows; nonce, tag, wrapped keys
and ephemeral keys have fixed sizes. -/
theorem C86_sizes (P : Prims) (hP : Laws P) (r : Message.SealRand) (m : Message) (ssk : Bytes)
    (keys : Option (List (Option Bytes))) (t : Str) (hw : m.jwm.WF) (hseal : m.sealJwe P r ssk keys = .ok t) :
    ∃ j rs c tag iv, Jwe.ofText P.f64 t = some j ∧ Message.recipientsOf j = some rs ∧
      b64Decode j.ciphertext = some c ∧ j.tag.bind b64Decode = some tag ∧ b64Decode j.iv = some iv ∧
      c.length = (utf8 ({ m with recipients := some rs }.text (r.ord.sub 1))).length ∧
      tag.length = 16 ∧ iv.length = 24 ∧ rs.length = m.didcomm.to.length ∧
      (m.jwm.alg = some c!"ECDH-1PU+XC20PKW" → ∀ rc ∈ rs, EntrySizes 24 rc) ∧
      (m.jwm.alg = some c!"ECDH-1PU+A256KW" → ∀ rc ∈ rs, EntrySizes 12 rc) := by
  obtain ⟨pks, rs, a, c, tag, alg, hp, hpl, hk, hto, hflat, hrs, hl, hal, ha, he, htag, rfl⟩ := seal_ok hseal
  have hlen := encryptor_len hP (ofStr_ne_cbc ha) he
  have hent : ∀ rc ∈ rs, (alg = c!"ECDH-1PU+XC20PKW" → EntrySizes 24 rc) ∧
      (alg = c!"ECDH-1PU+A256KW" → EntrySizes 12 rc) := by
    intro rc hrc
    obtain ⟨n, hn, rfl⟩ := List.getElem_of_mem hrc
    obtain ⟨d, k, -, h2⟩ := (sealRecipients_ok hrs).2 n _ (List.getElem?_eq_getElem hn)
    obtain ⟨alg', ze, kek, ka, iv, c', tag', h3, -, -, h4, h5, h6, -, -, h7, h8, -⟩ := encryptCek_ok h2
    obtain rfl : alg = alg' := Option.some.inj (hal.symm.trans h3)
    have hcl := (unwrap_wrap hP h4).2
    rw [List.length_append, h5] at hcl
    have hcl' : c'.length = 32 := by rw [cek_length] at hcl; omega
    have key : ∀ i, iv.length = i → EntrySizes i rs[n] := by
      intro i hi
      refine ⟨⟨c', by rw [h6, b64Decode_encode], hcl'⟩, ⟨iv, ?_, hi⟩, ⟨tag', ?_, h5⟩, _, _, h7,
        b64Decode_encode _, hP.pub_len _⟩
      · rw [h8, HMap.get_insert, if_neg (by decide), HMap.get_insert, if_pos rfl, Option.bind_some, b64Decode_encode]
      · rw [h8, HMap.get_insert, if_pos rfl, Option.bind_some, b64Decode_encode]
    rcases wrapCek_iv h4 with ⟨e, hi, -⟩ | ⟨e, hi, -⟩
    · refine ⟨fun _ => key _ hi, fun e' => ?_⟩
      rw [e] at e'; exact absurd e' (by decide)
    · refine ⟨fun e' => ?_, fun _ => key _ hi⟩
      rw [e] at e'; exact absurd e' (by decide)
  refine ⟨_, rs, c, tag, r.iv.1, jwe_ofText_text (F := P.f64) _ (envelope_wf hw (sealRecipients_wf hrs)),
    envelope_recipients hflat, b64Decode_encode _, b64Decode_encode _, b64Decode_encode _, ?_, htag, r.iv.2, hl,
    ?_, ?_⟩
  · rw [List.length_append, htag] at hlen; omega
  · intro h rc hrc; exact (hent rc hrc).1 (Option.some.inj (hal.symm.trans h))
  · intro h rc hrc; exact (hent rc hrc).2 (Option.some.inj (hal.symm.trans h))

/-! ## The hypotheses can be met -/

/-- C83, C84, C85: a message without recipient entries, encrypted under the shared secret. -/
example : ∃ t, exampleMessage.recipients = none ∧
    exampleMessage.encrypt HOrd.id exampleRand.iv (CryptoAlg.xc20p.encryptor (toy fun _ => none))
      ((toy fun _ => none).x25519 (exampleKey 3) ((toy fun _ => none).x25519Pub (exampleKey 1))) = .ok t ∧
    Message.receive (toy fun _ => none) HOrd.rev t (some (exampleKey 1))
      (some ((toy fun _ => none).x25519Pub (exampleKey 3))) none = .ok exampleMessage ∧
    Message.decrypt (toy fun _ => none) HOrd.rev (utf8 t) (CryptoAlg.xc20p.decrypter (toy fun _ => none))
      ((toy fun _ => none).x25519 (exampleKey 3) ((toy fun _ => none).x25519Pub (exampleKey 1))) =
        .ok exampleMessage := by
  have hl := toy_laws fun _ => none
  let key := (toy fun _ => none).x25519 (exampleKey 3) ((toy fun _ => none).x25519Pub (exampleKey 1))
  have hkey : key.length = 32 := hl.dh_len _ _
  have hfix : HeaderFixed exampleMessage.jwm := ⟨(by intro k h; cases h), (by intro k h; cases h)⟩
  have hout : rawOutput exampleMessage HOrd.id exampleRand.iv.1 (CryptoAlg.xc20p.encryptor (toy fun _ => none)) key =
      .ok (utf8 (exampleMessage.text (HOrd.id.sub 1)) ++ toyTag key exampleRand.iv.1
        (utf8 (headerB64 (HOrd.id.sub 0) (rawHeader exampleMessage))) (utf8 (exampleMessage.text (HOrd.id.sub 1)))) := by
    simp [rawOutput, CryptoAlg.encryptor, checkNonce, fromSlice, exampleRand.iv.2, hkey, toy, toyEnc]
  have henc := ((((C83_encrypt_outcomes exampleMessage HOrd.id exampleRand.iv
    (CryptoAlg.xc20p.encryptor (toy fun _ => none)) key).2 (by intro _; decide)).2.2.2 _ _ hout
      (toyTag_length _ _ _ _)).2 (by intro h; cases h))
  exact ⟨_, rfl, henc,
    C85_shared_secret _ hl exampleMessage HOrd.id HOrd.rev exampleRand.iv (exampleKey 3) (exampleKey 1) .xc20p
      c!"ECDH-1PU+XC20PKW" c!"did:e:f" _ _ none (exampleMessage_wf _) (by decide) hfix (by decide) rfl rfl
      (by decide) rfl (by decide) (by decide) (.inl rfl) henc,
    C84_decrypt_encrypt _ exampleMessage HOrd.id HOrd.rev exampleRand.iv _ _ _ _ (exampleMessage_wf _) hfix
      (fun n p a c h => C55_decrypt_encrypt _ hl .xc20p (by decide) n _ p a c h) henc⟩

/-- C83: the failures; a cipher whose output is too short, one that fails, a flat form without entry. -/
example : (∃ x, Message.encrypt HOrd.id exampleRand.iv (exampleMessage) (fun _ _ _ _ => .err x) [] = .err x) ∧
    Message.encrypt HOrd.id exampleRand.iv exampleMessage (fun _ _ _ _ => .ok [1, 2, 3]) [] = .panic ∧
    (∃ x, Message.encrypt HOrd.id exampleRand.iv { exampleMessage with flatJwe := true }
      (fun _ _ _ _ => .ok ([] ++ List.replicate 16 0)) [] = .err (.generic x)) := by
  have h := fun m e => C83_encrypt_outcomes m HOrd.id exampleRand.iv e []
  refine ⟨⟨.base64, ((h _ _).2 (by intro _; decide)).1 _ rfl⟩,
    ((h _ _).2 (by intro _; decide)).2.2.1 _ rfl (by decide),
    ((((h _ _).2 (by intro _; decide)).2.2.2 _ _ rfl (by simp))).1 rfl (by decide)⟩

/-- C84: a decipher that refuses. -/
example : ∃ t, exampleMessage.encrypt HOrd.id exampleRand.iv (fun _ _ p _ => .ok (p ++ List.replicate 16 0)) [] = .ok t ∧
    Message.decrypt (toy fun _ => none) HOrd.rev (utf8 t) (fun _ _ _ _ => .err .base64) [1] =
      .err .plugCryptoFailure := by
  have henc := ((((C83_encrypt_outcomes exampleMessage HOrd.id exampleRand.iv
    (fun _ _ p _ => .ok (p ++ List.replicate 16 0)) []).2 (by intro _; decide)).2.2.2 _ _ rfl (by simp)).2
      (by intro h; cases h))
  exact ⟨_, henc, C84_refusal_uniform _ exampleMessage _ _ _ _ _ _ _ _ (exampleMessage_wf fun t => some t).jwm
    (exampleMessage_wf fun t => some t).recipients (fun _ _ _ => ⟨_, rfl⟩) henc⟩

/-- C86: a sealed envelope. -/
example : ∃ t, exampleMessage.sealJwe (toy fun _ => none) exampleRand (exampleKey 3)
      (some [some ((toy fun _ => none).x25519Pub (exampleKey 1)),
        some ((toy fun _ => none).x25519Pub (exampleKey 2))]) = .ok t ∧
    exampleMessage.jwm.WF ∧ exampleMessage.jwm.alg = some c!"ECDH-1PU+XC20PKW" := by
  have hl := toy_laws fun _ => none
  obtain ⟨t, ht⟩ := C16_seal_total (toy fun _ => none) hl (toy_total _) exampleRand exampleMessage
    (exampleKey 3) (some [some ((toy fun _ => none).x25519Pub (exampleKey 1)),
        some ((toy fun _ => none).x25519Pub (exampleKey 2))]) c!"ECDH-1PU+XC20PKW" (by decide) (by decide)
    (by intro l hl; rw [← Option.some.inj hl]; rfl) (by intro h; cases h) rfl (by decide) (by
      intro i dest hi
      match i with
      | 0 => exact ⟨_, hl.pub_len _, .inl rfl⟩
      | 1 => exact ⟨_, hl.pub_len _, .inl rfl⟩
      | n + 2 => cases hi)
  exact ⟨t, ht, (exampleMessage_wf fun t => some t).jwm, rfl⟩

end Verif
