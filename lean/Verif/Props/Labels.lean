import Verif.Props.Accept
import Verif.Props.Keys
import Verif.Spec.Labels
import Mathlib.Data.List.Forall2

/-!
# What is written in an envelope and not looked at

C115 (names of recipients, rest of the initialisation vector).
-/

namespace Verif

open Spec

theorem decryptCek_sameLock {P : Prims} {j j' : Jwe} {r r' : Recipient} {sk : Bytes} {ek : Option Bytes}
    (ha : j'.getAlg = j.getAlg) (hs : j'.getSkid = j.getSkid) (h : SameLock r r') :
    decryptCek P j' sk r' ek = decryptCek P j sk r ek := by
  obtain ⟨hk, he, hi, ht⟩ := h
  unfold decryptCek
  rw [ha, hs, hk]
  cases h1 : r.header.epk <;> cases h2 : r'.header.epk <;> rw [h1, h2] at he <;>
    simp only [Option.map_none, Option.map_some, reduceCtorEq, Option.some.injEq] at he
  · rfl
  · cases h3 : r.header.other.get c!"iv" <;> cases h4 : r'.header.other.get c!"iv" <;> rw [h3, h4] at hi <;>
      simp only [Option.map_none, Option.map_some, reduceCtorEq, Option.some.injEq] at hi <;>
    cases h5 : r.header.other.get c!"tag" <;> cases h6 : r'.header.other.get c!"tag" <;> rw [h5, h6] at ht <;>
      simp only [Option.map_none, Option.map_some, reduceCtorEq, Option.some.injEq] at ht <;>
    simp only [Res.ofOpt_some, Res.bind_ok, he, hi, ht]

theorem firstKey_sameLock {P : Prims} {j j' : Jwe} {l l' : List Recipient} {sk : Bytes} {ek : Option Bytes}
    (ha : j'.getAlg = j.getAlg) (hs : j'.getSkid = j.getSkid) (h : List.Forall₂ SameLock l l') :
    Message.firstKey P j' sk ek l' = Message.firstKey P j sk ek l := by
  induction h with
  | nil => rfl
  | cons h1 _ ih => simp only [Message.firstKey, ih, decryptCek_sameLock ha hs h1]

/-- C115, what holds: `receive` looks at nothing in an envelope but the protected header, the algorithm and
sender name found by the getters, the locks of the entries in their order, and ciphertext, tag and nonce as
bytes.  Two envelopes that agree on these give the same result, whatever the keys. -/
theorem C115_looked_at_partial (P : Prims) (o : HOrd) (s s' : Str) (j j' : Jwe)
    (sk ek vk : Option Bytes)
    (h1 : Message.messageType P s = .ok .jwe) (h2 : Message.messageType P s' = .ok .jwe)
    (hj : Jwe.ofText P.f64 s = some j) (hj' : Jwe.ofText P.f64 s' = some j')
    (hp : j'.protected_ = j.protected_) (ha : j'.getAlg = j.getAlg) (hs : j'.getSkid = j.getSkid)
    (hl : Option.Rel (List.Forall₂ SameLock) j.recipients j'.recipients)
    (hr : Option.Rel SameLock j.recipient j'.recipient) (hc : b64Decode j'.ciphertext = b64Decode j.ciphertext)
    (ht : j'.tag.map b64Decode = j.tag.map b64Decode)
    (hn : SameNonce j.getAlg j.iv j'.iv) :
    Message.receive P o s' sk ek vk = Message.receive P o s sk ek vk := by
  have hb : ∀ s, (parseBytes (utf8 s)).bind (decJwe P.f64) = Jwe.ofText P.f64 s := by
    intro s
    rw [parseBytes_utf8]
    unfold Jwe.ofText
    cases parseJson s <;> rfl
  have hk : Message.senderKey P j' ek = Message.senderKey P j ek := by
    cases ek with
    | some k => rfl
    | none => simp only [Message.senderKey, hs]
  have hck : ∀ k p, Message.contentKey P j' k ek p = Message.contentKey P j k ek p := by
    intro k p
    unfold Message.contentKey Message.recipientsOf
    generalize j.recipients = l, j'.recipients = l' at hl
    generalize j.recipient = x, j'.recipient = x' at hr
    cases hl with
    | some hl => exact firstKey_sameLock ha hs hl
    | none =>
      cases hr with
      | some hr => exact firstKey_sameLock ha hs (.cons hr .nil)
      | none => rfl
  have hpay : j'.getPayload = j.getPayload := by simp only [Jwe.getPayload, hc]
  have hdd : ∀ o a alg key, j.getAlg = some alg → CryptoAlg.ofStr alg = .ok a →
      Message.decrypt P o (utf8 s') (a.decrypter P) key =
      Message.decrypt P o (utf8 s) (a.decrypter P) key := by
    intro o a alg key h3 h4
    simp only [Message.decrypt, hb, hj, hj', Res.ofOpt_some, Res.bind_ok, hp, hpay]
    congr 1; funext hdr
    cases h5 : j.tag <;> cases h6 : j'.tag <;> rw [h5, h6] at ht <;>
      simp only [Option.map_none, Option.map_some, reduceCtorEq, Option.some.injEq] at ht
    · rfl
    · simp only [Res.ofOpt_some, Res.bind_ok, ht]
      congr 1; funext c
      congr 1; funext t
      rcases hn with hn | ⟨hg, x, y, h7, h8, h9, h10, h11⟩
      · simp only [Jwe.getIv, hn]
      · rw [h3] at hg
        rw [Option.some.inj hg] at h4
        obtain rfl : CryptoAlg.a256gcm = a := Res.ok.inj h4
        simp only [Jwe.getIv, h7, h8, Res.unwrap, Res.bind_ok,
          (C55_gcm_nonce P y x key (c ++ t) (utf8 (headerB64 o hdr)) h10 h9 h11).2]
  have hrj : ∀ o k, Message.receiveJwe P o s' k ek = Message.receiveJwe P o s k ek := by
    intro o k
    simp only [Message.receiveJwe, hj, hj', Res.ofOpt_some, Res.bind_ok, ha, hk, hck]
    cases h3 : j.getAlg with
    | none => rfl
    | some alg =>
      simp only [Res.ofOpt_some, Res.bind_ok]
      congr 1; funext pk
      congr 1; funext x
      congr 1; funext y
      cases h4 : CryptoAlg.ofStr alg with
      | ok a => simp only [Res.bind_ok, hdd _ a alg _ h3 h4]
      | err e => rfl
      | panic => rfl
  simp only [Message.receive, Message.decryptStep, h1, h2, Res.bind_ok, if_true, hrj]

theorem relabel_sameLock {g : Jwk → Jwk} (hg : Relabels g) (r : Recipient) : SameLock r (relabel g r) :=
  ⟨rfl, by simp only [relabel, (hg _).1], by simp only [relabel, (hg _).2],
    by simp only [relabel, (hg _).2]⟩

theorem forall₂_relabel {g : Jwk → Jwk} (hg : Relabels g) :
    ∀ l : List Recipient, List.Forall₂ SameLock l (l.map (relabel g))
  | [] => .nil
  | r :: l => .cons (relabel_sameLock hg r) (forall₂_relabel hg l)

theorem relabelAll_wf {g : Jwk → Jwk} (hg : Relabels g) {j : Jwe} (h : j.WF) : (relabelAll g j).WF := by
  have hw : ∀ k : Jwk, k.WF → (g k).WF := by
    intro k hk
    unfold Jwk.WF
    rw [(hg k).2]
    exact hk
  refine ⟨h.prot, h.unprot, ?_, ?_⟩
  · intro r hr
    simp only [relabelAll, Option.map_eq_some_iff] at hr
    obtain ⟨x, hx, rfl⟩ := hr
    exact hw _ (h.recipient x hx)
  · intro l hl r hr
    simp only [relabelAll, Option.map_eq_some_iff] at hl
    obtain ⟨x, hx, rfl⟩ := hl
    obtain ⟨y, hy, rfl⟩ := List.mem_map.1 hr
    exact hw _ (h.recipients x hx y hy)

/-- C115, as written, is false of the entries: rewrite the names, algorithms, key types and uses in the
entries of a sealed envelope in whatever way, and the envelope is received alike with all keys. -/
theorem C115_names_violated (P : Prims) (r : Message.SealRand) (m : Message) (ssk : Bytes)
    (keys : Option (List (Option Bytes))) (t : Str) (g : Jwk → Jwk) (hw : m.jwm.WF) (hg : Relabels g)
    (hseal : m.sealJwe P r ssk keys = .ok t) :
    ∃ j t', Jwe.ofText P.f64 t = some j ∧ Jwe.ofText P.f64 t' = some (relabelAll g j) ∧
      ∀ o sk ek vk, Message.receive P o t' sk ek vk = Message.receive P o t sk ek vk := by
  obtain ⟨pks, rs, a, c, tag, alg, hp, hpl, hk, hto, hfl, hrs, hl, hal, ha, he, -, rfl⟩ := seal_ok hseal
  have hwe := envelope_wf (m := m) (rs := rs) (iv := r.iv.1) (c := c) (tag := tag) hw (sealRecipients_wf hrs)
  generalize Spec.envelope m rs r.iv.1 c tag = j at *
  have hj := jwe_ofText_text (F := P.f64) (r.ord.sub 2) hwe
  have hj' := jwe_ofText_text (F := P.f64) HOrd.id (relabelAll_wf hg hwe)
  refine ⟨j, _, hj, hj', fun o sk ek vk => ?_⟩
  refine C115_looked_at_partial P o _ _ j (relabelAll g j) sk ek vk (messageType_jwe _ _)
    (messageType_jwe _ _) hj hj' rfl rfl rfl ?_ ?_ rfl rfl (.inl rfl)
  · unfold relabelAll
    cases j.recipients with
    | none => exact .none
    | some l => exact .some (forall₂_relabel hg l)
  · unfold relabelAll
    cases j.recipient with
    | none => exact .none
    | some x => exact .some (relabel_sameLock hg x)

/-- C115, as written, is false of the initialisation vector: of an envelope sealed with A256GCM everything
after the first twelve bytes of it can be replaced, and the envelope is received alike with all keys. -/
theorem C115_iv_violated (P : Prims) (r : Message.SealRand) (m : Message) (ssk : Bytes)
    (keys : Option (List (Option Bytes))) (t : Str) (w : Bytes) (hw : m.jwm.WF)
    (halg : m.jwm.alg = some c!"ECDH-1PU+A256KW") (hseal : m.sealJwe P r ssk keys = .ok t) :
    ∃ j t' iv, Jwe.ofText P.f64 t = some j ∧ b64Decode j.iv = some iv ∧ iv.length = 24 ∧
      Jwe.ofText P.f64 t' = some { j with iv := b64Encode (iv.take 12 ++ w) } ∧
      ∀ o sk ek vk, Message.receive P o t' sk ek vk = Message.receive P o t sk ek vk := by
  obtain ⟨pks, rs, a, c, tag, alg, hp, hpl, hk, hto, hfl, hrs, hl, hal, ha, he, -, rfl⟩ := seal_ok hseal
  have hwe := envelope_wf (m := m) (rs := rs) (iv := r.iv.1) (c := c) (tag := tag) hw (sealRecipients_wf hrs)
  have hga := envelope_alg (rs := rs) (iv := r.iv.1) (c := c) (tag := tag) halg
  have hiv : b64Decode (Spec.envelope m rs r.iv.1 c tag).iv = some r.iv.1 := b64Decode_encode _
  generalize Spec.envelope m rs r.iv.1 c tag = j at *
  have hwj : ({ j with iv := b64Encode (r.iv.1.take 12 ++ w) } : Jwe).WF :=
    ⟨hwe.prot, hwe.unprot, hwe.recipient, hwe.recipients⟩
  have hj := jwe_ofText_text (F := P.f64) (r.ord.sub 2) hwe
  have hj' := jwe_ofText_text (F := P.f64) HOrd.id hwj
  have h24 : r.iv.1.length = 24 := r.iv.2
  refine ⟨j, _, r.iv.1, hj, hiv, h24, hj', fun o sk ek vk => ?_⟩
  refine C115_looked_at_partial P o _ _ j _ sk ek vk
    (messageType_jwe _ _) (messageType_jwe _ _) hj hj' rfl rfl rfl ?_ ?_ rfl rfl
    (.inr ⟨hga, r.iv.1, _, hiv, b64Decode_encode _, by omega, ?_, ?_⟩)
  · cases j.recipients with
    | none => exact .none
    | some l => exact .some (List.forall₂_same.2 fun x _ => ⟨rfl, rfl, rfl, rfl⟩)
  · cases j.recipient with
    | none => exact .none
    | some x => exact .some ⟨rfl, rfl, rfl, rfl⟩
  · simp only [List.length_append, List.length_take]; omega
  · rw [List.take_append_of_le_length (by rw [List.length_take]; omega), List.take_take]; rfl

/-- The message of the example, for A256GCM. -/
def gcmMessage : Message := { richMessage with jwm := richMessage.jwm.asEncrypted .a256gcm }

/-- Give an entry another name. -/
def nobody (k : Jwk) : Jwk := { k with kid := some c!"nobody" }

theorem nobody_relabels : Relabels nobody := fun _ => ⟨rfl, rfl⟩

/-- C115: a sealed envelope of each algorithm, and a rewriting that gives every entry another name. -/
example : Relabels nobody ∧ exampleMessage.jwm.WF ∧ gcmMessage.jwm.WF ∧
    gcmMessage.jwm.alg = some c!"ECDH-1PU+A256KW" ∧
    (∃ t, exampleMessage.sealJwe (toy fun _ => none) exampleRand (exampleKey 3) exampleKeys = .ok t) ∧
    ∃ t, gcmMessage.sealJwe (toy fun _ => none) exampleRand (exampleKey 3) exampleKeys = .ok t := by
  have hl := toy_laws fun _ => none
  refine ⟨nobody_relabels, (exampleMessage_wf fun _ => none).jwm, ⟨(by intro k h; cases h), (by intro k h; cases h)⟩, rfl,
    exampleSealed, ?_⟩
  exact C16_seal_total (toy fun _ => none) hl (toy_total _) exampleRand gcmMessage
    (exampleKey 3) exampleKeys c!"ECDH-1PU+A256KW" (by decide) (by decide)
    (by intro l hl; rw [← Option.some.inj hl]; rfl) (by intro h; cases h) rfl (by decide) (by
      intro i dest hi
      match i with
      | 0 => exact ⟨_, hl.pub_len _, .inl rfl⟩
      | 1 => exact ⟨_, hl.pub_len _, .inl rfl⟩
      | n + 2 => cases hi)

/-- C115: two entries with the same lock and different names. -/
example : ∃ r : Recipient, SameLock r (relabel nobody r) ∧ relabel nobody r ≠ r :=
  ⟨⟨default, c!"AAAA"⟩, relabel_sameLock nobody_relabels _, by decide⟩

end Verif
