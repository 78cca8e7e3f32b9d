import Verif.Props.Route
import Verif.Props.Verify

/-!
# What an application can do next

C63 (keeping a decrypted message and reading it again), C64 (answering a message), C65 (sealing a
message that was given no recipient).
-/

namespace Verif

open Spec

/-! ## C63: reading a decrypted message again -/

/-- No member `iv` at the top level: not an envelope. -/
theorem jwe_ofText_message_none (P : Prims) (o : HOrd) {m : Message} (hn : NumsOk m.body)
    (ho : m.didcomm.other.get c!"iv" = none) : Jwe.ofText P.f64 (m.text o) = none := by
  simp only [Jwe.ofText, parse_message o hn]
  cases h : decJwe P.f64 (encMessage o m) with
  | none => rfl
  | some j =>
    simp only [decJwe, Option.bind_eq_bind, Option.bind_eq_some_iff] at h
    obtain ⟨es, hes, _, -, _, -, _, -, _, -, iv, hiv, -⟩ := h
    have he : encMessage o m = .obj es := by
      unfold encMessage at hes ⊢
      simpa [mapEntries] using hes
    have := fieldVals_message o (k := c!"iv") (by decide) ho es he
    simp [reqField, this] at hiv

/-- A message whose `typ` says it is encrypted cannot be read back from its plain JSON. -/
theorem receive_plain_jwe (P : Prims) (o o' : HOrd) {m : Message} (hm : m.WF P.f64)
    (ha : Avoids m.didcomm.other classKeys) (ht : m.jwm.typ = .jwe) (sk ek vk : Option Bytes) :
    ∃ e, Message.receive P o' (m.text o) sk ek vk = .err e := by
  have hj := jwe_ofText_message_none P o hm.nums (ha _ (by decide))
  simp only [Message.receive, Message.decryptStep, messageType_text P o hm ha, ht, Res.bind_ok, if_true]
  cases sk with
  | none => exact ⟨_, rfl⟩
  | some k =>
    simp only [Res.ofOpt_some, Res.bind_ok, Message.receiveJwe, hj]
    exact ⟨_, rfl⟩

theorem receive_ofText {P : Prims} {o : HOrd} {s : Str} {sk ek vk : Option Bytes} {x : Message}
    (h : Message.receive P o s sk ek vk = .ok x) : ∃ cur, Message.ofText P.f64 cur = some x := by
  simp only [Message.receive, Res.bind_eq_ok] at h
  obtain ⟨_, -, cur, -, h⟩ := h
  exact ⟨cur, Res.ofOpt_eq_ok.1 h⟩

/-- What `receive` returns can be written and read as a plain message. -/
theorem receive_wf {P : Prims} (hP : Laws P) {o : HOrd} {s : Str} {sk ek vk : Option Bytes} {x : Message}
    (h : Message.receive P o s sk ek vk = .ok x) (hto : x.didcomm.to ≠ [])
    (hs : NumsStable P.f64 x.body) : x.WF P.f64 ∧ x.flatJwe = false ∧ x.flatJws = false := by
  obtain ⟨cur, hc⟩ := receive_ofText h
  unfold Message.ofText at hc
  split at hc
  · next j hj => exact decMessage_wf (fun _ _ => hP.f64_tok) hc (parseJson_numsOk hj) hto hs
  · cases hc

/-- C63, as written, is false: whatever was received, if its `typ` is the encrypted one (as it is for
every message prepared with `as_jwe`, sealed and opened), then its JSON is not accepted by `receive`,
with whatever keys. -/
theorem C63_reload_violated (P : Prims) (hP : Laws P) (o o' o'' : HOrd) (s : Str) (sk ek vk : Option Bytes)
    (x : Message) (h : Message.receive P o s sk ek vk = .ok x) (ht : x.jwm.typ = .jwe)
    (ha : Avoids x.didcomm.other classKeys) (hto : x.didcomm.to ≠ []) (hs : NumsStable P.f64 x.body) :
    ∃ t, x.asRawJson o' = .ok t ∧
      ∀ sk' ek' vk', ∃ e, Message.receive P o'' t sk' ek' vk' = .err e :=
  ⟨_, rfl, fun _ _ _ => receive_plain_jwe P o' o'' (receive_wf hP h hto hs).1 ha ht _ _ _⟩

/-- C63, what holds: a received message whose `typ` is neither the encrypted nor the signed one is read
back exactly, without keys.  (Setting `typ` to the plain one before storing makes it so.) -/
theorem C63_reload_partial (P : Prims) (hP : Laws P) (o o' o'' : HOrd) (s : Str) (sk ek vk : Option Bytes)
    (x : Message) (h : Message.receive P o s sk ek vk = .ok x)
    (ha : Avoids x.didcomm.other classKeys) (hto : x.didcomm.to ≠ []) (hs : NumsStable P.f64 x.body)
    (y : Message) (hy : y = x ∧ x.jwm.typ ≠ .jwe ∧ x.jwm.typ ≠ .jws ∨ y = x.setTyp .raw) :
    ∃ t, y.asRawJson o' = .ok t ∧ Message.receive P o'' t none none none = .ok y := by
  obtain ⟨hw, h1, h2⟩ := receive_wf hP h hto hs
  rcases hy with ⟨rfl, t1, t2⟩ | rfl
  · refine ⟨_, rfl, ?_⟩
    have := C05_plain_roundtrip P o' o'' y hw ha t1 t2 none none none
    simp only [Message.asRawJson, Res.bind_ok] at this
    rw [this]
    cases y
    simp_all
  · refine ⟨_, rfl, ?_⟩
    have hw' : (x.setTyp .raw).WF P.f64 :=
      ⟨⟨hw.jwm.1, hw.jwm.2⟩, hw.other, hw.to, hw.recipients, hw.canon, hw.nums, hw.depth⟩
    have := C05_plain_roundtrip P o' o'' (x.setTyp .raw) hw' ha
      (fun h => nomatch h) (fun h => nomatch h) none none none
    simp only [Message.asRawJson, Res.bind_ok] at this
    rw [this]
    cases x
    simp_all [Message.setTyp]

/-- C63: a sealed message, opened and stored, that is not accepted again. -/
example : ∃ t x, exampleMessage.sealJwe (toy fun _ => none) exampleRand (exampleKey 3)
      (some [some ((toy fun _ => none).x25519Pub (exampleKey 1)),
        some ((toy fun _ => none).x25519Pub (exampleKey 2))]) = .ok t ∧
    Message.receive (toy fun _ => none) HOrd.rev t (some (exampleKey 1))
      (some ((toy fun _ => none).x25519Pub (exampleKey 3))) none = .ok x ∧
    x.jwm.typ = .jwe ∧ Avoids x.didcomm.other classKeys ∧ x.didcomm.to ≠ [] ∧
    NumsStable (toy fun _ => none).f64 x.body := by
  have hl := toy_laws fun _ => none
  obtain ⟨t, ht⟩ := C16_seal_total (toy fun _ => none) hl (toy_total _) exampleRand exampleMessage
    (exampleKey 3) (some [some ((toy fun _ => none).x25519Pub (exampleKey 1)),
        some ((toy fun _ => none).x25519Pub (exampleKey 2))]) c!"ECDH-1PU+XC20PKW" (by decide) (by decide)
    (by intro l hl; rw [← Option.some.inj hl]; rfl) (by intro h; cases h) rfl (by decide) (by
      intro i dest hi
      match i with
      | 0 => exact ⟨_, hl.pub_len _, .inl rfl⟩
      | 1 => exact ⟨_, hl.pub_len _, .inl rfl⟩
      | n + 2 => cases hi)
  obtain ⟨rs, h⟩ := C16_seal_receive _ hl exampleRand HOrd.rev exampleMessage (exampleKey 3) (exampleKey 1) _ t
    c!"did:e:f" none (exampleMessage_wf _) (by decide)
    ⟨(by intro k h; cases h), (by intro k h; cases h)⟩ (by decide) rfl (by decide) ht
  have h1 : Avoids exampleMessage.didcomm.other classKeys := by decide
  have h2 : exampleMessage.didcomm.to ≠ [] := by decide
  exact ⟨t, _, ht, h, rfl, h1, h2, canon_stable (exampleMessage_wf _).canon⟩

/-! ## C64: answering a message -/

/-- The recipients of an answer made from a new message: the empty name every new message starts with,
then the sender. -/
theorem reply_to_fresh (uuid : Str) (x : Message) :
    ((Message.new uuid).replyTo x).didcomm.to = [[], x.didcomm.from.getD []] :=
  (C10_reply_to (Message.new uuid) x).1

/-- C64, as written, is false: an answer made with `Message::new().reply_to(x)` is never addressed to
exactly the sender of `x`; sealing it for one key is refused, sealing it without keys is refused unless
the empty name can be resolved, and its first recipient, the one a mediator is told, is empty. -/
theorem C64_reply_addresses_sender_violated (P : Prims) (hres : P.resolve [] = none) (r : Message.SealRand)
    (uuid : Str) (x : Message) (a : CryptoAlg) (kid : Option Bytes) (ssk : Bytes) :
    ((Message.new uuid).replyTo x).didcomm.to ≠ [x.didcomm.from.getD []] ∧
    (∀ pk, ∃ e, (((Message.new uuid).replyTo x).asJwe P a kid).sealJwe P r ssk (some [pk]) = .err e) ∧
    (∃ e, (((Message.new uuid).replyTo x).asJwe P a kid).sealJwe P r ssk none = .err e) ∧
    ((Message.new uuid).replyTo x).didcomm.to.head? = some [] := by
  obtain ⟨k, hk⟩ := asJwe_eq P ((Message.new uuid).replyTo x) a kid
  have hto := reply_to_fresh uuid x
  rw [hk]
  refine ⟨by rw [hto]; intro h; simpa using congrArg List.length h, ?_, ?_, by rw [hto]; rfl⟩
  · intro pk
    unfold Message.sealJwe
    split
    · exact ⟨_, rfl⟩
    · simp only [Message.sealKeys, hto]
      exact ⟨_, rfl⟩
  · unfold Message.sealJwe
    split
    · exact ⟨_, rfl⟩
    · have hflat : ((Message.new uuid).replyTo x).flatJwe = false := rfl
      simp only [Message.sealKeys, hto, hflat, List.length_cons, List.length_nil, List.replicate,
        List.zip_cons_cons, Message.sealRecipients, encryptCek, Res.bind_ok]
      cases a <;>
      · simp [sharedFor, publicKeyFor, hres, JwmHeader.asEncrypted, Res.ofOpt]

/-- C64, what holds: calling `.to(..)` after `reply_to` drops the empty name; the answer is then
addressed to exactly the sender (if there is one) and the names passed.  An answer to a message without
sender is then addressed to those names only. -/
theorem C64_reply_addresses_sender_partial (uuid : Str) (x : Message) (frm : Str) (l : List Str)
    (hl : ∀ s ∈ l, s ≠ []) :
    (x.didcomm.from = some frm → frm ≠ [] →
      (((Message.new uuid).replyTo x).addTo l).didcomm.to = frm :: l) ∧
    (x.didcomm.from = none →
      (((Message.new uuid).replyTo x).addTo l).didcomm.to = l) := by
  have hf : l.filter (fun s => decide (s ≠ [])) = l := by
    rw [List.filter_eq_self]; intro s hs; simpa using hl s hs
  constructor
  · intro h hn
    rw [(C08_to_appends _ l).1, reply_to_fresh, h]
    simp [hn] at hf ⊢
    exact hf
  · intro h
    rw [(C08_to_appends _ l).1, reply_to_fresh, h]
    simp at hf ⊢
    exact hf

/-- C64: a received message with a sender, and a resolver that does not know the empty name. -/
example : exampleMessage.didcomm.from = some c!"did:e:f" ∧ (toy fun _ => none).resolve [] = none ∧
    (((Message.new c!"9").replyTo exampleMessage).addTo []).didcomm.to = [c!"did:e:f"] := by
  refine ⟨rfl, rfl, ?_⟩
  exact (C64_reply_addresses_sender_partial c!"9" exampleMessage _ [] (by simp)).1 rfl (by decide)

/-! ## C65: sealing a message without recipients -/

/-- C65, as written, is false: a new message was given no recipient, but can be sealed for any one key,
and the owner of the key receives it. -/
theorem C65_unaddressed_not_sealed_violated (P : Prims) (hP : Laws P) (ht : Spec.AeadTotal P)
    (r : Message.SealRand) (o : HOrd) (uuid : Str) (a : CryptoAlg) (kid : Bytes) (ssk rsk : Bytes)
    (ha : a = .xc20p ∨ a = .a256gcm) (hs : ssk.length = 32) (hr : rsk.length = 32) :
    ∃ t x, ((Message.new uuid).asJwe P a (some kid)).sealJwe P r ssk (some [some (P.x25519Pub rsk)]) = .ok t ∧
      Message.receive P o t (some rsk) (some (P.x25519Pub ssk)) none = .ok x ∧ x.didcomm.to = [[]] := by
  have hm : ((Message.new uuid).asJwe P a (some kid)).WF P.f64 := by
    refine ⟨?_, (by intro k _; rfl), (by intro h; cases h), (by intro l h; cases h), ?_, ?_, ?_⟩
    · rcases ha with rfl | rfl <;> exact ⟨(by intro k h; cases h), (by intro k h; cases h)⟩
    · exact ⟨trivial, trivial⟩
    · trivial
    · show (Json.obj []).depth ≤ 126
      decide
  obtain ⟨alg, hal, hsup⟩ : ∃ alg, ((Message.new uuid).asJwe P a (some kid)).jwm.alg = some alg ∧
      alg ∈ Spec.supportedAlgs := by
    rcases ha with rfl | rfl
    · exact ⟨c!"ECDH-1PU+XC20PKW", rfl, by decide⟩
    · exact ⟨c!"ECDH-1PU+A256KW", rfl, by decide⟩
  obtain ⟨t, hseal⟩ := C16_seal_total P hP ht r ((Message.new uuid).asJwe P a (some kid)) ssk
    (some [some (P.x25519Pub rsk)]) alg hs (by intro h; cases h) (by intro l h; rw [← Option.some.inj h]; rfl) (by intro h; cases h)
    hal hsup (by
      intro i dest hi
      match i with
      | 0 => exact ⟨_, hP.pub_len _, .inl rfl⟩
      | n + 1 => cases hi)
  obtain ⟨rs, h⟩ := C16_seal_receive P hP r o _ ssk rsk [] t [] none hm (by intro k _; rfl)
    (by rcases ha with rfl | rfl <;> exact ⟨(by intro k h; cases h), (by intro k h; cases h)⟩)
    (by rcases ha with rfl | rfl <;> exact fun h => nomatch h) rfl hr hseal
  exact ⟨t, _, hseal, h, rfl⟩

/-- C65: a new message, sealed for a key. -/
example : ∃ t x, ((Message.new c!"1").asJwe (toy fun _ => none) .xc20p (some [7])).sealJwe (toy fun _ => none) exampleRand
      (exampleKey 3) (some [some ((toy fun _ => none).x25519Pub (exampleKey 1))]) = .ok t ∧
    Message.receive (toy fun _ => none) HOrd.rev t (some (exampleKey 1)) (some ((toy fun _ => none).x25519Pub (exampleKey 3)))
      none = .ok x ∧ x.didcomm.to = [[]] :=
  C65_unaddressed_not_sealed_violated _ (toy_laws _) (toy_total _) _ _ _ _ _ _ _ (.inl rfl) (by decide) (by decide)

/-- C65, what holds: a message whose list of recipients is empty is not sealed. -/
theorem C65_unaddressed_not_sealed_partial (P : Prims) (r : Message.SealRand) (m : Message) (ssk : Bytes)
    (keys : Option (List (Option Bytes))) (h : m.didcomm.to = []) :
    ∃ e, m.sealJwe P r ssk keys = .err e := by
  unfold Message.sealJwe
  split
  · exact ⟨_, rfl⟩
  · cases hk : m.sealKeys keys with
    | ok l => simp [h]
    | err e => exact ⟨_, rfl⟩
    | panic =>
      cases keys <;> simp [Message.sealKeys] at hk
      split at hk <;> cases hk

example : ((Message.new c!"1").addTo []).didcomm.to = [] := by decide

end Verif
