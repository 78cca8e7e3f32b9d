import Verif.Props.Verify
import Verif.Props.Api

/-!
# Routing through a mediator

C41, C42 and C57.
-/

namespace Verif

open Spec

/-! ## The forward message -/

theorem canon_u8s {F : Str → Option Str} (l : Bytes) : CanonL F (l.map encU8) := by
  induction l with
  | nil => trivial
  | cons b l ih =>
    refine ⟨?_, ih⟩
    show normNum F (natDec b.toNat) = some (natDec b.toNat)
    have := b.toNat_lt
    exact normNum_natDec (by omega)

theorem canon_mediated {F : Str → Option Str} (m : Mediated) : Canon F (encMediated m) := by
  refine ⟨⟨?_, ?_, trivial⟩, trivial, canon_u8s _, trivial⟩
  · intro p hp
    simp only [List.mem_singleton] at hp
    subst hp
    rfl
  · intro p hp
    cases hp

theorem depth_mediated (m : Mediated) : (encMediated m).depth ≤ 2 :=
  (nice_mediated (F := fun t => some t) m).1

theorem nums_mediated (m : Mediated) : NumsOk (encMediated m) :=
  (nice_mediated (F := fun t => some t) m).2.1

theorem parse_mediated (m : Mediated) : parseJson (printJson (encMediated m)) = some (encMediated m) :=
  parseJson_print (nums_mediated m)

theorem valueOfText_mediated {F : Str → Option Str} (m : Mediated) :
    Message.valueOfText F (printJson (encMediated m)) = some (encMediated m) := by
  unfold Message.valueOfText
  rw [parse_mediated, Option.bind_some]
  unfold toValue
  rw [if_pos (by have := depth_mediated m; omega), normJ_canon (canon_mediated m)]

theorem asJwe_eq (P : Prims) (m : Message) (a : CryptoAlg) (key : Option Bytes) :
    ∃ kid, m.asJwe P a key = { m with jwm := { m.jwm.asEncrypted a with kid := kid } } := by
  unfold Message.asJwe
  cases key with
  | some k => exact ⟨_, rfl⟩
  | none =>
    cases m.didcomm.from with
    | none => exact ⟨_, rfl⟩
    | some f =>
      dsimp only
      split
      · exact ⟨_, rfl⟩
      · exact ⟨_, rfl⟩

/-- The message `routed_by` makes for the mediator. -/
def Spec.forwardMessage (uuid mediator frm : Str) (kid : Option Str) (a : CryptoAlg) (b : Mediated) : Message :=
  { Message.new uuid with
    jwm := { JwmHeader.dflt.asEncrypted a with kid := kid, typ := .forward }
    didcomm := { DidCommHeader.new uuid with to := [mediator], «from» := some frm }
    body := encMediated b }

theorem new_to {uuid med : Str} (hm : med ≠ []) :
    ((Message.new uuid).didcomm.to ++ [med]).filter (fun s => decide (s ≠ [])) = [med] := by
  simp [Message.new, DidCommHeader.new, hm]

theorem routed_ok {P : Prims} {r1 r2 : Message.SealRand} {uuid : Str} {m : Message} {ssk : Bytes}
    {keys : Option (List (Option Bytes))} {med : Str} {mkey : Option Bytes} {t : Str}
    (h : m.routedBy P r1 r2 uuid ssk keys med mkey = .ok t) :
    ∃ a next inner kid, crypterOfHeader m.jwm = .ok a ∧ m.didcomm.to.head? = some next ∧
      m.sealJwe P r1 ssk keys = .ok inner ∧
      (Spec.forwardMessage uuid med (m.didcomm.from.getD []) kid a ⟨next, utf8 inner⟩).sealJwe P r2 ssk
        (some [mkey]) = .ok t := by
  simp only [Message.routedBy, Res.bind_eq_ok] at h
  obtain ⟨a, ha, next, hn, inner, hi, f, hf, ht⟩ := h
  have hn' : m.didcomm.to.head? = some next := by
    cases hh : m.didcomm.to.head? with
    | none => rw [hh] at hn; cases hn
    | some x => rw [hh] at hn; rw [Res.ok.inj hn]
  obtain ⟨kid, hk⟩ := asJwe_eq P (((Message.new uuid).addTo [med]).setFrom (m.didcomm.from.getD [])) a mkey
  rw [hk] at hf
  simp only [Message.setBody, Mediated.new, Mediated.withPayload, valueOfText_mediated, Res.ofOpt_some,
    Res.bind_ok] at hf
  rw [← Res.ok.inj hf] at ht
  refine ⟨a, next, inner, kid, ha, hn', hi, ?_⟩
  rw [(C08_to_appends (Message.new uuid) [med]).1] at ht
  by_cases hm : med = []
  · exfalso
    subst hm
    obtain ⟨pks, rs, a', c, tag, alg, hp, hpl, hk, hto, -⟩ := seal_ok ht
    exact hto rfl
  · rw [new_to hm] at ht
    exact ht

theorem forward_wf (F : Str → Option Str) (uuid med frm : Str) (kid : Option Str) (a : CryptoAlg) (b : Mediated) :
    (Spec.forwardMessage uuid med frm kid a b).WF F where
  jwm := by
    cases a <;> exact ⟨(by intro k h; cases h), (by intro k h; cases h)⟩
  other := by intro k _; rfl
  to := by intro h; cases h
  recipients := by intro l h; cases h
  canon := canon_mediated b
  nums := nums_mediated b
  depth := Nat.le_trans (depth_mediated b) (by omega)

/-- C41.  The mediator receives a forward message from the sender, addressed to the mediator, whose body
names the first recipient and holds the bytes of the envelope made for the recipients. -/
theorem C41_mediator_receives (P : Prims) (hP : Laws P) (r1 r2 : Message.SealRand) (uuid : Str) (m : Message)
    (ssk : Bytes) (keys : Option (List (Option Bytes))) (med : Str) (mkey : Option Bytes) (t : Str)
    (hroute : m.routedBy P r1 r2 uuid ssk keys med mkey = .ok t)
    (msk : Bytes) (mek vk : Option Bytes) (o : HOrd) (hmk : msk.length = 32)
    (hkm : KeyFor P med mkey (P.x25519Pub msk))
    (hks : KeyFor P (m.didcomm.from.getD []) mek (P.x25519Pub ssk)) :
    ∃ f b next inner, Message.receive P o t (some msk) mek vk = .ok f ∧
      f.jwm.typ = .forward ∧ f.didcomm.to = [med] ∧ f.didcomm.from = some (m.didcomm.from.getD []) ∧
      f.didcomm.id = uuid ∧ f.attachments = [] ∧ f.getBody = .ok b ∧
      parseJson b = some (.obj [(c!"next", .str next),
        (c!"payloads~attach", .arr ((utf8 inner).map fun x => .num (natDec x.toNat)))]) ∧
      m.didcomm.to.head? = some next ∧ m.sealJwe P r1 ssk keys = .ok inner := by
  obtain ⟨a, next, inner, kid, ha, hn, hi, ht⟩ := routed_ok hroute
  have hw := forward_wf P.f64 uuid med (m.didcomm.from.getD []) kid a ⟨next, utf8 inner⟩
  have hfix : HeaderFixed (Spec.forwardMessage uuid med (m.didcomm.from.getD []) kid a ⟨next, utf8 inner⟩).jwm := by
    cases a <;> exact ⟨(by intro k h; cases h), (by intro k h; cases h)⟩
  obtain ⟨j, rs, -, -, -, h⟩ := C17_every_recipient P hP r2 _ ssk _ t (m.didcomm.from.getD []) hw
    (by intro k _; rfl) hfix (by intro h; cases h) rfl ht
  refine ⟨_, _, next, inner, h 0 med msk mek vk o rfl hmk hkm hks (by simp), rfl, rfl, rfl, rfl, rfl, rfl, ?_, hn, hi⟩
  exact parse_mediated _

/-- C41.  The bytes in the mediator's message, read as text and received by the first recipient, give the
message that was routed. -/
theorem C41_recipient_receives (P : Prims) (hP : Laws P) (r1 r2 : Message.SealRand) (uuid : Str) (m : Message)
    (ssk : Bytes) (keys : Option (List (Option Bytes))) (med : Str) (mkey : Option Bytes) (t frm : Str)
    (hm : m.WF P.f64) (hc : Avoids m.didcomm.other classKeys) (hf : HeaderFixed m.jwm)
    (hj : m.jwm.typ ≠ .jws) (hfrom : m.didcomm.from = some frm)
    (hroute : m.routedBy P r1 r2 uuid ssk keys med mkey = .ok t)
    (msk : Bytes) (mek vk : Option Bytes) (o : HOrd) (hmk : msk.length = 32)
    (hkm : KeyFor P med mkey (P.x25519Pub msk)) (hks : KeyFor P frm mek (P.x25519Pub ssk))
    (dest : Str) (rsk : Bytes) (ek vk' : Option Bytes) (o' : HOrd)
    (hto : m.didcomm.to.head? = some dest) (hrk : rsk.length = 32)
    (hkr : KeyFor P dest (Spec.keyAt keys 0) (P.x25519Pub rsk)) (hks' : KeyFor P frm ek (P.x25519Pub ssk)) :
    ∃ f b md inner rs, Message.receive P o t (some msk) mek vk = .ok f ∧ f.getBody = .ok b ∧
      (parseJson b).bind decMediated = some md ∧ md.next = dest ∧ utf8Decode md.payload = some inner ∧
      Message.receive P o' inner (some rsk) ek vk' =
        .ok { m with recipients := some rs, flatJwe := false, flatJws := false } := by
  obtain ⟨f, b, next, inner, h1, -, -, -, -, -, h2, h3, h4, h5⟩ := C41_mediator_receives P hP r1 r2 uuid m ssk
    keys med mkey t hroute msk mek vk o hmk hkm (by rw [hfrom]; exact hks)
  rw [hto] at h4
  obtain rfl := Option.some.inj h4
  obtain ⟨j, rs, -, -, -, h⟩ := C17_every_recipient P hP r1 m ssk _ inner frm hm hc hf hj hfrom h5
  refine ⟨f, b, ⟨dest, utf8 inner⟩, inner, rs, h1, h2, ?_, rfl, utf8Decode_utf8 _,
    h 0 dest rsk ek vk' o' (by rw [← hto, List.head?_eq_getElem?]) hrk hkr hks' (by simp)⟩
  rw [h3, Option.bind_some]
  exact decMediated_enc ⟨dest, utf8 inner⟩

/-- C41.  Routing succeeds whenever sealing does, for a mediator whose key is known. -/
theorem C41_total (P : Prims) (hP : Laws P) (ht : Spec.AeadTotal P) (r1 r2 : Message.SealRand) (uuid : Str)
    (m : Message) (ssk : Bytes) (keys : Option (List (Option Bytes))) (med : Str) (mkey : Option Bytes)
    (inner : Str) (hseal : m.sealJwe P r1 ssk keys = .ok inner) (hmed : med ≠ []) (mpk : Bytes)
    (hmpk : mpk.length = 32) (hk : KeyFor P med mkey mpk) :
    ∃ t, m.routedBy P r1 r2 uuid ssk keys med mkey = .ok t := by
  obtain ⟨pks, rs, a, c, tag, alg, hp, hpl, hsk, hto, -, hrs, hl, hal, ha, -⟩ := seal_ok hseal
  obtain ⟨next, hn⟩ : ∃ next, m.didcomm.to.head? = some next := by
    cases hh : m.didcomm.to with
    | nil => exact absurd hh hto
    | cons x l => exact ⟨x, rfl⟩
  have hcr : crypterOfHeader m.jwm = .ok a := by
    unfold crypterOfHeader
    rw [hal]
    exact ha
  obtain ⟨kid, hkid⟩ := asJwe_eq P (((Message.new uuid).addTo [med]).setFrom (m.didcomm.from.getD [])) a mkey
  have hhead : ∃ alg', (JwmHeader.dflt.asEncrypted a).alg = some alg' ∧ alg' ∈ Spec.supportedAlgs := by
    unfold CryptoAlg.ofStr at ha
    split at ha
    · rw [← Res.ok.inj ha]; exact ⟨_, rfl, by decide⟩
    · split at ha
      · rw [← Res.ok.inj ha]; exact ⟨_, rfl, by decide⟩
      · cases ha
  obtain ⟨alg', h1, h2⟩ := hhead
  obtain ⟨t, h⟩ := C16_seal_total P hP ht r2
    (Spec.forwardMessage uuid med (m.didcomm.from.getD []) kid a ⟨next, utf8 inner⟩) ssk (some [mkey]) alg' hsk
    (by intro h; cases h) (by intro l hl; rw [← Option.some.inj hl]; rfl) (by intro h; cases h) h1 h2 (by
      intro i dest hi
      match i with
      | 0 =>
        obtain rfl := Option.some.inj hi
        exact ⟨mpk, hmpk, hk⟩
      | n + 1 => cases hi)
  refine ⟨t, ?_⟩
  simp only [Message.routedBy, hcr, hn, hseal, Res.bind_ok, Res.unwrap, hkid, Message.setBody, Mediated.new,
    Mediated.withPayload, valueOfText_mediated, Res.ofOpt_some]
  rw [(C08_to_appends (Message.new uuid) [med]).1, new_to hmed]
  exact h

/-- C41: a message routed by a mediator, with explicit keys, for two recipients. -/
example : ∃ t f b md inner rs, exampleMessage.routedBy (toy fun _ => none) exampleRand exampleRand c!"u" (exampleKey 3)
      (some [some ((toy fun _ => none).x25519Pub (exampleKey 1)),
        some ((toy fun _ => none).x25519Pub (exampleKey 2))]) c!"did:m:m"
      (some ((toy fun _ => none).x25519Pub (exampleKey 4))) = .ok t ∧
    Message.receive (toy fun _ => none) HOrd.rev t (some (exampleKey 4))
      (some ((toy fun _ => none).x25519Pub (exampleKey 3))) none = .ok f ∧ f.getBody = .ok b ∧
    (parseJson b).bind decMediated = some md ∧ md.next = c!"did:a:b" ∧ utf8Decode md.payload = some inner ∧
    Message.receive (toy fun _ => none) HOrd.rev inner (some (exampleKey 1))
      (some ((toy fun _ => none).x25519Pub (exampleKey 3))) none =
        .ok { exampleMessage with recipients := some rs } := by
  have hl := toy_laws fun _ => none
  obtain ⟨s, hs⟩ := C16_seal_total (toy fun _ => none) hl (toy_total _) exampleRand exampleMessage
    (exampleKey 3) (some [some ((toy fun _ => none).x25519Pub (exampleKey 1)),
        some ((toy fun _ => none).x25519Pub (exampleKey 2))]) c!"ECDH-1PU+XC20PKW" (by decide) (by decide)
    (by intro l hl; rw [← Option.some.inj hl]; rfl) (by intro h; cases h) rfl (by decide) (by
      intro i dest hi
      match i with
      | 0 => exact ⟨_, hl.pub_len _, .inl rfl⟩
      | 1 => exact ⟨_, hl.pub_len _, .inl rfl⟩
      | n + 2 => cases hi)
  obtain ⟨t, ht⟩ := C41_total _ hl (toy_total _) exampleRand exampleRand c!"u" exampleMessage (exampleKey 3) _
    c!"did:m:m" (some ((toy fun _ => none).x25519Pub (exampleKey 4))) s hs (by decide) _ (hl.pub_len _) (.inl rfl)
  obtain ⟨f, b, md, inner, rs, h⟩ := C41_recipient_receives _ hl exampleRand exampleRand c!"u" exampleMessage
    (exampleKey 3) _ c!"did:m:m" _ t c!"did:e:f" (exampleMessage_wf _) (by decide)
    ⟨(by intro k h; cases h), (by intro k h; cases h)⟩ (by decide) rfl ht (exampleKey 4) _ none HOrd.rev
    (by decide) (.inl rfl) (.inl rfl) c!"did:a:b" (exampleKey 1) _ none HOrd.rev rfl (by decide) (.inl rfl) (.inl rfl)
  exact ⟨t, f, b, md, inner, rs, ht, h⟩

/-! ## C42: reading the routing information -/

/-- C42 fails: `Mediated::shape` fails for every message, also for every forward message. -/
theorem C42_shape_violated (m : Message) : Mediated.shape m = .err .serde := by
  simp only [Mediated.shape, Message.getBody, Res.bind_ok]
  rw [parseJson_print (j := .str (printJson m.body)) trivial]
  rfl

/-- C42: in particular for the message a mediator receives. -/
theorem C42_forward_violated (P : Prims) (hP : Laws P) (r1 r2 : Message.SealRand) (uuid : Str) (m : Message)
    (ssk : Bytes) (keys : Option (List (Option Bytes))) (med : Str) (mkey : Option Bytes) (t : Str)
    (hroute : m.routedBy P r1 r2 uuid ssk keys med mkey = .ok t)
    (msk : Bytes) (mek vk : Option Bytes) (o : HOrd) (hmk : msk.length = 32)
    (hkm : KeyFor P med mkey (P.x25519Pub msk))
    (hks : KeyFor P (m.didcomm.from.getD []) mek (P.x25519Pub ssk)) :
    ∃ f, Message.receive P o t (some msk) mek vk = .ok f ∧ Mediated.shape f = .err .serde := by
  obtain ⟨f, b, next, inner, h, -⟩ := C41_mediator_receives P hP r1 r2 uuid m ssk keys med mkey t hroute msk mek vk
    o hmk hkm hks
  exact ⟨f, h, C42_shape_violated f⟩

/-- C42: the mediator of a routed message gets a body that is not of the shape that the crate declares for it. -/
example : ∃ t f, exampleMessage.routedBy (toy fun _ => none) exampleRand exampleRand c!"u" (exampleKey 3) exampleKeys
      c!"did:m:m" (some ((toy fun _ => none).x25519Pub (exampleKey 4))) = .ok t ∧
    Message.receive (toy fun _ => none) HOrd.rev t (some (exampleKey 4))
      (some ((toy fun _ => none).x25519Pub (exampleKey 3))) none = .ok f ∧ Mediated.shape f = .err .serde := by
  obtain ⟨s, hs⟩ := exampleSealed
  obtain ⟨t, ht⟩ := C41_total _ (toy_laws _) (toy_total _) exampleRand exampleRand c!"u" exampleMessage (exampleKey 3) _
    c!"did:m:m" (some ((toy fun _ => none).x25519Pub (exampleKey 4))) s hs (by decide) _ ((toy_laws _).pub_len _) (.inl rfl)
  obtain ⟨f, h1, h2⟩ := C42_forward_violated _ (toy_laws _) _ _ _ _ _ _ _ _ _ ht (exampleKey 4)
    (some ((toy fun _ => none).x25519Pub (exampleKey 3))) none HOrd.rev (by decide) (.inl rfl) (.inl rfl)
  exact ⟨t, f, ht, h1, h2⟩

/-! ## C57: routing without recipients -/

/-- C57 fails: routing a message that has an encryption algorithm but no recipient panics. -/
theorem C57_no_recipient_panics_violated (P : Prims) (r1 r2 : Message.SealRand) (uuid : Str) (m : Message)
    (ssk : Bytes) (keys : Option (List (Option Bytes))) (med : Str) (mkey : Option Bytes) (a : CryptoAlg)
    (halg : crypterOfHeader m.jwm = .ok a) (hto : m.didcomm.to = []) :
    m.routedBy P r1 r2 uuid ssk keys med mkey = .panic := by
  simp [Message.routedBy, halg, hto, Res.unwrap]

example : ({ exampleMessage with didcomm := { exampleMessage.didcomm with to := [] } }).routedBy
    (toy fun _ => none) exampleRand exampleRand c!"u" (exampleKey 3) none c!"did:m:m" none = .panic :=
  C57_no_recipient_panics_violated _ _ _ _ _ _ _ _ _ .xc20p rfl rfl

end Verif
