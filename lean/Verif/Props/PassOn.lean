import Verif.Props.Flow

/-!
# Passing a message on

C149.
-/

namespace Verif

open Spec

/-- One time that a message is passed on: the header it is given, what the sender draws and uses, and what the first recipient
of the header uses to receive it. -/
structure Spec.Leg where
  header : DidCommHeader
  rand : Message.SealRand
  sender : Bytes
  keys : Option (List (Option Bytes))
  reader : Bytes
  senderKey : Option Bytes
  verifyKey : Option Bytes
  ord : HOrd

/-- `set_didcomm_header`, `seal` and, on the other side, `receive`. -/
def Spec.pass (P : Prims) (g : Leg) (m : Message) : Res Message := do
  let t ← (m.setDidcomm g.header).sealJwe P g.rand g.sender g.keys
  Message.receive P g.ord t (some g.reader) g.senderKey g.verifyKey

/-- Passed on once for every element of the list, each time by the one who received it. -/
def Spec.passAll (P : Prims) : List Leg → Message → Res Message
  | [], m => .ok m
  | g :: gs, m => pass P g m >>= passAll P gs

/-- The parties of a leg know each other's public keys, there is a sender and a recipient, and no custom header is named like a
member of a message or of an envelope. -/
structure Spec.LegOk (P : Prims) (g : Leg) : Prop where
  other : Avoids g.header.other (reservedKeys ++ classKeys)
  sender_len : g.sender.length = 32
  reader_len : g.reader.length = 32
  from_ : ∃ frm, g.header.from = some frm ∧ KeyFor P frm g.senderKey (P.x25519Pub g.sender)
  to_ : ∃ dest, g.header.to[0]? = some dest ∧ KeyFor P dest (keyAt g.keys 0) (P.x25519Pub g.reader)
  count : ∀ l, g.keys = some l → l.length = g.header.to.length
  known : ∀ (i : Nat) dest, g.header.to[i]? = some dest → ∃ pk, pk.length = 32 ∧ KeyFor P dest (keyAt g.keys i) pk

theorem pass_ok {P : Prims} (hP : Laws P) (ht : AeadTotal P) {m : Message} {alg : Str} (hm : m.WF P.f64) (hf : HeaderFixed m.jwm)
    (hj : m.jwm.typ ≠ .jws) (hal : m.jwm.alg = some alg) (hs : alg ∈ supportedAlgs) (hflat : m.flatJwe = false) {g : Leg}
    (hg : LegOk P g) :
    ∃ rs, pass P g m = .ok { m with didcomm := g.header, recipients := some rs, flatJwe := false, flatJws := false } ∧
      RecipientsWF (some rs) := by
  obtain ⟨ho, h1, h2, ⟨frm, hfrm, hks⟩, ⟨dest, hd, hkr⟩, hc, hk⟩ := hg
  have hto : g.header.to ≠ [] := by intro h; rw [h] at hd; cases hd
  have hw : (m.setDidcomm g.header).WF P.f64 :=
    ⟨hm.jwm, fun k h => ho k (by simp [h]), hto, hm.recipients, hm.canon, hm.nums, hm.depth⟩
  obtain ⟨t, hseal⟩ := C16_seal_total P hP ht g.rand (m.setDidcomm g.header) g.sender g.keys alg h1 hto hc
    (by intro h; rw [show (m.setDidcomm g.header).flatJwe = m.flatJwe from rfl, hflat] at h; cases h) hal hs hk
  obtain ⟨_, _, a1, a2, -, hr, -⟩ := seal_decrypted hP hw hf hfrm hseal
  obtain ⟨_, rs, b1, b2, -, h⟩ := C17_every_recipient P hP g.rand (m.setDidcomm g.header) g.sender g.keys t frm hw
    (fun k h => ho k (by simp [h])) hf hj hfrm hseal
  rw [a1] at b1
  obtain rfl := Option.some.inj b1
  rw [a2] at b2
  obtain rfl := Option.some.inj b2
  refine ⟨_, ?_, hr.recipients⟩
  unfold pass
  rw [hseal, Res.bind_ok, h 0 dest g.reader g.senderKey g.verifyKey g.ord hd h2 hkr hks (by simp)]
  rfl

/-- C149.  A message can be passed on any number of times: each time the one who has it gives it a header, seals it and the first
recipient of that header receives it.  In the end type, algorithm and key id, body and attachments are those of the start, and
the header is the one given last; nothing is collected on the way but the entries of the last envelope. -/
theorem C149_passed_on (P : Prims) (hP : Laws P) (ht : AeadTotal P) (gs : List Leg) (hg : ∀ g ∈ gs, LegOk P g) (m : Message)
    (alg : Str) (hm : m.WF P.f64) (hf : HeaderFixed m.jwm) (hj : m.jwm.typ ≠ .jws) (hal : m.jwm.alg = some alg)
    (hs : alg ∈ supportedAlgs) (hflat : m.flatJwe = false) :
    ∃ x, passAll P gs m = .ok x ∧ x.jwm = m.jwm ∧ x.body = m.body ∧ x.attachments = m.attachments ∧
      x.didcomm = (gs.getLast?.map Leg.header).getD m.didcomm := by
  induction gs generalizing m with
  | nil => exact ⟨m, rfl, rfl, rfl, rfl, rfl⟩
  | cons g gs ih =>
    have hg0 := hg g (by simp)
    obtain ⟨rs, hp, hr⟩ := pass_ok hP ht hm hf hj hal hs hflat hg0
    obtain ⟨d, hd, -⟩ := hg0.to_
    obtain ⟨x, hx, e1, e2, e3, e4⟩ := ih (fun y hy => hg y (by simp [hy]))
      { m with didcomm := g.header, recipients := some rs, flatJwe := false, flatJws := false }
      ⟨hm.jwm, fun k h => hg0.other k (by simp [h]), (by intro h; rw [show g.header.to = [] from h] at hd; cases hd), hr,
        hm.canon, hm.nums, hm.depth⟩ hf hj hal rfl
    refine ⟨x, ?_, e1, e2, e3, ?_⟩
    · unfold passAll
      rw [hp, Res.bind_ok, hx]
    · rw [e4]
      cases gs with
      | nil => rfl
      | cons g' gs => rw [List.getLast?_cons_cons, List.getLast?_eq_some_getLast (List.cons_ne_nil _ _)]; rfl

/-- C149: the same for whatever was received, from whomever.  Its numbers have to keep their text, and its header has to ask for
encryption, as it does if it came in an envelope that was made with `as_jwe`. -/
theorem C149_received (P : Prims) (hP : Laws P) (ht : AeadTotal P) (o : HOrd) (s : Str) (sk ek vk : Option Bytes) (m : Message)
    (h : Message.receive P o s sk ek vk = .ok m) (hto : m.didcomm.to ≠ []) (hn : NumsStable P.f64 m.body)
    (hf : HeaderFixed m.jwm) (hj : m.jwm.typ ≠ .jws) (alg : Str) (hal : m.jwm.alg = some alg) (hs : alg ∈ supportedAlgs)
    (gs : List Leg) (hg : ∀ g ∈ gs, LegOk P g) :
    ∃ x, passAll P gs m = .ok x ∧ x.jwm = m.jwm ∧ x.body = m.body ∧ x.attachments = m.attachments ∧
      x.didcomm = (gs.getLast?.map Leg.header).getD m.didcomm := by
  obtain ⟨hw, h1, -⟩ := receive_wf hP h hto hn
  exact C149_passed_on P hP ht gs hg m alg hw hf hj hal hs h1

/-- C149: a message that asks for no encryption, as every message that came in a signed document of this crate, is not sealed
before `as_jwe` is called. -/
theorem C149_unprepared (P : Prims) (m : Message) (h : m.jwm.alg = none) (hd : DidCommHeader) (r : Message.SealRand) (sk : Bytes)
    (keys : Option (List (Option Bytes))) : ∀ t, (m.setDidcomm hd).sealJwe P r sk keys ≠ .ok t := by
  intro t ht
  obtain ⟨_, _, _, _, _, alg, -, -, -, -, -, -, -, hal, -⟩ := seal_ok ht
  have : m.jwm.alg = some alg := hal
  rw [h] at this
  cases this

/-- C149: the recipients have to be replaced with the header.  With `to` the former ones stay: sealing for the new recipient with
its key alone is refused. -/
theorem C149_to (P : Prims) (m : Message) (d : Str) (hd : d ≠ []) (e : Str) (he : e ∈ m.didcomm.to) (hn : e ≠ [])
    (r : Message.SealRand) (sk : Bytes) (hk : sk.length = 32) (key : Option Bytes) :
    e ∈ (m.addTo [d]).didcomm.to ∧ (m.addTo [d]).sealJwe P r sk (some [key]) =
      .err (.generic "`to` and `recipient_public_keys` must have same length") := by
  have hto : (m.addTo [d]).didcomm.to = (m.didcomm.to ++ [d]).filter (fun s => s ≠ []) := by rw [(C08_to_appends m [d]).1]
  have hmem : e ∈ m.didcomm.to.filter (fun s => s ≠ []) := by simp [he, hn]
  refine ⟨by rw [hto]; simp [he, hn], ?_⟩
  have hl : ¬ 1 = (m.addTo [d]).didcomm.to.length := by
    rw [hto, List.filter_append, List.length_append]
    have h1 := List.length_pos_of_mem hmem
    have h2 : ([d].filter fun s => s ≠ []).length = 1 := by simp [hd]
    omega
  simp [Message.sealJwe, hk, Message.sealKeys, hl]

/-- The header for one recipient, and back. -/
def exampleLeg (a b : Str) (i j : Nat) : Leg where
  header := { DidCommHeader.new c!"id" with to := [b], «from» := some a }
  rand := exampleRand
  sender := exampleKey i
  keys := some [some ((toy fun _ => none).x25519Pub (exampleKey j))]
  reader := exampleKey j
  senderKey := some ((toy fun _ => none).x25519Pub (exampleKey i))
  verifyKey := none
  ord := HOrd.rev

theorem exampleLeg_ok (a b : Str) (i j : Nat) : LegOk (toy fun _ => none) (exampleLeg a b i j) where
  other := by intro k _; rfl
  sender_len := by simp [exampleLeg, exampleKey]
  reader_len := by simp [exampleLeg, exampleKey]
  from_ := ⟨a, rfl, .inl rfl⟩
  to_ := ⟨b, rfl, .inl rfl⟩
  count := by intro l hl; rw [← Option.some.inj hl]; rfl
  known := by
    intro n dest h
    match n with
    | 0 => exact ⟨_, (toy_laws fun _ => none).pub_len _, .inl rfl⟩
    | n + 1 => cases h

/-- C149: a message that goes through three hands. -/
example : ∃ x, passAll (toy fun _ => none) [exampleLeg c!"did:a" c!"did:b" 1 2, exampleLeg c!"did:b" c!"did:c" 2 3,
      exampleLeg c!"did:c" c!"did:a" 3 1] exampleMessage = .ok x ∧ x.body = exampleMessage.body ∧
      x.attachments = exampleMessage.attachments ∧ x.didcomm.to = [c!"did:a"] := by
  obtain ⟨x, h, -, h1, h2, h3⟩ := C149_passed_on _ (toy_laws fun _ => none) (toy_total _)
    [exampleLeg c!"did:a" c!"did:b" 1 2, exampleLeg c!"did:b" c!"did:c" 2 3, exampleLeg c!"did:c" c!"did:a" 3 1]
    (by intro g hg
        simp only [List.mem_cons, List.not_mem_nil, or_false] at hg
        rcases hg with rfl | rfl | rfl <;> exact exampleLeg_ok _ _ _ _)
    exampleMessage c!"ECDH-1PU+XC20PKW" (exampleMessage_wf _) ⟨(by intro k h; cases h), (by intro k h; cases h)⟩ (by decide) rfl
    (by decide) rfl
  exact ⟨x, h, h1, h2, by rw [h3]; rfl⟩

/-- C149: something received to which the second theorem applies. -/
example : ∃ t x, Message.receive (toy fun _ => none) HOrd.rev t (some (exampleKey 1))
      (some ((toy fun _ => none).x25519Pub (exampleKey 3))) none = .ok x ∧ x.didcomm.to ≠ [] ∧
      NumsStable (toy fun _ => none).f64 x.body ∧ HeaderFixed x.jwm ∧ x.jwm.typ ≠ .jws ∧
      x.jwm.alg = some c!"ECDH-1PU+XC20PKW" := by
  obtain ⟨t, ht⟩ := exampleSealed
  obtain ⟨rs, h⟩ := C16_seal_receive _ (toy_laws fun _ => none) exampleRand HOrd.rev exampleMessage (exampleKey 3)
    (exampleKey 1) _ t c!"did:e:f" none (exampleMessage_wf _) (by decide)
    ⟨(by intro k h; cases h), (by intro k h; cases h)⟩ (by decide) rfl (by decide) ht
  have h2 : exampleMessage.didcomm.to ≠ [] := by decide
  have h3 : exampleMessage.jwm.typ ≠ .jws := by decide
  exact ⟨t, _, h, h2, canon_stable (exampleMessage_wf _).canon,
    ⟨(by intro k h; cases h), (by intro k h; cases h)⟩, h3, rfl⟩

/-- C149: a message to which the last part applies. -/
example : c!"did:a:b" ∈ exampleMessage.didcomm.to := by decide

end Verif
