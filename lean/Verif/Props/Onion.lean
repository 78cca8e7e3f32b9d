import Verif.Props.Route
import Verif.Props.Raw

/-!
# Routing through several mediators

C88, C91.
-/

namespace Verif

open Spec

/-! ## C88 -/

/-- A mediator: the name and public key the sender uses, what the sender draws for this layer, and the keys
and orders the mediator uses. -/
structure Spec.Hop where
  did : Str
  key : Option Bytes
  uuid : Str
  rand : Message.SealRand
  secret : Bytes
  senderKey : Option Bytes
  verifyKey : Option Bytes
  ord : HOrd

/-- One layer, as `routed_by` makes it around the sealed text (`src/messages/message.rs:463-475`): a forward
message to the mediator which holds `next` and the bytes to pass on. -/
def Spec.wrap (P : Prims) (a : CryptoAlg) (frm : Str) (ssk : Bytes) (h : Spec.Hop) (b : Mediated) : Res Mediated := do
  let f := (((Message.new h.uuid).addTo [h.did]).setFrom frm).asJwe P a h.key
  let f ← (f.setTyp .forward).setBody P (printJson (encMediated b))
  let t ← f.sealJwe P h.rand ssk (some [h.key])
  pure ((Mediated.new h.did).withPayload (utf8 t))

/-- Layers around each other, the first mediator of the list innermost. -/
def Spec.wrapAll (P : Prims) (a : CryptoAlg) (frm : Str) (ssk : Bytes) : List Spec.Hop → Mediated → Res Mediated
  | [], b => .ok b
  | h :: hs, b => Spec.wrap P a frm ssk h b >>= Spec.wrapAll P a frm ssk hs

/-- What a mediator does with what it was handed: receive the text, read the body. -/
def Spec.unwrap (P : Prims) (h : Spec.Hop) (b : Mediated) : Option Mediated :=
  if b.next = h.did then
    match utf8Decode b.payload with
    | none => none
    | some t =>
      match Message.receive P h.ord t (some h.secret) h.senderKey h.verifyKey with
      | .ok f =>
        match f.getBody with
        | .ok s => (parseJson s).bind decMediated
        | _ => none
      | _ => none
  else none

/-- The mediators one after the other, the first of the list handing on to the second. -/
def Spec.unwrapAll (P : Prims) : List Spec.Hop → Mediated → Option Mediated
  | [], b => some b
  | h :: hs, b => (Spec.unwrap P h b).bind (Spec.unwrapAll P hs)

/-- A mediator that holds the secret of the key used for it and knows the sender's key. -/
structure Spec.HopOk (P : Prims) (frm : Str) (ssk : Bytes) (h : Spec.Hop) : Prop where
  size : h.secret.length = 32
  own : KeyFor P h.did h.key (P.x25519Pub h.secret)
  sender : KeyFor P frm h.senderKey (P.x25519Pub ssk)

theorem wrap_ok {P : Prims} {a : CryptoAlg} {frm : Str} {ssk : Bytes} {h : Spec.Hop} {b b' : Mediated}
    (hw : Spec.wrap P a frm ssk h b = .ok b') :
    ∃ kid t, (Spec.forwardMessage h.uuid h.did frm kid a b).sealJwe P h.rand ssk (some [h.key]) = .ok t ∧
      b' = ⟨h.did, utf8 t⟩ := by
  obtain ⟨kid, hk⟩ := asJwe_eq P (((Message.new h.uuid).addTo [h.did]).setFrom frm) a h.key
  simp only [Spec.wrap, hk, Message.setBody, valueOfText_mediated, Res.ofOpt_some, Res.bind_ok, Res.bind_eq_ok,
    Res.pure_eq, Res.ok.injEq] at hw
  obtain ⟨t, ht, rfl⟩ := hw
  refine ⟨kid, t, ?_, rfl⟩
  rw [(C08_to_appends (Message.new h.uuid) [h.did]).1] at ht
  by_cases hm : h.did = []
  · exfalso
    rw [hm] at ht
    obtain ⟨pks, rs, a', c, tag, alg, hp, hpl, hk, hto, -⟩ := seal_ok ht
    exact hto rfl
  · rw [new_to hm] at ht
    exact ht

theorem unwrap_wrap_hop {P : Prims} (hP : Laws P) {a : CryptoAlg} {frm : Str} {ssk : Bytes} {h : Spec.Hop}
    {b b' : Mediated} (hh : Spec.HopOk P frm ssk h) (hw : Spec.wrap P a frm ssk h b = .ok b') :
    Spec.unwrap P h b' = some b := by
  obtain ⟨kid, t, ht, rfl⟩ := wrap_ok hw
  have hwf := forward_wf P.f64 h.uuid h.did frm kid a b
  have hfix : HeaderFixed (Spec.forwardMessage h.uuid h.did frm kid a b).jwm := by
    cases a <;> exact ⟨(by intro k h; cases h), (by intro k h; cases h)⟩
  obtain ⟨j, rs, -, -, -, hr⟩ := C17_every_recipient P hP h.rand _ ssk _ t frm hwf
    (by intro k _; rfl) hfix (by intro h; cases h) rfl ht
  have hrec := hr 0 h.did h.secret h.senderKey h.verifyKey h.ord rfl hh.size hh.own hh.sender (by simp)
  unfold Spec.unwrap
  rw [if_pos rfl, utf8Decode_utf8]
  simp only [hrec]
  show (parseJson (printJson (encMediated b))).bind decMediated = some b
  rw [parse_mediated, Option.bind_some, decMediated_enc]

theorem unwrapAll_append {P : Prims} (l l' : List Spec.Hop) (b : Mediated) :
    Spec.unwrapAll P (l ++ l') b = (Spec.unwrapAll P l b).bind (Spec.unwrapAll P l') := by
  induction l generalizing b with
  | nil => rfl
  | cons h l ih =>
    simp only [List.cons_append, Spec.unwrapAll]
    cases Spec.unwrap P h b with
    | none => rfl
    | some b' => exact ih b'

/-- C88.  For any number of mediators: what the sender wrapped, layer by layer, the mediators unwrap in the
reverse order, each finding the name of the next one and the bytes for it; the last one finds what the sender
started from. -/
theorem C88_any_mediators (P : Prims) (hP : Laws P) (a : CryptoAlg) (frm : Str) (ssk : Bytes)
    (hs : List Spec.Hop) (hh : ∀ h ∈ hs, Spec.HopOk P frm ssk h) (b b' : Mediated)
    (hw : Spec.wrapAll P a frm ssk hs b = .ok b') : Spec.unwrapAll P hs.reverse b' = some b := by
  induction hs generalizing b with
  | nil => rw [Res.ok.inj hw]; rfl
  | cons h hs ih =>
    simp only [Spec.wrapAll, Res.bind_eq_ok] at hw
    obtain ⟨b1, h1, h2⟩ := hw
    rw [List.reverse_cons, unwrapAll_append, ih (fun x hx => hh x (by simp [hx])) b1 h2, Option.bind_some]
    show (Spec.unwrap P h b1).bind (Spec.unwrapAll P []) = some b
    rw [unwrap_wrap_hop hP (hh h (by simp)) h1]
    rfl

/-- C88.  The sender can wrap for any mediators whose keys are known. -/
theorem C88_total (P : Prims) (hP : Laws P) (ht : Spec.AeadTotal P) (a : CryptoAlg) (ha : a ≠ .a256cbc) (frm : Str)
    (ssk : Bytes) (hk : ssk.length = 32) (hs : List Spec.Hop)
    (hh : ∀ h ∈ hs, h.did ≠ [] ∧ ∃ pk, pk.length = 32 ∧ KeyFor P h.did h.key pk) (b : Mediated) :
    ∃ b', Spec.wrapAll P a frm ssk hs b = .ok b' := by
  induction hs generalizing b with
  | nil => exact ⟨b, rfl⟩
  | cons h hs ih =>
    obtain ⟨hd, pk, hpk, hkf⟩ := hh h (by simp)
    obtain ⟨kid, hkid⟩ := asJwe_eq P (((Message.new h.uuid).addTo [h.did]).setFrom frm) a h.key
    have hhead : ∃ alg', (JwmHeader.dflt.asEncrypted a).alg = some alg' ∧ alg' ∈ Spec.supportedAlgs := by
      cases a with
      | a256gcm => exact ⟨_, rfl, by decide⟩
      | xc20p => exact ⟨_, rfl, by decide⟩
      | a256cbc => exact absurd rfl ha
    obtain ⟨alg', h1, h2⟩ := hhead
    obtain ⟨t, htx⟩ := C16_seal_total P hP ht h.rand
      (Spec.forwardMessage h.uuid h.did frm kid a b) ssk (some [h.key]) alg' hk
      (by intro h; cases h) (by intro l hl; rw [← Option.some.inj hl]; rfl) (by intro h; cases h) h1 h2 (by
        intro i dest hi
        match i with
        | 0 =>
          obtain rfl := Option.some.inj hi
          exact ⟨pk, hpk, hkf⟩
        | n + 1 => cases hi)
    have hw : Spec.wrap P a frm ssk h b = .ok ⟨h.did, utf8 t⟩ := by
      simp only [Spec.wrap, hkid, Message.setBody, valueOfText_mediated, Res.ofOpt_some, Res.bind_ok]
      rw [(C08_to_appends (Message.new h.uuid) [h.did]).1, new_to hd]
      show (Message.sealJwe P h.rand (Spec.forwardMessage h.uuid h.did frm kid a b) ssk (some [h.key]) >>= fun t =>
        Res.ok ((Mediated.new h.did).withPayload (utf8 t))) = _
      rw [htx]
      rfl
    obtain ⟨b', hb'⟩ := ih (fun x hx => hh x (by simp [hx])) ⟨h.did, utf8 t⟩
    exact ⟨b', by simp only [Spec.wrapAll, hw, Res.bind_ok, hb']⟩

/-- C88.  `routed_by` is one such layer around the sealed message. -/
theorem C88_routed_by (P : Prims) (r1 : Message.SealRand) (m : Message) (ssk : Bytes)
    (keys : Option (List (Option Bytes))) (h : Spec.Hop) (t : Str) :
    m.routedBy P r1 h.rand h.uuid ssk keys h.did h.key = .ok t ↔
      ∃ a dest inner, crypterOfHeader m.jwm = .ok a ∧ m.didcomm.to.head? = some dest ∧
        m.sealJwe P r1 ssk keys = .ok inner ∧
        Spec.wrap P a (m.didcomm.from.getD []) ssk h ⟨dest, utf8 inner⟩ = .ok ⟨h.did, utf8 t⟩ := by
  constructor
  · intro hr
    simp only [Message.routedBy, Res.bind_eq_ok] at hr
    obtain ⟨a, ha, dest, hn, inner, hi, f, hf, ht⟩ := hr
    have hn' : m.didcomm.to.head? = some dest := by
      cases hh : m.didcomm.to.head? with
      | none => rw [hh] at hn; cases hn
      | some x => rw [hh] at hn; rw [Res.ok.inj hn]
    refine ⟨a, dest, inner, ha, hn', hi, ?_⟩
    rw [show (⟨dest, utf8 inner⟩ : Mediated) = (Mediated.new dest).withPayload (utf8 inner) from rfl]
    simp only [Spec.wrap, hf, Res.bind_ok, ht]
    rfl
  · rintro ⟨a, dest, inner, ha, hn, hi, hw⟩
    simp only [Spec.wrap, Res.bind_eq_ok, Res.pure_eq, Res.ok.injEq] at hw
    obtain ⟨f, hf, t', ht', he⟩ := hw
    obtain rfl : t' = t := utf8_injective (congrArg Mediated.payload he)
    simp only [Message.routedBy, ha, hn, hi, Res.bind_ok, Res.unwrap]
    rw [show (⟨dest, utf8 inner⟩ : Mediated) = (Mediated.new dest).withPayload (utf8 inner) from rfl] at hf
    rw [hf]
    exact ht'

/-! ## C91 -/

theorem utf8_length (s : Str) : s.length ≤ (utf8 s).length := by
  induction s with
  | nil => exact Nat.le_refl _
  | cons c s ih =>
    have h : 1 ≤ (utf8Char c).length := by
      simp only [utf8Char]
      split
      · exact Nat.le_refl _
      · split
        · exact (by decide : 1 ≤ 2)
        · split
          · exact (by decide : 1 ≤ 3)
          · exact (by decide : 1 ≤ 4)
    simp only [utf8, List.flatMap_cons, List.length_append, List.length_cons] at ih ⊢
    omega

theorem utf8_graphic {s : Str} (h : ∀ c ∈ s, 32 ≤ c.toNat) : ∀ b ∈ utf8 s, 32 ≤ b.toNat := by
  intro b hb
  simp only [utf8, List.mem_flatMap] at hb
  obtain ⟨c, hc, hb⟩ := hb
  have h1 := h c hc
  have h2 : c.toNat < 1114112 := by
    rcases c.valid with h | h
    · have : c.toNat < 55296 := h; omega
    · exact h.2
  simp only [utf8Char] at hb
  split at hb
  · simp only [List.mem_singleton] at hb
    subst hb
    rw [UInt8.toNat_ofNat']; omega
  · split at hb
    · simp only [List.mem_cons, List.not_mem_nil, or_false] at hb
      rcases hb with rfl | rfl <;> rw [UInt8.toNat_ofNat'] <;> omega
    · split at hb
      · simp only [List.mem_cons, List.not_mem_nil, or_false] at hb
        rcases hb with rfl | rfl | rfl <;> rw [UInt8.toNat_ofNat'] <;> omega
      · simp only [List.mem_cons, List.not_mem_nil, or_false] at hb
        rcases hb with rfl | rfl | rfl | rfl <;> rw [UInt8.toNat_ofNat'] <;> omega

theorem hexDigit_graphic : ∀ n, n < 16 → 32 ≤ (hexDigit n).toNat := by decide

theorem printStr_graphic (s : Str) : ∀ c ∈ printStr s, 32 ≤ c.toNat := by
  intro c hc
  simp only [printStr, List.mem_cons, List.mem_append, List.mem_flatMap, List.not_mem_nil, or_false] at hc
  have hesc : ∀ x : Char, ∀ c ∈ escChar x, 32 ≤ c.toNat := by
    intro x c hx
    unfold escChar at hx
    by_cases h : x.toNat < 32
    · repeat' split at hx
      all_goals simp only [List.mem_cons, List.not_mem_nil, or_false] at hx
      all_goals first
        | (rcases hx with rfl | rfl <;> decide)
        | (rcases hx with rfl | rfl | rfl | rfl | rfl | rfl <;> first | decide | exact hexDigit_graphic _ (by omega))
        | (subst hx; omega)
    · repeat' split at hx
      all_goals simp only [List.mem_cons, List.not_mem_nil, or_false] at hx
      all_goals first
        | (rcases hx with rfl | rfl <;> decide)
        | (subst hx; omega)
        | (exfalso; omega)
  rcases hc with rfl | ⟨x, -, hx⟩ | rfl
  · decide
  · exact hesc x c hx
  · decide

theorem digits_graphic {d : Str} (h : Spec.Digits d) : ∀ c ∈ d, 32 ≤ c.toNat := by
  intro c hc
  have h1 := (h.2 c hc).1
  have : '0'.toNat = 48 := rfl
  omega

theorem numTok_graphic {t : Str} (h : Spec.NumTok t) : ∀ c ∈ t, 32 ≤ c.toNat := by
  obtain ⟨sign, int, frac, exp, rfl, hs, hi, hf, he⟩ := h
  intro c hc
  simp only [List.mem_append] at hc
  rcases hc with ((hc | hc) | hc) | hc
  · rcases hs with rfl | rfl
    · cases hc
    · obtain rfl := List.mem_singleton.1 hc; decide
  · rcases hi with rfl | ⟨hd, -⟩
    · obtain rfl := List.mem_singleton.1 hc; decide
    · exact digits_graphic hd c hc
  · rcases hf with rfl | ⟨d, hd, rfl⟩
    · cases hc
    · rcases List.mem_cons.1 hc with rfl | hc
      · decide
      · exact digits_graphic hd c hc
  · rcases he with rfl | ⟨e, sg, d, he, hsg, hd, rfl⟩
    · cases hc
    · rcases List.mem_cons.1 hc with rfl | hc
      · rcases he with rfl | rfl <;> decide
      · rcases List.mem_append.1 hc with hc | hc
        · rcases hsg with rfl | rfl | rfl
          · cases hc
          · obtain rfl := List.mem_singleton.1 hc; decide
          · obtain rfl := List.mem_singleton.1 hc; decide
        · exact digits_graphic hd c hc

mutual
theorem printJson_graphic : ∀ (j : Json), Spec.NumsOk j → ∀ c ∈ printJson j, 32 ≤ c.toNat
  | .null, _ => by unfold printJson; decide
  | .bool true, _ => by unfold printJson; decide
  | .bool false, _ => by unfold printJson; decide
  | .num t, h => by unfold printJson; exact numTok_graphic h
  | .str s, _ => by unfold printJson; exact printStr_graphic s
  | .arr l, h => by
    unfold printJson
    intro c hc
    rcases List.mem_cons.1 hc with rfl | hc
    · decide
    · exact printElems_graphic l h c hc
  | .obj es, h => by
    unfold printJson
    intro c hc
    rcases List.mem_cons.1 hc with rfl | hc
    · decide
    · exact printMembers_graphic es h c hc
theorem printElems_graphic : ∀ (l : List Json), Spec.NumsOkL l → ∀ c ∈ printElems l, 32 ≤ c.toNat
  | [], _ => by unfold printElems; decide
  | [j], h => by
    unfold printElems
    intro c hc
    rcases List.mem_append.1 hc with hc | hc
    · exact printJson_graphic j h.1 c hc
    · obtain rfl := List.mem_singleton.1 hc; decide
  | j :: k :: l, h => by
    unfold printElems
    intro c hc
    rcases List.mem_append.1 hc with hc | hc
    · exact printJson_graphic j h.1 c hc
    · rcases List.mem_cons.1 hc with rfl | hc
      · decide
      · exact printElems_graphic (k :: l) h.2 c hc
theorem printMembers_graphic : ∀ (l : List (Str × Json)), Spec.NumsOkM l → ∀ c ∈ printMembers l, 32 ≤ c.toNat
  | [], _ => by unfold printMembers; decide
  | [(k, v)], h => by
    unfold printMembers
    intro c hc
    rcases List.mem_append.1 hc with hc | hc
    · exact printStr_graphic k c hc
    · rcases List.mem_cons.1 hc with rfl | hc
      · decide
      · rcases List.mem_append.1 hc with hc | hc
        · exact printJson_graphic v h.1 c hc
        · obtain rfl := List.mem_singleton.1 hc; decide
  | (k, v) :: p :: l, h => by
    unfold printMembers
    intro c hc
    rcases List.mem_append.1 hc with hc | hc
    · exact printStr_graphic k c hc
    · rcases List.mem_cons.1 hc with rfl | hc
      · decide
      · rcases List.mem_append.1 hc with hc | hc
        · exact printJson_graphic v h.1 c hc
        · rcases List.mem_cons.1 hc with rfl | hc
          · decide
          · exact printMembers_graphic (p :: l) h.2 c hc
end

theorem printMembers_length {k : Str} {v : Json} : ∀ {es : List (Str × Json)}, (k, v) ∈ es →
    (printJson v).length ≤ (printMembers es).length
  | [], h => by cases h
  | [p], h => by
    obtain rfl := List.mem_singleton.1 h
    simp only [printMembers, List.length_append, List.length_cons]
    omega
  | p :: q :: es, h => by
    rcases List.mem_cons.1 h with rfl | h
    · simp only [printMembers, List.length_append, List.length_cons]
      omega
    · have := printMembers_length h
      obtain ⟨k', v'⟩ := p
      rw [printMembers]
      · simp only [List.length_append, List.length_cons]
        omega
      · intro h; cases h

/-- The text of a member is no longer than the text of the object. -/
theorem member_length {k : Str} {v : Json} {es : List (Str × Json)} (h : (k, v) ∈ es) :
    (printJson v).length ≤ (printJson (.obj es)).length := by
  rw [printJson]
  exact Nat.le_trans (printMembers_length h) (Nat.le_succ _)

theorem str_length (s : Str) : s.length ≤ (printJson (.str s)).length := by
  have h : s.length ≤ (s.flatMap escChar).length := by
    induction s with
    | nil => exact Nat.le_refl _
    | cons c s ih =>
      have : 1 ≤ (escChar c).length := by
        unfold escChar
        repeat' split
        all_goals simp
      simp only [List.flatMap_cons, List.length_append, List.length_cons]
      omega
  simp only [printJson, printStr, List.length_append, List.length_cons]
  omega

theorem natDec_two : ∀ n, n < 256 → 10 ≤ n → 2 ≤ (natDec n).length := by decide +kernel

theorem bytes_length : ∀ (l : Bytes), (∀ b ∈ l, 10 ≤ b.toNat) → 3 * l.length ≤ (printElems (l.map encU8)).length
  | [], _ => Nat.zero_le _
  | [b], h => by
    have := natDec_two b.toNat b.toNat_lt (h b (by simp))
    simp only [List.map, printElems, encU8, printJson, List.length_append, List.length_cons, List.length_nil]
    omega
  | b :: c :: l, h => by
    have h1 := natDec_two b.toNat b.toNat_lt (h b (by simp))
    have h2 := bytes_length (c :: l) (fun x hx => h x (List.mem_cons_of_mem _ hx))
    rw [List.map_cons, List.map_cons, printElems]
    · rw [List.map_cons] at h2
      simp only [encU8, printJson, List.length_append, List.length_cons] at h2 ⊢
      omega
    · intro h; cases h

/-- One layer: the bytes to be passed on become at least four times as many. -/
theorem wrap_grows {P : Prims} (hP : Laws P) {a : CryptoAlg} {frm : Str} {ssk : Bytes} {h : Spec.Hop}
    {b b' : Mediated} (hb : ∀ x ∈ b.payload, 10 ≤ x.toNat) (hw : Spec.wrap P a frm ssk h b = .ok b') :
    4 * b.payload.length ≤ b'.payload.length ∧ ∀ x ∈ b'.payload, 10 ≤ x.toNat := by
  obtain ⟨kid, t, ht, rfl⟩ := wrap_ok hw
  obtain ⟨pks, rs, a', c, tag, alg, hp, hpl, hk, hto, hfl, hrs, hl, hal, ha, he, htag, rfl⟩ := seal_ok ht
  have hlen := encryptor_len hP (ofStr_ne_cbc ha) he
  rw [List.length_append, htag] at hlen
  have h0 := bytes_length b.payload hb
  have h1 : (printElems (b.payload.map encU8)).length ≤ (printJson (encMediated b)).length := by
    refine Nat.le_trans ?_ (member_length (k := c!"payloads~attach") (v := .arr (b.payload.map encU8)) (by simp))
    rw [printJson]
    exact Nat.le_succ _
  have h2 : (printJson (encMediated b)).length ≤
      (Message.text (h.rand.ord.sub 1)
        { Spec.forwardMessage h.uuid h.did frm kid a b with recipients := some rs }).length := by
    refine member_length (k := c!"body") ?_
    simp [Spec.forwardMessage]
  have h3 := utf8_length (Message.text (h.rand.ord.sub 1)
    { Spec.forwardMessage h.uuid h.did frm kid a b with recipients := some rs })
  have h4 : (b64Encode c).length ≤ (Jwe.text (h.rand.ord.sub 2)
      (Spec.envelope (Spec.forwardMessage h.uuid h.did frm kid a b) rs h.rand.iv.1 c tag)).length := by
    refine Nat.le_trans (str_length _) (member_length (k := c!"ciphertext") ?_)
    simp [Spec.envelope]
  have h5 := utf8_length (Jwe.text (h.rand.ord.sub 2)
      (Spec.envelope (Spec.forwardMessage h.uuid h.did frm kid a b) rs h.rand.iv.1 c tag))
  rw [b64Encode_length] at h4
  refine ⟨?_, ?_⟩
  · show 4 * b.payload.length ≤ (utf8 _).length
    dsimp only at h2 h3 hlen
    omega
  · intro x hx
    have := utf8_graphic (printJson_graphic _ (nums_jwe _ _)) x hx
    omega

/-- C91.  Routing through `n` mediators makes a text at least `4 ^ n` times as long, because each layer writes
the bytes it carries as a list of decimal numbers and then in base64. -/
theorem C91_growth (P : Prims) (hP : Laws P) (a : CryptoAlg) (frm : Str) (ssk : Bytes) (hs : List Spec.Hop)
    (b b' : Mediated) (hb : ∀ x ∈ b.payload, 10 ≤ x.toNat) (hw : Spec.wrapAll P a frm ssk hs b = .ok b') :
    4 ^ hs.length * b.payload.length ≤ b'.payload.length := by
  induction hs generalizing b with
  | nil => rw [Res.ok.inj hw]; simp
  | cons h hs ih =>
    simp only [Spec.wrapAll, Res.bind_eq_ok] at hw
    obtain ⟨b1, h1, h2⟩ := hw
    obtain ⟨h3, h4⟩ := wrap_grows hP hb h1
    have h5 := ih b1 h4 h2
    rw [List.length_cons, Nat.pow_succ, Nat.mul_assoc]
    exact Nat.le_trans (Nat.mul_le_mul_left _ h3) h5

/-- C91.  The text of every sealed message qualifies: it has no control characters. -/
theorem C91_sealed (P : Prims) (r : Message.SealRand) (m : Message) (ssk : Bytes)
    (keys : Option (List (Option Bytes))) (t : Str) (h : m.sealJwe P r ssk keys = .ok t) :
    ∀ x ∈ utf8 t, 32 ≤ x.toNat := by
  obtain ⟨pks, rs, a, c, tag, alg, -, -, -, -, -, -, -, -, -, -, -, rfl⟩ := seal_ok h
  exact utf8_graphic (printJson_graphic _ (nums_jwe _ _))

/-! ## The hypotheses can be met -/

/-- A mediator with key number `i`. -/
def exampleHop (i : Nat) : Spec.Hop where
  did := c!"did:m:m"
  key := some ((toy fun _ => none).x25519Pub (exampleKey i))
  uuid := c!"u"
  rand := exampleRand
  secret := exampleKey i
  senderKey := some ((toy fun _ => none).x25519Pub (exampleKey 3))
  verifyKey := none
  ord := HOrd.rev

/-- C88, C91: any number of mediators, a payload of five bytes. -/
example (n : Nat) : ∃ b', Spec.wrapAll (toy fun _ => none) .a256gcm c!"did:e:f" (exampleKey 3)
      ((List.range n).map exampleHop) ⟨c!"did:a:b", utf8 c!"hello"⟩ = .ok b' ∧
    Spec.unwrapAll (toy fun _ => none) ((List.range n).map exampleHop).reverse b' =
      some ⟨c!"did:a:b", utf8 c!"hello"⟩ ∧ 4 ^ n * 5 ≤ b'.payload.length := by
  have hl := toy_laws fun _ => none
  obtain ⟨b', h⟩ := C88_total (toy fun _ => none) hl (toy_total _) .a256gcm (by decide) c!"did:e:f" (exampleKey 3)
    (by decide) ((List.range n).map exampleHop) (by
      intro h hh
      obtain ⟨i, -, rfl⟩ := List.mem_map.1 hh
      exact ⟨(by intro h; cases h), _, hl.pub_len _, .inl rfl⟩) ⟨c!"did:a:b", utf8 c!"hello"⟩
  refine ⟨b', h, C88_any_mediators _ hl _ _ _ _ ?_ _ _ h, ?_⟩
  · intro x hx
    obtain ⟨i, -, rfl⟩ := List.mem_map.1 hx
    exact ⟨by simp [exampleHop, exampleKey], .inl rfl, .inl rfl⟩
  · have := C91_growth _ hl _ _ _ _ _ _ (by decide) h
    simpa [utf8, utf8Char] using this

end Verif
