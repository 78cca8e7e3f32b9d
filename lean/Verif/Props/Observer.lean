import Verif.Props.Onion
import Verif.Props.Open

/-!
# Observers of routed messages

C143.
-/

namespace Verif

open Spec

/-- What an observer without any key tries: decrypt the bytes under the constant, read the body. -/
def Spec.peel (P : Prims) (a : CryptoAlg) (o : HOrd) (b : Bytes) : Option Mediated :=
  match Message.decrypt P o b (a.decrypter P) Spec.zeroStream with
  | .ok f =>
    match f.getBody with
    | .ok s => (parseJson s).bind decMediated
    | _ => none
  | _ => none

/-- Layer after layer, with the orders `o` at hand. -/
def Spec.peelAll (P : Prims) (a : CryptoAlg) (o : Nat → HOrd) : Nat → Mediated → Option Mediated
  | 0, b => some b
  | n + 1, b => (Spec.peel P a (o n) b.payload).bind (Spec.peelAll P a o n)

theorem forward_crypter {uuid med frm : Str} {kid : Option Str} {a : CryptoAlg} {b : Mediated} (ha : a ≠ .a256cbc) :
    crypterOfHeader (Spec.forwardMessage uuid med frm kid a b).jwm = .ok a := by
  cases a with
  | a256cbc => exact absurd rfl ha
  | xc20p => rfl
  | a256gcm => rfl

theorem forward_fixed {uuid med frm : Str} {kid : Option Str} {a : CryptoAlg} {b : Mediated} :
    HeaderFixed (Spec.forwardMessage uuid med frm kid a b).jwm := by
  cases a <;> exact ⟨(by intro k h; cases h), (by intro k h; cases h)⟩

theorem peel_forward {P : Prims} (hP : Laws P) {r : Message.SealRand} {uuid med frm : Str} {kid : Option Str}
    {a : CryptoAlg} {b : Mediated} {ssk : Bytes} {keys : Option (List (Option Bytes))} {t : Str} (ha : a ≠ .a256cbc) (o : HOrd)
    (h : (Spec.forwardMessage uuid med frm kid a b).sealJwe P r ssk keys = .ok t) :
    Spec.peel P a o (utf8 t) = some b := by
  obtain ⟨a', rs, h1, h2⟩ := C32_universal_key_violated P hP r o _ ssk keys t (forward_wf P.f64 uuid med frm kid a b)
    forward_fixed h
  obtain rfl := Res.ok.inj ((forward_crypter ha).symm.trans h1)
  unfold Spec.peel
  rw [h2]
  show (parseJson (printJson (encMediated b))).bind decMediated = some b
  rw [parse_mediated, Option.bind_some, decMediated_enc]

theorem peelAll_snoc {P : Prims} {a : CryptoAlg} {b b' : Mediated} (h : ∀ o, Spec.peel P a o b'.payload = some b)
    (n : Nat) (o : Nat → HOrd) (c : Mediated) (hc : Spec.peelAll P a (fun i => o (i + 1)) n c = some b') :
    Spec.peelAll P a o (n + 1) c = some b := by
  induction n generalizing c with
  | zero =>
    obtain rfl := Option.some.inj hc
    show (Spec.peel P a (o 0) c.payload).bind _ = _
    rw [h]
    rfl
  | succ n ih =>
    rw [Spec.peelAll, Option.bind_eq_some_iff] at hc ⊢
    obtain ⟨d, hd, hc⟩ := hc
    exact ⟨d, hd, ih d hc⟩

/-- C143, as written, is false: whoever sees a routed message finds, without any key, the name of the recipient and the
message. -/
theorem C143_observer_violated (P : Prims) (hP : Laws P) (r1 r2 : Message.SealRand) (uuid : Str) (m : Message)
    (ssk : Bytes) (keys : Option (List (Option Bytes))) (med : Str) (mkey : Option Bytes) (t : Str)
    (hm : m.WF P.f64) (hf : HeaderFixed m.jwm) (hroute : m.routedBy P r1 r2 uuid ssk keys med mkey = .ok t) (o o' : HOrd) :
    ∃ a b rs, crypterOfHeader m.jwm = .ok a ∧ Spec.peel P a o (utf8 t) = some b ∧ m.didcomm.to.head? = some b.next ∧
      Message.decrypt P o' b.payload (a.decrypter P) Spec.zeroStream =
        .ok { m with recipients := some rs, flatJwe := false, flatJws := false } := by
  obtain ⟨a, next, inner, kid, ha, hn, hi, ht⟩ := routed_ok hroute
  obtain ⟨a', rs, h1, h2⟩ := C32_universal_key_violated P hP r1 o' m ssk keys inner hm hf hi
  obtain rfl := Res.ok.inj (ha.symm.trans h1)
  have hne : a ≠ .a256cbc := by
    obtain ⟨_, _, _, _, _, alg, -, -, -, -, -, -, -, hal, ha', -⟩ := seal_ok hi
    rw [crypterOfHeader, hal] at ha
    exact ofStr_ne_cbc ha
  exact ⟨a, _, rs, ha, peel_forward hP hne o ht, hn, h2⟩

/-- C143, as written, is false for any number of mediators: whoever sees what goes to the first of them finds, without any
key, what the last one is to pass on, and to whom. -/
theorem C143_mediators_violated (P : Prims) (hP : Laws P) (a : CryptoAlg) (ha : a ≠ .a256cbc) (frm : Str) (ssk : Bytes)
    (hs : List Spec.Hop) (b b' : Mediated) (hw : Spec.wrapAll P a frm ssk hs b = .ok b') (o : Nat → HOrd) :
    Spec.peelAll P a o hs.length b' = some b := by
  induction hs generalizing b o with
  | nil => rw [Res.ok.inj hw]; rfl
  | cons h hs ih =>
    simp only [Spec.wrapAll, Res.bind_eq_ok] at hw
    obtain ⟨b1, h1, h2⟩ := hw
    obtain ⟨kid, t, ht, rfl⟩ := wrap_ok h1
    exact peelAll_snoc (fun o => peel_forward hP ha o ht) _ _ _ (ih _ h2 _)

/-- C33 for the first recipient, with what is seen of the envelope expressed by the message. -/
theorem forged_first {P : Prims} (hP : Laws P) (ht : Spec.AeadTotal P) {r : Message.SealRand} {m : Message} {ssk : Bytes}
    {keys : Option (List (Option Bytes))} {t frm dest : Str} (hm : m.WF P.f64) (hfrom : m.didcomm.from = some frm)
    (hto : m.didcomm.to.head? = some dest) (hseal : m.sealJwe P r ssk keys = .ok t) :
    ∃ j rs a, Jwe.ofText P.f64 t = some j ∧ Message.recipientsOf j = some rs ∧ crypterOfHeader m.jwm = .ok a ∧
      ∀ (m' : Message) (o' : HOrd) (iv' : Iv), m'.WF P.f64 →
        Avoids m'.didcomm.other classKeys → HeaderFixed m'.jwm → m'.jwm.typ ≠ .jws →
        m'.didcomm.from = some frm → m'.jwm.alg = m.jwm.alg → m'.flatJwe = false →
        ∃ t', Message.encrypt o' iv' { m' with recipients := some rs } (a.encryptor P) Spec.zeroStream = .ok t' ∧
        ∀ (rsk : Bytes) (ek vk : Option Bytes) (o : HOrd), rsk.length = 32 →
          KeyFor P dest (Spec.keyAt keys 0) (P.x25519Pub rsk) → KeyFor P frm ek (P.x25519Pub ssk) →
          Message.receive P o t' (some rsk) ek vk =
            .ok { m' with recipients := some rs, flatJwe := false, flatJws := false } := by
  obtain ⟨j, rs, a, hj, hr, ha, h⟩ := C33_forgery_violated P hP ht r m ssk keys t frm hm hfrom hseal
  have hjs : j.getSkid = some frm ∧ j.getAlg = m.jwm.alg := by
    obtain ⟨pks, rs', a', c, tag, alg, -, -, -, -, -, hrs, -, hal, -, -, -, hte⟩ := seal_ok hseal
    rw [hte, jwe_ofText_text (F := P.f64) _ (envelope_wf hm.jwm (sealRecipients_wf hrs))] at hj
    obtain rfl := Option.some.inj hj
    exact ⟨by rw [envelope_skid, hfrom], by rw [envelope_alg hal, hal]⟩
  refine ⟨j, rs, a, hj, hr, ha, fun m' o' iv' h1 h2 h3 h4 h5 h6 h7 => ?_⟩
  obtain ⟨t', ht', hrec⟩ := h m' o' iv' h1 h2 h3 h4 (h5.trans hjs.1.symm) (h6.trans hjs.2.symm) h7
  exact ⟨t', ht', fun rsk ek vk o hk hkr hks => hrec 0 dest rsk ek vk o (by rw [← hto, List.head?_eq_getElem?]) hk hkr hks
    (by simp)⟩

/-- C143, as written, is false: whoever sees a routed message can put any other message in its place, without any key: the
mediator receives a forward message from the sender, and what it passes on is received by the recipient as coming from the
sender.  `f` is the forward message that is seen, `rs` and `rs'` are the recipient entries of the two envelopes that are
seen; `inner'` and `t'` are made of them by the public function `encrypt` and the constant. -/
theorem C143_replaced_violated (P : Prims) (hP : Laws P) (ht : Spec.AeadTotal P) (r1 r2 : Message.SealRand) (uuid : Str)
    (m : Message) (ssk : Bytes) (keys : Option (List (Option Bytes))) (med : Str) (mkey : Option Bytes) (t frm dest : Str)
    (hm : m.WF P.f64) (hfrom : m.didcomm.from = some frm) (hto : m.didcomm.to.head? = some dest)
    (hroute : m.routedBy P r1 r2 uuid ssk keys med mkey = .ok t)
    (m' : Message) (hm' : m'.WF P.f64) (hc : Avoids m'.didcomm.other classKeys) (hf : HeaderFixed m'.jwm)
    (hj : m'.jwm.typ ≠ .jws) (hfrom' : m'.didcomm.from = some frm) (hal : m'.jwm.alg = m.jwm.alg)
    (hflat : m'.flatJwe = false) (o : HOrd) (iv : Iv) :
    ∃ (a : CryptoAlg) (f : Message) (b : Mediated) (j' : Jwe) (rs rs' : List Recipient) (inner' t' : Str),
      Message.decrypt P o (utf8 t) (a.decrypter P) Spec.zeroStream = .ok f ∧ Spec.peel P a o (utf8 t) = some b ∧
      (Jwe.ofText P.f64 t).bind Message.recipientsOf = some rs ∧
      ((utf8Decode b.payload).bind (Jwe.ofText P.f64)) = some j' ∧ Message.recipientsOf j' = some rs' ∧
      Message.encrypt o iv { m' with recipients := some rs' } (a.encryptor P) Spec.zeroStream = .ok inner' ∧
      Message.encrypt o iv { f with body := encMediated ⟨b.next, utf8 inner'⟩, recipients := some rs } (a.encryptor P)
        Spec.zeroStream = .ok t' ∧
      (∀ (msk : Bytes) (mek vk : Option Bytes) (om : HOrd), msk.length = 32 → KeyFor P med mkey (P.x25519Pub msk) →
        KeyFor P frm mek (P.x25519Pub ssk) →
        ∃ f s, Message.receive P om t' (some msk) mek vk = .ok f ∧ f.jwm.typ = .forward ∧ f.didcomm.from = some frm ∧
          f.getBody = .ok s ∧ (parseJson s).bind decMediated = some ⟨dest, utf8 inner'⟩) ∧
      ∀ (rsk : Bytes) (ek vk : Option Bytes) (or' : HOrd), rsk.length = 32 →
        KeyFor P dest (Spec.keyAt keys 0) (P.x25519Pub rsk) → KeyFor P frm ek (P.x25519Pub ssk) →
        Message.receive P or' inner' (some rsk) ek vk =
          .ok { m' with recipients := some rs', flatJwe := false, flatJws := false } := by
  obtain ⟨a, next, inner, kid, ha, hn, hi, htx⟩ := routed_ok hroute
  obtain rfl : dest = next := Option.some.inj (hto.symm.trans hn)
  have hne : a ≠ .a256cbc := by
    obtain ⟨_, _, _, _, _, alg, -, -, -, -, -, -, -, hal, ha', -⟩ := seal_ok hi
    rw [crypterOfHeader, hal] at ha
    exact ofStr_ne_cbc ha
  rw [hfrom, Option.getD_some] at htx
  obtain ⟨a', rs0, ha', hdec⟩ := C32_universal_key_violated P hP r2 o _ ssk _ t
    (forward_wf P.f64 uuid med frm kid a ⟨dest, utf8 inner⟩) forward_fixed htx
  obtain rfl := Res.ok.inj ((forward_crypter hne).symm.trans ha')
  obtain ⟨j', rs', a1, hj', hr', ha1, h1⟩ := forged_first hP ht hm hfrom hto hi
  obtain rfl := Res.ok.inj (ha.symm.trans ha1)
  obtain ⟨inner', hin, h1⟩ := h1 m' o iv hm' hc hf hj hfrom' hal hflat
  obtain ⟨j, rs, a2, hjt, hr, ha2, h2⟩ := forged_first (dest := med) hP ht (forward_wf P.f64 uuid med frm kid a ⟨dest, utf8 inner⟩)
    rfl rfl htx
  obtain rfl := Res.ok.inj ((forward_crypter hne).symm.trans ha2)
  obtain ⟨t', ht', h2⟩ := h2 (Spec.forwardMessage uuid med frm kid a ⟨dest, utf8 inner'⟩) o iv
    (forward_wf P.f64 uuid med frm kid a ⟨dest, utf8 inner'⟩) (by intro k _; rfl) forward_fixed (by intro h; cases h) rfl rfl rfl
  refine ⟨a, _, ⟨dest, utf8 inner⟩, j', rs, rs', inner', t', hdec, peel_forward hP hne o htx, by rw [hjt]; exact hr, ?_, hr', hin, ht', ?_, h1⟩
  · rw [utf8Decode_utf8]
    exact hj'
  · intro msk mek vk om hmk hkm hks
    refine ⟨_, _, h2 msk mek vk om hmk hkm hks, rfl, rfl, rfl, ?_⟩
    show (parseJson (printJson (encMediated _))).bind decMediated = _
    rw [parse_mediated, Option.bind_some, decMediated_enc]

/-! ## The hypotheses can be met -/

/-- C143: a message routed by a mediator, and another one with which it is replaced. -/
example : ∃ t, exampleMessage.routedBy (toy fun _ => none) exampleRand exampleRand c!"u" (exampleKey 3)
      (some [some ((toy fun _ => none).x25519Pub (exampleKey 1)),
        some ((toy fun _ => none).x25519Pub (exampleKey 2))]) c!"did:m:m"
      (some ((toy fun _ => none).x25519Pub (exampleKey 4))) = .ok t ∧
    (∃ a b rs, Spec.peel (toy fun _ => none) a HOrd.rev (utf8 t) = some b ∧ b.next = c!"did:a:b" ∧
      Message.decrypt (toy fun _ => none) HOrd.id b.payload (a.decrypter (toy fun _ => none)) Spec.zeroStream =
        .ok { exampleMessage with recipients := some rs }) ∧
    ∃ t' f s inner' rs', Message.receive (toy fun _ => none) HOrd.rev t' (some (exampleKey 4))
        (some ((toy fun _ => none).x25519Pub (exampleKey 3))) none = .ok f ∧ f.getBody = .ok s ∧
      (parseJson s).bind decMediated = some ⟨c!"did:a:b", utf8 inner'⟩ ∧
      Message.receive (toy fun _ => none) HOrd.rev inner' (some (exampleKey 1))
        (some ((toy fun _ => none).x25519Pub (exampleKey 3))) none =
          .ok { exampleMessage with body := .obj [(c!"pay", .str c!"all")], recipients := some rs' } := by
  have hl := toy_laws fun _ => none
  have hw := exampleMessage_wf (toy fun _ => none).f64
  have hfix : HeaderFixed exampleMessage.jwm := ⟨(by intro k h; cases h), (by intro k h; cases h)⟩
  obtain ⟨s, hs⟩ := exampleSealed
  obtain ⟨t, ht⟩ := C41_total _ hl (toy_total _) exampleRand exampleRand c!"u" exampleMessage (exampleKey 3) _
    c!"did:m:m" (some ((toy fun _ => none).x25519Pub (exampleKey 4))) s hs (by decide) _ (hl.pub_len _) (.inl rfl)
  refine ⟨t, ht, ?_, ?_⟩
  · obtain ⟨a, b, rs, -, h1, h2, h3⟩ := C143_observer_violated _ hl exampleRand exampleRand c!"u" exampleMessage
      (exampleKey 3) _ c!"did:m:m" _ t hw hfix ht HOrd.rev HOrd.id
    exact ⟨a, b, rs, h1, (Option.some.inj h2).symm, h3⟩
  · obtain ⟨a, f0, b, j', rs, rs', inner', t', -, -, -, -, -, -, -, h1, h2⟩ := C143_replaced_violated _ hl (toy_total _)
      exampleRand exampleRand c!"u" exampleMessage (exampleKey 3) _ c!"did:m:m" _ t c!"did:e:f" c!"did:a:b" hw rfl rfl ht
      { exampleMessage with body := .obj [(c!"pay", .str c!"all")] }
      ⟨hw.jwm, hw.other, hw.to, hw.recipients, ⟨by simp [SortedKeys], trivial, trivial⟩, ⟨trivial, trivial⟩, by decide⟩
      (by decide) hfix (by decide) rfl rfl rfl HOrd.id exampleRand.iv
    obtain ⟨f, s, h3, -, -, h4, h5⟩ := h1 (exampleKey 4) (some ((toy fun _ => none).x25519Pub (exampleKey 3))) none HOrd.rev
      (by decide) (.inl rfl) (.inl rfl)
    exact ⟨t', f, s, inner', rs', h3, h4, h5, h2 (exampleKey 1) _ none HOrd.rev (by decide) (.inl rfl) (.inl rfl)⟩

/-- C143: any number of mediators. -/
example (n : Nat) : ∃ b', Spec.wrapAll (toy fun _ => none) .a256gcm c!"did:e:f" (exampleKey 3)
      ((List.range n).map exampleHop) ⟨c!"did:a:b", utf8 c!"hello"⟩ = .ok b' ∧
    Spec.peelAll (toy fun _ => none) .a256gcm (fun _ => HOrd.rev) n b' = some ⟨c!"did:a:b", utf8 c!"hello"⟩ := by
  have hl := toy_laws fun _ => none
  obtain ⟨b', h⟩ := C88_total (toy fun _ => none) hl (toy_total _) .a256gcm (by decide) c!"did:e:f" (exampleKey 3)
    (by decide) ((List.range n).map exampleHop) (by
      intro h hh
      obtain ⟨i, -, rfl⟩ := List.mem_map.1 hh
      exact ⟨(by intro h; cases h), _, hl.pub_len _, .inl rfl⟩) ⟨c!"did:a:b", utf8 c!"hello"⟩
  have := C143_mediators_violated _ hl _ (by decide) _ _ _ _ _ h fun _ => HOrd.rev
  rw [List.length_map, List.length_range] at this
  exact ⟨b', h, this⟩

end Verif
