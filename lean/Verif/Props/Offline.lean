import Verif.Model.Offline
import Verif.Props.Outcome

/-!
# Given keys and the resolver

C92: if the keys are given, the DID resolver plays no role.  C93: the build without the resolver is the
default one with a resolver that knows no DID, and it needs the keys to be given.
-/

namespace Verif

open Spec

/-- The same primitives with another resolver. -/
def Spec.withResolver (P : Prims) (res : Str → Option DidDoc) : Prims := { P with resolve := res }

/-- All keys are given. -/
def Spec.AllGiven (keys : Option (List (Option Bytes))) : Prop := ∃ l, keys = some l ∧ none ∉ l

/-! ## C92 -/

theorem encryptCek_resolver (P : Prims) (res : Str → Option DidDoc) (r : RecRand) (m : Message) (sk : Bytes)
    (dest : Str) (cek k : Bytes) :
    encryptCek (withResolver P res) r m sk dest cek (some k) = encryptCek P r m sk dest cek (some k) := rfl

theorem decryptCek_resolver (P : Prims) (res : Str → Option DidDoc) (j : Jwe) (sk : Bytes) (r : Recipient)
    (k : Bytes) : decryptCek (withResolver P res) j sk r (some k) = decryptCek P j sk r (some k) := rfl

theorem firstKey_resolver (P : Prims) (res : Str → Option DidDoc) (j : Jwe) (sk : Bytes) (l : List Recipient)
    (k : Bytes) :
    Message.firstKey (withResolver P res) j sk (some k) l = Message.firstKey P j sk (some k) l := by
  induction l with
  | nil => rfl
  | cons r l ih => simp only [Message.firstKey, decryptCek_resolver, ih]

theorem verifyLoop_resolver (P : Prims) (res : Str → Option DidDoc) (p : Str) (k : Bytes) (l : List Signature)
    (o : HOrd) :
    Message.verifyLoop (withResolver P res) p k o l = Message.verifyLoop P p k o l := by
  induction l generalizing o with
  | nil => rfl
  | cons r l ih =>
    simp only [Message.verifyLoop, ih]
    rfl

theorem verify_resolver (P : Prims) (res : Str → Option DidDoc) (o : HOrd) (b k : Bytes) :
    Message.verify (withResolver P res) o b k = Message.verify P o b k := by
  simp only [Message.verify, verifyLoop_resolver]
  rfl

theorem verifyEach_resolver (P : Prims) (res : Str → Option DidDoc) (b : Bytes) (k : Option Bytes)
    (l : List Signature) (o : HOrd) :
    Message.verifyEach (withResolver P res) b k o l = Message.verifyEach P b k o l := by
  induction l generalizing o with
  | nil => rfl
  | cons r l ih => simp only [Message.verifyEach, ih, verify_resolver]

theorem verifyStep_resolver (P : Prims) (res : Str → Option DidDoc) (o : HOrd) (s : Str) (k : Option Bytes) :
    Message.verifyStep (withResolver P res) o s k = Message.verifyStep P o s k := by
  simp only [Message.verifyStep, Message.receiveJws, Message.verifiedOf, verify_resolver, verifyEach_resolver]
  rfl

/-- C92.  With the sender's key given, what `receive` returns does not depend on the DID resolver. -/
theorem C92_receive_explicit (P : Prims) (res : Str → Option DidDoc) (o : HOrd) (s : Str)
    (sk vk : Option Bytes) (k : Bytes) :
    Message.receive (withResolver P res) o s sk (some k) vk = Message.receive P o s sk (some k) vk := by
  simp only [Message.receive, verifyStep_resolver, Message.decryptStep, Message.receiveJwe, Message.contentKey,
    firstKey_resolver]
  rfl

theorem sealRecipients_resolver (P : Prims) (res : Str → Option DidDoc) (r : Nat → RecRand) (m : Message)
    (sk cek : Bytes) (l : List (Str × Option Bytes)) (i : Nat) (h : ∀ p ∈ l, p.2 ≠ none) :
    Message.sealRecipients (withResolver P res) r m sk cek i l = Message.sealRecipients P r m sk cek i l := by
  induction l generalizing i with
  | nil => rfl
  | cons p l ih =>
    obtain ⟨d, k⟩ := p
    cases k with
    | none => exact absurd rfl (h _ (List.mem_cons_self ..))
    | some k =>
      simp only [Message.sealRecipients, encryptCek_resolver, ih _ fun p hp => h p (List.mem_cons_of_mem _ hp)]

theorem sealKeys_given {m : Message} {l pks : List (Option Bytes)} (h : m.sealKeys (some l) = .ok pks) :
    l = pks := by
  simp only [Message.sealKeys] at h
  split at h
  · cases h
  · exact Res.ok.inj h

theorem given_zip {α : Type} {l : List (Option Bytes)} (h : none ∉ l) (t : List α) :
    ∀ p ∈ t.zip l, p.2 ≠ none := by
  rintro ⟨a, b⟩ hp rfl
  exact h (List.of_mem_zip hp).2

/-- C92.  With a key given for each recipient, what `seal` returns does not depend on the DID resolver. -/
theorem C92_seal_explicit (P : Prims) (res : Str → Option DidDoc) (r : Message.SealRand) (m : Message)
    (sk : Bytes) (keys : Option (List (Option Bytes))) (hk : AllGiven keys) :
    m.sealJwe (withResolver P res) r sk keys = m.sealJwe P r sk keys := by
  obtain ⟨l, rfl, hl⟩ := hk
  unfold Message.sealJwe
  cases hp : m.sealKeys (some l) with
  | err e => rfl
  | panic => rfl
  | ok pks =>
    obtain rfl := sealKeys_given hp
    simp only [Res.bind_ok, sealRecipients_resolver P res _ m sk cek (m.didcomm.to.zip l) 0 (given_zip hl _)]
    rfl

/-- C92.  The same for `seal_signed`. -/
theorem C92_seal_signed_explicit (P : Prims) (res : Str → Option DidDoc) (r : Message.SealRand) (o : HOrd)
    (m : Message) (sk : Bytes) (keys : Option (List (Option Bytes))) (a : SignAlg) (gk : Bytes)
    (hk : AllGiven keys) :
    m.sealSigned (withResolver P res) r o sk keys a gk = m.sealSigned P r o sk keys a gk := by
  simp only [Message.sealSigned, C92_seal_explicit P res r _ sk keys hk]
  cases a <;> rfl

/-- C92.  The same for `routed_by`, with the key of the mediator given too. -/
theorem C92_routed_explicit (P : Prims) (res : Str → Option DidDoc) (r1 r2 : Message.SealRand) (uuid : Str)
    (m : Message) (sk : Bytes) (keys : Option (List (Option Bytes))) (med : Str) (k : Bytes)
    (hk : AllGiven keys) :
    m.routedBy (withResolver P res) r1 r2 uuid sk keys med (some k) =
      m.routedBy P r1 r2 uuid sk keys med (some k) := by
  have hm : AllGiven (some [some k]) := ⟨_, rfl, by simp⟩
  simp only [Message.routedBy, C92_seal_explicit P res _ _ sk keys hk, C92_seal_explicit P res _ _ sk _ hm]
  rfl

/-! ## C93 -/

/-- The resolver that knows no DID. -/
def Spec.knowsNothing (P : Prims) : Prims := withResolver P fun _ => none

theorem encryptCekOffline_eq (P : Prims) (r : RecRand) (m : Message) (sk : Bytes) (dest : Str) (cek : Bytes)
    (key : Option Bytes) :
    encryptCekOffline P r m sk dest cek key = encryptCek (knowsNothing P) r m sk dest cek key := by
  cases key <;> rfl

theorem decryptCekOffline_eq (P : Prims) (j : Jwe) (sk : Bytes) (r : Recipient) (key : Option Bytes) :
    decryptCekOffline P j sk r key = decryptCek (knowsNothing P) j sk r key := by
  cases key <;> rfl

theorem firstKeyOffline_eq (P : Prims) (j : Jwe) (sk : Bytes) (key : Option Bytes) (l : List Recipient) :
    Message.firstKeyOffline P j sk key l = Message.firstKey (knowsNothing P) j sk key l := by
  induction l with
  | nil => rfl
  | cons r l ih =>
    simp only [Message.firstKeyOffline, Message.firstKey, decryptCekOffline_eq, ih]
    rfl

theorem sealRecipientsOffline_eq (P : Prims) (r : Nat → RecRand) (m : Message) (sk cek : Bytes)
    (l : List (Str × Option Bytes)) (i : Nat) :
    Message.sealRecipientsOffline P r m sk cek i l = Message.sealRecipients (knowsNothing P) r m sk cek i l := by
  induction l generalizing i with
  | nil => rfl
  | cons p l ih =>
    simp only [Message.sealRecipientsOffline, Message.sealRecipients, encryptCekOffline_eq, ih]

/-- C93.  `as_jwe` of the build without `resolve`. -/
theorem C93_as_jwe (P : Prims) (m : Message) (a : CryptoAlg) (key : Option Bytes) :
    m.asJweOffline a key = m.asJwe (knowsNothing P) a key := by
  cases key with
  | some k => rfl
  | none =>
    simp only [Message.asJweOffline, Message.asJwe]
    cases m.didcomm.from <;> rfl

/-- C93.  `seal` of the build without `resolve`. -/
theorem C93_seal (P : Prims) (r : Message.SealRand) (m : Message) (sk : Bytes)
    (keys : Option (List (Option Bytes))) :
    m.sealJweOffline P r sk keys = m.sealJwe (knowsNothing P) r sk keys := by
  simp only [Message.sealJweOffline, Message.sealJwe, sealRecipientsOffline_eq]
  rfl

/-- C93.  `seal_signed` of the build without `resolve`. -/
theorem C93_seal_signed (P : Prims) (r : Message.SealRand) (o : HOrd) (m : Message) (sk : Bytes)
    (keys : Option (List (Option Bytes))) (a : SignAlg) (gk : Bytes) :
    m.sealSignedOffline P r o sk keys a gk = m.sealSigned (knowsNothing P) r o sk keys a gk := by
  simp only [Message.sealSignedOffline, Message.sealSigned, C93_seal]
  cases a <;> rfl

/-- C93.  `routed_by` of the build without `resolve`. -/
theorem C93_routed (P : Prims) (r1 r2 : Message.SealRand) (uuid : Str) (m : Message) (sk : Bytes)
    (keys : Option (List (Option Bytes))) (med : Str) (key : Option Bytes) :
    m.routedByOffline P r1 r2 uuid sk keys med key =
      m.routedBy (knowsNothing P) r1 r2 uuid sk keys med key := by
  simp only [Message.routedByOffline, Message.routedBy, C93_seal, C93_as_jwe P]
  rfl

/-- C93.  `receive` of the build without `resolve` returns what the default build returns with a resolver
that knows no DID, except for one error value: an envelope that names no sender is refused as one whose
sender cannot be resolved. -/
theorem C93_receive (P : Prims) (o : HOrd) (s : Str) (sk ek vk : Option Bytes) :
    Message.receiveOffline P o s sk ek vk = Message.receive (knowsNothing P) o s sk ek vk ∨
      (Message.receiveOffline P o s sk ek vk = .err .didResolveFailed ∧
        Message.receive (knowsNothing P) o s sk ek vk = .err (.generic "skid missing") ∧ ek = none ∧
        ∃ j, Jwe.ofText P.f64 s = some j ∧ j.getSkid = none) := by
  have hof : ∀ {t}, Jwe.ofText (knowsNothing P).f64 t = Jwe.ofText P.f64 t := rfl
  have hmt : Message.messageType (knowsNothing P) s = Message.messageType P s := rfl
  have hrest : ∀ cur, (Message.verifyStep (knowsNothing P) (o.sub 1) cur vk >>= fun c =>
      Res.ofOpt Err.serde (Message.ofText (knowsNothing P).f64 c)) =
      (Message.verifyStep P (o.sub 1) cur vk >>= fun c => Res.ofOpt .serde (Message.ofText P.f64 c)) := by
    intro cur
    rw [show knowsNothing P = withResolver P _ from rfl, verifyStep_resolver]
    rfl
  simp only [Message.receiveOffline, Message.receive, hrest, Message.decryptStepOffline, Message.decryptStep, hmt]
  cases Message.messageType P s with
  | err e => exact .inl rfl
  | panic => exact .inl rfl
  | ok t =>
    simp only [Res.bind_ok]
    split
    · cases sk with
      | none => exact .inl rfl
      | some sk =>
        simp only [Res.ofOpt_some, Res.bind_ok, Message.receiveJweOffline, Message.receiveJwe, hof]
        cases hj : Jwe.ofText P.f64 s with
        | none => exact .inl rfl
        | some j =>
          simp only [Res.ofOpt_some, Res.bind_ok]
          cases ha : j.getAlg with
          | none => exact .inl rfl
          | some alg =>
            cases ek with
            | some k =>
              refine .inl ?_
              simp only [Message.contentKeyOffline, Message.contentKey, firstKeyOffline_eq]
              rfl
            | none =>
              cases hs : j.getSkid with
              | none =>
                refine .inr ⟨rfl, ?_, rfl, j, rfl, hs⟩
                simp only [Message.senderKey, hs]
                rfl
              | some skid =>
                refine .inl ?_
                simp only [Message.senderKey, hs]
                rfl
    · exact .inl rfl

/-- C93.  With the keys given, both builds do the same, whatever the resolver of the default build knows. -/
theorem C93_explicit (P : Prims) (o : HOrd) (s : Str) (sk vk : Option Bytes) (k : Bytes)
    (r : Message.SealRand) (m : Message) (ssk : Bytes) (keys : Option (List (Option Bytes)))
    (hk : AllGiven keys) :
    Message.receiveOffline P o s sk (some k) vk = Message.receive P o s sk (some k) vk ∧
      m.sealJweOffline P r ssk keys = m.sealJwe P r ssk keys := by
  constructor
  · rcases C93_receive P o s sk (some k) vk with h | ⟨-, -, h, -⟩
    · rw [h]; exact C92_receive_explicit P _ o s sk vk k
    · cases h
  · rw [C93_seal]; exact C92_seal_explicit P _ r m ssk keys hk

/-- C93.  Without a resolver the sender's key must be given to open an envelope, and the key of every
recipient to seal one: everything else is refused. -/
theorem C93_needs_keys (P : Prims) :
    (∀ o s sk vk m, Message.messageType P s = .ok .jwe → Message.receiveOffline P o s sk none vk ≠ .ok m) ∧
    ∀ r (m : Message) ssk keys t, m.sealJweOffline P r ssk keys = .ok t →
      ∃ l, keys = some l ∧ l.length = m.didcomm.to.length ∧ none ∉ l := by
  constructor
  · intro o s sk vk m hc h
    simp only [Message.receiveOffline, Message.decryptStepOffline, hc, Res.bind_ok, if_true,
      Message.receiveJweOffline, Message.senderKeyOffline, Res.bind_eq_ok] at h
    obtain ⟨_, ⟨_, -, _, -, _, -, _, h, -⟩, -⟩ := h
    cases h
  · intro r m ssk keys t h
    rw [C93_seal] at h
    obtain ⟨pks, rs, a, c, tag, alg, hp, hpl, hk, hto, hflat, hrs, hl, -⟩ := seal_ok h
    have hnone : none ∉ pks := by
      intro hn
      obtain ⟨i, hi⟩ := List.getElem?_of_mem hn
      have hlt : i < pks.length := by
        rcases Nat.lt_or_ge i pks.length with h' | h'
        · exact h'
        · rw [List.getElem?_eq_none h'] at hi; cases hi
      have hir : i < rs.length := by omega
      obtain ⟨d, k, h1, h2⟩ := (sealRecipients_ok hrs).2 i _ (List.getElem?_eq_getElem hir)
      have hk : k = none := by
        rw [List.getElem?_zip_eq_some] at h1
        have := h1.2
        rw [hi] at this
        exact (Option.some.inj this).symm
      subst hk
      unfold encryptCek at h2
      simp only [Res.bind_eq_ok] at h2
      obtain ⟨_, -, _, h3, -⟩ := h2
      simp only [sharedFor, publicKeyFor, knowsNothing, withResolver, Res.bind_eq_ok] at h3
      obtain ⟨_, ⟨_, h4, -⟩, -⟩ := h3
      cases h4
    cases keys with
    | some l =>
      obtain rfl := sealKeys_given hp
      exact ⟨l, rfl, hpl, hnone⟩
    | none =>
      exfalso
      obtain rfl : List.replicate m.didcomm.to.length none = pks := Res.ok.inj hp
      apply hnone
      rw [List.mem_replicate]
      exact ⟨fun h => hto (List.eq_nil_of_length_eq_zero h), rfl⟩

/-- C92, C93: a request with all keys given that is sealed in the build without a resolver and by any
resolver of the default build alike, and opened in either. -/
example (res : Str → Option DidDoc) : ∃ t rs,
    exampleMessage.sealJweOffline (toy fun _ => none) exampleRand (exampleKey 3)
      (some [some ((toy fun _ => none).x25519Pub (exampleKey 1)),
        some ((toy fun _ => none).x25519Pub (exampleKey 2))]) = .ok t ∧
    Message.receiveOffline (toy fun _ => none) HOrd.rev t (some (exampleKey 1))
      (some ((toy fun _ => none).x25519Pub (exampleKey 3))) none =
        .ok { exampleMessage with recipients := some rs } ∧
    Message.receive (withResolver (toy fun _ => none) res) HOrd.rev t (some (exampleKey 1))
      (some ((toy fun _ => none).x25519Pub (exampleKey 3))) none =
        .ok { exampleMessage with recipients := some rs } := by
  have hl := toy_laws fun _ => none
  obtain ⟨t, ht⟩ := C16_seal_total (toy fun _ => none) hl (toy_total _) exampleRand exampleMessage
    (exampleKey 3) (some [some ((toy fun _ => none).x25519Pub (exampleKey 1)),
        some ((toy fun _ => none).x25519Pub (exampleKey 2))]) c!"ECDH-1PU+XC20PKW" (by decide) (by decide)
    (by intro l hl; rw [← Option.some.inj hl]; rfl) (by intro h; cases h) rfl (by decide) (by
      intro i dest hi
      match i with
      | 0 => exact ⟨_, hl.pub_len _, .inl rfl⟩
      | 1 => exact ⟨_, hl.pub_len _, .inl rfl⟩
      | n + 2 => cases hi)
  obtain ⟨rs, h⟩ := C16_seal_receive (toy fun _ => none) hl exampleRand HOrd.rev exampleMessage (exampleKey 3)
    (exampleKey 1) _ t c!"did:e:f" none (exampleMessage_wf _) (by decide)
    ⟨(by intro k h; cases h), (by intro k h; cases h)⟩ (by decide) rfl (by decide) ht
  have hg : AllGiven (some [some ((toy fun _ => none).x25519Pub (exampleKey 1)),
        some ((toy fun _ => none).x25519Pub (exampleKey 2))]) := ⟨_, rfl, by simp⟩
  have he := C93_explicit (toy fun _ => none) HOrd.rev t (some (exampleKey 1)) none
    ((toy fun _ => none).x25519Pub (exampleKey 3)) exampleRand exampleMessage (exampleKey 3) _ hg
  exact ⟨t, rs, he.2.trans ht, he.1.trans h, (C92_receive_explicit _ res _ _ _ _ _).trans h⟩

end Verif
