import Verif.Props.Outage
import Verif.Props.Panics

/-!
# No panic whatever the resolver answers

C62 on the model whose resolver may change its answers between two calls.
-/

namespace Verif

open Spec Asks

theorem Spec.Laws.answer {P : Prims} (h : Laws P) (res : Str → Option DidDoc) : Laws { P with resolve := res } := by
  cases h
  constructor <;> assumption

theorem snd_bind_ne_panic {α β : Type} {x : Asks α} {f : α → Asks β} {n : Nat} (hx : (x n).2 ≠ .panic)
    (hf : ∀ a k, x n = (k, .ok a) → (f a k).2 ≠ .panic) : ((x >>= f) n).2 ≠ .panic := by
  rw [bind_eq]
  cases hn : x n with
  | mk k y =>
    rw [hn] at hx
    cases y with
    | ok a => exact hf a k hn
    | err e => simp
    | panic => exact absurd rfl hx

theorem step_ok_at {α : Type} {r : Res α} {n k : Nat} {a : α} (h : step r n = (k, .ok a)) : r = .ok a ∧ k = n :=
  ⟨congrArg Prod.snd h, (congrArg Prod.fst h).symm⟩

theorem decrypt_safe {P : Prims} {o : HOrd} {s : Str} {sk key : Bytes} {ek : Option Bytes} {j : Jwe} {alg : Str}
    {a : CryptoAlg} (hj : Jwe.ofText P.f64 s = some j) (hs : Spec.Openable P j sk ek) (halg : j.getAlg = some alg)
    (ha : CryptoAlg.ofStr alg = .ok a) (hkl : key.length = 32) :
    Message.decrypt P o (utf8 s) (a.decrypter P) key ≠ .panic := by
  unfold Message.decrypt
  rw [parseBytes_utf8]
  refine Res.bind_ne_panic Res.ofOpt_ne_panic fun j' hj' => ?_
  rw [Res.ofOpt_eq_ok] at hj'
  obtain rfl : j' = j := by
    have : Jwe.ofText P.f64 s = some j' := by
      rw [← hj']; unfold Jwe.ofText; cases parseJson s <;> rfl
    rw [this] at hj
    exact Option.some.inj hj
  obtain ⟨b, hb, hbl⟩ := hs.iv
  refine Res.bind_ne_panic Res.ofOpt_ne_panic fun hd _ => ?_
  refine Res.bind_ne_panic Res.ofOpt_ne_panic fun tag _ => ?_
  refine Res.bind_ne_panic ?_ fun c _ => ?_
  · unfold Jwe.getPayload
    cases hc : b64Decode j'.ciphertext with
    | none => exact absurd hc hs.ciphertext
    | some c => simp
  refine Res.bind_ne_panic Res.ofOpt_ne_panic fun t _ => ?_
  refine Res.bind_ne_panic (by simp [Jwe.getIv, hb]) fun iv hiv => ?_
  simp only [Jwe.getIv, hb, Res.unwrap_some, Res.ok.injEq] at hiv
  subst hiv
  refine Res.bind_ne_panic ?_ fun _ _ => Res.ofOpt_ne_panic
  intro hp
  refine decrypter_safe (P := P) ha hkl (iv := b) (fun hx => hbl (by rw [halg, hx])) (ct := c ++ t)
    (aad := utf8 (headerB64 o hd)) ?_
  revert hp
  cases a.decrypter P b key (c ++ t) (utf8 (headerB64 o hd)) <;> simp [Message.plugErr]

theorem firstKeyR_safe {P : Prims} {A : Answers} {j : Jwe} {sk : Bytes} {ek : Option Bytes} {rs : List Recipient}
    (h : ∀ rc ∈ rs, ∀ k, decryptCek { P with resolve := A k } j sk rc ek ≠ .panic) (n : Nat) :
    (Message.firstKeyR P A j sk ek rs n).2 ≠ .panic := by
  induction rs generalizing n with
  | nil => simp [Message.firstKeyR]
  | cons x rs ih =>
    have hc := decryptCekR_call P A j sk x ek n
    unfold Message.firstKeyR
    cases hn : decryptCekR P A j sk x ek n with
    | mk k y =>
      rw [hn] at hc
      cases y with
      | ok a => simp
      | err e => exact ih (fun y hy => h y (by simp [hy])) k
      | panic => exact absurd hc.symm (h x (by simp) n)

theorem firstKeyR_ok {P : Prims} {A : Answers} {j : Jwe} {sk : Bytes} {ek : Option Bytes} {rs : List Recipient} {n k : Nat}
    {key : Bytes} (h : Message.firstKeyR P A j sk ek rs n = (k, .ok key)) :
    ∃ rc ∈ rs, ∃ i, decryptCek { P with resolve := A i } j sk rc ek = .ok key := by
  induction rs generalizing n with
  | nil => cases h
  | cons x rs ih =>
    have hc := decryptCekR_call P A j sk x ek n
    unfold Message.firstKeyR at h
    cases hn : decryptCekR P A j sk x ek n with
    | mk k' y =>
      rw [hn] at hc h
      cases y with
      | ok a =>
        obtain rfl : a = key := Res.ok.inj (congrArg Prod.snd h)
        exact ⟨x, by simp, n, hc.symm⟩
      | err e =>
        obtain ⟨rc, h1, h2⟩ := ih h
        exact ⟨rc, by simp [h1], h2⟩
      | panic => cases h

theorem receiveJweR_safe {P : Prims} (hP : Laws P) {A : Answers} {o : HOrd} {s : Str} {sk : Bytes} {ek : Option Bytes}
    (h : ∀ j, Jwe.ofText P.f64 s = some j → ∀ i, Spec.Openable { P with resolve := A i } j sk ek) (n : Nat) :
    (Message.receiveJweR P A o s sk ek n).2 ≠ .panic := by
  unfold Message.receiveJweR
  refine snd_bind_ne_panic (Res.ofOpt_ne_panic) fun j k hj0 => ?_
  obtain ⟨hj, rfl⟩ := step_ok_at hj0
  rw [Res.ofOpt_eq_ok] at hj
  have hs := h j hj
  refine snd_bind_ne_panic (Res.ofOpt_ne_panic) fun alg k halg0 => ?_
  obtain ⟨halg, rfl⟩ := step_ok_at halg0
  rw [Res.ofOpt_eq_ok] at halg
  have hsender : (Message.senderKeyR A j ek k).2 = Message.senderKey { P with resolve := A k } j ek := by
    cases ek with
    | some k => rfl
    | none =>
      refine snd_step_bind fun skid => ?_
      simp only [bind_eq, Asks.resolve, step]
      cases A k skid <;> rfl
  refine snd_bind_ne_panic ?_ fun pk k' hpk => ?_
  · rw [hsender]
    unfold Message.senderKey
    split
    · simp
    · exact Res.bind_ne_panic Res.ofOpt_ne_panic fun _ _ => Res.bind_ne_panic Res.ofOpt_ne_panic
        fun _ _ => Res.ofOpt_ne_panic
  rw [hpk] at hsender
  have hpk32 : 32 ≤ pk.length := by
    have hpk := hsender.symm
    unfold Message.senderKey at hpk
    split at hpk
    · obtain rfl := Res.ok.inj hpk
      exact (hs 0).given _ rfl
    · simp only [Res.bind_eq_ok, Res.ofOpt_eq_ok] at hpk
      obtain ⟨skid, h1, d, h2, h3⟩ := hpk
      exact (hs k).resolved rfl _ _ _ h1 h2 h3
  refine snd_bind_ne_panic (arrayRef32_ne_panic (hs 0).secret) fun x _ _ => ?_
  refine snd_bind_ne_panic (arrayRef32_ne_panic hpk32) fun p _ _ => ?_
  refine snd_bind_ne_panic (by show CryptoAlg.ofStr alg ≠ _; unfold CryptoAlg.ofStr; (repeat' split) <;> simp) fun a _ ha => ?_
  have ha := (step_ok_at ha).1
  refine snd_bind_ne_panic ?_ fun key _ hkey => ?_
  · cases hrs : Message.recipientsOf j with
    | some rs =>
      rw [show Message.contentKeyR P A j sk ek (P.x25519 x p) = Message.firstKeyR P A j sk ek rs by
        rw [Message.contentKeyR, hrs]]
      exact firstKeyR_safe (fun rc hrc i => decryptCek_safe (Spec.Laws.answer hP _) (hs i) hrs hrc) _
    | none =>
      rw [show Message.contentKeyR P A j sk ek (P.x25519 x p) = step (.ok (P.x25519 x p)) by
        rw [Message.contentKeyR, hrs]]
      simp [step]
  · have hkl : key.length = 32 := by
      cases hrs : Message.recipientsOf j with
      | some rs =>
        rw [show Message.contentKeyR P A j sk ek (P.x25519 x p) = Message.firstKeyR P A j sk ek rs by
          rw [Message.contentKeyR, hrs]] at hkey
        obtain ⟨rc, hrc, i, hd⟩ := firstKeyR_ok hkey
        obtain ⟨_, _, _, -, -, -, -, -, hu⟩ := decryptCek_ok hd
        exact (hs i).keys rs hrs rc hrc _ _ _ hu
      | none =>
        rw [show Message.contentKeyR P A j sk ek (P.x25519 x p) = step (.ok (P.x25519 x p)) by
          rw [Message.contentKeyR, hrs]] at hkey
        rw [← Res.ok.inj (step_ok_at hkey).1]
        exact hP.dh_len _ _
    refine snd_bind_ne_panic ?_ fun _ _ _ => by simp [pure_step, step]
    exact decrypt_safe (P := { P with resolve := A 0 }) (ek := ek) (sk := sk) hj (hs 0) halg ha hkl

theorem receiveR_safe {P : Prims} (hP : Laws P) {A : Answers} {o : HOrd} {s : Str} {sk ek vk : Option Bytes}
    (h : Message.messageType P s = .ok .jwe → ∀ k j, sk = some k → Jwe.ofText P.f64 s = some j →
      ∀ i, Spec.Openable { P with resolve := A i } j k ek) (n : Nat) :
    (Message.receiveR P A o s sk ek vk n).2 ≠ .panic := by
  unfold Message.receiveR
  refine snd_bind_ne_panic ?_ fun cur _ _ => ?_
  · unfold Message.decryptStepR
    refine snd_bind_ne_panic (messageType_ne_panic _ _) fun t k ht0 => ?_
    obtain ⟨ht, rfl⟩ := step_ok_at ht0
    split
    · rename_i htj
      refine snd_bind_ne_panic (Res.ofOpt_ne_panic) fun x k hk => ?_
      have hk := (step_ok_at hk).1
      rw [Res.ofOpt_eq_ok] at hk
      subst htj
      exact receiveJweR_safe hP (fun j hj => h ht x j hk hj) _
    · simp [step]
  · refine snd_bind_ne_panic ?_ fun _ _ _ => Res.ofOpt_ne_panic
    show Message.verifyStep _ _ _ _ ≠ _
    unfold Message.verifyStep
    refine Res.bind_ne_panic (messageType_ne_panic _ _) fun t ht => ?_
    split
    · exact receiveJws_ne_panic _ _ _ _
    · simp

theorem sealed_openable {P : Prims} (hP : Laws P) (hd : Spec.DecLen P) {r : Message.SealRand} {m : Message}
    {ssk : Bytes} {keys : Option (List (Option Bytes))} {t : Str} (hm : m.jwm.WF)
    (hseal : m.sealJwe P r ssk keys = .ok t) {k : Bytes} {ek : Option Bytes} (hsk : 32 ≤ k.length)
    (hek : ∀ k, ek = some k → 32 ≤ k.length) (res : Str → Option DidDoc)
    (hres : ek = none → ∀ frm d k, m.didcomm.from = some frm → res frm = some d →
      d.keyFor c!"X25519" = some k → 32 ≤ k.length) {j : Jwe} (hj : Jwe.ofText P.f64 t = some j) :
    Spec.Openable { P with resolve := res } j k ek := by
  obtain ⟨pks, rs, a, c, tag, alg, hp, hpl, hk, hto, hfl, hrs, hl, hal, ha, he, htag, rfl⟩ := seal_ok hseal
  have hw := envelope_wf (rs := rs) (iv := r.iv.1) (c := c) (tag := tag) hm (sealRecipients_wf hrs)
  rw [jwe_ofText_text _ hw] at hj
  obtain rfl := Option.some.inj hj
  have hrec := envelope_recipients (iv := r.iv.1) (c := c) (tag := tag) hfl
  refine ⟨hsk, hek, ?_, ?_, ?_, ?_, ?_⟩
  · intro h0 skid d k hs h1 h2
    rw [envelope_skid] at hs
    exact hres h0 skid d k hs h1 h2
  · simp [Spec.envelope, b64Decode_encode]
  · exact ⟨r.iv.1, by simp [Spec.envelope, b64Decode_encode], fun _ => by rw [r.iv.2]; exact Nat.le_refl _⟩
  · intro rs' hrs' rc hrc alg' t b halg hiv hb
    rw [hrec] at hrs'
    obtain rfl := Option.some.inj hrs'
    rw [envelope_alg hal] at halg
    obtain rfl := Option.some.inj halg
    obtain ⟨i, hi, rfl⟩ := List.getElem_of_mem hrc
    obtain ⟨d, key, -, hc⟩ := (sealRecipients_ok hrs).2 i _ (List.getElem?_eq_getElem hi)
    obtain ⟨alg'', ze, kek, ka, iv, c, tag, h1, -, -, hw', -, -, -, -, -, ho, -⟩ := encryptCek_ok hc
    rw [hal] at h1
    obtain rfl := Option.some.inj h1
    rw [ho, HMap.get_insert, if_neg (by decide), HMap.get_insert, if_pos rfl] at hiv
    obtain rfl := Option.some.inj hiv
    rw [b64Decode_encode] at hb
    obtain rfl := Option.some.inj hb
    unfold Spec.nonceSize
    rcases wrapCek_iv hw' with ⟨rfl, hlen, -⟩ | ⟨rfl, hlen, -⟩
    · rw [if_pos rfl, hlen]
    · rw [if_neg (by decide), hlen]
  · intro rs' hrs' rc hrc alg' spk key hu
    rw [hrec] at hrs'
    obtain rfl := Option.some.inj hrs'
    obtain ⟨i, hi, rfl⟩ := List.getElem_of_mem hrc
    obtain ⟨d, key', -, hc⟩ := (sealRecipients_ok hrs).2 i _ (List.getElem?_eq_getElem hi)
    obtain ⟨alg'', ze, kek, ka, iv, c, tag, -, -, -, hw', -, hek, -, -, -, ho, -⟩ := encryptCek_ok hc
    obtain ⟨epk, eph, ivText, iv', tagText, tag', wrapped, kek', -, -, -, -, -, htt, htd, hwr, -, hdec⟩ := hu
    rw [ho, HMap.get_insert, if_pos rfl] at htt
    obtain rfl := Option.some.inj htt
    rw [b64Decode_encode] at htd
    obtain rfl := Option.some.inj htd
    rw [hek, b64Decode_encode] at hwr
    obtain rfl := Option.some.inj hwr
    have h1 := (unwrap_wrap hP hw').2
    have h2 : (c ++ tag).length = key.length + 16 := by
      rcases hdec with ⟨-, h⟩ | ⟨-, h⟩
      · exact hd _ _ _ _ _ (.inl h)
      · exact hd _ _ _ _ _ (.inr h)
    rw [cek_length] at h1
    omega

/-- C62, for a resolver whose answers may change from call to call.  Receiving an envelope made by `seal` never panics:
whoever receives it, with whatever keys of at least 32 bytes, if the resolver knows no shorter key of the sender. -/
theorem C62_answers_no_panic (P : Prims) (hP : Laws P) (hd : Spec.DecLen P) (r : Message.SealRand) (m : Message)
    (ssk : Bytes) (keys : Option (List (Option Bytes))) (t : Str) (hm : m.jwm.WF)
    (hseal : m.sealJwe P r ssk keys = .ok t) (A : Answers) (o : HOrd) (sk ek vk : Option Bytes)
    (hsk : ∀ k, sk = some k → 32 ≤ k.length) (hek : ∀ k, ek = some k → 32 ≤ k.length)
    (hres : ek = none → ∀ i frm d k, m.didcomm.from = some frm → A i frm = some d →
      d.keyFor c!"X25519" = some k → 32 ≤ k.length) (n : Nat) :
    (Message.receiveR P A o t sk ek vk n).2 ≠ .panic := by
  exact receiveR_safe hP (fun _ k j hk hj i =>
    sealed_openable hP hd hm hseal (hsk k hk) hek (A i) (fun h0 => hres h0 i) hj) n

/-- C62: the sender's document is replaced before every call by one with another key. -/
example : ∃ t, exampleMessage.sealJwe (toy senderDoc) exampleRand (exampleKey 3)
      (some [some ((toy fun _ => none).x25519Pub (exampleKey 1)), some ((toy fun _ => none).x25519Pub (exampleKey 2))]) = .ok t ∧
    (Message.receiveR (toy senderDoc) (fun n _ => some (docOf (exampleKey n))) HOrd.rev t (some (exampleKey 1)) none none 0).2 ≠
      .panic := by
  obtain ⟨t, ht⟩ := sealed_for (exampleKey 2)
  refine ⟨t, ht, C62_answers_no_panic (toy senderDoc) (toy_laws _) (toy_decLen _) exampleRand exampleMessage (exampleKey 3) _ t
    (exampleMessage_wf (toy senderDoc).f64).jwm ht _ _ _ _ _ (by rintro k ⟨⟩; decide) (by intro k h; cases h) ?_ 0⟩
  intro _ i frm d k _ h1 h2
  obtain rfl := Option.some.inj h1
  obtain rfl := Option.some.inj h2
  exact Nat.le_of_eq ((toy_laws fun _ => none).pub_len _).symm

end Verif
