import Verif.Lemma.Order
import Verif.Props.Open

/-!
# Hash-map iteration order is not observable when receiving

C69, C70.
-/

namespace Verif

open Spec

/-! ## C69 -/

/-- The signed headers of a JWS document are written in one way only. -/
def Spec.SigHeadersFixed (P : Prims) (s : Str) : Prop :=
  ∀ j, Jws.ofText P.f64 s = some j → ∀ x ∈ Spec.signatures j, ∀ h, x.protected_ = some h → HeaderFixed h

/-- The protected header of a JWE document is written in one way only. -/
def Spec.JweHeaderFixed (P : Prims) (s : Str) : Prop :=
  ∀ j, Jwe.ofText P.f64 s = some j → ∀ h, j.protected_ = some h → HeaderFixed h

theorem verifyOne_order {P : Prims} {p : Str} {key : Bytes} {x : Signature}
    (h : ∀ h, x.protected_ = some h → HeaderFixed h) (o o' : HOrd) :
    Message.verifyOne P o p key x = Message.verifyOne P o' p key x := by
  unfold Message.verifyOne
  cases hp : x.protected_ with
  | none => rfl
  | some hd =>
    simp only [Res.ofOpt_some, Res.bind_ok]
    rw [headerB64_fixed (h hd hp) o o']

theorem verifyLoop_order {P : Prims} {p : Str} {key : Bytes} {l : List Signature}
    (h : ∀ x ∈ l, ∀ h, x.protected_ = some h → HeaderFixed h) (o o' : HOrd) :
    Message.verifyLoop P p key o l = Message.verifyLoop P p key o' l := by
  induction l generalizing o o' with
  | nil => rfl
  | cons x l ih =>
    unfold Message.verifyLoop
    rw [verifyOne_order (h x (by simp)) (o.sub 0) (o'.sub 0),
      ih (fun y hy => h y (by simp [hy])) (o.sub 1) (o'.sub 1)]

/-- `verify` does not depend on orders, nor on more of the text than the JWS in it. -/
theorem verify_order {P : Prims} {s s' : Str} (hs : Jws.ofText P.f64 s = Jws.ofText P.f64 s')
    (h : Spec.SigHeadersFixed P s) (key : Bytes) (o o' : HOrd) :
    Message.verify P o (utf8 s) key = Message.verify P o' (utf8 s') key := by
  unfold Message.verify
  rw [jws_ofBytes_utf8, jws_ofBytes_utf8, ← hs]
  cases hj : Jws.ofText P.f64 s with
  | none => rfl
  | some j =>
    simp only [Res.ofOpt_some, Res.bind_ok]
    cases hl : Message.signaturesOf j with
    | ok l =>
      simp only [Res.bind_ok]
      rw [verifyLoop_order (fun x hx => h j hj x (by rw [signaturesOf_ok hl]; exact hx)) o o']
    | err e => rfl
    | panic => rfl

theorem verifyEach_order {P : Prims} {s s' : Str} (hs : Jws.ofText P.f64 s = Jws.ofText P.f64 s')
    (h : Spec.SigHeadersFixed P s) (key : Option Bytes) {l : List Signature} (o o' : HOrd) :
    Message.verifyEach P (utf8 s) key o l = Message.verifyEach P (utf8 s') key o' l := by
  induction l generalizing o o' with
  | nil => rfl
  | cons x l ih =>
    unfold Message.verifyEach
    cases x.getAlg with
    | none => exact ih (o.sub 1) (o'.sub 1)
    | some alg =>
      cases hk : signingKey key x.getKid with
      | ok k =>
        simp only [Res.bind_ok]
        rw [verify_order hs h k (o.sub 0) (o'.sub 0), ih (o.sub 1) (o'.sub 1)]
      | err e => rfl
      | panic => rfl

/-- The message `receive_jws` verifies. -/
theorem verifiedOf_order {P : Prims} {s s' : Str} (hm : Message.ofText P.f64 s = Message.ofText P.f64 s')
    (hs : Jws.ofText P.f64 s = Jws.ofText P.f64 s') (h : Spec.SigHeadersFixed P s)
    (hb : ∀ m, Message.ofText P.f64 s = some m → Spec.SigHeadersFixed P (printJson m.body))
    (key : Option Bytes) (o o' : HOrd) :
    Message.verifiedOf P o s key = Message.verifiedOf P o' s' key := by
  unfold Message.verifiedOf
  rw [← hm, ← hs]
  cases hm' : Message.ofText P.f64 s with
  | some m =>
    simp only [Message.getBody, Res.bind_ok]
    cases hk : signingKey key m.jwm.kid with
    | ok k => simp only [Res.bind_ok]; rw [verify_order rfl (hb m hm') k o o']
    | err e => rfl
    | panic => rfl
  | none =>
    cases hj : Jws.ofText P.f64 s with
    | none => rfl
    | some j =>
      cases hl : Message.signaturesOf j with
      | ok l => simp only [Res.bind_ok, hl]; exact verifyEach_order hs h key o o'
      | err e => simp only [hl]; rfl
      | panic => simp only [hl]; rfl

theorem verify_parts {P : Prims} (hP : Laws P) {o : HOrd} {b k : Bytes} {v : Message}
    (hv : Message.verify P o b k = .ok v) : v.Parts := by
  obtain ⟨j, s, pt, o'', -, -, -, -, hof⟩ := C25_verified_is_signed P o b k v hv
  unfold Message.ofBytes at hof
  rw [Option.bind_eq_some_iff] at hof
  obtain ⟨x, hx, hd⟩ := hof
  refine decMessage_parts (fun _ _ => hP.f64_tok) hd ?_
  unfold parseBytes at hx
  split at hx
  · exact parseJson_numsOk hx
  · cases hx

/-- The second half of `receive`. -/
theorem verifyStep_order {P : Prims} (hP : Laws P) {s s' : Str}
    (ht : Message.messageType P s = Message.messageType P s')
    (hm : Message.ofText P.f64 s = Message.ofText P.f64 s')
    (hs : Jws.ofText P.f64 s = Jws.ofText P.f64 s') (h : Spec.SigHeadersFixed P s)
    (hb : ∀ m, Message.ofText P.f64 s = some m → Spec.SigHeadersFixed P (printJson m.body))
    (key : Option Bytes) (o o' : HOrd) :
    (Message.verifyStep P o s key >>= fun c => Res.ofOpt .serde (Message.ofText P.f64 c)) =
      (Message.verifyStep P o' s' key >>= fun c => Res.ofOpt .serde (Message.ofText P.f64 c)) := by
  unfold Message.verifyStep
  rw [← ht]
  cases Message.messageType P s with
  | err e => rfl
  | panic => rfl
  | ok t =>
    simp only [Res.bind_ok]
    by_cases hj : t = .jws
    · simp only [hj, if_true]
      unfold Message.receiveJws
      rw [← verifiedOf_order hm hs h hb key (o.sub 0) (o'.sub 0)]
      cases hv : Message.verifiedOf P (o.sub 0) s key with
      | err e => rfl
      | panic => rfl
      | ok x =>
        simp only [Res.bind_ok]
        cases x with
        | none => rfl
        | some v =>
          simp only [Res.ofOpt_some, Res.bind_ok, Res.pure_eq]
          have hr : Message.receiveJws P o s key = .ok (v.text (o.sub 1)) := by
            simp only [Message.receiveJws, hv, Res.bind_ok, Res.ofOpt_some, Res.pure_eq]
          have hp : v.Parts := by
            unfold Message.verifiedOf at hv
            split at hv
            · split at hv
              · cases hv
              · simp only [Message.getBody, Res.bind_ok, Res.bind_eq_ok, Res.pure_eq, Res.ok.injEq,
                  Option.some.injEq] at hv
                obtain ⟨k, -, v', hv', rfl⟩ := hv
                exact verify_parts hP hv'
            · split at hv
              · simp only [Res.bind_eq_ok] at hv
                obtain ⟨l, -, hv⟩ := hv
                obtain ⟨x, -, o', k, -, hv'⟩ := verifyEach_ok hv
                exact verify_parts hP hv'
              · cases hv
          rw [ofText_order hp (o.sub 1) (o'.sub 1)]
    · simp only [hj, if_false, Res.bind_ok, hm]

theorem Res.bind_assoc' {α β γ : Type} (x : Res α) (f : α → Res β) (g : β → Res γ) :
    ((x >>= f) >>= g) = (x >>= fun a => f a >>= g) := by
  cases x <;> rfl

/-- What decryption yields, apart from the order in which it is written. -/
theorem receiveJwe_order {P : Prims} (hP : Laws P) {s : Str} (h : Spec.JweHeaderFixed P s) (sk : Bytes)
    (key : Option Bytes) : ∃ R : Res Message,
      (∀ o, Message.receiveJwe P o s sk key = (R >>= fun m => .ok (m.text (o.sub 1)))) ∧
      ∀ m, R = .ok m → m.Parts := by
  have hdec : ∀ o d cek, Message.decrypt P o (utf8 s) d cek = Message.decrypt P HOrd.id (utf8 s) d cek := by
    intro o d cek
    have e : (parseBytes (utf8 s)).bind (decJwe P.f64) = Jwe.ofText P.f64 s := by
      rw [parseBytes_utf8]
      unfold Jwe.ofText
      cases parseJson s <;> rfl
    unfold Message.decrypt
    rw [e]
    cases hj : Jwe.ofText P.f64 s with
    | none => rfl
    | some j =>
      simp only [Res.ofOpt_some, Res.bind_ok]
      cases hp : j.protected_ with
      | none => rfl
      | some hd => simp only [Res.ofOpt_some, Res.bind_ok]; rw [headerB64_fixed (h j hj hd hp) o HOrd.id]
  refine ⟨do
    let jwe ← Res.ofOpt .serde (Jwe.ofText P.f64 s)
    let alg ← Res.ofOpt (.generic "missing algorithm in JWE header(s)") jwe.getAlg
    let pk ← Message.senderKey P jwe key
    let s' ← arrayRef32 sk
    let p ← arrayRef32 pk
    let a ← CryptoAlg.ofStr alg
    let cek ← Message.contentKey P jwe sk key (P.x25519 s' p)
    Message.decrypt P HOrd.id (utf8 s) (a.decrypter P) cek, ?_, ?_⟩
  · intro o
    unfold Message.receiveJwe
    simp only [hdec, Res.bind_assoc', Res.pure_eq]
  · intro m hm
    simp only [Res.bind_eq_ok] at hm
    obtain ⟨_, -, _, -, _, -, _, -, _, -, _, -, _, -, hm⟩ := hm
    simp only [Message.decrypt, Res.bind_eq_ok, Res.ofOpt_eq_ok] at hm
    obtain ⟨_, -, _, -, _, -, _, -, _, -, _, -, raw, -, hof⟩ := hm
    unfold Message.ofBytes at hof
    rw [Option.bind_eq_some_iff] at hof
    obtain ⟨x, hx, hd⟩ := hof
    refine decMessage_parts (fun _ _ => hP.f64_tok) hd ?_
    unfold parseBytes at hx
    split at hx
    · exact parseJson_numsOk hx
    · cases hx

/-- C69.  The result of `receive`, on any input, does not depend on the iteration order of hash maps,
provided the protected header of the envelope and of the signatures contains at most one custom member
in its `jwk` and in its `epk` (always so for headers made by the setters of this crate). -/
theorem C69_receive_deterministic (P : Prims) (hP : Laws P) (s : Str) (sk ek vk : Option Bytes)
    (hjwe : Spec.JweHeaderFixed P s)
    (hjws : ∀ o cur, Message.decryptStep P o s sk ek = .ok cur → Spec.SigHeadersFixed P cur ∧
      ∀ m, Message.ofText P.f64 cur = some m → Spec.SigHeadersFixed P (printJson m.body))
    (o o' : HOrd) : Message.receive P o s sk ek vk = Message.receive P o' s sk ek vk := by
  have same : ∀ cur cur', Message.decryptStep P (o.sub 0) s sk ek = .ok cur →
      Message.decryptStep P (o'.sub 0) s sk ek = .ok cur' →
      Message.messageType P cur = Message.messageType P cur' →
      Message.ofText P.f64 cur = Message.ofText P.f64 cur' →
      Jws.ofText P.f64 cur = Jws.ofText P.f64 cur' →
      Message.receive P o s sk ek vk = Message.receive P o' s sk ek vk := by
    intro cur cur' h1 h2 ht hm hj
    rw [receive_eq h1, receive_eq h2]
    exact verifyStep_order hP ht hm hj (hjws _ _ h1).1 (hjws _ _ h1).2 vk _ _
  by_cases ht : Message.messageType P s = .ok .jwe
  · cases sk with
    | none => simp only [Message.receive, Message.decryptStep, ht, Res.bind_ok, if_true, Res.ofOpt_none, Res.bind_err]
    | some k =>
      obtain ⟨R, hR, hp⟩ := receiveJwe_order hP hjwe k ek
      have hd : ∀ o, Message.decryptStep P o s (some k) ek = (R >>= fun m => .ok (m.text (o.sub 1))) := by
        intro o
        simp only [Message.decryptStep, ht, Res.bind_ok, if_true, Res.ofOpt_some, hR]
      cases R with
      | err e => simp only [Message.receive, hd, Res.bind_err]
      | panic => simp only [Message.receive, hd, Res.bind_panic]
      | ok m =>
        have hpm := hp m rfl
        exact same _ _ (hd _) (hd _) (messageType_order hpm _ _) (ofText_order hpm _ _) (jws_ofText_order hpm _ _)
  · cases hc : Message.messageType P s with
    | err e => simp only [Message.receive, Message.decryptStep, hc, Res.bind_err]
    | panic => simp only [Message.receive, Message.decryptStep, hc, Res.bind_panic]
    | ok t =>
      have hne : t ≠ .jwe := by rintro rfl; exact ht hc
      have hd : ∀ o, Message.decryptStep P o s sk ek = .ok s := by
        intro o
        simp only [Message.decryptStep, hc, Res.bind_ok, hne, if_false]
      exact same s s (hd _) (hd _) rfl rfl rfl

/-- C69: the conditions hold for every signed text. -/
theorem signed_fixed (P : Prims) {o : HOrd} {m : Message} {signer : Bytes → Bytes → Res Bytes} {key : Bytes}
    {t : Str} (h : m.sign o signer key = .ok t) (hm : m.jwm.WF) (hf : HeaderFixed m.jwm) (sk ek : Option Bytes) :
    Spec.JweHeaderFixed P t ∧ (∀ o cur, Message.decryptStep P o t sk ek = .ok cur → cur = t) ∧
      Spec.SigHeadersFixed P t ∧ Message.ofText P.f64 t = none := by
  obtain ⟨-, sig, -, rfl⟩ := sign_ok h
  have hc := jwsOf_class (P := P) (o.sub 2) m (Spec.payloadText (o.sub 1) m) sig
  obtain ⟨j, hj, -, hs⟩ := jwsOf_signatures (F := P.f64) (p := Spec.payloadText (o.sub 1) m) (sig := sig) (o.sub 2) hm
  have hj' : Jws.ofText P.f64 ((Spec.jwsOf m (Spec.payloadText (o.sub 1) m) sig).text (o.sub 2)) = some j := by
    rw [ofText_jws]; exact hj
  refine ⟨?_, ?_, ?_, hc.2⟩
  · intro x hx
    exfalso
    unfold Jwe.ofText at hx
    rw [parse_jws] at hx
    simp only [decJwe, encJws, mapEntries, Option.bind_eq_bind, Option.bind_some, Option.bind_eq_some_iff] at hx
    obtain ⟨_, -, _, -, _, -, _, -, iv, hiv, -⟩ := hx
    unfold Spec.jwsOf at hiv
    split at hiv <;> cases hiv
  · intro o' cur hcur
    simp only [Message.decryptStep, hc.1, Res.bind_ok] at hcur
    rw [if_neg (by decide)] at hcur
    exact (Res.ok.inj hcur).symm
  · intro x hx y hy hd hp
    rw [hj'] at hx
    obtain rfl := Option.some.inj hx
    rw [signaturesOf_ok hs] at hy
    have : y = Spec.signatureOf m sig := by
      split at hy
      · exact List.mem_singleton.1 hy
      · obtain ⟨_, -, rfl⟩ := List.mem_map.1 hy; rfl
    subst this
    rw [← Option.some.inj hp]
    exact hf

/-- C69: a signed message, read in two different orders. -/
example : ∃ t, (richMessage.asJws .es256k).sign HOrd.id (SignAlg.es256k.signer (toy fun _ => none))
      (exampleKey 5) = .ok t ∧
    Message.receive (toy fun _ => none) HOrd.id t none none (some (exampleKey 5)) =
      Message.receive (toy fun _ => none) HOrd.rev t none none (some (exampleKey 5)) := by
  obtain ⟨t, ht, -⟩ := C24_sign_verify (toy fun _ => none) .es256k _ _ (toy_signPair _ _ (exampleKey 5)) richMessage
    (richMessage_wf _) ⟨(by intro k h; cases h), (by intro k h; cases h)⟩ HOrd.id HOrd.id
  obtain ⟨h1, h2, h3, h4⟩ := signed_fixed (toy fun _ => none) ht ⟨(by intro k h; cases h), (by intro k h; cases h)⟩
    ⟨(by intro k h; cases h), (by intro k h; cases h)⟩ none none
  refine ⟨t, ht, C69_receive_deterministic _ (toy_laws _) t _ _ _ h1 ?_ _ _⟩
  intro o cur hcur
  obtain rfl := h2 o cur hcur
  exact ⟨h3, fun m hm => by rw [h4] at hm; cases hm⟩

/-! ## C70 -/

/-- The bytes `ct` do not open, with any of the implemented ciphers, under any content key that the holder of
`sk` takes from the envelope `j` with `ek` as the sender's key. -/
def Spec.Closed (P : Prims) (j : Jwe) (sk ek : Option Bytes) (iv ct aad : Bytes) : Prop :=
  ∀ (a : CryptoAlg) (k pk key pt : Bytes), sk = some k → Message.senderKey P j ek = .ok pk →
    Message.contentKey P j k ek (P.x25519 (k.take 32) (pk.take 32)) = .ok key → a.decrypter P iv key ct aad ≠ .ok pt

/-- The associated data a JWE text was made with. -/
def Spec.MadeWith (P : Prims) (s : Str) (j : Jwe) (a : CryptoAlg) (iv key pt aad : Bytes) : Prop :=
  Jwe.ofText P.f64 s = some j ∧ b64Decode j.iv = some iv ∧ ∃ c tagText tag, b64Decode j.ciphertext = some c ∧
    j.tag = some tagText ∧ b64Decode tagText = some tag ∧ a.encryptor P iv key pt aad = .ok (c ++ tag)

/-- C70, as written, is false: whatever associated data an envelope was made with — also if it is the
protected header exactly as transmitted, which is what RFC 7516 prescribes — it is refused unless it opens
with the parsed header written again by this crate. -/
theorem C70_transmitted_header_violated (P : Prims) (o : HOrd) (s : Str) (j : Jwe) (hdr : JwmHeader)
    (a : CryptoAlg) (iv key pt aad ct : Bytes) (ht : Message.messageType P s = .ok .jwe)
    (hmade : Spec.MadeWith P s j a iv key pt aad) (hct : a.encryptor P iv key pt aad = .ok ct)
    (hp : j.protected_ = some hdr) (sk ek vk : Option Bytes)
    (hcl : Spec.Closed P j sk ek iv ct (utf8 (headerB64 ((o.sub 0).sub 0) hdr))) (x : Message) :
    Message.receive P o s sk ek vk ≠ .ok x := by
  intro h
  obtain ⟨hj, hiv, c, tt, tag, hc, htt, htag, he⟩ := hmade
  simp only [Message.receive, Res.bind_eq_ok, Res.ofOpt_eq_ok] at h
  obtain ⟨cur, hcur, -⟩ := h
  simp only [Message.decryptStep, ht, Res.bind_ok, if_true, Res.bind_eq_ok, Res.ofOpt_eq_ok] at hcur
  obtain ⟨k, hk, hr⟩ := hcur
  simp only [Message.receiveJwe, Res.bind_eq_ok, Res.ofOpt_eq_ok, Res.pure_eq, Res.ok.injEq] at hr
  obtain ⟨j', hj', _, -, pk, hpk, _, hs1, _, hs2, a', -, key', hkey, m0, hm0, -⟩ := hr
  rw [hj] at hj'
  obtain rfl := Option.some.inj hj'
  obtain ⟨-, rfl⟩ := arrayRef32_eq_ok.1 hs1
  obtain ⟨-, rfl⟩ := arrayRef32_eq_ok.1 hs2
  rw [he] at hct
  obtain rfl := Res.ok.inj hct
  obtain ⟨j2, hdr', tt', tag', c', iv', pt', e1, e2, e3, e4, e5, e6, e7, -⟩ := decrypt_ok hm0
  have hjj : j2 = j := by
    rw [parseBytes_utf8] at e1
    unfold Jwe.ofText at hj
    cases hps : parseJson s with
    | none => rw [hps] at hj; cases hj
    | some v => rw [hps] at hj e1; exact Option.some.inj (e1.symm.trans hj)
  subst hjj
  rw [hp] at e2; obtain rfl := Option.some.inj e2
  rw [htt] at e3; obtain rfl := Option.some.inj e3
  rw [htag] at e4; obtain rfl := Option.some.inj e4
  rw [hc] at e5; obtain rfl := Option.some.inj e5
  rw [hiv] at e6; obtain rfl := Option.some.inj e6
  exact hcl a' k pk key' pt' hk hpk hkey e7

/-- C70, what holds: an envelope made by anybody whose associated data is the parsed header as this crate
writes it (so that in particular that text does not depend on iteration orders) is decrypted with the
content key. -/
theorem C70_transmitted_header_partial (P : Prims) (hP : Laws P) (o : HOrd) (s : Str) (j : Jwe)
    (hdr : JwmHeader) (a : CryptoAlg) (ha : a ≠ .a256cbc) (iv key pt aad : Bytes) (m : Message)
    (hmade : Spec.MadeWith P s j a iv key pt aad) (hp : j.protected_ = some hdr)
    (haad : ∀ o', aad = utf8 (headerB64 o' hdr)) (hpt : Message.ofBytes P.f64 pt = some m) :
    Message.decrypt P o (utf8 s) (a.decrypter P) key = .ok m := by
  obtain ⟨hj, hiv, c, tt, tag, hc, htt, htag, he⟩ := hmade
  have hd := C55_decrypt_encrypt P hP a ha _ _ _ _ _ he
  have e : (parseBytes (utf8 s)).bind (decJwe P.f64) = Jwe.ofText P.f64 s := by
    rw [parseBytes_utf8]
    unfold Jwe.ofText
    cases parseJson s <;> rfl
  unfold Message.decrypt
  rw [e, hj]
  simp only [Res.ofOpt_some, Res.bind_ok, hp, htt, htag, Jwe.getPayload, Jwe.getIv, hc, hiv, Res.unwrap_some]
  rw [← haad o, hd]
  simp only [Message.plugErr, Res.bind_ok, hpt, Res.ofOpt_some]

/-- C69, C70: sealed envelopes of this crate itself.  If the header holds a key with several custom
members, the sender and the receiver may write them in different orders; then the recipient cannot open
the envelope. -/
theorem C70_sealed_orders_violated (P : Prims) (r : Message.SealRand) (o : HOrd) (m : Message) (hw : m.jwm.WF)
    (ssk : Bytes) (keys : Option (List (Option Bytes))) (t : Str) (hseal : m.sealJwe P r ssk keys = .ok t)
    (sk ek vk : Option Bytes)
    (hcl : ∀ (j : Jwe) (a : CryptoAlg) (pt ct : Bytes), a ≠ .a256cbc →
      Spec.MadeWith P t j a r.iv.1 cek pt (utf8 (headerB64 (r.ord.sub 0) (Spec.publicHeader m))) →
      a.encryptor P r.iv.1 cek pt (utf8 (headerB64 (r.ord.sub 0) (Spec.publicHeader m))) = .ok ct →
      Spec.Closed P j sk ek r.iv.1 ct (utf8 (headerB64 ((o.sub 0).sub 0) (Spec.publicHeader m)))) (x : Message) :
    Message.receive P o t sk ek vk ≠ .ok x := by
  obtain ⟨pks, rs, a, c, tag, alg, -, -, -, -, -, hrs, -, -, ha, he, -, rfl⟩ := seal_ok hseal
  have hj := jwe_ofText_text (F := P.f64) (r.ord.sub 2)
    (envelope_wf (m := m) (iv := r.iv.1) (c := c) (tag := tag) hw (sealRecipients_wf hrs))
  have hmade : Spec.MadeWith P _ _ a r.iv.1 cek _ _ :=
    ⟨hj, b64Decode_encode _, c, _, tag, b64Decode_encode _, rfl, b64Decode_encode _, he⟩
  exact C70_transmitted_header_violated P o _ _ _ a r.iv.1 _ _ _ _ messageType_envelope hmade he rfl sk ek vk
    (hcl _ a _ _ (ofStr_ne_cbc ha) hmade he) x

theorem toyDec_aad {k n a c m : Bytes} (h : toyDec k n a c = some m) :
    (c.drop (c.length - 16))[2]? = some (toySum a) := by
  unfold toyDec at h
  simp only at h
  split at h
  · rename_i hc
    rw [hc.2]
    rfl
  · cases h

theorem toyEnc_aad {k n a m c : Bytes} (h : toyEnc k n a m = some c) :
    (c.drop (c.length - 16))[2]? = some (toySum a) := by
  obtain rfl : m ++ toyTag k n a m = c := Option.some.inj h
  rw [List.length_append, toyTag_length, Nat.add_sub_cancel, List.drop_left]
  rfl

/-- What the ciphers seal with associated data `aad` they do not open, under any key, with associated data
`aad'`; holds of the toy ciphers. -/
def Spec.Separates (P : Prims) (aad aad' : Bytes) : Prop :=
  ∀ (a a' : CryptoAlg) (iv key key' pt ct pt' : Bytes), a ≠ .a256cbc → a.encryptor P iv key pt aad = .ok ct →
    a'.decrypter P iv key' ct aad' ≠ .ok pt'

theorem toy_separates {resolve : Str → Option DidDoc} {aad aad' : Bytes} (h : toySum aad ≠ toySum aad') :
    Spec.Separates (toy resolve) aad aad' := by
  intro a a' iv key key' pt ct pt' ha he hd
  have h1 : (ct.drop (ct.length - 16))[2]? = some (toySum aad) := by
    cases a
    all_goals first
      | exact absurd rfl ha
      | (simp only [CryptoAlg.encryptor, Res.bind_eq_ok, Res.ofOpt_eq_ok] at he
         first
          | (obtain ⟨_, -, _, -, _, -, he⟩ := he; exact toyEnc_aad he)
          | (obtain ⟨_, -, _, -, he⟩ := he; exact toyEnc_aad he))
  have h2 : (ct.drop (ct.length - 16))[2]? = some (toySum aad') := by
    cases a'
    all_goals first
      | cases hd; done
      | (simp only [CryptoAlg.decrypter, Res.bind_eq_ok, Res.ofOpt_eq_ok] at hd
         first
          | (obtain ⟨_, -, _, -, _, -, hd⟩ := hd; exact toyDec_aad hd)
          | (obtain ⟨_, -, _, -, hd⟩ := hd; exact toyDec_aad hd))
  rw [h1] at h2
  exact h (Option.some.inj h2)

/-- A key with two custom members. -/
def twoMemberKey : Jwk := (Jwk.new.addOtherHeader c!"x" c!"a").addOtherHeader c!"y" c!"bc"

/-- A message whose header holds such a key. -/
def twoMemberMessage : Message := { exampleMessage with jwm := { exampleMessage.jwm with jwk := some twoMemberKey } }

theorem twoMember_separates : Spec.Separates (toy fun _ => none)
    (utf8 (headerB64 (exampleRand.ord.sub 0) (Spec.publicHeader twoMemberMessage)))
    (utf8 (headerB64 ((HOrd.rev.sub 0).sub 0) (Spec.publicHeader twoMemberMessage))) :=
  toy_separates (by decide +kernel)

/-- C69, C70: an envelope of this crate that its recipient cannot open, with whatever keys. -/
example : ∃ t, twoMemberMessage.sealJwe (toy fun _ => none) exampleRand (exampleKey 3)
      (some [some ((toy fun _ => none).x25519Pub (exampleKey 1)),
        some ((toy fun _ => none).x25519Pub (exampleKey 2))]) = .ok t ∧
    ∀ sk ek vk x, Message.receive (toy fun _ => none) HOrd.rev t sk ek vk ≠ .ok x := by
  have hl := toy_laws fun _ => none
  obtain ⟨t, ht⟩ := C16_seal_total (toy fun _ => none) hl (toy_total _) exampleRand twoMemberMessage
    (exampleKey 3) (some [some ((toy fun _ => none).x25519Pub (exampleKey 1)),
        some ((toy fun _ => none).x25519Pub (exampleKey 2))]) c!"ECDH-1PU+XC20PKW" (by decide) (by decide)
    (by intro l hl; rw [← Option.some.inj hl]; rfl) (by intro h; cases h) rfl (by decide) (by
      intro i dest hi
      match i with
      | 0 => exact ⟨_, hl.pub_len _, .inl rfl⟩
      | 1 => exact ⟨_, hl.pub_len _, .inl rfl⟩
      | n + 2 => cases hi)
  refine ⟨t, ht, fun sk ek vk x => C70_sealed_orders_violated _ exampleRand HOrd.rev twoMemberMessage
    ?_ _ _ t ht sk ek vk (fun _ a _ _ ha _ he a' _ _ _ _ _ _ _ => twoMember_separates a a' _ _ _ _ _ _ ha he) x⟩
  refine ⟨?_, (by intro k h; cases h)⟩
  intro k hk
  rw [← Option.some.inj hk]
  decide

/-- A header as another implementation may write it: with a blank in front. -/
def spacedHeader (h : JwmHeader) : Str := b64Encode (utf8 (' ' :: printJson (encJwm HOrd.id h)))

/-- C70: an envelope made according to RFC 7516, that is with the transmitted header as associated data,
that is refused whatever the keys and orders. -/
example : ∃ (s p : Str) (es : List (Str × Json)) (j : Jwe) (hdr : JwmHeader) (iv pt : Bytes),
    parseJson s = some (.obj ((c!"protected", .str p) :: es)) ∧
    Message.messageType (toy fun _ => none) s = .ok .jwe ∧ j.protected_ = some hdr ∧
    Spec.MadeWith (toy fun _ => none) s j .xc20p iv cek pt (utf8 p) ∧
    ∀ o ct sk ek, CryptoAlg.encryptor (toy fun _ => none) .xc20p iv cek pt (utf8 p) = .ok ct →
      Spec.Closed (toy fun _ => none) j sk ek iv ct (utf8 (headerB64 o hdr)) := by
  let hdr : JwmHeader := (Spec.publicHeader exampleMessage)
  let iv : Bytes := List.replicate 24 8
  have hcek : cek.length = 32 := cek_length
  obtain ⟨tag, htag⟩ : ∃ tag, toyTag cek iv (utf8 (spacedHeader hdr)) [] = tag := ⟨_, rfl⟩
  let es : List (Str × Json) := [(c!"recipients", .arr []), (c!"ciphertext", .str (b64Encode [])),
    (c!"iv", .str (b64Encode iv)), (c!"tag", .str (b64Encode tag))]
  have hn : NumsOk (.obj ((c!"protected", .str (spacedHeader hdr)) :: es)) := by
    simp [NumsOk, NumsOkM, NumsOkL, es]
  have hparse := parseJson_print hn
  have hhd : decHeaderB64 (.str (spacedHeader hdr)) = decHeaderB64 (.str (headerB64 HOrd.id hdr)) := by
    have hd1 : b64Decode (headerB64 HOrd.id hdr) = some (utf8 (printJson (encJwm HOrd.id hdr))) := b64Decode_encode _
    have hd2 : b64Decode (spacedHeader hdr) = some (utf8 (' ' :: printJson (encJwm HOrd.id hdr))) := b64Decode_encode _
    simp only [decHeaderB64, hd1, hd2, Option.bind_some, decHeaderBytes, parseBytes_utf8,
      parseJson_print (nums_jwm HOrd.id hdr), document_ws (nums_jwm HOrd.id hdr)]
  have hw : hdr.WF := ⟨(by intro k h; cases h), (by intro k h; cases h)⟩
  have hfix : HeaderFixed hdr := ⟨(by intro k h; cases h), (by intro k h; cases h)⟩
  rw [decHeaderB64_enc HOrd.id hw] at hhd
  have hsum : toySum (utf8 (spacedHeader hdr)) ≠ toySum (utf8 (headerB64 HOrd.id hdr)) := by decide +kernel
  have hsep : ∀ o, Spec.Separates (toy fun _ => none) (utf8 (spacedHeader hdr)) (utf8 (headerB64 o hdr)) := by
    intro o
    rw [headerB64_fixed hfix o HOrd.id]
    exact toy_separates hsum
  refine ⟨_, spacedHeader hdr, es, ⟨some hdr, none, none, some [], b64Encode [], b64Encode iv, some (b64Encode tag)⟩,
    hdr, iv, [], hparse, ?_, rfl, ⟨?_, b64Decode_encode _, [], _, tag, b64Decode_encode _, rfl, b64Decode_encode _, ?_⟩,
    fun o ct sk ek he a' _ _ _ _ _ _ _ => hsep o .xc20p a' _ _ _ _ _ _ (by decide) he⟩
  · rw [messageType_obj (toy fun _ => none) hparse (a := false) (b := false) (c := true)]
    · rfl
    · exact presence_absent rfl
    · exact presence_absent rfl
    · exact presence_some (v := .str (b64Encode iv)) rfl (by simp)
  · unfold Jwe.ofText
    rw [hparse]
    have h1 : dfltField none decHeaderB64 c!"protected" ((c!"protected", .str (spacedHeader hdr)) :: es) =
        some (some hdr) := hhd
    simp only [decJwe, mapEntries, Option.bind_eq_bind, Option.bind_some, h1]
    rfl
  · show (CryptoAlg.encryptor (toy fun _ => none) .xc20p iv cek [] (utf8 (spacedHeader hdr))) = .ok ([] ++ tag)
    have hiv : iv.length = 24 := rfl
    have he : (toy fun _ => none).xcEnc cek iv (utf8 (spacedHeader hdr)) [] = some tag := by
      rw [← htag]; rfl
    simp [CryptoAlg.encryptor, checkNonce, fromSlice, hiv, hcek, he]

end Verif
