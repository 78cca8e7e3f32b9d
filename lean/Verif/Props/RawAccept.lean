import Verif.Props.RawReceive
import Verif.Props.Signed
import Verif.Props.Robust
import Verif.Props.Deep

/-!
# What is accepted in the build as it is

C154: with the feature `raw_value` nothing is accepted that was not authenticated, and nothing but bodies is read differently.
-/

namespace Verif

open Spec

variable {F : Str → Option Str}

mutual
theorem normJ_of_rawJ (again : Str → Option Json) : ∀ j b, rawJ F again j = some b → ∃ b', normJ F j = some b'
  | .null, _, _ => ⟨_, by simp [normJ]; rfl⟩
  | .bool _, _, _ => ⟨_, by simp [normJ]; rfl⟩
  | .num t, b, h => ⟨b, by simpa only [rawJ, normJ] using h⟩
  | .str _, _, _ => ⟨_, by simp [normJ]; rfl⟩
  | .arr l, b, h => by
    simp only [rawJ, Option.map_eq_some_iff] at h
    obtain ⟨l', h1, -⟩ := h
    obtain ⟨x, hx⟩ := normL_of_rawL again l l' h1
    exact ⟨_, by simp only [normJ, hx, Option.map_some]; rfl⟩
  | .obj [], _, _ => ⟨_, by simp [normJ, normM]; rfl⟩
  | .obj ((k, v) :: es), b, h => by
    simp only [rawJ] at h
    split at h
    · split at h
      · exact ⟨_, by simp [normJ, normM]; rfl⟩
      · cases h
    · split at h
      · rename_i v' es' hv he
        obtain ⟨x, hx⟩ := normJ_of_rawJ again v _ hv
        obtain ⟨y, hy⟩ := normM_of_rawM again es _ he
        exact ⟨_, by simp only [normJ, normM, hx, hy, Option.map_some]; rfl⟩
      · cases h
theorem normL_of_rawL (again : Str → Option Json) : ∀ l b, rawL F again l = some b → ∃ b', normL F l = some b'
  | [], _, _ => ⟨_, by simp [normL]; rfl⟩
  | j :: l, b, h => by
    simp only [rawL] at h
    split at h
    · rename_i j' l' hj hl
      obtain ⟨x, hx⟩ := normJ_of_rawJ again j _ hj
      obtain ⟨y, hy⟩ := normL_of_rawL again l _ hl
      exact ⟨_, by simp only [normL, hx, hy]; rfl⟩
    · cases h
theorem normM_of_rawM (again : Str → Option Json) : ∀ l b, rawM F again l = some b → ∃ b', normM F l = some b'
  | [], _, _ => ⟨_, by simp [normM]; rfl⟩
  | (k, v) :: l, b, h => by
    simp only [rawM] at h
    split at h
    · rename_i j' l' hj hl
      obtain ⟨x, hx⟩ := normJ_of_rawJ again v _ hj
      obtain ⟨y, hy⟩ := normM_of_rawM again l _ hl
      exact ⟨_, by simp only [normM, hx, hy]; rfl⟩
    · cases h
end

/-- C154.  A text that is read as a message with the feature `raw_value` is read as a message without it, and the two messages
differ in the body only. -/
theorem C154_read (F : Str → Option Str) (s : Str) (m : Message) (h : Message.ofTextRaw F s = some m) :
    ∃ b, Message.ofText F s = some { m with body := b } := by
  unfold Message.ofTextRaw at h
  rw [Option.bind_eq_some_iff] at h
  obtain ⟨j, hj, h⟩ := h
  simp only [decMessageRaw, Option.bind_eq_bind, Option.bind_eq_some_iff, Option.pure_def] at h
  obtain ⟨es, he, rs, hr, b', hb, at_, ha, u, hu, jw, hjw, d, hd, h⟩ := h
  have : ∃ b, reqField (toValue F 1) c!"body" es = some b := by
    unfold reqField at hb ⊢
    split at hb
    · rename_i v hv
      simp only [toValue]
      dsimp only at hb
      split at hb
      · rename_i hd
        rw [if_pos hd]
        exact normJ_of_rawJ _ _ _ hb
      · cases hb
    · cases hb
  obtain ⟨b, hb'⟩ := this
  refine ⟨b, ?_⟩
  unfold Message.ofText
  rw [hj]
  simp only [decMessage, Option.bind_eq_bind, Option.bind_eq_some_iff, Option.pure_def]
  refine ⟨es, he, rs, hr, b, hb', at_, ha, u, hu, jw, hjw, d, hd, ?_⟩
  rw [← Option.some.inj h]

/-- C154, the same for texts of every kind: with the feature they are taken for what they are taken for without it. -/
theorem C154_kind (P : Prims) (s : Str) (t : MessageType) (h : Message.messageTypeRaw P s = .ok t) :
    Message.messageType P s = .ok t := by
  unfold Message.messageTypeRaw at h
  unfold Message.messageType
  simp only [Res.bind_eq_ok, Res.ofOpt_eq_ok] at h ⊢
  obtain ⟨j, hj, es, he, a, ha, b, hb, c, hc, h⟩ := h
  refine ⟨j, hj, es, he, a, ha, b, hb, c, hc, ?_⟩
  by_cases h1 : c = true
  · rw [if_pos h1] at h ⊢; exact h
  · rw [if_neg h1] at h ⊢
    by_cases h2 : (b || a) = true
    · rw [if_pos h2] at h ⊢; exact h
    · rw [if_neg h2] at h ⊢
      simp only [Res.bind_eq_ok, Res.ofOpt_eq_ok] at h ⊢
      obtain ⟨m, hm, h⟩ := h
      obtain ⟨b, hb⟩ := C154_read _ _ _ hm
      exact ⟨_, hb, h⟩

/-- C154.  With the feature `verify` succeeds exactly if the bytes are a JWS document in which some signature is valid under the
key and every signature before it is well formed but invalid, and the payload is the base64url text of a message. -/
theorem C154_verify_iff (P : Prims) (o : HOrd) (b key : Bytes) (m : Message) :
    Message.verifyRaw P o b key = .ok m ↔
      ∃ j i s pt, Jws.ofBytes P.f64 b = some j ∧
        (Spec.signatures j)[i]? = some s ∧
        Spec.SigCheck P (Spec.ordAt o i) j.payload key s true ∧
        (∀ n s', n < i → (Spec.signatures j)[n]? = some s' →
          Spec.SigCheck P (Spec.ordAt o n) j.payload key s' false) ∧
        b64Decode j.payload = some pt ∧ Message.ofBytesRaw P.f64 pt = some m := by
  have hsig : ∀ j : Jws, (∃ l, Message.signaturesOf j = .ok l ∧ Spec.signatures j = l) ∨
      (Message.signaturesOf j = .err .jwsParseError ∧ Spec.signatures j = []) := by
    intro j
    unfold Message.signaturesOf Spec.signatures
    cases j.signatures with
    | some l => exact .inl ⟨l, rfl, rfl⟩
    | none =>
      cases j.signature with
      | some s => exact .inl ⟨[s], rfl, rfl⟩
      | none => exact .inr ⟨rfl, rfl⟩
  unfold Message.verifyRaw
  simp only [Res.bind_eq_ok, Res.ofOpt_eq_ok]
  constructor
  · rintro ⟨j, h1, l, hl, ok, hok, h⟩
    cases ok with
    | false => rw [if_neg (by simp)] at h; cases h
    | true =>
      rw [if_pos rfl, Res.bind_eq_ok] at h
      obtain ⟨pt, h3, h4⟩ := h
      rw [Res.ofOpt_eq_ok] at h3 h4
      obtain ⟨i, s, h5, h6, h7⟩ := verifyLoop_iff.1 hok
      rcases hsig j with ⟨l', hl', rfl⟩ | ⟨he, -⟩
      · rw [hl] at hl'
        obtain rfl := Res.ok.inj hl'
        exact ⟨j, i, s, pt, h1, h5, h6, h7, h3, h4⟩
      · rw [hl] at he; cases he
  · rintro ⟨j, i, s, pt, h1, h5, h6, h7, h3, h4⟩
    rcases hsig j with ⟨l', hl', rfl⟩ | ⟨-, he⟩
    · refine ⟨j, h1, _, hl', true, verifyLoop_iff.2 ⟨i, s, h5, h6, h7⟩, ?_⟩
      rw [if_pos rfl, Res.bind_eq_ok]
      exact ⟨pt, by simp [h3], by simp [h4]⟩
    · rw [he] at h5; cases h5

theorem ofBytesRaw_ok {b : Bytes} {m : Message} (h : Message.ofBytesRaw F b = some m) :
    ∃ x, Message.ofBytes F b = some { m with body := x } := by
  unfold Message.ofBytesRaw at h
  unfold Message.ofBytes
  split at h
  · rename_i s hs
    obtain ⟨x, hx⟩ := C154_read _ _ _ h
    refine ⟨x, ?_⟩
    unfold parseBytes
    rw [hs]
    unfold Message.ofText at hx
    cases hp : parseJson s with
    | none => rw [hp] at hx; cases hx
    | some j => rw [hp] at hx; simpa [hp] using hx
  · cases h

/-- C154: what verifies with the feature verifies without it, under the same key, and the two messages differ in the body only. -/
theorem C154_verified (P : Prims) (o : HOrd) (b key : Bytes) (m : Message) (h : Message.verifyRaw P o b key = .ok m) :
    ∃ x, Message.verify P o b key = .ok { m with body := x } := by
  obtain ⟨j, i, s, pt, h1, h2, h3, h4, h5, h6⟩ := (C154_verify_iff P o b key m).1 h
  obtain ⟨x, hx⟩ := ofBytesRaw_ok h6
  exact ⟨x, (C26_verify_iff P o b key _).2 ⟨j, i, s, pt, h1, h2, h3, h4, h5, hx⟩⟩

theorem verifyRaw_ne_panic (P : Prims) (o : HOrd) (b key : Bytes) : Message.verifyRaw P o b key ≠ .panic := by
  have h := verify_ne_panic P o b key
  unfold Message.verify at h
  unfold Message.verifyRaw
  cases hj : Jws.ofBytes P.f64 b with
  | none => simp [Res.ofOpt, Res.bind_err]
  | some jws =>
    simp only [hj, Res.ofOpt_some, Res.bind_ok] at h ⊢
    cases hs : Message.signaturesOf jws with
    | ok sigs =>
      simp only [hs, Res.bind_ok] at h ⊢
      cases hv : Message.verifyLoop P jws.payload key o sigs with
      | ok ok =>
        simp only [Res.bind_ok]
        split
        · cases b64Decode jws.payload with
          | none => simp [Res.ofOpt, Res.bind_err]
          | some x =>
            simp only [Res.ofOpt_some, Res.bind_ok]
            cases Message.ofBytesRaw P.f64 x <;> simp [Res.ofOpt]
        · simp
      | err e => simp [Res.bind_err]
      | panic => rw [hv] at h; exact absurd rfl h
    | err e => simp [Res.bind_err]
    | panic => rw [hs] at h; exact absurd rfl h

/-- With the feature, the text is a message that carries a JWS as body, and that JWS verifies as `v`. -/
def Spec.CarrierVerifiesRaw (P : Prims) (o : HOrd) (cur : Str) (vk : Option Bytes) (v : Message) : Prop :=
  ∃ c k, Message.ofTextRaw P.f64 cur = some c ∧ c.jwm.alg ≠ none ∧ Spec.CheckKey vk c.jwm.kid k ∧
    Message.verifyRaw P o (utf8 (printJson c.body)) k = .ok v

/-- With the feature, the text is not a message but a JWS, and it verifies as `v` under the key that goes with its signature
number `i`; with every signature before it that names an algorithm goes a key under which it does not. -/
def Spec.JwsVerifiesRaw (P : Prims) (o : HOrd) (cur : Str) (vk : Option Bytes) (v : Message) : Prop :=
  Message.ofTextRaw P.f64 cur = none ∧ ∃ (j : Jws) (i : Nat) (x : Signature) (k : Bytes),
    Jws.ofText P.f64 cur = some j ∧ (Spec.signatures j)[i]? = some x ∧ x.getAlg ≠ none ∧
    Spec.CheckKey vk x.getKid k ∧ Message.verifyRaw P (Spec.ordAt o i) (utf8 cur) k = .ok v ∧
    ∀ (n : Nat) (y : Signature), n < i → (Spec.signatures j)[n]? = some y → y.getAlg ≠ none →
      ∃ k', Spec.CheckKey vk y.getKid k' ∧ ∀ w, Message.verifyRaw P (Spec.ordAt o n) (utf8 cur) k' ≠ .ok w

theorem verifyEachRaw_iff {P : Prims} {b : Bytes} {key : Option Bytes} {l : List Signature} {o : HOrd}
    {v : Message} :
    Message.verifyEachRaw P b key o l = .ok (some v) ↔
      ∃ (i : Nat) (x : Signature) (k : Bytes), l[i]? = some x ∧ x.getAlg ≠ none ∧
        Spec.CheckKey key x.getKid k ∧ Message.verifyRaw P (Spec.ordAt o i) b k = .ok v ∧
        ∀ (n : Nat) (y : Signature), n < i → l[n]? = some y → y.getAlg ≠ none →
          ∃ k', Spec.CheckKey key y.getKid k' ∧ ∀ w, Message.verifyRaw P (Spec.ordAt o n) b k' ≠ .ok w := by
  induction l generalizing o with
  | nil => simp [Message.verifyEachRaw]
  | cons s l ih =>
    unfold Message.verifyEachRaw
    constructor
    · intro h
      split at h
      · rename_i ha
        obtain ⟨i, x, k, h1, h2, h3, h4, h5⟩ := ih.1 h
        refine ⟨i + 1, x, k, h1, h2, h3, h4, ?_⟩
        intro n y hn hy hya
        cases n with
        | zero =>
          obtain rfl : s = y := Option.some.inj hy
          exact absurd ha hya
        | succ n => exact h5 n y (by omega) hy hya
      · rename_i a ha
        rw [Res.bind_eq_ok] at h
        obtain ⟨k, hk, h⟩ := h
        split at h
        · rename_i m hm
          obtain rfl := Option.some.inj (Res.ok.inj h)
          exact ⟨0, s, k, rfl, by rw [ha]; simp, signingKey_ok.1 hk, hm, by intro n y hn; omega⟩
        · rename_i e he
          obtain ⟨i, x, k', h1, h2, h3, h4, h5⟩ := ih.1 h
          refine ⟨i + 1, x, k', h1, h2, h3, h4, ?_⟩
          intro n y hn hy hya
          cases n with
          | zero =>
            obtain rfl : s = y := Option.some.inj hy
            exact ⟨k, signingKey_ok.1 hk, by
              intro w hw
              have hw : Message.verifyRaw P (o.sub 0) b k = .ok w := hw
              rw [he] at hw; cases hw⟩
          | succ n => exact h5 n y (by omega) hy hya
        · cases h
    · rintro ⟨i, x, k, h1, h2, h3, h4, h5⟩
      cases i with
      | zero =>
        obtain rfl : s = x := Option.some.inj h1
        have h4 : Message.verifyRaw P (o.sub 0) b k = .ok v := h4
        cases ha : s.getAlg with
        | none => exact absurd ha h2
        | some a => simp only [signingKey_ok.2 h3, Res.bind_ok, h4]
      | succ i =>
        have hrec : Message.verifyEachRaw P b key (o.sub 1) l = .ok (some v) :=
          ih.2 ⟨i, x, k, h1, h2, h3, h4, fun n y hn hy hya => h5 (n + 1) y (by omega) hy hya⟩
        cases ha : s.getAlg with
        | none => exact hrec
        | some a =>
          obtain ⟨k', hk', hw⟩ := h5 0 s (by omega) rfl (by rw [ha]; simp)
          have hw : ∀ w, Message.verifyRaw P (o.sub 0) b k' ≠ .ok w := hw
          simp only [signingKey_ok.2 hk', Res.bind_ok]
          cases hv : Message.verifyRaw P (o.sub 0) b k' with
          | ok w => exact absurd hv (hw w)
          | err e => exact hrec
          | panic => exact absurd hv (verifyRaw_ne_panic _ _ _ _)

theorem verifiedOfRaw_accepts {P : Prims} {o' : HOrd} {cur : Str} {vk : Option Bytes} {v : Message} :
    Message.verifiedOfRaw P o' cur vk = .ok (some v) ↔
      Spec.CarrierVerifiesRaw P o' cur vk v ∨ Spec.JwsVerifiesRaw P o' cur vk v := by
  unfold Message.verifiedOfRaw
  constructor
  · intro h
    split at h
    · rename_i c hm
      split at h
      · cases h
      · rename_i ha
        simp only [Message.getBody, Res.bind_ok, Res.bind_eq_ok, Res.pure_eq, Res.ok.injEq,
          Option.some.injEq] at h
        obtain ⟨k, hk, v', hv, rfl⟩ := h
        exact .inl ⟨c, k, hm, by rintro h'; rw [h'] at ha; exact ha rfl, signingKey_ok.1 hk, hv⟩
    · rename_i hm
      split at h
      · rename_i j hj
        rw [Res.bind_eq_ok] at h
        obtain ⟨l, hl, h⟩ := h
        obtain ⟨i, x, k, h'⟩ := verifyEachRaw_iff.1 h
        rw [← signaturesOf_ok hl] at h'
        exact .inr ⟨hm, j, i, x, k, hj, h'⟩
      · cases h
  · rintro (⟨c, k, hm, ha, hk, hv⟩ | ⟨hm, j, i, x, k, hj, h1, h'⟩)
    · simp only [hm, if_neg (show ¬c.jwm.alg.isNone = true by
        intro h; exact ha (by simpa using h)), Message.getBody, Res.bind_ok, signingKey_ok.2 hk, hv]
      rfl
    · have hl : Message.signaturesOf j = .ok (Spec.signatures j) := by
        unfold Spec.signatures at h1 ⊢
        unfold Message.signaturesOf
        cases hs : j.signatures with
        | some l => rfl
        | none =>
          cases hs' : j.signature with
          | some y => rfl
          | none => simp [hs, hs'] at h1
      simp only [hm, hj, hl, Res.bind_ok]
      exact verifyEachRaw_iff.2 ⟨i, x, k, h1, h'⟩

theorem decryptRaw_ok {P : Prims} {o : HOrd} {b key : Bytes} {d : SymMethod} {m : Message}
    (h : Message.decryptRaw P o b d key = .ok m) :
    ∃ j hdr tagText tag c iv pt, (parseBytes b).bind (decJwe P.f64) = some j ∧
      j.protected_ = some hdr ∧ j.tag = some tagText ∧ b64Decode tagText = some tag ∧
      b64Decode j.ciphertext = some c ∧ b64Decode j.iv = some iv ∧
      d iv key (c ++ tag) (utf8 (headerB64 o hdr)) = .ok pt ∧ Message.ofBytesRaw P.f64 pt = some m := by
  simp only [Message.decryptRaw, Res.bind_eq_ok, Res.ofOpt_eq_ok, Jwe.getPayload, Jwe.getIv,
    Res.unwrap_eq_ok] at h
  obtain ⟨j, hj, hdr, hh, tt, htt, c, hc, t, ht, iv, hiv, pt, hpt, hm⟩ := h
  exact ⟨j, hdr, tt, t, c, iv, pt, hj, hh, htt, ht, hc, hiv, plugErr_ok hpt, hm⟩

/-- C154.  With the feature, if `receive` accepts a text classified as encrypted, then the content was opened with the protected
header as associated data, under a key that one of the recipient entries holds for this recipient and this sender (or, if there
are no entries, under the static shared secret of both); and unless the content is again a signed message, the result is what the
text of the opened message says. -/
theorem C154_opened (P : Prims) (o : HOrd) (s : Str)
    (sk ek vk : Option Bytes) (m : Message) (ht : Message.messageTypeRaw P s = .ok .jwe)
    (h : Message.receiveRaw P o s sk ek vk = .ok m) :
    ∃ k j alg hdr key, sk = some k ∧ Jwe.ofText P.f64 s = some j ∧ j.getAlg = some alg ∧
      j.protected_ = some hdr ∧
      ((∃ rs rc skid spk, Message.recipientsOf j = some rs ∧ rc ∈ rs ∧ j.getSkid = some skid ∧
          KeyFor P skid ek spk ∧ Spec.KeyUnwraps P alg k spk rc key) ∨
        (Message.recipientsOf j = none ∧ ∃ spk,
          (ek = some spk ∨ ∃ skid, j.getSkid = some skid ∧ KeyFor P skid ek spk) ∧
          key = P.x25519 (k.take 32) (spk.take 32))) ∧
      ∃ c tagText tag iv pt m0 oh om, b64Decode j.ciphertext = some c ∧ j.tag = some tagText ∧
        b64Decode tagText = some tag ∧ b64Decode j.iv = some iv ∧
        Spec.ContentOpens P alg iv key (c ++ tag) (utf8 (headerB64 oh hdr)) pt ∧
        Message.ofBytesRaw P.f64 pt = some m0 ∧
        (Message.messageTypeRaw P (m0.text om) ≠ .ok .jws → Message.ofTextRaw P.f64 (m0.text om) = some m) := by
  simp only [Message.receiveRaw, Res.bind_eq_ok, Res.ofOpt_eq_ok] at h
  obtain ⟨cur, hcur, cur', hcur', hm⟩ := h
  simp only [Message.decryptStepRaw, ht, Res.bind_ok, if_true, Res.bind_eq_ok, Res.ofOpt_eq_ok] at hcur
  obtain ⟨k, hk, hr⟩ := hcur
  simp only [Message.receiveJweRaw, Res.bind_eq_ok, Res.ofOpt_eq_ok, Res.pure_eq, Res.ok.injEq] at hr
  obtain ⟨j, hj, alg, halg, spk, hspk, k', hk', p, hp, a, ha, key, hkey, m0, hm0, rfl⟩ := hr
  obtain ⟨j', hdr, tagText, tag, c, iv, pt, hj', hh, htt, htag, hc, hiv, hpt, hm0⟩ := decryptRaw_ok hm0
  have hjj : j' = j := by
    rw [parseBytes_utf8] at hj'
    have : Jwe.ofText P.f64 s = some j' := by
      unfold Jwe.ofText
      cases hps : parseJson s with
      | none => rw [hps] at hj'; cases hj'
      | some x => rw [hps] at hj'; exact hj'
    rw [this] at hj
    exact Option.some.inj hj
  subst hjj
  rw [arrayRef32_eq_ok] at hk' hp
  obtain ⟨-, rfl⟩ := hk'
  obtain ⟨-, rfl⟩ := hp
  have hsp : ek = some spk ∨ ∃ skid, j'.getSkid = some skid ∧ KeyFor P skid ek spk := by
    cases ek with
    | some e => exact .inl (by rw [Res.ok.inj hspk])
    | none =>
      simp only [Message.senderKey, Res.bind_eq_ok, Res.ofOpt_eq_ok] at hspk
      obtain ⟨skid, h1, d, h2, h3⟩ := hspk
      exact .inr ⟨skid, h1, .inr ⟨rfl, d, h2, h3⟩⟩
  refine ⟨k, j', alg, hdr, key, hk, hj, halg, hh, ?_, c, tagText, tag, iv, pt, m0, (o.sub 0).sub 0,
    (o.sub 0).sub 1, hc, htt, htag, hiv, decrypter_ok ha hpt, hm0, ?_⟩
  · unfold Message.contentKey at hkey
    split at hkey
    · rename_i l hl
      obtain ⟨rc, h1, h2⟩ := firstKey_ok hkey
      obtain ⟨alg', skid, spk', ha', hs', hk'', -, -, hu⟩ := decryptCek_ok h2
      rw [halg] at ha'
      obtain rfl := Option.some.inj ha'
      exact .inl ⟨l, rc, skid, spk', hl, h1, hs', hk'', hu⟩
    · rename_i hl
      exact .inr ⟨hl, spk, hsp, (Res.ok.inj hkey).symm⟩
  · intro hne
    simp only [Message.verifyStepRaw, Res.bind_eq_ok] at hcur'
    obtain ⟨ty, hty, hcur'⟩ := hcur'
    rw [if_neg (by rintro rfl; exact hne hty)] at hcur'
    obtain rfl := Res.ok.inj hcur'
    exact hm

/-! ## Panics -/

theorem bind_panic {α β : Type} {x : Res α} {f : α → Res β} (h : (x >>= f) = .panic) : x = .panic ∨ ∃ a, x = .ok a ∧ f a = .panic := by
  cases x with
  | ok a => exact .inr ⟨a, rfl, h⟩
  | err e => cases h
  | panic => exact .inl rfl

theorem decryptRaw_panic {P : Prims} {o : HOrd} {b key : Bytes} {d : SymMethod}
    (h : Message.decryptRaw P o b d key = .panic) : Message.decrypt P o b d key = .panic := by
  have hno : ∀ {α : Type} {e : Err} {x : Option α}, Res.ofOpt e x ≠ .panic := fun {_ _ _} => Res.ofOpt_ne_panic
  unfold Message.decryptRaw at h
  unfold Message.decrypt
  cases hj : (parseBytes b).bind (decJwe P.f64) with
  | none => rw [hj] at h; cases h
  | some jwe =>
    simp only [hj, Res.ofOpt_some, Res.bind_ok] at h ⊢
    cases hh : jwe.protected_ with
    | none => rw [hh] at h; cases h
    | some hd =>
      simp only [hh, Res.ofOpt_some, Res.bind_ok] at h ⊢
      cases ht : jwe.tag with
      | none => rw [ht] at h; cases h
      | some tag =>
        simp only [ht, Res.ofOpt_some, Res.bind_ok] at h ⊢
        rcases bind_panic h with h | ⟨c, hc, h⟩
        · rw [h]; rfl
        · rw [hc, Res.bind_ok]
          rcases bind_panic h with h | ⟨t, ht, h⟩
          · exact absurd h hno
          · rw [ht, Res.bind_ok]
            rcases bind_panic h with h | ⟨iv, hiv, h⟩
            · rw [h]; rfl
            · rw [hiv, Res.bind_ok]
              rcases bind_panic h with h | ⟨raw, hraw, h⟩
              · rw [h]; rfl
              · exact absurd h hno

theorem decrypt_panicRaw {P : Prims} {o : HOrd} {b key : Bytes} {d : SymMethod}
    (h : Message.decrypt P o b d key = .panic) : Message.decryptRaw P o b d key = .panic := by
  have hno : ∀ {α : Type} {e : Err} {x : Option α}, Res.ofOpt e x ≠ .panic := fun {_ _ _} => Res.ofOpt_ne_panic
  unfold Message.decrypt at h
  unfold Message.decryptRaw
  cases hj : (parseBytes b).bind (decJwe P.f64) with
  | none => rw [hj] at h; cases h
  | some jwe =>
    simp only [hj, Res.ofOpt_some, Res.bind_ok] at h ⊢
    cases hh : jwe.protected_ with
    | none => rw [hh] at h; cases h
    | some hd =>
      simp only [hh, Res.ofOpt_some, Res.bind_ok] at h ⊢
      cases ht : jwe.tag with
      | none => rw [ht] at h; cases h
      | some tag =>
        simp only [ht, Res.ofOpt_some, Res.bind_ok] at h ⊢
        rcases bind_panic h with h | ⟨c, hc, h⟩
        · rw [h]; rfl
        · rw [hc, Res.bind_ok]
          rcases bind_panic h with h | ⟨t, ht, h⟩
          · exact absurd h hno
          · rw [ht, Res.bind_ok]
            rcases bind_panic h with h | ⟨iv, hiv, h⟩
            · rw [h]; rfl
            · rw [hiv, Res.bind_ok]
              rcases bind_panic h with h | ⟨raw, hraw, h⟩
              · rw [h]; rfl
              · exact absurd h hno

/-- C154: the feature adds no panic. -/
theorem C154_panic (P : Prims) (o : HOrd) (s : Str) (sk ek vk : Option Bytes)
    (h : Message.receiveRaw P o s sk ek vk = .panic) : Message.receive P o s sk ek vk = .panic := by
  have hno : ∀ {α : Type} {e : Err} {x : Option α}, Res.ofOpt e x ≠ .panic := fun {_ _ _} => Res.ofOpt_ne_panic
  have htn : ∀ x, Message.messageTypeRaw P x ≠ .panic := by
    intro x
    unfold Message.messageTypeRaw
    refine Res.bind_ne_panic Res.ofOpt_ne_panic fun _ _ => ?_
    refine Res.bind_ne_panic Res.ofOpt_ne_panic fun _ _ => ?_
    refine Res.bind_ne_panic Res.ofOpt_ne_panic fun _ _ => ?_
    refine Res.bind_ne_panic Res.ofOpt_ne_panic fun _ _ => ?_
    refine Res.bind_ne_panic Res.ofOpt_ne_panic fun _ _ => ?_
    split
    · simp
    · split
      · simp
      · exact Res.bind_ne_panic Res.ofOpt_ne_panic fun _ _ => by simp
  have hvn : ∀ b key (l : List Signature) (o : HOrd), Message.verifyEachRaw P b key o l ≠ .panic := by
    intro b key l
    induction l with
    | nil => intro o; simp [Message.verifyEachRaw]
    | cons s l ih =>
      intro o
      unfold Message.verifyEachRaw
      split
      · exact ih _
      · refine Res.bind_ne_panic (signingKey_ne_panic _ _) fun k _ => ?_
        split
        · simp
        · exact ih _
        · rename_i hp
          exact absurd hp (verifyRaw_ne_panic _ _ _ _)
  unfold Message.receiveRaw at h
  rcases bind_panic h with h | ⟨cur, -, h⟩
  · unfold Message.decryptStepRaw at h
    rcases bind_panic h with h | ⟨t, ht, h⟩
    · exact absurd h (htn _)
    · split at h
      · rename_i htj
        subst htj
        rcases bind_panic h with h | ⟨k, hk, h⟩
        · exact absurd h hno
        · unfold Message.receive Message.decryptStep
          rw [C154_kind P s _ ht, Res.bind_ok, if_pos rfl, hk, Res.bind_ok]
          have : Message.receiveJwe P (o.sub 0) s k ek = .panic := by
            unfold Message.receiveJweRaw at h
            unfold Message.receiveJwe
            rcases bind_panic h with h | ⟨jwe, h1, h⟩
            · exact absurd h hno
            rw [h1, Res.bind_ok]
            rcases bind_panic h with h | ⟨alg, h2, h⟩
            · exact absurd h hno
            rw [h2, Res.bind_ok]
            rcases bind_panic h with h | ⟨pk, h3, h⟩
            · rw [h]; rfl
            rw [h3, Res.bind_ok]
            rcases bind_panic h with h | ⟨s', h4, h⟩
            · rw [h]; rfl
            rw [h4, Res.bind_ok]
            rcases bind_panic h with h | ⟨p, h5, h⟩
            · rw [h]; rfl
            rw [h5, Res.bind_ok]
            rcases bind_panic h with h | ⟨a, h6, h⟩
            · rw [h]; rfl
            rw [h6, Res.bind_ok]
            rcases bind_panic h with h | ⟨c, h7, h⟩
            · rw [h]; rfl
            rw [h7, Res.bind_ok]
            rcases bind_panic h with h | ⟨m, h8, h⟩
            · rw [decryptRaw_panic h]; rfl
            · cases h
          rw [this]; rfl
      · cases h
  · exfalso
    rcases bind_panic h with h | ⟨_, -, h⟩
    · unfold Message.verifyStepRaw at h
      revert h
      refine Res.bind_ne_panic (htn _) fun t _ => ?_
      split
      · unfold Message.receiveJwsRaw
        refine Res.bind_ne_panic ?_ fun _ _ => Res.bind_ne_panic Res.ofOpt_ne_panic fun _ _ => by simp
        unfold Message.verifiedOfRaw
        split
        · split
          · simp
          · refine Res.bind_ne_panic (by simp [Message.getBody]) fun _ _ => ?_
            refine Res.bind_ne_panic (signingKey_ne_panic _ _) fun _ _ => ?_
            exact Res.bind_ne_panic (verifyRaw_ne_panic _ _ _ _) fun _ _ => by simp
        · split
          · exact Res.bind_ne_panic (signaturesOf_ne_panic _) fun _ _ => hvn _ _ _ _
          · simp
      · simp
    · exact absurd h hno

/-- C154: on envelopes `receive` panics with the feature exactly if it does without. -/
theorem C154_panic_iff (P : Prims) (o : HOrd) (s : Str) (sk ek vk : Option Bytes) (ht : Message.messageTypeRaw P s = .ok .jwe) :
    Message.receiveRaw P o s sk ek vk = .panic ↔ Message.receive P o s sk ek vk = .panic := by
  have hno : ∀ {α : Type} {e : Err} {x : Option α}, Res.ofOpt e x ≠ .panic := fun {_ _ _} => Res.ofOpt_ne_panic
  refine ⟨C154_panic P o s sk ek vk, fun h => ?_⟩
  unfold Message.receive at h
  rcases bind_panic h with h | ⟨cur, -, h⟩
  · unfold Message.decryptStep at h
    rw [C154_kind P s _ ht, Res.bind_ok, if_pos rfl] at h
    rcases bind_panic h with h | ⟨k, hk, h⟩
    · exact absurd h hno
    · unfold Message.receiveRaw Message.decryptStepRaw
      rw [ht, Res.bind_ok, if_pos rfl, hk, Res.bind_ok]
      have : Message.receiveJweRaw P (o.sub 0) s k ek = .panic := by
        unfold Message.receiveJwe at h
        unfold Message.receiveJweRaw
        rcases bind_panic h with h | ⟨jwe, h1, h⟩
        · exact absurd h hno
        rw [h1, Res.bind_ok]
        rcases bind_panic h with h | ⟨alg, h2, h⟩
        · exact absurd h hno
        rw [h2, Res.bind_ok]
        rcases bind_panic h with h | ⟨pk, h3, h⟩
        · rw [h]; rfl
        rw [h3, Res.bind_ok]
        rcases bind_panic h with h | ⟨s', h4, h⟩
        · rw [h]; rfl
        rw [h4, Res.bind_ok]
        rcases bind_panic h with h | ⟨p, h5, h⟩
        · rw [h]; rfl
        rw [h5, Res.bind_ok]
        rcases bind_panic h with h | ⟨a, h6, h⟩
        · rw [h]; rfl
        rw [h6, Res.bind_ok]
        rcases bind_panic h with h | ⟨c, h7, h⟩
        · rw [h]; rfl
        rw [h7, Res.bind_ok]
        rcases bind_panic h with h | ⟨m, h8, h⟩
        · rw [decrypt_panicRaw h]; rfl
        · cases h
      rw [this]; rfl
  · exfalso
    rcases bind_panic h with h | ⟨_, -, h⟩
    · unfold Message.verifyStep at h
      revert h
      refine Res.bind_ne_panic (messageType_ne_panic _ _) fun t _ => ?_
      split
      · exact receiveJws_ne_panic _ _ _ _
      · simp
    · exact absurd h hno

/-- C154: a text on which `receive` panics with and without the feature, whatever the keys. -/
example (P : Prims) (o : HOrd) (sk ek : Bytes) (vk : Option Bytes) (h1 : 32 ≤ sk.length) (h2 : 32 ≤ ek.length) :
    Message.receiveRaw P o ((evil none c!"!" []).text HOrd.id) (some sk) (some ek) vk = .panic := by
  refine (C154_panic_iff P o _ _ _ _ (messageTypeRaw_jwe _ _)).2 ?_
  refine evil_receive (by intro l h; cases h) h1 h2 ?_
  rw [show Message.contentKey P _ sk _ _ = .ok _ from rfl, Res.bind_ok]
  refine evil_decrypt (by intro l h; cases h) ?_
  rw [show b64Decode c!"!" = none from by decide]
  rfl

/-- C154: an envelope that is classified as encrypted and accepted. -/
example : ∃ t m, Message.messageTypeRaw (toy fun _ => none) t = .ok .jwe ∧
    Message.receiveRaw (toy fun _ => none) HOrd.rev t (some (exampleKey 1))
      (some ((toy fun _ => none).x25519Pub (exampleKey 3))) none = .ok m := by
  have hl := toy_laws fun _ => none
  have hw := exampleMessage_wf (toy fun _ => none).f64
  obtain ⟨t, ht⟩ := C16_seal_total (toy fun _ => none) hl (toy_total _) exampleRand exampleMessage
    (exampleKey 3) (some [some ((toy fun _ => none).x25519Pub (exampleKey 1)),
        some ((toy fun _ => none).x25519Pub (exampleKey 2))]) c!"ECDH-1PU+XC20PKW" (by decide) (by decide)
    (by intro l hl; rw [← Option.some.inj hl]; rfl) (by intro h; cases h) rfl (by decide) (by
      intro i dest hi
      match i with
      | 0 => exact ⟨_, hl.pub_len _, .inl rfl⟩
      | 1 => exact ⟨_, hl.pub_len _, .inl rfl⟩
      | n + 2 => cases hi)
  obtain ⟨j, rs, -, -, -, h⟩ := C151_sealed (toy fun _ => none) hl exampleRand exampleMessage (exampleKey 3) _ t c!"did:e:f"
    hw (by refine ⟨by decide, ⟨trivial, trivial, trivial⟩, trivial, trivial⟩) (by decide)
    ⟨(by intro k h; cases h), (by intro k h; cases h)⟩ (by decide) rfl ht
  refine ⟨t, _, ?_, h 0 _ (exampleKey 1) _ none HOrd.rev rfl (by decide) (.inl rfl) (.inl rfl) (by simp)⟩
  obtain ⟨_, _, _, _, _, _, -, -, -, -, -, -, -, -, -, -, -, rfl⟩ := seal_ok ht
  exact messageTypeRaw_jwe _ _

/-! ## Signed texts -/

/-- C154.  With the feature, text that is classified as signed, after opening if it was encrypted, is accepted if and only if it is
a message with an `alg` whose body verifies as a JWS, or it is no message but a JWS that verifies under the key that goes with one
of its signatures, a key being at hand for each one before that names an algorithm. -/
theorem C154_accepted_iff (P : Prims) (o : HOrd) (s cur : Str) (sk ek vk : Option Bytes) (m : Message)
    (hcur : Message.decryptStepRaw P (o.sub 0) s sk ek = .ok cur)
    (hc : Message.messageTypeRaw P cur = .ok .jws) :
    Message.receiveRaw P o s sk ek vk = .ok m ↔
      ∃ v, (Spec.CarrierVerifiesRaw P ((o.sub 1).sub 0) cur vk v ∨
          Spec.JwsVerifiesRaw P ((o.sub 1).sub 0) cur vk v) ∧
        Message.ofTextRaw P.f64 (v.text ((o.sub 1).sub 1)) = some m := by
  unfold Message.receiveRaw
  rw [hcur]
  simp only [Message.verifyStepRaw, hc, Res.bind_ok, if_true, Message.receiveJwsRaw, Res.bind_eq_ok, Res.ofOpt_eq_ok,
    Res.pure_eq, Res.ok.injEq]
  constructor
  · rintro ⟨t, ⟨_, h, v, rfl, rfl⟩, hm⟩
    exact ⟨v, verifiedOfRaw_accepts.1 h, hm⟩
  · rintro ⟨v, h, hm⟩
    exact ⟨_, ⟨_, verifiedOfRaw_accepts.2 h, v, rfl, rfl⟩, hm⟩

/-- C154: a message that is signed under a key, and received. -/
example : ∃ t v, Message.messageTypeRaw (toy fun _ => none) t = .ok .jws ∧
    Message.decryptStepRaw (toy fun _ => none) (HOrd.rev.sub 0) t none none = .ok t ∧
    (Spec.CarrierVerifiesRaw (toy fun _ => none) ((HOrd.rev.sub 1).sub 0) t none v ∨
      Spec.JwsVerifiesRaw (toy fun _ => none) ((HOrd.rev.sub 1).sub 0) t none v) ∧
    Message.receiveRaw (toy fun _ => none) HOrd.rev t none none none = .ok richMessage := by
  have hw := richMessage_wf (toy fun _ => none).f64
  obtain ⟨t, h1, h2⟩ := C151_signed _ .es256 _ _ (toy_signPair (fun _ => none) _ (exampleKey 5))
    { richMessage.setKid (hexEncode (exampleKey 5)) with flatJws := true }
    ⟨hw.jwm, hw.other, hw.to, hw.recipients, hw.canon, hw.nums, hw.depth⟩ (show NoToken richMessage.body by
      simp [richMessage, NoToken, NoTokenM, NoTokenL, rawToken])
    ⟨(by intro k h; cases h), (by intro k h; cases h)⟩ HOrd.id HOrd.rev
  have h3 := h2 none none none (.inr ⟨rfl, rfl⟩)
  have hc : Message.messageTypeRaw (toy fun _ => none) t = .ok .jws := by
    obtain ⟨-, sig, -, rfl⟩ := sign_ok h1
    have hno := jwsOf_class (P := toy fun _ => none) (HOrd.id.sub 2)
      ({ richMessage.setKid (hexEncode (exampleKey 5)) with flatJws := true }.asJws .es256)
      (Spec.payloadText (HOrd.id.sub 1) ({ richMessage.setKid (hexEncode (exampleKey 5)) with flatJws := true }.asJws .es256)) sig
    refine (messageTypeRaw_eq ?_).trans hno.1
    refine Eq.trans ?_ hno.2.symm
    cases hx : Message.ofTextRaw (toy fun _ => none).f64 ((Spec.jwsOf ({ richMessage.setKid (hexEncode (exampleKey 5)) with
      flatJws := true }.asJws .es256) (Spec.payloadText (HOrd.id.sub 1) ({ richMessage.setKid (hexEncode (exampleKey 5)) with
      flatJws := true }.asJws .es256)) sig).text (HOrd.id.sub 2)) with
    | none => rfl
    | some m =>
      obtain ⟨b, hb⟩ := C154_read _ _ _ hx
      rw [hno.2] at hb; cases hb
  have hd : Message.decryptStepRaw (toy fun _ => none) (HOrd.rev.sub 0) t none none = .ok t := by
    unfold Message.decryptStepRaw
    rw [hc, Res.bind_ok, if_neg (by decide)]
  obtain ⟨v, hv, -⟩ := (C154_accepted_iff _ HOrd.rev _ _ none none none _ hd hc).1 h3
  exact ⟨_, v, hc, hd, hv, h3⟩

/-- C154: the conditions are about what is read.  A message of signed type whose body is an object with the name and the text of a
signed document is accepted with the feature, as the signed message, and refused without it. -/
theorem C154_carrier (P : Prims) (a : SignAlg) (sk pk : Bytes) (hpair : SignPair P a sk pk)
    (m : Message) (hm : m.WF P.f64) (hn : NoToken m.body) (hf : HeaderFixed m.jwm) (o o' : HOrd) (signed : Str)
    (hs : (m.asJws a).sign o (a.signer P) sk = .ok signed)
    (c : Message) (hc : c.WF P.f64) (hav : Avoids c.didcomm.other classKeys) (hty : c.jwm.typ = .jws) (hal : c.jwm.alg ≠ none)
    (dk ek : Option Bytes) :
    Message.receiveRaw P o' ({ c with body := .obj [(rawToken, .str signed)] }.text o) dk ek (some pk) =
        .ok { m with jwm := JwmHeader.dflt, flatJwe := false, flatJws := false } ∧
      Message.receive P o' ({ c with body := .obj [(rawToken, .str signed)] }.text o) dk ek (some pk) = .err .serde := by
  have hwc : Message.WF P.f64 { c with body := .obj [(rawToken, .str signed)] } :=
    ⟨hc.jwm, hc.other, hc.to, hc.recipients, ⟨⟨by simp, trivial⟩, trivial, trivial⟩, ⟨trivial, trivial⟩,
      by simp [Json.depth, Json.depth.depthM]⟩
  have hmt := messageType_text P o hwc hav
  constructor
  · obtain ⟨-, alg, ha, hofs⟩ := signName (a := a) (h := m.jwm)
    have hjw : (m.asJws a).WF P.f64 := by
      refine ⟨?_, hm.other, hm.to, hm.recipients, hm.canon, hm.nums, hm.depth⟩
      cases a <;> exact hm.jwm
    have hjf : HeaderFixed (m.asJws a).jwm := by cases a <;> exact hf
    have hver := verifyRaw_sign hpair hjw hn hjf ha hofs hs ((o'.sub 1).sub 0)
    obtain ⟨-, sig, -, rfl⟩ := sign_ok hs
    have hwd : Message.WF P.f64 { m with jwm := JwmHeader.dflt, flatJwe := false, flatJws := false } :=
      ⟨⟨(by intro k hk; cases hk), (by intro k hk; cases hk)⟩, hm.other, hm.to, hm.recipients, hm.canon, hm.nums, hm.depth⟩
    have hv : rawValueOfText P.f64 ((Spec.jwsOf (m.asJws a) (Spec.payloadText (o.sub 1) (m.asJws a)) sig).text (o.sub 2)) =
        some (encJws (o.sub 2) (Spec.jwsOf (m.asJws a) (Spec.payloadText (o.sub 1) (m.asJws a)) sig)) := by
      unfold rawValueOfText
      rw [rawText, parse_jws, Option.bind_some, if_pos (by
        have := depth_jws (o.sub 2) (Spec.jwsOf (m.asJws a) (Spec.payloadText (o.sub 1) (m.asJws a)) sig); omega),
        rawJ_noToken _ _ (noToken_jwsOf _ _ _ _), normJ_canon (canon_jwsOf _ _ _ _)]
    have hr := C150_read_violated P.f64 o c hc _ _ hv
    have ht : Message.messageTypeRaw P ({ c with body := .obj [(rawToken, .str ((Spec.jwsOf (m.asJws a)
        (Spec.payloadText (o.sub 1) (m.asJws a)) sig).text (o.sub 2)))] }.text o) = .ok .jws := by
      rw [messageTypeRaw_message P o hwc.nums hav, hr, Res.ofOpt_some, Res.bind_ok]
      exact congrArg Res.ok hty
    have hvo := verifiedOfRaw_message (key := some pk) (o := (o'.sub 1).sub 0) hr (by exact hal) rfl hver
    unfold Message.receiveRaw Message.decryptStepRaw
    rw [ht, Res.bind_ok, if_neg (by decide), Res.bind_ok]
    unfold Message.verifyStepRaw Message.receiveJwsRaw
    rw [ht, Res.bind_ok, if_pos rfl, hvo, Res.bind_ok, Res.ofOpt_some, Res.bind_ok, Res.pure_eq, Res.bind_ok]
    exact congrArg (Res.ofOpt Err.serde) (C150_written_partial _ _ _ hwd hn)
  · have hno : Jws.ofBytes P.f64 (utf8 (printJson (.obj [(rawToken, .str signed)]))) = none := by
      rw [jws_ofBytes_print (j := .obj [(rawToken, .str signed)]) ⟨trivial, trivial⟩]
      rfl
    have ht : Message.messageType P ({ c with body := .obj [(rawToken, .str signed)] }.text o) = .ok .jws :=
      hmt.trans (congrArg Res.ok hty)
    unfold Message.receive Message.decryptStep
    rw [ht, Res.bind_ok, if_neg (by decide), Res.bind_ok]
    unfold Message.verifyStep Message.receiveJws Message.verifiedOf
    rw [ht, Res.bind_ok, if_pos rfl, ofText_text o hwc]
    simp only [Message.getBody, Res.bind_ok]
    rw [if_neg (by simpa using hal)]
    simp only [signingKey, Res.bind_ok, Message.verify, hno, Res.ofOpt]
    rfl

/-- C154: such a message. -/
example : ∃ t, Message.receiveRaw (toy fun _ => none) HOrd.rev t none none (some (exampleKey 5)) = .ok richMessage ∧
    Message.receive (toy fun _ => none) HOrd.rev t none none (some (exampleKey 5)) = .err .serde := by
  have hw := richMessage_wf (toy fun _ => none).f64
  have hwe := exampleMessage_wf (toy fun _ => none).f64
  obtain ⟨s, h1, -⟩ := C151_signed _ .es256 _ _ (toy_signPair (fun _ => none) _ (exampleKey 5)) richMessage
    hw (by simp [richMessage, NoToken, NoTokenM, NoTokenL, rawToken])
    ⟨(by intro k h; cases h), (by intro k h; cases h)⟩ HOrd.id HOrd.rev
  exact ⟨_, C154_carrier _ .es256 _ _ (toy_signPair (fun _ => none) _ (exampleKey 5)) richMessage
    hw (by simp [richMessage, NoToken, NoTokenM, NoTokenL, rawToken])
    ⟨(by intro k h; cases h), (by intro k h; cases h)⟩ HOrd.id HOrd.rev s h1 (exampleMessage.setTyp .jws)
    ⟨hwe.jwm, hwe.other, hwe.to, hwe.recipients, hwe.canon, hwe.nums, hwe.depth⟩ (by decide) rfl (by decide) none none⟩

end Verif
