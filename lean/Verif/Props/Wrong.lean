import Verif.Props.Order

/-!
# Opening with other keys

C89.
-/

namespace Verif

open Spec

/-- The content key wrapped under `k` with the nonces of `r` is not unwrapped under `k'`. -/
def Spec.Rejects (P : Prims) (r : RecRand) (k k' : Bytes) : Prop :=
  (∀ ct, P.xcEnc k r.iv24 [] cek = some ct → P.xcDec k' r.iv24 [] ct = none) ∧
    ∀ ct, P.gcmEnc k r.iv12 [] cek = some ct → P.gcmDec k' r.iv12 [] ct = none

/-- The key-encryption key of ECDH-1PU: the ephemeral secret, then the static secret. -/
def Spec.IsKek (P : Prims) (alg : Str) (ze zs k : Bytes) : Prop :=
  concatKdf P (ze ++ zs) alg none none = .ok k

/-- The recipient entry at position `i` of a sealed message does not open for the holder of `sk` who takes
`spk` for the key of the sender: what is wrapped under the sender's key-encryption key is rejected under the
reader's. -/
def Spec.EntryClosed (P : Prims) (r : Message.SealRand) (m : Message) (ssk : Bytes)
    (keys : Option (List (Option Bytes))) (sk spk : Bytes) (i : Nat) : Prop :=
  ∀ dest alg rpk k k', m.didcomm.to[i]? = some dest → m.jwm.alg = some alg →
    KeyFor P dest (Spec.keyAt keys i) rpk →
    Spec.IsKek P alg (P.x25519 (r.perRec i).epk (rpk.take 32)) (P.x25519 ssk (rpk.take 32)) k →
    Spec.IsKek P alg (P.x25519 sk (P.x25519Pub (r.perRec i).epk)) (P.x25519 sk spk) k' →
    Spec.Rejects P (r.perRec i) k k'

theorem sharedFor_first {P : Prims} {sk : Bytes} {did : Str} {key : Option Bytes} {z : Bytes}
    (h : sharedFor P sk did key = .ok z) (hs : sk.length = 32) :
    ∃ pk, KeyFor P did key pk ∧ z = P.x25519 sk (pk.take 32) := by
  simp only [sharedFor, Res.bind_eq_ok, Res.pure_eq, Res.ok.injEq] at h
  obtain ⟨pk, hpk, s, hs', p, hp, rfl⟩ := h
  rw [publicKeyFor_iff] at hpk
  rw [arrayRef32_of hs] at hs'
  obtain rfl := Res.ok.inj hs'
  rw [arrayRef32_eq_ok] at hp
  obtain ⟨-, rfl⟩ := hp
  exact ⟨pk, hpk, rfl⟩

theorem keyFor_unique {P : Prims} {did : Str} {key : Option Bytes} {a b : Bytes} (ha : KeyFor P did key a)
    (hb : KeyFor P did key b) : a = b := by
  have h1 := publicKeyFor_ok ha
  rw [publicKeyFor_ok hb] at h1
  exact (Res.ok.inj h1).symm

/-- An entry wrapped under a key that the reader's key does not open gives an error. -/
theorem decryptCek_rejects {P : Prims} (hP : Laws P) {r : Message.SealRand} {m : Message} {i : Nat}
    {ssk sk spk : Bytes} {dest frm alg : Str} {keys : Option (List (Option Bytes))} {ek : Option Bytes}
    {rc : Recipient} {jwe : Jwe}
    (h : encryptCek P (r.perRec i) m ssk dest cek (Spec.keyAt keys i) = .ok rc) (hd : m.didcomm.to[i]? = some dest)
    (hm : m.jwm.alg = some alg) (ha : jwe.getAlg = some alg) (hs : jwe.getSkid = some frm)
    (h1 : ssk.length = 32) (h2 : sk.length = 32) (hpk : spk.length = 32) (hks : KeyFor P frm ek spk)
    (hcl : Spec.EntryClosed P r m ssk keys sk spk i) :
    ∃ e, decryptCek P jwe sk rc ek = .err e := by
  obtain ⟨alg', ze, kek, ka, iv, c, tag, ha', hz, hk, hw, -, he, -, -, hepk, ho, -⟩ := encryptCek_ok h
  obtain rfl : alg = alg' := by rw [hm] at ha'; exact Option.some.inj ha'
  obtain ⟨rpk, hr1, rfl⟩ := sharedFor_first hz (r.perRec i).epk_len
  simp only [generateKek, Res.bind_eq_ok] at hk
  obtain ⟨zs, hzs, hk⟩ := hk
  obtain ⟨rpk', hr2, rfl⟩ := sharedFor_first hzs h1
  obtain rfl := keyFor_unique hr1 hr2
  rw [decryptCek_of ha hs he hepk ho (hP.pub_len _) h2]
  simp only [generateKek, sharedFor_ok hks h2 hpk, Res.bind_ok]
  have hcl' := hcl dest alg rpk kek
  cases hk' : concatKdf P (P.x25519 sk (P.x25519Pub (r.perRec i).epk) ++ P.x25519 sk spk) alg none none with
  | panic => exact absurd hk' (C37_kdf_fails_only_if_long _ _ _ _ _).2
  | err e => exact ⟨e, rfl⟩
  | ok k' =>
    have hrej := hcl' k' hd hm hr1 hk hk'
    have hkl : k'.length = 32 := by
      simp only [concatKdf, Res.bind_eq_ok, Res.pure_eq, Res.ok.injEq] at hk'
      obtain ⟨_, -, rfl⟩ := hk'
      exact hP.sha_len _
    rw [Res.bind_ok]
    have key : ∀ b n x, fromSlice b n = .ok x → x = b := by
      intro b n x hx
      unfold fromSlice at hx
      split at hx
      · exact (Res.ok.inj hx).symm
      · cases hx
    unfold wrapCek at hw
    unfold unwrapCek
    split at hw
    · rename_i hx
      subst hx
      simp only [Res.bind_eq_ok, Res.ofOpt_eq_ok, Res.pure_eq, Res.ok.injEq, Prod.mk.injEq] at hw
      obtain ⟨k, hk1, n, hn, d, hd', -, rfl, rfl⟩ := hw
      obtain rfl := key _ _ _ hk1
      obtain rfl := key _ _ _ hn
      rw [if_neg (by decide), if_pos rfl]
      simp [fromSlice, (r.perRec i).iv12_len, hkl, hrej.2 _ hd', Res.ofOpt]
    · split at hw
      · rename_i hx
        subst hx
        simp only [Res.bind_eq_ok, Res.ofOpt_eq_ok, Res.pure_eq, Res.ok.injEq, Prod.mk.injEq] at hw
        obtain ⟨k, hk1, n, hn, d, hd', -, rfl, rfl⟩ := hw
        obtain rfl := key _ _ _ hk1
        obtain rfl := key _ _ _ hn
        rw [if_pos rfl]
        simp [fromSlice, (r.perRec i).iv24_len, hkl, hrej.1 _ hd', Res.ofOpt]
      · cases hw

theorem firstKey_none {P : Prims} {j : Jwe} {sk : Bytes} {key : Option Bytes} {rs : List Recipient}
    (h : ∀ x ∈ rs, ∃ e, decryptCek P j sk x key = .err e) :
    Message.firstKey P j sk key rs = .err (.generic "could not decrypt cek") := by
  induction rs with
  | nil => rfl
  | cons x rs ih =>
    obtain ⟨e, he⟩ := h x (by simp)
    unfold Message.firstKey
    rw [he]
    exact ih fun y hy => h y (by simp [hy])

/-- C89.  A reader for whom no recipient entry opens — another private key, or another key taken for the
sender's — gets one and the same error, whatever the message and the number of recipients. -/
theorem C89_wrong_key (P : Prims) (hP : Laws P) (r : Message.SealRand) (m : Message) (hw : m.jwm.WF)
    (ssk : Bytes) (keys : Option (List (Option Bytes))) (t frm : Str) (hfrom : m.didcomm.from = some frm)
    (hseal : m.sealJwe P r ssk keys = .ok t)
    (sk spk : Bytes) (ek vk : Option Bytes) (o : HOrd) (hsk : sk.length = 32) (hpk : spk.length = 32)
    (hks : KeyFor P frm ek spk) (hcl : ∀ i, Spec.EntryClosed P r m ssk keys sk spk i) :
    Message.receive P o t (some sk) ek vk = .err (.generic "could not decrypt cek") := by
  obtain ⟨pks, rs, a, c, tag, alg, hp, hpl, hk, hto, hfl, hrs, hl, hal, ha, he, -, rfl⟩ := seal_ok hseal
  have halg := envelope_alg (rs := rs) (iv := r.iv.1) (c := c) (tag := tag) hal
  have hskid : (Spec.envelope m rs r.iv.1 c tag).getSkid = some frm := by rw [envelope_skid, hfrom]
  have h1 := jwe_ofText_text (F := P.f64) (r.ord.sub 2)
    (envelope_wf (m := m) (iv := r.iv.1) (c := c) (tag := tag) hw (sealRecipients_wf hrs))
  have hfk : Message.firstKey P (Spec.envelope m rs r.iv.1 c tag) sk ek rs =
      .err (.generic "could not decrypt cek") := by
    refine firstKey_none fun x hx => ?_
    obtain ⟨i, hi, rfl⟩ := List.getElem_of_mem hx
    obtain ⟨d, k, h1, h2⟩ := (sealRecipients_ok hrs).2 i _ (List.getElem?_eq_getElem hi)
    obtain ⟨hd, hk'⟩ := zip_get h1
    rw [sealKeys_get hp hk', Nat.zero_add] at h2
    exact decryptCek_rejects hP h2 hd hal halg hskid hk hsk hpk hks (hcl i)
  simp only [Message.receive, Message.decryptStep, messageType_envelope, Res.bind_ok, if_true, Res.ofOpt_some,
    Message.receiveJwe, h1, halg, senderKey_ok hskid hks, arrayRef32_of hsk, arrayRef32_of hpk, ha,
    Message.contentKey, envelope_recipients hfl, hfk]
  rfl

/-- C89.  Recipient number `i` gets the message if the entries before its own do not open for it. -/
theorem C89_right_key (P : Prims) (hP : Laws P) (r : Message.SealRand) (m : Message) (ssk : Bytes)
    (keys : Option (List (Option Bytes))) (t frm : Str) (hm : m.WF P.f64)
    (hc : Avoids m.didcomm.other classKeys) (hf : HeaderFixed m.jwm) (hj : m.jwm.typ ≠ .jws)
    (hfrom : m.didcomm.from = some frm) (hseal : m.sealJwe P r ssk keys = .ok t)
    (i : Nat) (dest : Str) (rsk : Bytes) (ek vk : Option Bytes) (o : HOrd) (hi : m.didcomm.to[i]? = some dest)
    (hrk : rsk.length = 32) (hkr : KeyFor P dest (Spec.keyAt keys i) (P.x25519Pub rsk))
    (hks : KeyFor P frm ek (P.x25519Pub ssk))
    (hcl : ∀ n, n < i → Spec.EntryClosed P r m ssk keys rsk (P.x25519Pub ssk) n) :
    ∃ rs, Message.receive P o t (some rsk) ek vk =
      .ok { m with recipients := some rs, flatJwe := false, flatJws := false } := by
  have hseal' := hseal
  obtain ⟨pks, rs, a, c, tag, alg, hp, hpl, hk, hto, hfl, hrs, hl, hal, ha, he, -, rfl⟩ := seal_ok hseal
  obtain ⟨j, rs', hj', hrs', -, h⟩ := C17_every_recipient P hP r m ssk keys _ frm hm hc hf hj hfrom hseal'
  have hw := envelope_wf (m := m) (iv := r.iv.1) (c := c) (tag := tag) hm.jwm (sealRecipients_wf hrs)
  rw [jwe_ofText_text _ hw] at hj'
  obtain rfl := Option.some.inj hj'
  rw [envelope_recipients hfl] at hrs'
  obtain rfl := Option.some.inj hrs'
  refine ⟨rs, h i dest rsk ek vk o hi hrk hkr hks ?_⟩
  intro x hx c' hc'
  obtain ⟨n, hn, rfl⟩ := List.getElem_of_mem hx
  rw [List.length_take] at hn
  have hn' : n < rs.length := by omega
  obtain ⟨d, k, h1, h2⟩ := (sealRecipients_ok hrs).2 n _ (List.getElem?_eq_getElem hn')
  obtain ⟨hd, hk'⟩ := zip_get h1
  rw [sealKeys_get hp hk', Nat.zero_add] at h2
  rw [List.getElem_take] at hc'
  have hskid : (Spec.envelope m rs r.iv.1 c tag).getSkid = some frm := by rw [envelope_skid, hfrom]
  obtain ⟨e, he'⟩ := decryptCek_rejects hP h2 hd hal (envelope_alg hal)  hskid
    hk hrk (hP.pub_len ssk) hks (hcl n (by omega))
  rw [he'] at hc'
  cases hc'

/-! ## A case -/

theorem toyDec_key {k n a c m : Bytes} (h : toyDec k n a c = some m) :
    (c.drop (c.length - 16))[0]? = some (toySum k) := by
  unfold toyDec at h
  simp only at h
  split at h
  · rename_i hc
    rw [hc.2]
    rfl
  · cases h

theorem toy_rejects {resolve : Str → Option DidDoc} {r : RecRand} {k k' : Bytes} (h : toySum k ≠ toySum k') :
    Spec.Rejects (toy resolve) r k k' := by
  have key : ∀ n pt ct, toyEnc k n [] pt = some ct → toyDec k' n [] ct = none := by
    intro n pt ct he
    cases hd : toyDec k' n [] ct with
    | none => rfl
    | some m =>
      have h1 := toyDec_key (toy_dec_enc he)
      rw [toyDec_key hd] at h1
      exact absurd (Option.some.inj h1).symm h
  exact ⟨fun ct => key _ _ ct, fun ct => key _ _ ct⟩

/-- A private key that belongs to no recipient. -/
def otherKey : Bytes := 4 :: List.replicate 31 1

theorem other_closed (i : Nat) : Spec.EntryClosed (toy fun _ => none) exampleRand exampleMessage (exampleKey 3)
    (some [some ((toy fun _ => none).x25519Pub (exampleKey 1)), some ((toy fun _ => none).x25519Pub (exampleKey 2))])
    otherKey ((toy fun _ => none).x25519Pub (exampleKey 3)) i := by
  intro dest alg rpk k k' hd halg hr hk hk'
  obtain rfl : c!"ECDH-1PU+XC20PKW" = alg := Option.some.inj halg
  match i with
  | 0 =>
    obtain rfl := keyFor_unique (.inl rfl) hr
    rw [← Res.ok.inj hk, ← Res.ok.inj hk']
    exact toy_rejects (by decide +kernel)
  | 1 =>
    obtain rfl := keyFor_unique (.inl rfl) hr
    rw [← Res.ok.inj hk, ← Res.ok.inj hk']
    exact toy_rejects (by decide +kernel)
  | n + 2 => cases hd

/-- C89: a message sealed for two recipients, and the key of a third person. -/
example : ∃ t, exampleMessage.sealJwe (toy fun _ => none) exampleRand (exampleKey 3)
      (some [some ((toy fun _ => none).x25519Pub (exampleKey 1)),
        some ((toy fun _ => none).x25519Pub (exampleKey 2))]) = .ok t ∧
    Message.receive (toy fun _ => none) HOrd.rev t (some otherKey)
      (some ((toy fun _ => none).x25519Pub (exampleKey 3))) none = .err (.generic "could not decrypt cek") := by
  have hl := toy_laws fun _ => none
  obtain ⟨t, ht⟩ := C16_seal_total (toy fun _ => none) hl (toy_total _) exampleRand exampleMessage
    (exampleKey 3) (some [some ((toy fun _ => none).x25519Pub (exampleKey 1)),
        some ((toy fun _ => none).x25519Pub (exampleKey 2))]) c!"ECDH-1PU+XC20PKW" (by decide) (by decide)
    (by intro l hl; rw [← Option.some.inj hl]; rfl) (by intro h; cases h) rfl (by decide) (by
      intro i dest hi
      match i with
      | 0 => exact ⟨_, hl.pub_len _, .inl rfl⟩
      | 1 => exact ⟨_, hl.pub_len _, .inl rfl⟩
      | n + 2 => cases hi)
  exact ⟨t, ht, C89_wrong_key _ hl exampleRand exampleMessage (exampleMessage_wf fun _ => none).jwm _ _ t _ rfl ht
    otherKey _ _ none HOrd.rev (by decide) (hl.pub_len _) (.inl rfl) other_closed⟩

/-- C89: the first of two recipients has another key than the second, who opens the second entry. -/
example : ∃ t rs, exampleMessage.sealJwe (toy fun _ => none) exampleRand (exampleKey 3)
      (some [some ((toy fun _ => none).x25519Pub (exampleKey 1)),
        some ((toy fun _ => none).x25519Pub otherKey)]) = .ok t ∧
    Message.receive (toy fun _ => none) HOrd.rev t (some otherKey)
      (some ((toy fun _ => none).x25519Pub (exampleKey 3))) none =
        .ok { exampleMessage with recipients := some rs } := by
  have hl := toy_laws fun _ => none
  obtain ⟨t, ht⟩ := C16_seal_total (toy fun _ => none) hl (toy_total _) exampleRand exampleMessage
    (exampleKey 3) (some [some ((toy fun _ => none).x25519Pub (exampleKey 1)),
        some ((toy fun _ => none).x25519Pub otherKey)]) c!"ECDH-1PU+XC20PKW" (by decide) (by decide)
    (by intro l hl; rw [← Option.some.inj hl]; rfl) (by intro h; cases h) rfl (by decide) (by
      intro i dest hi
      match i with
      | 0 => exact ⟨_, hl.pub_len _, .inl rfl⟩
      | 1 => exact ⟨_, hl.pub_len _, .inl rfl⟩
      | n + 2 => cases hi)
  obtain ⟨rs, h⟩ := C89_right_key _ hl exampleRand exampleMessage _ _ t _ (exampleMessage_wf _) (by decide)
    ⟨(by intro k h; cases h), (by intro k h; cases h)⟩ (by decide) rfl ht 1 c!"did:c:d" otherKey
    (some ((toy fun _ => none).x25519Pub (exampleKey 3))) none HOrd.rev rfl (by decide) (.inl rfl) (.inl rfl) (by
      intro n hn
      obtain rfl : n = 0 := by omega
      intro dest alg rpk k k' hd halg hr hk hk'
      obtain rfl : c!"ECDH-1PU+XC20PKW" = alg := Option.some.inj halg
      obtain rfl := keyFor_unique (.inl rfl) hr
      rw [← Res.ok.inj hk, ← Res.ok.inj hk']
      exact toy_rejects (by decide +kernel))
  exact ⟨t, rs, ht, h⟩

end Verif
