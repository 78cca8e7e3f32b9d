import Verif.Props.Route
import Verif.Props.Robust

/-!
# Panics and key sizes on the sending side

C57 (what holds), C60, C61, C62.
-/

namespace Verif

open Spec

/-! ## Sealing -/

theorem crypterOfHeader_ne_panic (h : JwmHeader) : crypterOfHeader h ≠ .panic := by
  unfold crypterOfHeader CryptoAlg.ofStr
  (repeat' split) <;> simp

theorem sharedFor_ne_panic {P : Prims} {sk : Bytes} {did : Str} {key : Option Bytes} (hs : 32 ≤ sk.length)
    (hk : ∀ pk, KeyFor P did key pk → 32 ≤ pk.length) : sharedFor P sk did key ≠ .panic := by
  unfold sharedFor
  refine Res.bind_ne_panic (publicKeyFor_ne_panic _ _ _) fun pk hpk => ?_
  refine Res.bind_ne_panic (arrayRef32_ne_panic hs) fun _ _ => ?_
  exact Res.bind_ne_panic (arrayRef32_ne_panic (hk pk (publicKeyFor_iff.1 hpk))) fun _ _ => by simp

theorem encryptCek_ne_panic {P : Prims} (hP : Laws P) {r : RecRand} {m : Message} {sk cek : Bytes} {dest : Str}
    {key : Option Bytes} (hs : 32 ≤ sk.length) (hk : ∀ pk, KeyFor P dest key pk → 32 ≤ pk.length) :
    encryptCek P r m sk dest cek key ≠ .panic := by
  unfold encryptCek
  refine Res.bind_ne_panic Res.ofOpt_ne_panic fun alg _ => ?_
  refine Res.bind_ne_panic (sharedFor_ne_panic (by rw [r.epk_len]; exact Nat.le_refl _) hk) fun ze _ => ?_
  refine Res.bind_ne_panic ?_ fun kek hkek => ?_
  · unfold generateKek
    exact Res.bind_ne_panic (sharedFor_ne_panic hs hk) fun _ _ => (C37_kdf_fails_only_if_long _ _ _ _ _).2
  · have hkl : kek.length = 32 := by
      simp only [generateKek, concatKdf, Res.bind_eq_ok, Res.pure_eq, Res.ok.injEq] at hkek
      obtain ⟨_, -, _, -, rfl⟩ := hkek
      exact hP.sha_len _
    refine Res.bind_ne_panic ?_ fun w hw => ?_
    · unfold wrapCek
      (repeat' split) <;> simp [fromSlice, hkl, r.iv12_len, r.iv24_len, Res.bind_eq_panic]
    · obtain ⟨ka, iv, c⟩ := w
      have := (unwrap_wrap hP hw).2
      refine Res.bind_ne_panic ?_ fun _ _ => by simp
      simp only [splitTag]
      rw [if_pos (by omega)]
      simp

theorem sealRecipients_ne_panic {P : Prims} (hP : Laws P) {r : Nat → RecRand} {m : Message} {sk cek : Bytes}
    (hs : 32 ≤ sk.length) {l : List (Str × Option Bytes)}
    (hk : ∀ d k, (d, k) ∈ l → ∀ pk, KeyFor P d k pk → 32 ≤ pk.length) (i : Nat) :
    Message.sealRecipients P r m sk cek i l ≠ .panic := by
  induction l generalizing i with
  | nil => simp [Message.sealRecipients]
  | cons p l ih =>
    obtain ⟨d, k⟩ := p
    unfold Message.sealRecipients
    refine Res.bind_ne_panic (encryptCek_ne_panic hP hs (hk d k (by simp))) fun _ _ => ?_
    exact Res.bind_ne_panic (ih (fun d k h => hk d k (by simp [h])) _) fun _ _ => by simp

/-- C60, what holds.  `seal` does not panic if every recipient key it uses, given or resolved, has at least
32 bytes. -/
theorem C60_seal_no_panic_partial (P : Prims) (hP : Laws P) (r : Message.SealRand) (m : Message) (ssk : Bytes)
    (keys : Option (List (Option Bytes)))
    (hk : ∀ i d pk, m.didcomm.to[i]? = some d → KeyFor P d (Spec.keyAt keys i) pk → 32 ≤ pk.length) :
    m.sealJwe P r ssk keys ≠ .panic := by
  unfold Message.sealJwe
  split
  · simp
  rename_i hs
  simp only [ne_eq, Decidable.not_not] at hs
  refine Res.bind_ne_panic ?_ fun pks hp => ?_
  · unfold Message.sealKeys
    (repeat' split) <;> simp
  split
  · simp
  split
  · simp
  refine Res.bind_ne_panic ?_ fun rs _ => ?_
  · refine sealRecipients_ne_panic hP (by omega) (fun d k h => ?_) 0
    obtain ⟨i, hi, he⟩ := List.getElem_of_mem h
    have := zip_get (show (m.didcomm.to.zip pks)[i]? = some (d, k) by rw [List.getElem?_eq_getElem hi, he])
    rw [sealKeys_get hp this.2]
    exact fun pk => hk i d pk this.1
  refine Res.bind_ne_panic (crypterOfHeader_ne_panic _) fun a ha => ?_
  unfold Message.encrypt
  rw [jweHeader_some, Res.bind_ok, b64Decode_encode, Res.ofOpt_some, Res.bind_ok]
  have hof : ∃ alg, CryptoAlg.ofStr alg = .ok a := by
    unfold crypterOfHeader at ha
    split at ha
    · cases ha
    · exact ⟨_, ha⟩
  obtain ⟨alg, halg⟩ := hof
  refine Res.bind_ne_panic ?_ fun ct hct => ?_
  · rcases ofStr_ok halg with ⟨-, rfl⟩ | ⟨-, rfl⟩ <;>
      simp [CryptoAlg.encryptor, checkNonce, r.iv.2, fromSlice, cek_length]
  · have hl : 16 ≤ ct.length := by
      rcases ofStr_ok halg with ⟨-, rfl⟩ | ⟨-, rfl⟩
      · simp only [CryptoAlg.encryptor, Res.bind_eq_ok, Res.ofOpt_eq_ok] at hct
        obtain ⟨_, -, _, -, hct⟩ := hct
        have := hP.gcm_len hct
        omega
      · simp only [CryptoAlg.encryptor, Res.bind_eq_ok, Res.ofOpt_eq_ok] at hct
        obtain ⟨_, -, _, -, _, -, hct⟩ := hct
        have := hP.xc_len hct
        omega
    simp only [splitTag]
    rw [if_pos hl, Res.bind_ok]
    refine Res.bind_ne_panic ?_ fun _ _ => by simp
    unfold Message.jweOf
    (repeat' split) <;> simp

/-- C60 fails: with a recipient key of fewer than 32 bytes `seal` panics, for every message, algorithm and
number of recipients. -/
theorem C60_short_key_panics_violated (P : Prims) (r : Message.SealRand) (m : Message) (ssk k : Bytes)
    (ks : List (Option Bytes)) (alg : Str) (hs : ssk.length = 32) (hk : k.length < 32)
    (hl : (some k :: ks).length = m.didcomm.to.length) (halg : m.jwm.alg = some alg)
    (hf : m.flatJwe = true → m.didcomm.to.length = 1) :
    m.sealJwe P r ssk (some (some k :: ks)) = .panic := by
  unfold Message.sealJwe
  rw [if_neg (by simp [hs])]
  simp only [Message.sealKeys]
  rw [if_neg (by simp [← hl]), Res.bind_ok, if_neg (by simp [← hl]), if_neg (by
    rintro ⟨h1, h2⟩; rw [hf h1] at h2; omega)]
  cases hto : m.didcomm.to with
  | nil => rw [hto] at hl; simp at hl
  | cons d l =>
    have he : (r.perRec 0).epk.length = 32 := (r.perRec 0).epk_len
    simp [Message.sealRecipients, encryptCek, halg, sharedFor, publicKeyFor, arrayRef32, he,
      show ¬32 ≤ k.length by omega]

/-- Non-vacuity of both: a key of 31 bytes panics, keys of 32 bytes do not. -/
example : exampleMessage.sealJwe (toy fun _ => none) exampleRand (exampleKey 3)
    (some [some (List.replicate 31 1), some (exampleKey 2)]) = .panic :=
  C60_short_key_panics_violated _ _ _ _ _ _ _ (by decide) (by decide) (by decide) rfl (by decide)

/-- C60.  `sign` never panics, whatever the key and header. -/
theorem C60_sign_no_panic_partial (P : Prims) (o : HOrd) (m : Message) (a : SignAlg) (key : Bytes) :
    m.sign o (a.signer P) key ≠ .panic := by
  unfold Message.sign
  simp only
  split
  · simp
  · exact Res.bind_ne_panic Res.ofOpt_ne_panic fun _ _ => by simp

/-- C60.  `seal_signed` does not panic under the same condition as `seal`. -/
theorem C60_seal_signed_no_panic_partial (P : Prims) (hP : Laws P) (r : Message.SealRand) (o : HOrd) (m : Message)
    (ssk : Bytes) (keys : Option (List (Option Bytes))) (a : SignAlg) (signKey : Bytes)
    (hk : ∀ i d pk, m.didcomm.to[i]? = some d → KeyFor P d (Spec.keyAt keys i) pk → 32 ≤ pk.length) :
    m.sealSigned P r o ssk keys a signKey ≠ .panic := by
  unfold Message.sealSigned
  refine Res.bind_ne_panic (C60_sign_no_panic_partial _ _ _ _ _) fun _ _ => ?_
  refine Res.bind_ne_panic Res.ofOpt_ne_panic fun _ _ => ?_
  exact C60_seal_no_panic_partial P hP r _ ssk keys hk

/-- C57, what holds.  With a recipient, and all keys of at least 32 bytes, `routed_by` does not panic. -/
theorem C57_routed_no_panic_partial (P : Prims) (hP : Laws P) (r1 r2 : Message.SealRand) (uuid : Str) (m : Message)
    (ssk : Bytes) (keys : Option (List (Option Bytes))) (med : Str) (mkey : Option Bytes)
    (hto : m.didcomm.to ≠ [])
    (hk : ∀ i d pk, m.didcomm.to[i]? = some d → KeyFor P d (Spec.keyAt keys i) pk → 32 ≤ pk.length)
    (hm : ∀ pk, KeyFor P med mkey pk → 32 ≤ pk.length) :
    m.routedBy P r1 r2 uuid ssk keys med mkey ≠ .panic := by
  unfold Message.routedBy
  refine Res.bind_ne_panic (crypterOfHeader_ne_panic _) fun a _ => ?_
  refine Res.bind_ne_panic ?_ fun next _ => ?_
  · cases h : m.didcomm.to with
    | nil => exact absurd h hto
    | cons d l => simp
  refine Res.bind_ne_panic (C60_seal_no_panic_partial P hP r1 m ssk keys hk) fun sealed _ => ?_
  refine Res.bind_ne_panic ?_ fun f hf => ?_
  · unfold Message.setBody
    exact Res.bind_ne_panic Res.ofOpt_ne_panic fun _ _ => by simp
  refine C60_seal_no_panic_partial P hP r2 f ssk _ fun i d pk hd hpk => ?_
  have htof : f.didcomm.to = if med = [] then [] else [med] := by
    simp only [Message.setBody, Res.bind_eq_ok, Res.ofOpt_eq_ok, Res.pure_eq, Res.ok.injEq] at hf
    obtain ⟨v, -, rfl⟩ := hf
    have hd : ∀ m' : Message, (m'.asJwe P a mkey).didcomm = m'.didcomm := fun m' => by
      unfold Message.asJwe
      (repeat' split) <;> rfl
    simp only [Message.setTyp, hd, Message.setFrom]
    by_cases hmed : med = []
    · subst hmed; rfl
    · rw [if_neg hmed, (C08_to_appends _ _).1]; exact new_to (uuid := uuid) hmed
  rw [htof] at hd
  split at hd
  · simp at hd
  · cases i with
    | zero =>
      simp only [List.getElem?_cons_zero, Option.some.injEq] at hd
      subst hd
      exact hm pk hpk
    | succ i => simp at hd

/-- Non-vacuity: all keys have 32 bytes. -/
example : exampleMessage.didcomm.to ≠ [] ∧ ∀ (i : Nat) (d : Str) (pk : Bytes), exampleMessage.didcomm.to[i]? = some d →
    KeyFor (toy fun _ => none) d (Spec.keyAt (some [some (exampleKey 1), some (exampleKey 2)]) i) pk →
    32 ≤ pk.length := by
  refine ⟨by decide, ?_⟩
  intro i d pk _ h
  rcases h with h | ⟨-, _, h, -⟩
  · match i, h with
    | 0, h => obtain rfl := Option.some.inj h; decide
    | 1, h => obtain rfl := Option.some.inj h; decide
    | i + 2, h => simp [Spec.keyAt] at h
  · cases h

/-! ## Truncation of long keys -/

theorem arrayRef32_take {k : Bytes} : arrayRef32 (k.take 32) = arrayRef32 k := by
  unfold arrayRef32
  by_cases h : 32 ≤ k.length
  · rw [if_pos h, if_pos (by simp; omega), List.take_take]; rfl
  · rw [if_neg h, if_neg (by simp; omega)]

theorem sharedFor_take {P : Prims} {sk : Bytes} {did : Str} {key : Option Bytes} :
    sharedFor P sk did (key.map (·.take 32)) = sharedFor P sk did key := by
  cases key with
  | none => rfl
  | some k => simp [sharedFor, publicKeyFor, arrayRef32_take]

theorem sharedFor_take_secret {P : Prims} {sk : Bytes} {did : Str} {key : Option Bytes} :
    sharedFor P (sk.take 32) did key = sharedFor P sk did key := by
  simp only [sharedFor, arrayRef32_take]

/-- A list of keys with every given key cut to 32 bytes. -/
def Spec.cutKeys (keys : Option (List (Option Bytes))) : Option (List (Option Bytes)) :=
  keys.map fun l => l.map fun k => k.map (·.take 32)

theorem sealRecipients_take {P : Prims} {r : Nat → RecRand} {m : Message} {sk cek : Bytes}
    {to : List Str} {l : List (Option Bytes)} (i : Nat) :
    Message.sealRecipients P r m sk cek i (to.zip (l.map fun k => k.map (·.take 32))) =
      Message.sealRecipients P r m sk cek i (to.zip l) := by
  induction to generalizing l i with
  | nil => rfl
  | cons d to ih =>
    cases l with
    | nil => rfl
    | cons k l =>
      simp only [List.map_cons, List.zip_cons_cons, Message.sealRecipients, ih]
      simp only [encryptCek, generateKek, sharedFor_take]

/-- C61 fails on the sending side: recipient keys longer than 32 bytes are not rejected but cut to their first
32 bytes. -/
theorem C61_seal_cuts_keys_violated (P : Prims) (r : Message.SealRand) (m : Message) (ssk : Bytes)
    (keys : Option (List (Option Bytes))) :
    m.sealJwe P r ssk keys = m.sealJwe P r ssk (Spec.cutKeys keys) := by
  cases keys with
  | none => rfl
  | some l =>
    simp only [Message.sealJwe, Message.sealKeys, Spec.cutKeys, Option.map_some, List.length_map]
    by_cases h : l.length ≠ m.didcomm.to.length
    · rw [if_pos h, if_pos h]
    · rw [if_neg h, if_neg h]
      simp only [Res.bind_ok, sealRecipients_take]

theorem senderKey_take {P : Prims} {j : Jwe} {key : Option Bytes} :
    (Message.senderKey P j (key.map (·.take 32)) >>= arrayRef32) = (Message.senderKey P j key >>= arrayRef32) := by
  cases key with
  | none => rfl
  | some k => simp [Message.senderKey, arrayRef32_take]

theorem decryptCek_take {P : Prims} {j : Jwe} {sk : Bytes} {r : Recipient} {key : Option Bytes} :
    decryptCek P j (sk.take 32) r (key.map (·.take 32)) = decryptCek P j sk r key := by
  simp only [decryptCek, generateKek, sharedFor_take, sharedFor_take_secret, arrayRef32_take]

theorem firstKey_take {P : Prims} {j : Jwe} {sk : Bytes} {key : Option Bytes} {l : List Recipient} :
    Message.firstKey P j (sk.take 32) (key.map (·.take 32)) l = Message.firstKey P j sk key l := by
  induction l with
  | nil => rfl
  | cons r l ih => simp only [Message.firstKey, decryptCek_take, ih]

theorem contentKey_take {P : Prims} {j : Jwe} {sk : Bytes} {key : Option Bytes} {p : Bytes} :
    Message.contentKey P j (sk.take 32) (key.map (·.take 32)) p = Message.contentKey P j sk key p := by
  simp only [Message.contentKey, firstKey_take]

theorem receiveJwe_take {P : Prims} {o : HOrd} {s : Str} {sk : Bytes} {key : Option Bytes} :
    Message.receiveJwe P o s (sk.take 32) (key.map (·.take 32)) = Message.receiveJwe P o s sk key := by
  unfold Message.receiveJwe
  simp only [arrayRef32_take, contentKey_take]
  congr 1
  funext j
  congr 1
  funext alg
  cases key with
  | none => rfl
  | some k => simp [Message.senderKey, arrayRef32_take]

/-- C61 fails on the receiving side: the private key and the sender's key are cut to their first 32 bytes. -/
theorem C61_receive_cuts_keys_violated (P : Prims) (o : HOrd) (s : Str) (sk ek vk : Option Bytes) :
    Message.receive P o s sk ek vk =
      Message.receive P o s (sk.map (·.take 32)) (ek.map (·.take 32)) vk := by
  unfold Message.receive Message.decryptStep
  cases sk with
  | none => rfl
  | some k => simp only [Option.map_some, Res.ofOpt_some, Res.bind_ok, receiveJwe_take]

/-- C61, what holds: `seal` rejects every private key that does not have 32 bytes. -/
theorem C61_private_key_partial (P : Prims) (r : Message.SealRand) (m : Message) (ssk : Bytes)
    (keys : Option (List (Option Bytes))) (h : ssk.length ≠ 32) :
    ∃ e, m.sealJwe P r ssk keys = .err e := by
  unfold Message.sealJwe
  exact ⟨_, if_pos h⟩

/-- Non-vacuity: a 33-byte key is accepted in place of the 32-byte one. -/
example : ∃ t, exampleMessage.sealJwe (toy fun _ => none) exampleRand (exampleKey 3)
    (some [some (exampleKey 1 ++ [7]), some (exampleKey 2)]) = .ok t := by
  rw [C61_seal_cuts_keys_violated]
  refine C16_seal_total (toy fun _ => none) (toy_laws _) (toy_total _) exampleRand exampleMessage (exampleKey 3) _
    c!"ECDH-1PU+XC20PKW" (by decide) (by decide) (by intro l hl; rw [← Option.some.inj hl]; rfl)
    (by intro h; cases h) rfl (by decide) fun i dest hi => ?_
  match i with
  | 0 => exact ⟨exampleKey 1, by decide, .inl (by decide)⟩
  | 1 => exact ⟨exampleKey 2, by decide, .inl (by decide)⟩
  | n + 2 => cases hi

/-! ## Receiving what `seal` made -/

/-- Opening yields 16 bytes fewer than it is given. -/
def Spec.DecLen (P : Prims) : Prop :=
  ∀ k n a c m, P.xcDec k n a c = some m ∨ P.gcmDec k n a c = some m → c.length = m.length + 16

theorem toy_decLen (resolve : Str → Option DidDoc) : Spec.DecLen (toy resolve) := by
  intro k n a c m h
  have : toyDec k n a c = some m := by rcases h with h | h <;> exact h
  have h1 := toyDec_ok this
  unfold toyDec at this
  simp only at this
  split at this
  · rename_i hl
    rw [h1, List.length_take]
    omega
  · cases this

/-- C62.  Receiving an envelope made by `seal` never panics: whoever receives it, recipient or not, with
whatever keys of at least 32 bytes. -/
theorem C62_sealed_no_panic (P : Prims) (hP : Laws P) (hd : Spec.DecLen P) (r : Message.SealRand) (m : Message)
    (ssk : Bytes) (keys : Option (List (Option Bytes))) (t : Str) (hm : m.jwm.WF)
    (hseal : m.sealJwe P r ssk keys = .ok t) (o : HOrd) (sk ek vk : Option Bytes)
    (hsk : ∀ k, sk = some k → 32 ≤ k.length) (hek : ∀ k, ek = some k → 32 ≤ k.length)
    (hres : ek = none → ∀ frm d k, m.didcomm.from = some frm → P.resolve frm = some d →
      d.keyFor c!"X25519" = some k → 32 ≤ k.length) :
    Message.receive P o t sk ek vk ≠ .panic := by
  obtain ⟨pks, rs, a, c, tag, alg, hp, hpl, hk, hto, hfl, hrs, hl, hal, ha, he, htag, rfl⟩ := seal_ok hseal
  have hw := envelope_wf (rs := rs) (iv := r.iv.1) (c := c) (tag := tag) hm (sealRecipients_wf hrs)
  refine C34_no_panic_partial P hP o _ sk ek vk fun _ k j hk' hj => ?_
  rw [jwe_ofText_text _ hw] at hj
  obtain rfl := Option.some.inj hj
  have hrec := envelope_recipients (iv := r.iv.1) (c := c) (tag := tag) hfl
  refine ⟨hsk k hk', hek, ?_, ?_, ?_, ?_, ?_⟩
  · intro h0 skid d k hs h1 h2
    rw [envelope_skid] at hs
    exact hres h0 skid d k hs h1 h2
  · simp [Spec.envelope, b64Decode_encode]
  · exact ⟨r.iv.1, by simp [Spec.envelope, b64Decode_encode], fun _ => by rw [r.iv.2]; exact Nat.le_refl _⟩
  · intro rs' hrs' rc hrc alg' t b halg hiv hb
    rw [hrec] at hrs'
    obtain rfl := Option.some.inj hrs'
    rw [envelope_alg hal] at halg
    obtain rfl := Option.some.inj halg
    obtain ⟨i, hi, rfl⟩ := List.getElem_of_mem hrc
    obtain ⟨d, key, -, hc⟩ := (sealRecipients_ok hrs).2 i _ (List.getElem?_eq_getElem hi)
    obtain ⟨alg'', ze, kek, ka, iv, c, tag, h1, -, -, hw', -, -, -, -, -, ho, -⟩ := encryptCek_ok hc
    rw [hal] at h1
    obtain rfl := Option.some.inj h1
    rw [ho, HMap.get_insert, if_neg (by decide), HMap.get_insert, if_pos rfl] at hiv
    obtain rfl := Option.some.inj hiv
    rw [b64Decode_encode] at hb
    obtain rfl := Option.some.inj hb
    unfold Spec.nonceSize
    rcases wrapCek_iv hw' with ⟨rfl, hlen, -⟩ | ⟨rfl, hlen, -⟩
    · rw [if_pos rfl, hlen]
    · rw [if_neg (by decide), hlen]
  · intro rs' hrs' rc hrc alg' spk key hu
    rw [hrec] at hrs'
    obtain rfl := Option.some.inj hrs'
    obtain ⟨i, hi, rfl⟩ := List.getElem_of_mem hrc
    obtain ⟨d, key', -, hc⟩ := (sealRecipients_ok hrs).2 i _ (List.getElem?_eq_getElem hi)
    obtain ⟨alg'', ze, kek, ka, iv, c, tag, -, -, -, hw', -, hek, -, -, -, ho, -⟩ := encryptCek_ok hc
    obtain ⟨epk, eph, ivText, iv', tagText, tag', wrapped, kek', -, -, -, -, -, htt, htd, hwr, -, hdec⟩ := hu
    rw [ho, HMap.get_insert, if_pos rfl] at htt
    obtain rfl := Option.some.inj htt
    rw [b64Decode_encode] at htd
    obtain rfl := Option.some.inj htd
    rw [hek, b64Decode_encode] at hwr
    obtain rfl := Option.some.inj hwr
    have h1 := (unwrap_wrap hP hw').2
    have h2 : (c ++ tag).length = key.length + 16 := by
      rcases hdec with ⟨-, h⟩ | ⟨-, h⟩
      · exact hd _ _ _ _ _ (.inl h)
      · exact hd _ _ _ _ _ (.inr h)
    rw [cek_length] at h1
    omega

/-- Non-vacuity: a stranger with other keys gets an error or a message, not a panic. -/
example : ∃ t, exampleMessage.sealJwe (toy fun _ => none) exampleRand (exampleKey 3)
      (some [some (exampleKey 1), some (exampleKey 2)]) = .ok t ∧
    Message.receive (toy fun _ => none) HOrd.rev t (some (exampleKey 9)) (some (exampleKey 8)) none ≠ .panic := by
  obtain ⟨t, ht⟩ := C16_seal_total (toy fun _ => none) (toy_laws _) (toy_total _) exampleRand exampleMessage
    (exampleKey 3) (some [some (exampleKey 1), some (exampleKey 2)])
    c!"ECDH-1PU+XC20PKW" (by decide) (by decide) (by intro l hl; rw [← Option.some.inj hl]; rfl)
    (by intro h; cases h) rfl (by decide) (by
      intro i dest hi
      match i with
      | 0 => exact ⟨exampleKey 1, by decide, .inl (by decide)⟩
      | 1 => exact ⟨exampleKey 2, by decide, .inl (by decide)⟩
      | n + 2 => cases hi)
  refine ⟨t, ht, C62_sealed_no_panic _ (toy_laws _) (toy_decLen _) exampleRand exampleMessage (exampleKey 3) _ t
    (exampleMessage_wf fun _ => none).jwm ht _ _ _ _ ?_ ?_ ?_⟩
  · intro k hk; obtain rfl := Option.some.inj hk; decide
  · intro k hk; obtain rfl := Option.some.inj hk; decide
  · intro h; cases h

end Verif
