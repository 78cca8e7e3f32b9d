import Verif.Props.Open

/-!
# Panics on untrusted input

C34.
-/

namespace Verif

open Spec

theorem Res.bind_ne_panic {α β : Type} {x : Res α} {f : α → Res β} (hx : x ≠ .panic)
    (hf : ∀ a, x = .ok a → f a ≠ .panic) : (x >>= f) ≠ .panic := by
  intro h
  rcases Res.bind_eq_panic.1 h with h | ⟨a, h1, h2⟩
  · exact hx h
  · exact hf a h1 h2

/-- Nonce size of the key wrapping and content ciphers. -/
def Spec.nonceSize (alg : Str) : Nat := if alg = c!"ECDH-1PU+XC20PKW" then 24 else 12

/-- The conditions on an envelope and the keys at hand under which no step of opening it can panic:
keys of at least 32 bytes, base64url iv and ciphertext, nonces of the cipher's size, and content keys
of 32 bytes.  (A content iv may also be shorter, which is an error, and for A256GCM longer.) -/
structure Spec.Openable (P : Prims) (j : Jwe) (sk : Bytes) (ek : Option Bytes) : Prop where
  secret : 32 ≤ sk.length
  given : ∀ k, ek = some k → 32 ≤ k.length
  resolved : ek = none → ∀ skid d k, j.getSkid = some skid → P.resolve skid = some d →
    d.keyFor c!"X25519" = some k → 32 ≤ k.length
  ciphertext : b64Decode j.ciphertext ≠ none
  iv : ∃ b, b64Decode j.iv = some b ∧ (j.getAlg = some c!"ECDH-1PU+XC20PKW" → b.length ≤ 24)
  nonces : ∀ rs, Message.recipientsOf j = some rs → ∀ rc ∈ rs, ∀ alg t b, j.getAlg = some alg →
    rc.header.other.get c!"iv" = some t → b64Decode t = some b → b.length = Spec.nonceSize alg
  keys : ∀ rs, Message.recipientsOf j = some rs → ∀ rc ∈ rs, ∀ alg spk key,
    Spec.KeyUnwraps P alg sk spk rc key → key.length = 32

theorem keyFor_len {P : Prims} {j : Jwe} {sk : Bytes} {ek : Option Bytes} (h : Spec.Openable P j sk ek)
    {skid : Str} {pk : Bytes} (hs : j.getSkid = some skid) (hk : KeyFor P skid ek pk) :
    32 ≤ pk.length := by
  rcases hk with hk | ⟨hk, d, h1, h2⟩
  · exact h.given _ hk
  · exact h.resolved hk _ _ _ hs h1 h2

theorem publicKeyFor_ne_panic (P : Prims) (did : Str) (key : Option Bytes) :
    publicKeyFor P did key ≠ .panic := by
  unfold publicKeyFor
  split
  · simp
  · exact Res.bind_ne_panic Res.ofOpt_ne_panic fun _ _ => Res.ofOpt_ne_panic

theorem arrayRef32_ne_panic {b : Bytes} (h : 32 ≤ b.length) : arrayRef32 b ≠ .panic := by
  simp [arrayRef32, h]

theorem decryptCek_safe {P : Prims} (hP : Laws P) {j : Jwe} {sk : Bytes} {ek : Option Bytes}
    (h : Spec.Openable P j sk ek) {rs : List Recipient} (hr : Message.recipientsOf j = some rs)
    {rc : Recipient} (hrc : rc ∈ rs) : decryptCek P j sk rc ek ≠ .panic := by
  unfold decryptCek
  refine Res.bind_ne_panic Res.ofOpt_ne_panic fun alg halg => ?_
  rw [Res.ofOpt_eq_ok] at halg
  refine Res.bind_ne_panic Res.ofOpt_ne_panic fun skid hskid => ?_
  rw [Res.ofOpt_eq_ok] at hskid
  refine Res.bind_ne_panic Res.ofOpt_ne_panic fun epk hepk => ?_
  refine Res.bind_ne_panic Res.ofOpt_ne_panic fun pub hpub => ?_
  refine Res.bind_ne_panic (by split <;> simp) fun pub' hpub' => ?_
  refine Res.bind_ne_panic (arrayRef32_ne_panic h.secret) fun s hs => ?_
  refine Res.bind_ne_panic ?_ fun kek hkek => ?_
  · unfold generateKek
    refine Res.bind_ne_panic ?_ fun z _ => (C37_kdf_fails_only_if_long _ _ _ _ _).2
    unfold sharedFor
    refine Res.bind_ne_panic (publicKeyFor_ne_panic _ _ _) fun pk hpk => ?_
    rw [publicKeyFor_iff] at hpk
    refine Res.bind_ne_panic (arrayRef32_ne_panic h.secret) fun _ _ => ?_
    exact Res.bind_ne_panic (arrayRef32_ne_panic (keyFor_len h hskid hpk)) fun _ _ => by simp
  · have hkl : kek.length = 32 := by
      simp only [generateKek, concatKdf, Res.bind_eq_ok, Res.pure_eq, Res.ok.injEq] at hkek
      obtain ⟨_, -, _, -, rfl⟩ := hkek
      exact hP.sha_len _
    refine Res.bind_ne_panic Res.ofOpt_ne_panic fun iv hiv => ?_
    refine Res.bind_ne_panic Res.ofOpt_ne_panic fun ivb hivb => ?_
    refine Res.bind_ne_panic Res.ofOpt_ne_panic fun tag _ => ?_
    refine Res.bind_ne_panic Res.ofOpt_ne_panic fun c _ => ?_
    refine Res.bind_ne_panic Res.ofOpt_ne_panic fun t _ => ?_
    rw [Res.ofOpt_eq_ok] at hiv hivb
    have hn := h.nonces rs hr rc hrc alg iv ivb halg hiv hivb
    unfold Spec.nonceSize at hn
    unfold unwrapCek
    split
    · rename_i hx
      rw [if_pos hx] at hn
      simp [fromSlice, hn, hkl]
    · rename_i hx
      rw [if_neg hx] at hn
      split
      · simp [fromSlice, hn, hkl]
      · simp

theorem firstKey_safe {P : Prims} {j : Jwe} {sk : Bytes} {ek : Option Bytes} {rs : List Recipient}
    (h : ∀ rc ∈ rs, decryptCek P j sk rc ek ≠ .panic) : Message.firstKey P j sk ek rs ≠ .panic := by
  induction rs with
  | nil => simp [Message.firstKey]
  | cons x rs ih =>
    unfold Message.firstKey
    split
    · simp
    · exact ih fun y hy => h y (by simp [hy])
    · rename_i hp
      exact absurd hp (h x (by simp))

theorem decrypter_safe {P : Prims} {alg : Str} {a : CryptoAlg} (ha : CryptoAlg.ofStr alg = .ok a)
    {iv key ct aad : Bytes} (hk : key.length = 32) (hiv : alg = c!"ECDH-1PU+XC20PKW" → iv.length ≤ 24) :
    a.decrypter P iv key ct aad ≠ .panic := by
  rcases ofStr_ok ha with ⟨h1, rfl⟩ | ⟨h1, rfl⟩
  · simp only [CryptoAlg.decrypter, checkNonce]
    split <;> simp [fromSlice, hk]
  · have := hiv h1
    simp only [CryptoAlg.decrypter, checkNonce]
    split
    · simp
    · rename_i hn
      have : iv.length = 24 := by omega
      simp [fromSlice, hk, this]

theorem receiveJwe_safe {P : Prims} (hP : Laws P) {o : HOrd} {s : Str} {sk : Bytes} {ek : Option Bytes}
    (h : ∀ j, Jwe.ofText P.f64 s = some j → Spec.Openable P j sk ek) :
    Message.receiveJwe P o s sk ek ≠ .panic := by
  unfold Message.receiveJwe
  refine Res.bind_ne_panic Res.ofOpt_ne_panic fun j hj => ?_
  rw [Res.ofOpt_eq_ok] at hj
  have hs := h j hj
  refine Res.bind_ne_panic Res.ofOpt_ne_panic fun alg halg => ?_
  rw [Res.ofOpt_eq_ok] at halg
  refine Res.bind_ne_panic ?_ fun pk hpk => ?_
  · unfold Message.senderKey
    split
    · simp
    · exact Res.bind_ne_panic Res.ofOpt_ne_panic fun _ _ => Res.bind_ne_panic Res.ofOpt_ne_panic
        fun _ _ => Res.ofOpt_ne_panic
  · have hpk32 : 32 ≤ pk.length := by
      unfold Message.senderKey at hpk
      split at hpk
      · obtain rfl := Res.ok.inj hpk
        exact hs.given _ rfl
      · simp only [Res.bind_eq_ok, Res.ofOpt_eq_ok] at hpk
        obtain ⟨skid, h1, d, h2, h3⟩ := hpk
        exact hs.resolved rfl _ _ _ h1 h2 h3
    refine Res.bind_ne_panic (arrayRef32_ne_panic hs.secret) fun x hx => ?_
    refine Res.bind_ne_panic (arrayRef32_ne_panic hpk32) fun p hp => ?_
    refine Res.bind_ne_panic (by unfold CryptoAlg.ofStr; (repeat' split) <;> simp) fun a ha => ?_
    refine Res.bind_ne_panic ?_ fun key hkey => ?_
    · unfold Message.contentKey
      split
      · rename_i rs hrs
        exact firstKey_safe fun rc hrc => decryptCek_safe hP hs hrs hrc
      · simp
    · refine Res.bind_ne_panic ?_ fun _ _ => by simp
      have hkl : key.length = 32 := by
        unfold Message.contentKey at hkey
        split at hkey
        · rename_i rs hrs
          obtain ⟨rc, hrc, hd⟩ := firstKey_ok hkey
          obtain ⟨_, _, _, -, -, -, -, -, hu⟩ := decryptCek_ok hd
          exact hs.keys rs hrs rc hrc _ _ _ hu
        · rw [← Res.ok.inj hkey]
          exact hP.dh_len _ _
      unfold Message.decrypt
      rw [parseBytes_utf8]
      refine Res.bind_ne_panic Res.ofOpt_ne_panic fun j' hj' => ?_
      rw [Res.ofOpt_eq_ok] at hj'
      obtain rfl : j' = j := by
        have : Jwe.ofText P.f64 s = some j' := by
          rw [← hj']; unfold Jwe.ofText; cases parseJson s <;> rfl
        rw [this] at hj
        exact Option.some.inj hj
      obtain ⟨b, hb, hbl⟩ := hs.iv
      refine Res.bind_ne_panic Res.ofOpt_ne_panic fun hd _ => ?_
      refine Res.bind_ne_panic Res.ofOpt_ne_panic fun tag _ => ?_
      refine Res.bind_ne_panic ?_ fun c _ => ?_
      · unfold Jwe.getPayload
        cases hc : b64Decode j'.ciphertext with
        | none => exact absurd hc hs.ciphertext
        | some c => simp
      refine Res.bind_ne_panic Res.ofOpt_ne_panic fun t _ => ?_
      refine Res.bind_ne_panic (by simp [Jwe.getIv, hb]) fun iv hiv => ?_
      simp only [Jwe.getIv, hb, Res.unwrap_some, Res.ok.injEq] at hiv
      subst hiv
      refine Res.bind_ne_panic ?_ fun _ _ => Res.ofOpt_ne_panic
      intro hp
      refine decrypter_safe (P := P) ha hkl (iv := b) (fun hx => hbl (by rw [halg, hx])) (ct := c ++ t)
        (aad := utf8 (headerB64 (o.sub 0) hd)) ?_
      revert hp
      cases a.decrypter P b key (c ++ t) (utf8 (headerB64 (o.sub 0) hd)) <;> simp [Message.plugErr]

theorem signingKey_ne_panic (key : Option Bytes) (kid : Option Str) : signingKey key kid ≠ .panic := by
  unfold signingKey
  split
  · simp
  · split
    · exact Res.ofOpt_ne_panic
    · simp

theorem signaturesOf_ne_panic (j : Jws) : Message.signaturesOf j ≠ .panic := by
  unfold Message.signaturesOf
  split
  · simp
  · split <;> simp

/-- `verify` never panics. -/
theorem verify_ne_panic (P : Prims) (o : HOrd) (b key : Bytes) : Message.verify P o b key ≠ .panic := by
  have hone : ∀ o p s, Message.verifyOne P o p key s ≠ .panic := by
    intro o p s
    unfold Message.verifyOne
    refine Res.bind_ne_panic Res.ofOpt_ne_panic fun _ _ => ?_
    refine Res.bind_ne_panic (by unfold SignAlg.ofStr; (repeat' split) <;> simp) fun _ _ => ?_
    exact Res.bind_ne_panic Res.ofOpt_ne_panic fun _ _ => Res.ofOpt_ne_panic
  have hloop : ∀ p sigs o, Message.verifyLoop P p key o sigs ≠ .panic := by
    intro p sigs
    induction sigs with
    | nil => intro o; simp [Message.verifyLoop]
    | cons s l ih =>
      intro o
      unfold Message.verifyLoop
      refine Res.bind_ne_panic (hone _ _ _) fun b _ => ?_
      split
      · simp
      · exact ih _
  unfold Message.verify
  refine Res.bind_ne_panic Res.ofOpt_ne_panic fun _ _ => ?_
  refine Res.bind_ne_panic (signaturesOf_ne_panic _) fun _ _ => ?_
  refine Res.bind_ne_panic (hloop _ _ _) fun _ _ => ?_
  split
  · exact Res.bind_ne_panic Res.ofOpt_ne_panic fun _ _ => Res.ofOpt_ne_panic
  · simp

theorem verifyEach_ne_panic (P : Prims) (b : Bytes) (key : Option Bytes) :
    ∀ (l : List Signature) (o : HOrd), Message.verifyEach P b key o l ≠ .panic := by
  intro l
  induction l with
  | nil => intro o; simp [Message.verifyEach]
  | cons s l ih =>
    intro o
    unfold Message.verifyEach
    split
    · exact ih _
    · refine Res.bind_ne_panic (signingKey_ne_panic _ _) fun k _ => ?_
      split
      · simp
      · exact ih _
      · rename_i hp
        exact absurd hp (verify_ne_panic _ _ _ _)

/-- `receive_jws` never panics. -/
theorem receiveJws_ne_panic (P : Prims) (o : HOrd) (s : Str) (key : Option Bytes) :
    Message.receiveJws P o s key ≠ .panic := by
  unfold Message.receiveJws
  refine Res.bind_ne_panic ?_ fun _ _ => Res.bind_ne_panic Res.ofOpt_ne_panic fun _ _ => by simp
  unfold Message.verifiedOf
  split
  · split
    · simp
    · refine Res.bind_ne_panic (by simp [Message.getBody]) fun _ _ => ?_
      refine Res.bind_ne_panic (signingKey_ne_panic _ _) fun _ _ => ?_
      exact Res.bind_ne_panic (verify_ne_panic _ _ _ _) fun _ _ => by simp
  · split
    · exact Res.bind_ne_panic (signaturesOf_ne_panic _) fun _ _ => verifyEach_ne_panic _ _ _ _ _
    · simp

theorem messageType_ne_panic (P : Prims) (s : Str) : Message.messageType P s ≠ .panic := by
  unfold Message.messageType
  refine Res.bind_ne_panic Res.ofOpt_ne_panic fun _ _ => ?_
  refine Res.bind_ne_panic Res.ofOpt_ne_panic fun _ _ => ?_
  refine Res.bind_ne_panic Res.ofOpt_ne_panic fun _ _ => ?_
  refine Res.bind_ne_panic Res.ofOpt_ne_panic fun _ _ => ?_
  refine Res.bind_ne_panic Res.ofOpt_ne_panic fun _ _ => ?_
  split
  · simp
  · split
    · simp
    · exact Res.bind_ne_panic Res.ofOpt_ne_panic fun _ _ => by simp

/-- C34, what holds.  `receive` does not panic, for any text and any keys, unless the text is classified
as encrypted, a private key is given and the envelope is not openable in the sense above. -/
theorem C34_no_panic_partial (P : Prims) (hP : Laws P) (o : HOrd) (s : Str) (sk ek vk : Option Bytes)
    (h : Message.messageType P s = .ok .jwe → ∀ k j, sk = some k → Jwe.ofText P.f64 s = some j →
      Spec.Openable P j k ek) : Message.receive P o s sk ek vk ≠ .panic := by
  unfold Message.receive
  refine Res.bind_ne_panic ?_ fun cur _ => ?_
  · unfold Message.decryptStep
    refine Res.bind_ne_panic (messageType_ne_panic _ _) fun t ht => ?_
    split
    · rename_i htj
      refine Res.bind_ne_panic Res.ofOpt_ne_panic fun k hk => ?_
      rw [Res.ofOpt_eq_ok] at hk
      subst htj
      exact receiveJwe_safe hP fun j hj => h ht k j hk hj
    · simp
  · refine Res.bind_ne_panic ?_ fun _ _ => Res.ofOpt_ne_panic
    unfold Message.verifyStep
    refine Res.bind_ne_panic (messageType_ne_panic _ _) fun t ht => ?_
    split
    · exact receiveJws_ne_panic _ _ _ _
    · simp

/-! ## Inputs that make `receive` panic -/

/-- Header of the malicious envelopes. -/
def evilHeader : JwmHeader :=
  { JwmHeader.dflt with alg := some c!"ECDH-1PU+XC20PKW", skid := some c!"did:a:b" }

/-- A malicious envelope: recipient entries, ciphertext and iv as given. -/
def evil (rs : Option (List Recipient)) (ciphertext iv : Str) : Jwe :=
  { protected_ := some evilHeader, unprotected := none, recipient := none, recipients := rs,
    ciphertext := ciphertext, iv := iv, tag := some [] }

theorem evil_wf {rs : Option (List Recipient)} (h : RecipientsWF rs) (c iv : Str) : (evil rs c iv).WF where
  prot := by
    intro x hx
    rw [← Option.some.inj hx]
    exact ⟨(by intro k hk; cases hk), (by intro k hk; cases hk)⟩
  unprot := by intro x hx; cases hx
  recipient := by intro x hx; cases hx
  recipients := h

theorem evil_receive {P : Prims} {o : HOrd} {sk ek : Bytes} {vk : Option Bytes} {c iv : Str}
    {rs : Option (List Recipient)} (hw : RecipientsWF rs) (h1 : 32 ≤ sk.length) (h2 : 32 ≤ ek.length)
    (h : (Message.contentKey P (evil rs c iv) sk (some ek) (P.x25519 (sk.take 32) (ek.take 32)) >>=
      fun key => Message.decrypt P ((o.sub 0).sub 0) (utf8 ((evil rs c iv).text HOrd.id))
        (CryptoAlg.xc20p.decrypter P) key) = .panic) :
    Message.receive P o ((evil rs c iv).text HOrd.id) (some sk) (some ek) vk = .panic := by
  have hof := jwe_ofText_text (F := P.f64) HOrd.id (evil_wf hw c iv)
  have halg : (evil rs c iv).getAlg = some c!"ECDH-1PU+XC20PKW" := rfl
  have hofs : CryptoAlg.ofStr c!"ECDH-1PU+XC20PKW" = .ok .xc20p := by decide
  unfold Message.receive Message.decryptStep
  rw [messageType_jwe, Res.bind_ok, if_pos rfl, Res.ofOpt_some, Res.bind_ok]
  unfold Message.receiveJwe
  rw [hof, Res.ofOpt_some, Res.bind_ok, halg, Res.ofOpt_some, Res.bind_ok,
    show Message.senderKey P (evil rs c iv) (some ek) = .ok ek from rfl, Res.bind_ok,
    arrayRef32_eq_ok.2 ⟨h1, rfl⟩, Res.bind_ok, arrayRef32_eq_ok.2 ⟨h2, rfl⟩, Res.bind_ok, hofs,
    Res.bind_ok]
  rcases Res.bind_eq_panic.1 h with h | ⟨k, hk, h⟩
  · rw [h]; rfl
  · rw [hk, Res.bind_ok, h]; rfl

theorem evil_decrypt {P : Prims} {o : HOrd} {c iv : Str} {key : Bytes} {d : SymMethod}
    {rs : Option (List Recipient)} (hw : RecipientsWF rs)
    (h : (Res.unwrap (b64Decode c) >>= fun ct => Res.unwrap (b64Decode iv) >>= fun n =>
      d n key (ct ++ []) (utf8 (headerB64 o evilHeader))) = .panic) :
    Message.decrypt P o (utf8 ((evil rs c iv).text HOrd.id)) d key = .panic := by
  have hof := decJwe_enc (F := P.f64) HOrd.id (evil_wf hw c iv)
  unfold Message.decrypt
  rw [parseBytes_utf8, parse_jwe, Option.bind_some, hof, Res.ofOpt_some, Res.bind_ok,
    show (evil rs c iv).protected_ = some evilHeader from rfl, Res.ofOpt_some, Res.bind_ok,
    show (evil rs c iv).tag = some [] from rfl, Res.ofOpt_some, Res.bind_ok,
    show (evil rs c iv).getPayload = Res.unwrap (b64Decode c) from rfl,
    show (evil rs c iv).getIv = Res.unwrap (b64Decode iv) from rfl,
    show Res.ofOpt Err.base64 (b64Decode []) = .ok [] from by decide]
  rcases Res.bind_eq_panic.1 h with h | ⟨ct, hct, h⟩
  · rw [h]; rfl
  · rw [hct]
    simp only [Res.bind_ok]
    rcases Res.bind_eq_panic.1 h with h | ⟨n, hn, h⟩
    · rw [h]; rfl
    · rw [hn, Res.bind_ok, h]; rfl

/-- C34 fails: a ciphertext that is not base64url makes `receive` panic, whatever the keys. -/
theorem C34_ciphertext_panic_violated : ∃ t : Str, ∀ (P : Prims) (o : HOrd) (sk ek : Bytes)
    (vk : Option Bytes), 32 ≤ sk.length → 32 ≤ ek.length →
    Message.receive P o t (some sk) (some ek) vk = .panic := by
  refine ⟨(evil none c!"!" []).text HOrd.id, fun P o sk ek vk h1 h2 => ?_⟩
  refine evil_receive (by intro l h; cases h) h1 h2 ?_
  rw [show Message.contentKey P _ sk _ _ = .ok _ from rfl, Res.bind_ok]
  refine evil_decrypt (by intro l h; cases h) ?_
  rw [show b64Decode c!"!" = none from by decide]
  rfl

/-- C34 fails: an iv that is not base64url makes `receive` panic, whatever the keys. -/
theorem C34_iv_panic_violated : ∃ t : Str, ∀ (P : Prims) (o : HOrd) (sk ek : Bytes)
    (vk : Option Bytes), 32 ≤ sk.length → 32 ≤ ek.length →
    Message.receive P o t (some sk) (some ek) vk = .panic := by
  refine ⟨(evil none [] c!"!").text HOrd.id, fun P o sk ek vk h1 h2 => ?_⟩
  refine evil_receive (by intro l h; cases h) h1 h2 ?_
  rw [show Message.contentKey P _ sk _ _ = .ok _ from rfl, Res.bind_ok]
  refine evil_decrypt (by intro l h; cases h) ?_
  rw [show b64Decode c!"!" = none from by decide, show b64Decode [] = some [] from by decide]
  rfl

/-- C34 fails: an iv of more than 24 bytes makes `receive` panic for XC20P, whatever the keys. -/
theorem C34_long_iv_panic_violated : ∃ t : Str, ∀ (P : Prims), Laws P → ∀ (o : HOrd) (sk ek : Bytes)
    (vk : Option Bytes), 32 ≤ sk.length → 32 ≤ ek.length →
    Message.receive P o t (some sk) (some ek) vk = .panic := by
  refine ⟨(evil none [] (b64Encode (List.replicate 25 0))).text HOrd.id, fun P hP o sk ek vk h1 h2 => ?_⟩
  refine evil_receive (by intro l h; cases h) h1 h2 ?_
  rw [show Message.contentKey P _ sk _ _ = .ok _ from rfl, Res.bind_ok]
  refine evil_decrypt (by intro l h; cases h) ?_
  rw [b64Decode_encode, show b64Decode [] = some [] from by decide]
  simp [CryptoAlg.decrypter, checkNonce, fromSlice, hP.dh_len]

/-- A recipient entry with a nonce of one byte. -/
def evilEntry : Recipient :=
  { header := (((Jwk.new.addOtherHeader c!"iv" c!"AA").addOtherHeader c!"tag" []).ephemeral c!"OKP"
      c!"X25519" (b64Encode (List.replicate 32 9)) none), encryptedKey := [] }

/-- C34 fails: a recipient entry whose nonce has the wrong size makes `receive` panic, whatever the
keys.  (The entry need not be addressed to this recipient.) -/
theorem C34_entry_nonce_panic_violated : ∃ t : Str, ∀ (P : Prims), Laws P → ∀ (o : HOrd) (sk ek : Bytes)
    (vk : Option Bytes), 32 ≤ sk.length → 32 ≤ ek.length →
    Message.receive P o t (some sk) (some ek) vk = .panic := by
  have hw : RecipientsWF (some [evilEntry]) := by
    intro l hl r hr
    obtain rfl := Option.some.inj hl
    obtain rfl := List.mem_singleton.1 hr
    show Jwk.WF _
    decide
  refine ⟨(evil (some [evilEntry]) [] []).text HOrd.id, fun P hP o sk ek vk h1 h2 => ?_⟩
  refine evil_receive hw h1 h2 ?_
  have hc : decryptCek P (evil (some [evilEntry]) [] []) sk evilEntry (some ek) = .panic := by
    unfold decryptCek
    rw [show (evil (some [evilEntry]) [] []).getAlg = some c!"ECDH-1PU+XC20PKW" from rfl,
      show (evil (some [evilEntry]) [] []).getSkid = some c!"did:a:b" from rfl,
      show evilEntry.header.epk = some ⟨c!"OKP", c!"X25519", b64Encode (List.replicate 32 9), none⟩ from rfl,
      show evilEntry.header.other.get c!"iv" = some c!"AA" from by decide,
      show evilEntry.header.other.get c!"tag" = some [] from by decide,
      show evilEntry.encryptedKey = [] from rfl]
    simp only [Res.ofOpt_some, Res.bind_ok, b64Decode_encode, List.length_replicate, if_true,
      arrayRef32_eq_ok.2 ⟨h1, rfl⟩, generateKek, sharedFor, publicKeyFor, arrayRef32_eq_ok.2 ⟨h2, rfl⟩,
      Res.pure_eq, show b64Decode c!"AA" = some [0] from by decide,
      show b64Decode [] = some [] from by decide]
    obtain ⟨k, hk⟩ := (C37_kdf_fails_only_if_long P (P.x25519 (sk.take 32) (List.replicate 32 9) ++
      P.x25519 (sk.take 32) (ek.take 32)) c!"ECDH-1PU+XC20PKW" none none).1.2 (by decide)
    rw [hk]
    rfl
  show (Message.firstKey P _ sk (some ek) [evilEntry] >>= _) = _
  unfold Message.firstKey
  rw [hc]
  rfl

/-- The conditions of `C34_no_panic_partial` can be met: an envelope of the expected sizes. -/
example : Spec.Openable (toy fun _ => none) (evil none [] (b64Encode (List.replicate 24 0)))
    (exampleKey 1) (some (exampleKey 2)) where
  secret := by decide
  given := by intro k hk; cases hk; decide
  resolved := by intro h; cases h
  ciphertext := by decide
  iv := ⟨_, b64Decode_encode _, by intro _; decide⟩
  nonces := by intro rs h; cases h
  keys := by intro rs h; cases h

end Verif
