import Verif.Props.Whole

/-!
# What an error of `receive` means

C120: the errors of `receive` that name a cause are returned exactly in the case of that cause.
-/

namespace Verif

open Spec

/-! ## Specification -/

/-- The text is taken for an envelope.  Besides objects with a member `iv` these are lists of three members. -/
def Spec.LooksSealed (P : Prims) (s : Str) : Prop :=
  KindOf P s .jwe ∨ ∃ a b c, Document (.arr [a, b, c]) s ∧ c ≠ .null

/-- The text is an envelope, and `k` is the private key that is given. -/
def Spec.Given (P : Prims) (s : Str) (sk : Option Bytes) (k : Bytes) (j : Jwe) : Prop :=
  KindOf P s .jwe ∧ sk = some k ∧ Jwe.ofText P.f64 s = some j

/-- Algorithm and sender key are at hand and fit. -/
def Spec.Prepared (P : Prims) (j : Jwe) (k : Bytes) (ek : Option Bytes) (alg : Str) (spk : Bytes) : Prop :=
  j.getAlg = some alg ∧ alg ∈ supportedAlgs ∧ SenderKey P j ek spk ∧ 32 ≤ k.length ∧ 32 ≤ spk.length

/-- The envelope has recipients, but no entry gives the content key to the holder of `k`, and none makes the process
panic.  Without a name of the sender no entry is tried. -/
def Spec.NotFor (P : Prims) (j : Jwe) (alg : Str) (k spk : Bytes) : Prop :=
  ∃ rs, Message.recipientsOf j = some rs ∧
    (j.getSkid = none ∨ ∀ x ∈ rs, ¬EntryCrashes alg x ∧ ∀ key, ¬EntryOpens P alg k spk x key)

/-- The content key was found. -/
def Spec.Found (P : Prims) (j : Jwe) (k : Bytes) (ek : Option Bytes) (alg : Str) (key : Bytes) : Prop :=
  ∃ spk, Prepared P j k ek alg spk ∧ ContentKey P j alg k spk key

/-- The cipher refuses the content: the iv is too short or, sizes being right, nothing opens. -/
def Spec.Refused (P : Prims) (o : HOrd) (j : Jwe) (alg : Str) (key : Bytes) : Prop :=
  ∃ hdr tt c t iv, j.protected_ = some hdr ∧ j.tag = some tt ∧ b64Decode j.ciphertext = some c ∧
    b64Decode tt = some t ∧ b64Decode j.iv = some iv ∧
    (iv.length < nonceSize alg ∨ key.length = 32 ∧ (alg = c!"ECDH-1PU+XC20PKW" → iv.length = 24) ∧
      ∀ pt, ¬ContentOpens P alg iv key (c ++ t) (utf8 (headerB64 o hdr)) pt)

/-! ## The steps -/

theorem Res.bind_eq_err {α β : Type} {x : Res α} {f : α → Res β} {e : Err} :
    (x >>= f) = Res.err e ↔ x = Res.err e ∨ ∃ a, x = Res.ok a ∧ f a = Res.err e := by
  cases x <;> simp

theorem Res.ofOpt_eq_err {α : Type} {e e' : Err} {x : Option α} :
    Res.ofOpt e x = Res.err e' ↔ x = none ∧ e' = e := by
  cases x <;> simp [Res.ofOpt, eq_comm]

theorem sealed_iff {P : Prims} {s : Str} : Message.messageType P s = .ok .jwe ↔ LooksSealed P s := by
  unfold LooksSealed
  cases hj : parseJson s with
  | none =>
    have : ∀ j, ¬Document j s := fun j h => by rw [parseJson_iff.2 h] at hj; cases hj
    constructor
    · intro h; simp [Message.messageType, hj] at h
    · rintro (⟨es, h, -⟩ | ⟨_, _, _, h, -⟩) <;> exact absurd h (this _)
  | some j =>
    have hd := parseJson_iff.1 hj
    have hu : ∀ j', Document j' s → j' = j := fun j' h => by
      rw [parseJson_iff.2 h] at hj; exact Option.some.inj hj
    have hn : (∀ es, j ≠ .obj es) → ∀ ty, ¬KindOf P s ty := fun h ty ⟨es, h', _⟩ => h es (hu _ h').symm
    cases j with
    | obj es =>
      rw [kind_iff hd]
      refine ⟨.inl, ?_⟩
      rintro (h | ⟨_, _, _, h, -⟩)
      · exact h
      · cases hu _ h
    | arr l =>
      have hnk := hn (by simp) .jwe
      have hnm : Message.ofText P.f64 s = none := by simp [Message.ofText, hj, decMessage, mapEntries]
      have h3 : Message.messageType P s = .ok .jwe ↔ ∃ a b c, l = [a, b, c] ∧ c ≠ .null := by
        match l with
        | [a, b, c] =>
          have e : ∀ v : Json, (decOpt (fun _ => some ()) v).map Option.isSome = some (decide (v ≠ .null)) := by
            intro v; cases v <;> simp [decOpt]
          have hse : structEntries [c!"signature", c!"signatures", c!"iv"] 3 (.arr [a, b, c]) =
            some [(c!"signature", a), (c!"signatures", b), (c!"iv", c)] := rfl
          have p1 : Message.presence c!"signature" [(c!"signature", a), (c!"signatures", b), (c!"iv", c)] =
            some (decide (a ≠ .null)) := e a
          have p2 : Message.presence c!"signatures" [(c!"signature", a), (c!"signatures", b), (c!"iv", c)] =
            some (decide (b ≠ .null)) := e b
          have p3 : Message.presence c!"iv" [(c!"signature", a), (c!"signatures", b), (c!"iv", c)] =
            some (decide (c ≠ .null)) := e c
          simp only [Message.messageType, hj, hse, Res.ofOpt_some, Res.bind_ok, p1, p2, p3, hnm, Res.ofOpt_none,
            Res.bind_err]
          by_cases hc : c = .null
          · subst hc
            have : ¬∃ a_1 b_1 c, [a, b, Json.null] = [a_1, b_1, c] ∧ c ≠ .null := by
              rintro ⟨_, _, _, h, h'⟩
              cases h
              exact h' rfl
            simp only [this, iff_false]
            rw [if_neg (by simp)]
            split <;> simp
          · rw [if_pos (by simpa using hc)]
            exact ⟨fun _ => ⟨a, b, c, rfl, hc⟩, fun _ => rfl⟩
        | [] => simp [Message.messageType, hj, structEntries]
        | [a] => simp [Message.messageType, hj, structEntries]
        | [a, b] => simp [Message.messageType, hj, structEntries]
        | a :: b :: c :: d :: l => simp [Message.messageType, hj, structEntries]
      rw [h3]
      constructor
      · rintro ⟨a, b, c, rfl, h⟩
        exact .inr ⟨a, b, c, hd, h⟩
      · rintro (h | ⟨a, b, c, h, h'⟩)
        · exact absurd h hnk
        · exact ⟨a, b, c, (by cases hu _ h; rfl), h'⟩
    | _ =>
      refine ⟨fun h => by simp [Message.messageType, hj, structEntries] at h, ?_⟩
      rintro (h | ⟨_, _, _, h, -⟩)
      · exact absurd h (hn (by simp) _)
      · cases hu _ h

theorem sealed_object {P : Prims} {s : Str} {j : Jwe} (h : LooksSealed P s) (hj : Jwe.ofText P.f64 s = some j) :
    KindOf P s .jwe := by
  rcases h with h | ⟨a, b, c, h, -⟩
  · exact h
  · simp [Jwe.ofText, parseJson_iff.2 h, decJwe, mapEntries] at hj

theorem verifyLoop_err {P : Prims} {p : Str} {key : Bytes} {l : List Signature} {e : Err} :
    ∀ {o : HOrd}, Message.verifyLoop P p key o l = .err e → e ∈ [.jweParseError, .jwsParseError, .edDsa] := by
  induction l with
  | nil => intro o h; cases h
  | cons x l ih =>
    intro o h
    simp only [Message.verifyLoop, Res.bind_eq_err] at h
    rcases h with h | ⟨b, -, h⟩
    · simp only [Message.verifyOne, SignAlg.validator, SignAlg.ofStr, Res.bind_eq_err, Res.ofOpt_eq_err] at h
      rcases h with ⟨-, rfl⟩ | ⟨_, -, h | ⟨_, -, ⟨-, rfl⟩ | ⟨_, -, -, rfl⟩⟩⟩
      · simp
      · (repeat' split at h) <;> cases h
        simp
      · simp
      · simp
    · split at h
      · cases h
      · exact ih h

theorem verify_err {P : Prims} {b key : Bytes} {o : HOrd} {e : Err} (h : Message.verify P o b key = .err e) :
    e ∈ [.serde, .jweParseError, .jwsParseError, .edDsa, .base64] := by
  simp only [Message.verify, Message.signaturesOf, Res.bind_eq_err, Res.ofOpt_eq_err] at h
  rcases h with ⟨-, rfl⟩ | ⟨j, -, h | ⟨l, -, h | ⟨b, -, h⟩⟩⟩
  · simp
  · (repeat' split at h) <;> cases h
    simp
  · have := verifyLoop_err h
    simp only [List.mem_cons, List.not_mem_nil, or_false] at this ⊢
    rcases this with rfl | rfl | rfl <;> simp
  · split at h
    · simp only [Res.bind_eq_err, Res.ofOpt_eq_err] at h
      rcases h with ⟨-, rfl⟩ | ⟨_, -, -, rfl⟩ <;> simp
    · cases h; simp

theorem signingKey_err {key : Option Bytes} {kid : Option Str} {e : Err} (h : signingKey key kid = .err e) :
    e = .jwsParseError := by
  unfold signingKey at h
  (repeat' split at h) <;> first | (cases h; rfl) | (simp only [Res.ofOpt_eq_err] at h; exact h.2) | cases h

theorem verifyEach_err {P : Prims} {b : Bytes} {key : Option Bytes} {l : List Signature} {e : Err} :
    ∀ {o : HOrd}, Message.verifyEach P b key o l = .err e → e = .jwsParseError := by
  induction l with
  | nil => intro o h; cases h
  | cons x l ih =>
    intro o h
    unfold Message.verifyEach at h
    split at h
    · exact ih h
    · simp only [Res.bind_eq_err] at h
      rcases h with h | ⟨k, -, h⟩
      · exact signingKey_err h
      · split at h
        · cases h
        · exact ih h
        · cases h

theorem verifyStep_err {P : Prims} {o : HOrd} {t : Str} {vk : Option Bytes} {e : Err}
    (h : Message.verifyStep P o t vk = .err e) : e ∈ [.serde, .jweParseError, .jwsParseError, .edDsa, .base64] := by
  simp only [Message.verifyStep, Res.bind_eq_err] at h
  rcases h with h | ⟨ty, -, h⟩
  · rw [messageType_err h]; simp
  · split at h
    · simp only [Message.receiveJws, Res.bind_eq_err, Res.ofOpt_eq_err, Res.pure_eq, reduceCtorEq, and_false,
        exists_false, or_false] at h
      rcases h with h | ⟨_, -, -, rfl⟩
      · unfold Message.verifiedOf at h
        split at h
        · split at h
          · cases h; simp
          · simp only [Res.bind_eq_err, Message.getBody, Res.pure_eq, reduceCtorEq, and_false, exists_false, or_false,
              false_or] at h
            rcases h with ⟨_, -, h | ⟨_, -, h⟩⟩
            · rw [signingKey_err h]; simp
            · exact verify_err h
        · split at h
          · simp only [Res.bind_eq_err, Message.signaturesOf] at h
            rcases h with h | ⟨_, -, h⟩
            · (repeat' split at h) <;> cases h
              simp
            · rw [verifyEach_err h]; simp
          · cases h; simp
      · simp
    · cases h

/-- Errors that only opening an envelope returns. -/
theorem receive_err_sealed {P : Prims} {o : HOrd} {s : Str} {sk ek vk : Option Bytes} {e : Err}
    (he : e ∉ [.serde, .jweParseError, .jwsParseError, .edDsa, .base64]) :
    Message.receive P o s sk ek vk = .err e ↔ LooksSealed P s ∧
      (sk = none ∧ e = .generic "missing encryption recipient private key" ∨
        ∃ k, sk = some k ∧ Message.receiveJwe P (o.sub 0) s k ek = .err e) := by
  have hs : ∀ t, Message.messageType P t ≠ .err e := by
    intro t h
    rw [messageType_err h] at he
    simp at he
  have hv : ∀ t, Message.verifyStep P (o.sub 1) t vk ≠ .err e := fun t h => he (verifyStep_err h)
  have hsd : e ≠ .serde := by rintro rfl; simp at he
  simp only [Message.receive, Message.decryptStep, Res.bind_eq_err, hs, hv, hsd, Res.ofOpt_eq_err, false_or, and_false,
    exists_false, or_false]
  constructor
  · rintro ⟨ty, ht, h⟩
    split at h
    · rename_i hty
      subst hty
      refine ⟨sealed_iff.1 ht, ?_⟩
      simpa only [Res.bind_eq_err, Res.ofOpt_eq_err, Res.ofOpt_eq_ok] using h
    · cases h
  · rintro ⟨h, h'⟩
    refine ⟨_, sealed_iff.2 h, ?_⟩
    simpa only [if_true, Res.bind_eq_err, Res.ofOpt_eq_err, Res.ofOpt_eq_ok] using h'

theorem senderKey_err {P : Prims} {j : Jwe} {ek : Option Bytes} {e : Err} :
    Message.senderKey P j ek = .err e ↔ ek = none ∧
      (j.getSkid = none ∧ e = .generic "skid missing" ∨ ∃ skid, j.getSkid = some skid ∧
        (P.resolve skid = none ∧ e = .didResolveFailed ∨
          ∃ d, P.resolve skid = some d ∧ d.keyFor c!"X25519" = none ∧ e = .badDid)) := by
  cases ek with
  | some k => simp [Message.senderKey]
  | none => simp only [Message.senderKey, Res.bind_eq_err, Res.ofOpt_eq_err, Res.ofOpt_eq_ok, true_and]

theorem arrayRef32_ne_err {b : Bytes} {e : Err} : (arrayRef32 b = .err e) ↔ False := by
  unfold arrayRef32
  split <;> simp

theorem firstKey_err {P : Prims} {j : Jwe} {sk : Bytes} {ek : Option Bytes} {e : Err} (rs : List Recipient) :
    Message.firstKey P j sk ek rs = .err e ↔
      (∀ x ∈ rs, ∃ e, decryptCek P j sk x ek = .err e) ∧ e = .generic "could not decrypt cek" := by
  induction rs with
  | nil => simp [Message.firstKey, eq_comm]
  | cons y rs ih =>
    unfold Message.firstKey
    cases hy : decryptCek P j sk y ek with
    | ok k => simp [hy]
    | panic => simp [hy]
    | err e' => simp [hy, ih]

theorem contentKey_err {P : Prims} (hP : Laws P) {j : Jwe} {alg : Str} {sk spk : Bytes} {ek : Option Bytes} {e : Err}
    (h : Prepared P j sk ek alg spk) :
    Message.contentKey P j sk ek (P.x25519 (sk.take 32) (spk.take 32)) = .err e ↔
      NotFor P j alg sk spk ∧ e = .generic "could not decrypt cek" := by
  obtain ⟨ha, hsup, hk, h1, h2⟩ := h
  unfold Message.contentKey NotFor
  cases hr : Message.recipientsOf j with
  | none => simp
  | some rs =>
    simp only [firstKey_err, Option.some.injEq, exists_eq_left']
    refine and_congr_left fun _ => ?_
    cases hs : j.getSkid with
    | none => exact ⟨fun _ => .inl rfl, fun _ x _ => decryptCek_skid (P := P) ha hs sk x ek⟩
    | some skid =>
      have hd := fun rc => decryptCek_outcome hP ha hsup hs (senderKey_keyFor hk hs) h1 h2 rc
      simp only [res_err_iff, ne_eq, (hd _).1, (hd _).2, reduceCtorEq, false_or]

theorem plugErr_err {α : Type} {x : Res α} {e : Err} :
    Message.plugErr x = .err e ↔ (∃ e', x = .err e') ∧ e = .plugCryptoFailure := by
  cases x <;> simp [Message.plugErr, eq_comm]

theorem unwrap_ne_err {α : Type} {x : Option α} {e : Err} : (Res.unwrap x = .err e) ↔ False := by
  cases x <;> simp [Res.unwrap]

/-- Opening an envelope: when it fails, and how. -/
theorem receiveJwe_err {P : Prims} (hP : Laws P) {o : HOrd} {s : Str} {k : Bytes} {ek : Option Bytes} {e : Err} :
    Message.receiveJwe P o s k ek = .err e ↔
      Jwe.ofText P.f64 s = none ∧ e = .serde ∨ ∃ j, Jwe.ofText P.f64 s = some j ∧
        (j.getAlg = none ∧ e = .generic "missing algorithm in JWE header(s)" ∨ ∃ alg, j.getAlg = some alg ∧
          (Message.senderKey P j ek = .err e ∨
            (∃ spk, SenderKey P j ek spk ∧ 32 ≤ k.length ∧ 32 ≤ spk.length ∧ alg ∉ supportedAlgs ∧ e = .jweParseError) ∨
            (∃ spk, Prepared P j k ek alg spk ∧ NotFor P j alg k spk ∧ e = .generic "could not decrypt cek") ∨
            ∃ key, Found P j k ek alg key ∧
              (j.protected_ = none ∧ e = .generic "jwe is missing protected header" ∨
                j.protected_ ≠ none ∧ j.tag = none ∧ e = .generic "JWE is missing tag" ∨
                (∃ c tt, j.protected_ ≠ none ∧ j.tag = some tt ∧ b64Decode j.ciphertext = some c ∧
                  b64Decode tt = none ∧ e = .base64) ∨
                Refused P (o.sub 0) j alg key ∧ e = .plugCryptoFailure ∨
                ∃ pt, Opens P (o.sub 0) j k ek pt ∧ Message.ofBytes P.f64 pt = none ∧ e = .serde))) := by
  have hpure : ∀ {x : Str}, (Res.ok x = Res.err e) ↔ False := by simp
  have hofs : ∀ {alg}, CryptoAlg.ofStr alg = .err e ↔ alg ∉ supportedAlgs ∧ e = .jweParseError := by
    intro alg
    by_cases hs : alg ∈ supportedAlgs
    · obtain ⟨a, ha⟩ := ofStr_iff.2 hs
      simp [ha, hs]
    · have hne := mt ofStr_iff.1 hs
      unfold CryptoAlg.ofStr at hne ⊢
      split
      · rename_i h; exact absurd ⟨_, by rw [if_pos h]⟩ hne
      · rename_i h
        rw [if_neg h] at hne
        split
        · rename_i h; exact absurd ⟨_, by rw [if_pos h]⟩ hne
        · simp [hs, eq_comm]
  have hdec : ∀ {alg a} (_ : CryptoAlg.ofStr alg = .ok a) {iv key ct aad}, (∃ e', a.decrypter P iv key ct aad = .err e') ↔
      iv.length < nonceSize alg ∨ key.length = 32 ∧ (alg = c!"ECDH-1PU+XC20PKW" → iv.length = 24) ∧
        ∀ pt, ¬ContentOpens P alg iv key ct aad pt := by
    intro alg a ha iv key ct aad
    simp only [res_err_iff, ne_eq, decrypter_panic_iff ha, decrypter_ok_iff ha]
    by_cases h1 : iv.length < nonceSize alg
    · have h2 : ¬nonceSize alg ≤ iv.length := by omega
      simp [h1, h2]
    · have h2 : nonceSize alg ≤ iv.length := by omega
      by_cases h3 : key.length = 32
      · by_cases h4 : alg = c!"ECDH-1PU+XC20PKW"
        · subst h4
          have h6 : nonceSize c!"ECDH-1PU+XC20PKW" = 24 := by rw [nonceSize, if_pos rfl]
          rw [h6] at h1 h2 ⊢
          by_cases h5 : iv.length = 24
          · simp [h3, h5]
          · simp [h1, h2, h3, h5]
        · simp [h1, h2, h3, h4]
      · simp [h1, h2, h3]
  simp only [Message.receiveJwe, Res.bind_eq_err, Res.ofOpt_eq_err, Res.ofOpt_eq_ok, arrayRef32_ne_err, false_or,
    arrayRef32_eq_ok, senderKey_iff, hofs, Message.decrypt, jwe_ofBytes, Jwe.getPayload, Jwe.getIv, unwrap_ne_err,
    Res.unwrap_eq_ok, plugErr_err, plugErr_eq_ok, Res.pure_eq, hpure, and_false, exists_false, or_false]
  refine or_congr Iff.rfl (exists_congr fun j => and_congr_right fun hj => or_congr Iff.rfl (exists_congr fun alg =>
    and_congr_right fun halg => or_congr Iff.rfl ?_))
  constructor
  · rintro ⟨spk, hspk, _, ⟨h1, rfl⟩, _, ⟨h2, rfl⟩, ⟨hn, he⟩ | ⟨a, ha, h⟩⟩
    · exact .inl ⟨spk, hspk, h1, h2, hn, he⟩
    · have hsup := ofStr_iff.1 ⟨a, ha⟩
      have hpre : Prepared P j k ek alg spk := ⟨halg, hsup, hspk, h1, h2⟩
      right
      rcases h with h | ⟨key, hkey, ⟨h, -⟩ | ⟨j', hj', h⟩⟩
      · rw [contentKey_err hP hpre] at h
        exact .inl ⟨spk, hpre, h⟩
      · rw [hj] at h; cases h
      · rw [hj] at hj'
        obtain rfl := Option.some.inj hj'
        rw [(contentKey_outcome hP halg hsup hspk h1 h2).1] at hkey
        refine .inr ⟨key, ⟨spk, hpre, hkey⟩, ?_⟩
        rcases h with h | ⟨hdr, hh, h | ⟨tt, htt, c, hc, ⟨hd, he⟩ | ⟨t, ht, iv, hiv, ⟨hd, he⟩ | ⟨pt, hpt, hm⟩⟩⟩⟩
        · exact .inl h
        · exact .inr (.inl ⟨by simp [hh], h⟩)
        · exact .inr (.inr (.inl ⟨c, tt, by simp [hh], htt, hc, hd, he⟩))
        · exact .inr (.inr (.inr (.inl ⟨⟨hdr, tt, c, t, iv, hh, htt, hc, ht, hiv, (hdec ha).1 hd⟩, he⟩)))
        · obtain ⟨hk32, hn, hx, ho⟩ := (decrypter_ok_iff ha).1 hpt
          exact .inr (.inr (.inr (.inr ⟨pt, ⟨alg, spk, key, hdr, c, tt, t, iv, halg, hsup, hspk, h1, h2, hkey, hk32, hh,
            hc, htt, ht, hiv, hn, hx, ho⟩, hm⟩)))
  · rintro (⟨spk, hspk, h1, h2, h⟩ | ⟨spk, hpre, h⟩ | ⟨key, ⟨spk, hpre, hkey⟩, h⟩)
    · exact ⟨spk, hspk, _, ⟨h1, rfl⟩, _, ⟨h2, rfl⟩, .inl h⟩
    · have hpre' := hpre
      obtain ⟨-, hsup, hspk, h1, h2⟩ := hpre'
      obtain ⟨a, ha⟩ := ofStr_iff.2 hsup
      exact ⟨spk, hspk, _, ⟨h1, rfl⟩, _, ⟨h2, rfl⟩, .inr ⟨a, ha, .inl ((contentKey_err hP hpre).2 h)⟩⟩
    · obtain ⟨-, hsup, hspk, h1, h2⟩ := hpre
      obtain ⟨a, ha⟩ := ofStr_iff.2 hsup
      have hkey' := ((contentKey_outcome hP halg hsup hspk h1 h2).1 key).2 hkey
      rcases h with h | ⟨hh, h⟩ | ⟨c, tt, hh, htt, hc, h⟩ | ⟨⟨hdr, tt, c, t, iv, hh, htt, hc, ht, hiv, hd⟩, he⟩ |
        ⟨pt, ⟨alg', spk', key', hdr, c, tt, t, iv, halg', hsup', hspk', h1', h2', hkey2, hk32, hh, hc, htt, ht, hiv, hn, hx,
          ho⟩, hm⟩
      · exact ⟨spk, hspk, _, ⟨h1, rfl⟩, _, ⟨h2, rfl⟩, .inr ⟨a, ha, .inr ⟨key, hkey', .inr ⟨j, hj, .inl h⟩⟩⟩⟩
      · obtain ⟨hdr, hh⟩ := Option.ne_none_iff_exists'.1 hh
        exact ⟨spk, hspk, _, ⟨h1, rfl⟩, _, ⟨h2, rfl⟩, .inr ⟨a, ha, .inr ⟨key, hkey', .inr ⟨j, hj, .inr ⟨hdr, hh,
          .inl h⟩⟩⟩⟩⟩
      · obtain ⟨hdr, hh⟩ := Option.ne_none_iff_exists'.1 hh
        exact ⟨spk, hspk, _, ⟨h1, rfl⟩, _, ⟨h2, rfl⟩, .inr ⟨a, ha, .inr ⟨key, hkey', .inr ⟨j, hj, .inr ⟨hdr, hh,
          .inr ⟨tt, htt, c, hc, .inl h⟩⟩⟩⟩⟩⟩
      · exact ⟨spk, hspk, _, ⟨h1, rfl⟩, _, ⟨h2, rfl⟩, .inr ⟨a, ha, .inr ⟨key, hkey', .inr ⟨j, hj, .inr ⟨hdr, hh,
          .inr ⟨tt, htt, c, hc, .inr ⟨t, ht, iv, hiv, .inl ⟨(hdec ha).2 hd, he⟩⟩⟩⟩⟩⟩⟩⟩
      · rw [halg] at halg'
        obtain rfl := Option.some.inj halg'
        have hkey2' := ((contentKey_outcome hP halg hsup hspk' h1' h2').1 key').2 hkey2
        exact ⟨spk', hspk', _, ⟨h1', rfl⟩, _, ⟨h2', rfl⟩, .inr ⟨a, ha, .inr ⟨key', hkey2', .inr ⟨j, hj, .inr ⟨hdr, hh,
          .inr ⟨tt, htt, c, hc, .inr ⟨t, ht, iv, hiv, .inr ⟨pt, (decrypter_ok_iff ha).2 ⟨hk32, hn, hx, ho⟩, hm⟩⟩⟩⟩⟩⟩⟩⟩

/-! ## C120 -/

theorem given_of {P : Prims} {s : Str} {sk : Option Bytes} {k : Bytes} {j : Jwe} (h : LooksSealed P s)
    (hk : sk = some k) (hj : Jwe.ofText P.f64 s = some j) : Given P s sk k j :=
  ⟨sealed_object h hj, hk, hj⟩

/-- C120.  The private key is reported missing exactly if the text is taken for an envelope and none is given. -/
theorem C120_no_key (P : Prims) (hP : Laws P) (o : HOrd) (s : Str) (sk ek vk : Option Bytes) :
    Message.receive P o s sk ek vk = .err (.generic "missing encryption recipient private key") ↔
      LooksSealed P s ∧ sk = none := by
  rw [receive_err_sealed (by simp)]
  simp [receiveJwe_err hP, senderKey_err]

/-- C120.  The algorithm is reported missing exactly if no header of the envelope names one. -/
theorem C120_no_algorithm (P : Prims) (hP : Laws P) (o : HOrd) (s : Str) (sk ek vk : Option Bytes) :
    Message.receive P o s sk ek vk = .err (.generic "missing algorithm in JWE header(s)") ↔
      ∃ k j, Given P s sk k j ∧ j.getAlg = none := by
  rw [receive_err_sealed (by simp)]
  simp [receiveJwe_err hP, senderKey_err]
  constructor
  · rintro ⟨h, ⟨k, hk⟩, j, hj, ha⟩; exact ⟨k, j, given_of h hk hj, ha⟩
  · rintro ⟨k, j, ⟨h, hk, hj⟩, ha⟩; exact ⟨.inl h, ⟨k, hk⟩, j, hj, ha⟩

/-- C120.  The name of the sender is reported missing exactly if the caller gives no key for the sender and no header
names the sender. -/
theorem C120_no_sender (P : Prims) (hP : Laws P) (o : HOrd) (s : Str) (sk ek vk : Option Bytes) :
    Message.receive P o s sk ek vk = .err (.generic "skid missing") ↔
      ∃ k j, Given P s sk k j ∧ j.getAlg ≠ none ∧ ek = none ∧ j.getSkid = none := by
  rw [receive_err_sealed (by simp)]
  simp [receiveJwe_err hP, senderKey_err, Option.ne_none_iff_exists']
  constructor
  · rintro ⟨h, ⟨k, hk⟩, j, hj, ha, he⟩; exact ⟨k, j, given_of h hk hj, ha, he⟩
  · rintro ⟨k, j, ⟨h, hk, hj⟩, ha, he⟩; exact ⟨.inl h, ⟨k, hk⟩, j, hj, ha, he⟩

/-- C120.  Resolution is reported failed exactly if the caller gives no key for the sender and the name of the sender in
the envelope does not resolve. -/
theorem C120_unresolved (P : Prims) (hP : Laws P) (o : HOrd) (s : Str) (sk ek vk : Option Bytes) :
    Message.receive P o s sk ek vk = .err .didResolveFailed ↔
      ∃ k j skid, Given P s sk k j ∧ j.getAlg ≠ none ∧ ek = none ∧ j.getSkid = some skid ∧ P.resolve skid = none := by
  rw [receive_err_sealed (by simp)]
  simp [receiveJwe_err hP, senderKey_err, Option.ne_none_iff_exists']
  constructor
  · rintro ⟨h, ⟨k, hk⟩, j, hj, ha, he, x, hx⟩; exact ⟨k, j, given_of h hk hj, ha, he, x, hx⟩
  · rintro ⟨k, j, ⟨h, hk, hj⟩, ha, he, x, hx⟩; exact ⟨.inl h, ⟨k, hk⟩, j, hj, ha, he, x, hx⟩

/-- C120.  A bad DID is reported exactly if the name of the sender resolves to a document without key for X25519. -/
theorem C120_bad_sender (P : Prims) (hP : Laws P) (o : HOrd) (s : Str) (sk ek vk : Option Bytes) :
    Message.receive P o s sk ek vk = .err .badDid ↔
      ∃ k j skid d, Given P s sk k j ∧ j.getAlg ≠ none ∧ ek = none ∧ j.getSkid = some skid ∧ P.resolve skid = some d ∧
        d.keyFor c!"X25519" = none := by
  rw [receive_err_sealed (by simp)]
  simp [receiveJwe_err hP, senderKey_err, Option.ne_none_iff_exists']
  constructor
  · rintro ⟨h, ⟨k, hk⟩, j, hj, ha, he, x, hx, d, hd⟩; exact ⟨k, j, given_of h hk hj, ha, he, x, hx, d, hd⟩
  · rintro ⟨k, j, ⟨h, hk, hj⟩, ha, he, x, hx, d, hd⟩; exact ⟨.inl h, ⟨k, hk⟩, j, hj, ha, he, x, hx, d, hd⟩

/-- C120.  The content key is reported undecryptable exactly if the envelope has recipients and no entry gives the key
to the reader. -/
theorem C120_not_for_reader (P : Prims) (hP : Laws P) (o : HOrd) (s : Str) (sk ek vk : Option Bytes) :
    Message.receive P o s sk ek vk = .err (.generic "could not decrypt cek") ↔
      ∃ k j alg spk, Given P s sk k j ∧ Prepared P j k ek alg spk ∧ NotFor P j alg k spk := by
  rw [receive_err_sealed (by simp)]
  simp [receiveJwe_err hP, senderKey_err]
  constructor
  · rintro ⟨h, k, hk, j, hj, alg, ha, spk, hp⟩; exact ⟨k, j, given_of h hk hj, alg, spk, hp⟩
  · rintro ⟨k, j, ⟨h, hk, hj⟩, alg, spk, hp⟩; exact ⟨.inl h, k, hk, j, hj, alg, hp.1.1, spk, hp⟩

/-- C120.  Header or tag are reported missing exactly if the content key is found and they are missing. -/
theorem C120_incomplete (P : Prims) (hP : Laws P) (o : HOrd) (s : Str) (sk ek vk : Option Bytes) :
    (Message.receive P o s sk ek vk = .err (.generic "jwe is missing protected header") ↔
      ∃ k j alg key, Given P s sk k j ∧ Found P j k ek alg key ∧ j.protected_ = none) ∧
    (Message.receive P o s sk ek vk = .err (.generic "JWE is missing tag") ↔
      ∃ k j alg key, Given P s sk k j ∧ Found P j k ek alg key ∧ j.protected_ ≠ none ∧ j.tag = none) := by
  constructor
  · rw [receive_err_sealed (by simp)]
    simp [receiveJwe_err hP, senderKey_err]
    constructor
    · rintro ⟨h, k, hk, j, hj, alg, ha, ⟨key, hf⟩, hp⟩; exact ⟨k, j, given_of h hk hj, ⟨alg, key, hf⟩, hp⟩
    · rintro ⟨k, j, ⟨h, hk, hj⟩, ⟨alg, key, hf⟩, hp⟩
      have ha : j.getAlg = some alg := by obtain ⟨_, h, _⟩ := hf; exact h.1
      exact ⟨.inl h, k, hk, j, hj, alg, ha, ⟨key, hf⟩, hp⟩
  · rw [receive_err_sealed (by simp)]
    simp [receiveJwe_err hP, senderKey_err]
    constructor
    · rintro ⟨h, k, hk, j, hj, alg, ha, ⟨key, hf⟩, hp⟩; exact ⟨k, j, given_of h hk hj, ⟨alg, key, hf⟩, hp⟩
    · rintro ⟨k, j, ⟨h, hk, hj⟩, ⟨alg, key, hf⟩, hp⟩
      have ha : j.getAlg = some alg := by obtain ⟨_, h, _⟩ := hf; exact h.1
      exact ⟨.inl h, k, hk, j, hj, alg, ha, ⟨key, hf⟩, hp⟩

/-- C120.  A failure of cryptography is reported exactly if the content key is found and the cipher refuses header,
ciphertext and tag: a signed text is never the reason. -/
theorem C120_refused (P : Prims) (hP : Laws P) (o : HOrd) (s : Str) (sk ek vk : Option Bytes) :
    Message.receive P o s sk ek vk = .err .plugCryptoFailure ↔
      ∃ k j alg key, Given P s sk k j ∧ Found P j k ek alg key ∧ Refused P ((o.sub 0).sub 0) j alg key := by
  rw [receive_err_sealed (by simp)]
  simp [receiveJwe_err hP, senderKey_err]
  constructor
  · rintro ⟨h, k, hk, j, hj, alg, ha, key, hf⟩; exact ⟨k, j, given_of h hk hj, alg, key, hf⟩
  · rintro ⟨k, j, ⟨h, hk, hj⟩, alg, key, hf⟩
    have ha : j.getAlg = some alg := by obtain ⟨_, h, _⟩ := hf.1; exact h.1
    exact ⟨.inl h, k, hk, j, hj, alg, ha, key, hf⟩

/-- C120.  There are no other errors: the rest are those of texts that do not have the right form, of signatures and of
base64 text, and only these are possible for texts that are not taken for envelopes. -/
theorem C120_others (P : Prims) (hP : Laws P) (o : HOrd) (s : Str) (sk ek vk : Option Bytes) (e : Err)
    (h : Message.receive P o s sk ek vk = .err e) :
    e ∈ [.serde, .jweParseError, .jwsParseError, .edDsa, .base64] ∨ LooksSealed P s ∧
      e ∈ [.generic "missing encryption recipient private key", .generic "missing algorithm in JWE header(s)",
        .generic "skid missing", .didResolveFailed, .badDid, .generic "could not decrypt cek",
        .generic "jwe is missing protected header", .generic "JWE is missing tag", .plugCryptoFailure] := by
  by_cases he : e ∈ [.serde, .jweParseError, .jwsParseError, .edDsa, .base64]
  · exact .inl he
  · rw [receive_err_sealed he] at h
    refine .inr ⟨h.1, ?_⟩
    simp only [receiveJwe_err hP, senderKey_err] at h
    rcases h.2 with ⟨-, rfl⟩ | ⟨k, -, ⟨-, rfl⟩ | ⟨j, -, ⟨-, rfl⟩ | ⟨alg, -, ⟨-, ⟨-, rfl⟩ | ⟨_, -, ⟨-, rfl⟩ | ⟨_, -, -, rfl⟩⟩⟩ |
      ⟨_, -, -, -, -, rfl⟩ | ⟨_, -, -, rfl⟩ | ⟨_, -, ⟨-, rfl⟩ | ⟨-, -, rfl⟩ | ⟨_, _, -, -, -, -, rfl⟩ | ⟨-, rfl⟩ |
      ⟨_, -, -, rfl⟩⟩⟩⟩⟩
    all_goals first | simp; done | simp at he

/-- The error of `receive`, with the keys of the example. -/
def exampleError (t : Str) (sk ek : Option Bytes) : Option Err :=
  match Message.receive (toy fun _ => none) HOrd.id t sk ek none with
  | .err e => some e
  | _ => none

/-- An envelope of the example message with this content, header, tag and entries. -/
def exampleEnvelope (c : Bytes) (h : Option JwmHeader) (tag : Option Str) (rs : Option (List Recipient)) : Jwe :=
  { Spec.envelope exampleMessage [] (List.replicate 24 8) c [] with
    recipients := rs, protected_ := h, tag := tag, unprotected := some (Spec.publicHeader exampleMessage) }

/-- C120: the causes occur. -/
example :
    exampleError c!"[null, null, 0]" none none = some (.generic "missing encryption recipient private key") ∧
    exampleError ((exampleEnvelope [] none none none).text HOrd.id) (some (exampleKey 1)) none =
      some .didResolveFailed ∧
    exampleError ((exampleEnvelope [] none none (some [])).text HOrd.id) (some (exampleKey 1)) (some (exampleKey 3)) =
      some (.generic "could not decrypt cek") ∧
    exampleError ((exampleEnvelope [] none none none).text HOrd.id) (some (exampleKey 1)) (some (exampleKey 3)) =
      some (.generic "jwe is missing protected header") ∧
    exampleError ((exampleEnvelope [] (some (Spec.publicHeader exampleMessage)) none none).text HOrd.id)
      (some (exampleKey 1)) (some (exampleKey 3)) = some (.generic "JWE is missing tag") ∧
    exampleError ((exampleEnvelope [] (some (Spec.publicHeader exampleMessage)) (some c!"AA") none).text HOrd.id)
      (some (exampleKey 1)) (some (exampleKey 3)) = some .plugCryptoFailure ∧
    exampleError ({ exampleEnvelope [] none none none with unprotected := none }.text HOrd.id)
      (some (exampleKey 1)) (some (exampleKey 3)) = some (.generic "missing algorithm in JWE header(s)") ∧
    exampleError ({ exampleEnvelope [] none none none with
      unprotected := some { Spec.publicHeader exampleMessage with skid := none } }.text HOrd.id)
      (some (exampleKey 1)) none = some (.generic "skid missing") := by
  decide +kernel

end Verif
