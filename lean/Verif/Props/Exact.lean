import Verif.Props.Flow
import Verif.Props.Panics

/-!
# Exact conditions

C06 (which plain messages survive), C20 (when an encrypted text is opened), C34 (when `receive` panics):
conditions that are necessary and sufficient.
-/

namespace Verif

open Spec

/-! ## Specification of opening an envelope -/

/-- The parts of a recipient entry that are used to open it, if all are there and readable: the ephemeral
key, the nonce, and the wrapped key with its tag. -/
def Spec.EntryParts (rc : Recipient) (eph iv ct : Bytes) : Prop :=
  ∃ epk ivText tagText tag wrapped, rc.header.epk = some epk ∧ b64Decode epk.x = some eph ∧ eph.length = 32 ∧
    rc.header.other.get c!"iv" = some ivText ∧ b64Decode ivText = some iv ∧
    rc.header.other.get c!"tag" = some tagText ∧ b64Decode tagText = some tag ∧
    b64Decode rc.encryptedKey = some wrapped ∧ ct = wrapped ++ tag

/-- The entry gives this key to the holder of `sk`, who takes `spk` for the sender's key. -/
def Spec.EntryOpens (P : Prims) (alg : Str) (sk spk : Bytes) (rc : Recipient) (key : Bytes) : Prop :=
  ∃ eph iv ct kek, Spec.EntryParts rc eph iv ct ∧ iv.length = Spec.nonceSize alg ∧
    concatKdf P (P.x25519 (sk.take 32) eph ++ P.x25519 (sk.take 32) (spk.take 32)) alg none none = .ok kek ∧
    ((alg = c!"ECDH-1PU+XC20PKW" ∧ P.xcDec kek iv [] ct = some key) ∨
      (alg = c!"ECDH-1PU+A256KW" ∧ P.gcmDec kek iv [] ct = some key))

/-- The entry is readable, but its nonce does not have the size that the cipher needs. -/
def Spec.EntryCrashes (alg : Str) (rc : Recipient) : Prop :=
  ∃ eph iv ct, Spec.EntryParts rc eph iv ct ∧ iv.length ≠ Spec.nonceSize alg

/-- The key taken for the sender's: the one given, else the one resolved from `skid`. -/
def Spec.SenderKey (P : Prims) (j : Jwe) (ek : Option Bytes) (spk : Bytes) : Prop :=
  ek = some spk ∨ ek = none ∧ ∃ skid, j.getSkid = some skid ∧ KeyFor P skid none spk

/-- The entries before number `i` neither open nor crash. -/
def Spec.PassedOver (P : Prims) (alg : Str) (sk spk : Bytes) (rs : List Recipient) (i : Nat) : Prop :=
  ∀ (n : Nat) (x : Recipient), n < i → rs[n]? = some x → ¬Spec.EntryCrashes alg x ∧ ∀ key, ¬Spec.EntryOpens P alg sk spk x key

/-- The content key: from the first entry that opens, or the shared secret if there are no entries. -/
def Spec.ContentKey (P : Prims) (j : Jwe) (alg : Str) (sk spk key : Bytes) : Prop :=
  (∃ (rs : List Recipient) (i : Nat) (rc : Recipient), Message.recipientsOf j = some rs ∧ j.getSkid ≠ none ∧ rs[i]? = some rc ∧
      Spec.EntryOpens P alg sk spk rc key ∧ Spec.PassedOver P alg sk spk rs i) ∨
    (Message.recipientsOf j = none ∧ key = P.x25519 (sk.take 32) (spk.take 32))

/-- The envelope is opened to the bytes `pt`, under the associated data made with the order `o`. -/
def Spec.Opens (P : Prims) (o : HOrd) (j : Jwe) (sk : Bytes) (ek : Option Bytes) (pt : Bytes) : Prop :=
  ∃ alg spk key hdr c tagText tag iv, j.getAlg = some alg ∧ alg ∈ Spec.supportedAlgs ∧
    Spec.SenderKey P j ek spk ∧ 32 ≤ sk.length ∧ 32 ≤ spk.length ∧ Spec.ContentKey P j alg sk spk key ∧
    key.length = 32 ∧ j.protected_ = some hdr ∧ b64Decode j.ciphertext = some c ∧ j.tag = some tagText ∧
    b64Decode tagText = some tag ∧ b64Decode j.iv = some iv ∧ Spec.nonceSize alg ≤ iv.length ∧
    (alg = c!"ECDH-1PU+XC20PKW" → iv.length = 24) ∧
    Spec.ContentOpens P alg iv key (c ++ tag) (utf8 (headerB64 o hdr)) pt

/-- The content makes the cipher panic: the ciphertext or the iv is not base64url, or iv or content key have
a size that the cipher does not take. -/
def Spec.ContentCrashes (j : Jwe) (alg : Str) (key : Bytes) : Prop :=
  j.protected_ ≠ none ∧ ∃ tagText, j.tag = some tagText ∧
    (b64Decode j.ciphertext = none ∨ b64Decode tagText ≠ none ∧
      (b64Decode j.iv = none ∨ ∃ iv, b64Decode j.iv = some iv ∧ Spec.nonceSize alg ≤ iv.length ∧
        (key.length ≠ 32 ∨ alg = c!"ECDH-1PU+XC20PKW" ∧ iv.length ≠ 24)))

/-- All envelopes that make opening panic. -/
def Spec.Crashes (P : Prims) (j : Jwe) (sk : Bytes) (ek : Option Bytes) : Prop :=
  ∃ alg spk, j.getAlg = some alg ∧ Spec.SenderKey P j ek spk ∧
    (sk.length < 32 ∨ spk.length < 32 ∨ alg ∈ Spec.supportedAlgs ∧
      ((∃ (rs : List Recipient) (i : Nat) (rc : Recipient), Message.recipientsOf j = some rs ∧ j.getSkid ≠ none ∧ rs[i]? = some rc ∧
          Spec.EntryCrashes alg rc ∧ Spec.PassedOver P alg sk spk rs i) ∨
        ∃ key, Spec.ContentKey P j alg sk spk key ∧ Spec.ContentCrashes j alg key))

/-! ## The entries -/

theorem ofOpt_panic {α : Type} {e : Err} {x : Option α} : (Res.ofOpt e x = .panic) ↔ False :=
  ⟨fun h => Res.ofOpt_ne_panic h, False.elim⟩

theorem arrayRef32_panic {b : Bytes} : arrayRef32 b = .panic ↔ b.length < 32 := by
  unfold arrayRef32
  split
  · rename_i h; simp; omega
  · rename_i h; simp; omega

theorem supported_kdf {alg : Str} (h : alg ∈ Spec.supportedAlgs) (P : Prims) (z : Bytes) :
    ∃ kek, concatKdf P z alg none none = .ok kek := by
  rw [(C37_kdf_fails_only_if_long P z alg none none).1]
  simp only [Spec.supportedAlgs, List.mem_cons, List.not_mem_nil, or_false] at h
  rcases h with rfl | rfl <;> decide

theorem kdf_len {P : Prims} (hP : Laws P) {z : Bytes} {alg : Str} {p c : Option Bytes} {kek : Bytes}
    (h : concatKdf P z alg p c = .ok kek) : kek.length = 32 := by
  simp only [concatKdf, Res.bind_eq_ok, Res.pure_eq, Res.ok.injEq] at h
  obtain ⟨_, -, rfl⟩ := h
  exact hP.sha_len _

theorem unwrapCek_ok_iff {P : Prims} {alg : Str} (ha : alg ∈ Spec.supportedAlgs) {kek iv ct key : Bytes}
    (hk : kek.length = 32) : unwrapCek P alg kek iv ct = .ok key ↔ iv.length = Spec.nonceSize alg ∧
      ((alg = c!"ECDH-1PU+XC20PKW" ∧ P.xcDec kek iv [] ct = some key) ∨
        (alg = c!"ECDH-1PU+A256KW" ∧ P.gcmDec kek iv [] ct = some key)) := by
  simp only [Spec.supportedAlgs, List.mem_cons, List.not_mem_nil, or_false] at ha
  rcases ha with rfl | rfl
  · rw [unwrapCek, if_neg (by decide), if_pos rfl, Spec.nonceSize, if_neg (by decide)]
    by_cases h : iv.length = 12
    · simp only [fromSlice, h, hk, if_true, Res.bind_ok, Res.ofOpt_eq_ok, true_and]
      exact ⟨.inr, fun x => x.elim (fun h => absurd h.1 (by decide)) id⟩
    · simp [fromSlice, h]
  · rw [unwrapCek, if_pos rfl, Spec.nonceSize, if_pos rfl]
    by_cases h : iv.length = 24
    · simp only [fromSlice, h, hk, if_true, Res.bind_ok, Res.ofOpt_eq_ok, true_and]
      exact ⟨.inl, fun x => x.elim id (fun h => absurd h.1 (by decide))⟩
    · simp [fromSlice, h]

theorem unwrapCek_panic_iff {P : Prims} {alg : Str} (ha : alg ∈ Spec.supportedAlgs) {kek iv ct : Bytes}
    (hk : kek.length = 32) : unwrapCek P alg kek iv ct = .panic ↔ iv.length ≠ Spec.nonceSize alg := by
  simp only [Spec.supportedAlgs, List.mem_cons, List.not_mem_nil, or_false] at ha
  rcases ha with rfl | rfl
  · rw [unwrapCek, if_neg (by decide), if_pos rfl, Spec.nonceSize, if_neg (by decide)]
    by_cases h : iv.length = 12 <;> simp [fromSlice, h, hk]
  · rw [unwrapCek, if_pos rfl, Spec.nonceSize, if_pos rfl]
    by_cases h : iv.length = 24 <;> simp [fromSlice, h, hk]

theorem decryptCek_skid {P : Prims} {j : Jwe} {alg : Str} (ha : j.getAlg = some alg) (hs : j.getSkid = none)
    (sk : Bytes) (rc : Recipient) (ek : Option Bytes) : ∃ e, decryptCek P j sk rc ek = .err e := by
  simp only [decryptCek, ha, hs, Res.ofOpt_some, Res.bind_ok]
  exact ⟨_, rfl⟩

theorem generateKek_eq {P : Prims} {skid : Str} {ek : Option Bytes} {spk sk : Bytes} (hk : KeyFor P skid ek spk)
    (h1 : 32 ≤ sk.length) (h2 : 32 ≤ spk.length) (ze : Bytes) (alg : Str) :
    generateKek P skid sk ze alg ek = concatKdf P (ze ++ P.x25519 (sk.take 32) (spk.take 32)) alg none none := by
  simp only [generateKek, sharedFor, publicKeyFor_iff.2 hk, Res.bind_ok, arrayRef32, if_pos h1, if_pos h2,
    Res.pure_eq]

/-- One recipient entry: when it opens and when it makes the process panic. -/
theorem decryptCek_outcome {P : Prims} (hP : Laws P) {j : Jwe} {alg skid : Str} {sk spk : Bytes}
    {ek : Option Bytes} (ha : j.getAlg = some alg) (hsup : alg ∈ Spec.supportedAlgs) (hs : j.getSkid = some skid)
    (hk : KeyFor P skid ek spk) (h1 : 32 ≤ sk.length) (h2 : 32 ≤ spk.length) (rc : Recipient) :
    (∀ key, decryptCek P j sk rc ek = .ok key ↔ Spec.EntryOpens P alg sk spk rc key) ∧
      (decryptCek P j sk rc ek = .panic ↔ Spec.EntryCrashes alg rc) := by
  constructor
  · intro key
    simp only [decryptCek, ha, hs, Res.ofOpt_some, Res.bind_ok, Res.bind_eq_ok, Res.ofOpt_eq_ok,
      arrayRef32_eq_ok, generateKek_eq hk h1 h2]
    constructor
    · rintro ⟨epk, hepk, pub, hpub, pub', hl, s, ⟨-, rfl⟩, kek, hkek, ivt, hivt, iv, hiv, tt, htt, c, hc, t, ht, hu⟩
      split at hl
      · rename_i hl32
        obtain rfl := Res.ok.inj hl
        rw [unwrapCek_ok_iff hsup (kdf_len hP hkek)] at hu
        exact ⟨pub, iv, c ++ t, kek, ⟨epk, ivt, tt, t, c, hepk, hpub, hl32, hivt, hiv, htt, ht, hc, rfl⟩,
          hu.1, hkek, hu.2⟩
      · cases hl
    · rintro ⟨eph, iv, ct, kek, ⟨epk, ivt, tt, t, c, hepk, hpub, hl32, hivt, hiv, htt, ht, hc, rfl⟩, hn, hkek, hu⟩
      refine ⟨epk, hepk, eph, hpub, eph, by rw [if_pos hl32], _, ⟨h1, rfl⟩, kek, hkek, ivt, hivt, iv, hiv, tt, htt,
        c, hc, t, ht, ?_⟩
      rw [unwrapCek_ok_iff hsup (kdf_len hP hkek)]
      exact ⟨hn, hu⟩
  · simp only [decryptCek, ha, hs, Res.ofOpt_some, Res.bind_ok, Res.bind_eq_panic, Res.ofOpt_eq_ok, ofOpt_panic,
      false_or, arrayRef32_eq_ok, arrayRef32_panic, generateKek_eq hk h1 h2]
    constructor
    · rintro ⟨epk, hepk, pub, hpub, hl | ⟨pub', hl, h | ⟨s, ⟨-, rfl⟩, h | ⟨kek, hkek, ivt, hivt, iv, hiv, tt, htt, c,
        hc, t, ht, hu⟩⟩⟩⟩
      · split at hl <;> cases hl
      · omega
      · exact absurd h (C37_kdf_fails_only_if_long _ _ _ _ _).2
      · split at hl
        · rename_i hl32
          obtain rfl := Res.ok.inj hl
          rw [unwrapCek_panic_iff hsup (kdf_len hP hkek)] at hu
          exact ⟨pub, iv, c ++ t, ⟨epk, ivt, tt, t, c, hepk, hpub, hl32, hivt, hiv, htt, ht, hc, rfl⟩, hu⟩
        · cases hl
    · rintro ⟨eph, iv, ct, ⟨epk, ivt, tt, t, c, hepk, hpub, hl32, hivt, hiv, htt, ht, hc, rfl⟩, hn⟩
      obtain ⟨kek, hkek⟩ := supported_kdf hsup P
        (P.x25519 (sk.take 32) eph ++ P.x25519 (sk.take 32) (spk.take 32))
      refine ⟨epk, hepk, eph, hpub, .inr ⟨eph, by rw [if_pos hl32], .inr ⟨_, ⟨h1, rfl⟩, .inr ⟨kek, hkek, ivt, hivt,
        iv, hiv, tt, htt, c, hc, t, ht, ?_⟩⟩⟩⟩
      rw [unwrapCek_panic_iff hsup (kdf_len hP hkek)]
      exact hn

theorem firstKey_outcome {P : Prims} {j : Jwe} {sk : Bytes} {ek : Option Bytes} (rs : List Recipient) :
    (∀ key, Message.firstKey P j sk ek rs = .ok key ↔ ∃ (i : Nat) (rc : Recipient), rs[i]? = some rc ∧
      decryptCek P j sk rc ek = .ok key ∧ ∀ (n : Nat) (x : Recipient), n < i → rs[n]? = some x → ∃ e, decryptCek P j sk x ek = .err e) ∧
    (Message.firstKey P j sk ek rs = .panic ↔ ∃ (i : Nat) (rc : Recipient), rs[i]? = some rc ∧
      decryptCek P j sk rc ek = .panic ∧ ∀ (n : Nat) (x : Recipient), n < i → rs[n]? = some x → ∃ e, decryptCek P j sk x ek = .err e) := by
  induction rs with
  | nil => simp [Message.firstKey]
  | cons y rs ih =>
    have step : ∀ R : Res Bytes, (∃ e, decryptCek P j sk y ek = .err e) → (∀ e, R ≠ .err e) →
        ((∃ (i : Nat) (rc : Recipient), rs[i]? = some rc ∧ decryptCek P j sk rc ek = R ∧
          ∀ (n : Nat) (x : Recipient), n < i → rs[n]? = some x → ∃ e, decryptCek P j sk x ek = .err e) ↔
        ∃ (i : Nat) (rc : Recipient), (y :: rs)[i]? = some rc ∧ decryptCek P j sk rc ek = R ∧
          ∀ (n : Nat) (x : Recipient), n < i → (y :: rs)[n]? = some x → ∃ e, decryptCek P j sk x ek = .err e) := by
      intro R hy hR
      constructor
      · rintro ⟨i, rc, h1, h2, h3⟩
        refine ⟨i + 1, rc, by simpa using h1, h2, ?_⟩
        intro n x hn hx
        cases n with
        | zero => simp only [List.getElem?_cons_zero, Option.some.injEq] at hx; subst hx; exact hy
        | succ n => exact h3 n x (by omega) (by simpa using hx)
      · rintro ⟨i, rc, h1, h2, h3⟩
        cases i with
        | zero =>
          simp only [List.getElem?_cons_zero, Option.some.injEq] at h1
          subst h1
          obtain ⟨e, he⟩ := hy
          exact absurd (h2.symm.trans he) (hR e)
        | succ i =>
          exact ⟨i, rc, by simpa using h1, h2, fun n x hn hx => h3 (n + 1) x (by omega) (by simpa using hx)⟩
    have other : ∀ R R' : Res Bytes, decryptCek P j sk y ek = R' → (∀ e, R' ≠ .err e) →
        ((∃ (i : Nat) (rc : Recipient), (y :: rs)[i]? = some rc ∧ decryptCek P j sk rc ek = R ∧
          ∀ (n : Nat) (x : Recipient), n < i → (y :: rs)[n]? = some x → ∃ e, decryptCek P j sk x ek = .err e) ↔ R' = R) := by
      intro R R' hy hR
      constructor
      · rintro ⟨i, rc, h1, h2, h3⟩
        cases i with
        | zero =>
          simp only [List.getElem?_cons_zero, Option.some.injEq] at h1
          subst h1
          exact hy.symm.trans h2
        | succ i =>
          obtain ⟨e, he⟩ := h3 0 y (by omega) (by simp)
          exact absurd (hy.symm.trans he) (hR e)
      · rintro rfl
        exact ⟨0, y, by simp, hy, fun n x hn => by omega⟩
    cases hy : decryptCek P j sk y ek with
    | ok k =>
      constructor
      · intro key
        rw [other _ _ hy (by simp)]
        simp only [Message.firstKey, hy]
      · rw [other _ _ hy (by simp)]
        simp only [Message.firstKey, hy]
    | panic =>
      constructor
      · intro key
        rw [other _ _ hy (by simp)]
        simp only [Message.firstKey, hy]
      · rw [other _ _ hy (by simp)]
        simp only [Message.firstKey, hy]
    | err e =>
      constructor
      · intro key
        rw [← step _ ⟨e, hy⟩ (by simp), ← ih.1 key]
        simp only [Message.firstKey, hy]
      · rw [← step _ ⟨e, hy⟩ (by simp), ← ih.2]
        simp only [Message.firstKey, hy]

theorem res_err_iff {α : Type} {x : Res α} : (∃ e, x = .err e) ↔ x ≠ .panic ∧ ∀ a, x ≠ .ok a := by
  cases x <;> simp

theorem senderKey_iff {P : Prims} {j : Jwe} {ek : Option Bytes} {spk : Bytes} :
    Message.senderKey P j ek = .ok spk ↔ Spec.SenderKey P j ek spk := by
  cases ek with
  | some e => simp [Message.senderKey, Spec.SenderKey]
  | none => simp [Message.senderKey, Spec.SenderKey, KeyFor, Res.bind_eq_ok, Res.ofOpt_eq_ok]

theorem senderKey_ne_panic {P : Prims} {j : Jwe} {ek : Option Bytes} : Message.senderKey P j ek ≠ .panic := by
  unfold Message.senderKey
  split
  · simp
  · exact Res.bind_ne_panic Res.ofOpt_ne_panic fun _ _ => Res.bind_ne_panic Res.ofOpt_ne_panic
      fun _ _ => Res.ofOpt_ne_panic

theorem senderKey_keyFor {P : Prims} {j : Jwe} {ek : Option Bytes} {spk : Bytes} (h : Spec.SenderKey P j ek spk)
    {skid : Str} (hs : j.getSkid = some skid) : KeyFor P skid ek spk := by
  rcases h with h | ⟨h1, skid', h2, h3⟩
  · exact .inl h
  · rw [hs] at h2
    obtain rfl := Option.some.inj h2
    rw [h1]
    exact h3

/-- The content key: when it is found and when looking for it panics. -/
theorem contentKey_outcome {P : Prims} (hP : Laws P) {j : Jwe} {alg : Str} {sk spk : Bytes}
    {ek : Option Bytes} (ha : j.getAlg = some alg) (hsup : alg ∈ Spec.supportedAlgs)
    (hk : Spec.SenderKey P j ek spk) (h1 : 32 ≤ sk.length) (h2 : 32 ≤ spk.length) :
    (∀ key, Message.contentKey P j sk ek (P.x25519 (sk.take 32) (spk.take 32)) = .ok key ↔
      Spec.ContentKey P j alg sk spk key) ∧
    (Message.contentKey P j sk ek (P.x25519 (sk.take 32) (spk.take 32)) = .panic ↔
      ∃ (rs : List Recipient) (i : Nat) (rc : Recipient), Message.recipientsOf j = some rs ∧ j.getSkid ≠ none ∧ rs[i]? = some rc ∧
          Spec.EntryCrashes alg rc ∧ Spec.PassedOver P alg sk spk rs i) := by
  unfold Message.contentKey Spec.ContentKey
  cases hr : Message.recipientsOf j with
  | none => simp [eq_comm]
  | some rs =>
    cases hs : j.getSkid with
    | none =>
      have he := fun rc => decryptCek_skid (P := P) ha hs sk rc ek
      constructor
      · intro key
        simp only [(firstKey_outcome rs).1 key]
        constructor
        · rintro ⟨i, rc, -, h, -⟩
          obtain ⟨e, he⟩ := he rc
          rw [he] at h; cases h
        · simp
      · simp only [(firstKey_outcome rs).2]
        constructor
        · rintro ⟨i, rc, -, h, -⟩
          obtain ⟨e, he⟩ := he rc
          rw [he] at h; cases h
        · simp
    | some skid =>
      have hd := fun rc => decryptCek_outcome hP ha hsup hs (senderKey_keyFor hk hs) h1 h2 rc
      have hp : ∀ i, (∀ (n : Nat) (x : Recipient), n < i → rs[n]? = some x → ∃ e, decryptCek P j sk x ek = .err e) ↔
          Spec.PassedOver P alg sk spk rs i := by
        intro i
        unfold Spec.PassedOver
        simp only [res_err_iff, ne_eq, (hd _).1, (hd _).2]
      constructor
      · intro key
        simp only [(firstKey_outcome rs).1 key, hp, (hd _).1]
        simp
      · simp only [(firstKey_outcome rs).2, hp, (hd _).2]
        simp

/-! ## The content -/

theorem ofStr_iff {alg : Str} : (∃ a, CryptoAlg.ofStr alg = .ok a) ↔ alg ∈ Spec.supportedAlgs := by
  constructor
  · rintro ⟨a, h⟩
    rcases ofStr_ok h with ⟨h, -⟩ | ⟨h, -⟩ <;> simp [h, Spec.supportedAlgs]
  · intro h
    simp only [Spec.supportedAlgs, List.mem_cons, List.not_mem_nil, or_false] at h
    rcases h with rfl | rfl
    · exact ⟨_, by rw [CryptoAlg.ofStr, if_pos rfl]⟩
    · exact ⟨_, by rw [CryptoAlg.ofStr, if_neg (by decide), if_pos rfl]⟩

theorem ofStr_ne_panic (alg : Str) : CryptoAlg.ofStr alg ≠ .panic := by
  unfold CryptoAlg.ofStr; (repeat' split) <;> simp

theorem decrypter_ok_iff {P : Prims} {alg : Str} {a : CryptoAlg} (ha : CryptoAlg.ofStr alg = .ok a)
    {iv key ct aad pt : Bytes} : a.decrypter P iv key ct aad = .ok pt ↔ key.length = 32 ∧
      Spec.nonceSize alg ≤ iv.length ∧ (alg = c!"ECDH-1PU+XC20PKW" → iv.length = 24) ∧
      Spec.ContentOpens P alg iv key ct aad pt := by
  rcases ofStr_ok ha with ⟨rfl, rfl⟩ | ⟨rfl, rfl⟩
  · rw [Spec.nonceSize, if_neg (by decide)]
    simp only [CryptoAlg.decrypter, checkNonce, fromSlice, Spec.ContentOpens]
    by_cases h1 : iv.length < 12
    · simp [h1]; omega
    · by_cases h2 : key.length = 32
      · simp [h1, h2]; omega
      · simp [h1, h2]
  · rw [Spec.nonceSize, if_pos rfl]
    simp only [CryptoAlg.decrypter, checkNonce, fromSlice, Spec.ContentOpens]
    by_cases h1 : iv.length < 24
    · simp [h1]; omega
    · by_cases h2 : key.length = 32
      · by_cases h3 : iv.length = 24
        · simp [h2, h3]
        · simp [h1, h2, h3]
      · simp [h1, h2]

theorem decrypter_panic_iff {P : Prims} {alg : Str} {a : CryptoAlg} (ha : CryptoAlg.ofStr alg = .ok a)
    {iv key ct aad : Bytes} : a.decrypter P iv key ct aad = .panic ↔ Spec.nonceSize alg ≤ iv.length ∧
        (key.length ≠ 32 ∨ alg = c!"ECDH-1PU+XC20PKW" ∧ iv.length ≠ 24) := by
  rcases ofStr_ok ha with ⟨rfl, rfl⟩ | ⟨rfl, rfl⟩
  · rw [Spec.nonceSize, if_neg (by decide)]
    simp only [CryptoAlg.decrypter, checkNonce, fromSlice]
    by_cases h1 : iv.length < 12
    · simp [h1]; omega
    · by_cases h2 : key.length = 32
      · simp [h1, h2]
      · simp [h1, h2]; omega
  · rw [Spec.nonceSize, if_pos rfl]
    simp only [CryptoAlg.decrypter, checkNonce, fromSlice]
    by_cases h1 : iv.length < 24
    · simp [h1]; omega
    · by_cases h2 : key.length = 32
      · by_cases h3 : iv.length = 24
        · simp [h2, h3]
        · simp [h1, h2, h3]; omega
      · simp [h1, h2]; omega

theorem plugErr_panic {α : Type} {x : Res α} : Message.plugErr x = .panic ↔ x = .panic := by
  cases x <;> simp [Message.plugErr]

theorem plugErr_eq_ok {α : Type} {x : Res α} {a : α} : Message.plugErr x = .ok a ↔ x = .ok a := by
  cases x <;> simp [Message.plugErr]

theorem jwe_ofBytes {F : Str → Option Str} {s : Str} : (parseBytes (utf8 s)).bind (decJwe F) = Jwe.ofText F s := by
  rw [parseBytes_utf8]
  unfold Jwe.ofText
  cases parseJson s <;> rfl

/-- Opening an envelope: when it succeeds, with what, and when it panics. -/
theorem receiveJwe_outcome {P : Prims} (hP : Laws P) (o : HOrd) (s : Str) (sk : Bytes) (ek : Option Bytes) :
    (∀ t, Message.receiveJwe P o s sk ek = .ok t ↔ ∃ j pt m, Jwe.ofText P.f64 s = some j ∧
      Spec.Opens P (o.sub 0) j sk ek pt ∧ Message.ofBytes P.f64 pt = some m ∧ t = m.text (o.sub 1)) ∧
    (Message.receiveJwe P o s sk ek = .panic ↔ ∃ j, Jwe.ofText P.f64 s = some j ∧ Spec.Crashes P j sk ek) := by
  constructor
  · intro t
    simp only [Message.receiveJwe, Res.bind_eq_ok, Res.ofOpt_eq_ok, Res.pure_eq, Res.ok.injEq, arrayRef32_eq_ok,
      senderKey_iff, Message.decrypt, jwe_ofBytes, Jwe.getPayload, Jwe.getIv, Res.unwrap_eq_ok, plugErr_eq_ok]
    constructor
    · rintro ⟨j, hj, alg, halg, spk, hspk, _, ⟨h1, rfl⟩, _, ⟨h2, rfl⟩, a, ha, key, hkey, m, ⟨j', hj', hdr, hh, tt, htt,
        c, hc, t', ht', iv, hiv, pt, hpt, hm⟩, rfl⟩
      rw [hj] at hj'
      obtain rfl := Option.some.inj hj'
      have hsup := ofStr_iff.1 ⟨a, ha⟩
      rw [(contentKey_outcome hP halg hsup hspk h1 h2).1] at hkey
      rw [decrypter_ok_iff ha] at hpt
      obtain ⟨hk32, hn, hx, ho⟩ := hpt
      exact ⟨j, pt, m, hj, ⟨alg, spk, key, hdr, c, tt, t', iv, halg, hsup, hspk, h1, h2, hkey, hk32, hh, hc, htt, ht',
        hiv, hn, hx, ho⟩, hm, rfl⟩
    · rintro ⟨j, pt, m, hj, ⟨alg, spk, key, hdr, c, tt, t', iv, halg, hsup, hspk, h1, h2, hkey, hk32, hh, hc, htt, ht',
        hiv, hn, hx, ho⟩, hm, rfl⟩
      obtain ⟨a, ha⟩ := ofStr_iff.2 hsup
      rw [← (contentKey_outcome hP halg hsup hspk h1 h2).1] at hkey
      exact ⟨j, hj, alg, halg, spk, hspk, _, ⟨h1, rfl⟩, _, ⟨h2, rfl⟩, a, ha, key, hkey, m, ⟨j, hj, hdr, hh, tt, htt,
        c, hc, t', ht', iv, hiv, pt, (decrypter_ok_iff ha).2 ⟨hk32, hn, hx, ho⟩, hm⟩, rfl⟩
  · have hpure : ∀ x : Str, (Res.ok x = Res.panic) ↔ False := by simp
    simp only [Message.receiveJwe, Res.bind_eq_panic, Res.ofOpt_eq_ok, ofOpt_panic, false_or, Res.pure_eq, hpure,
      arrayRef32_eq_ok, arrayRef32_panic, senderKey_iff, Message.decrypt, jwe_ofBytes, Jwe.getPayload, Jwe.getIv,
      Res.unwrap_eq_ok, plugErr_panic, senderKey_ne_panic, ofStr_ne_panic, plugErr_eq_ok, and_false, exists_false,
      or_false]
    constructor
    · rintro ⟨j, hj, alg, halg, spk, hspk, h | ⟨_, ⟨h1, rfl⟩, h | ⟨_, ⟨h2, rfl⟩, a, ha, h⟩⟩⟩
      · exact ⟨j, hj, alg, spk, halg, hspk, .inl h⟩
      · exact ⟨j, hj, alg, spk, halg, hspk, .inr (.inl h)⟩
      · have hsup := ofStr_iff.1 ⟨a, ha⟩
        refine ⟨j, hj, alg, spk, halg, hspk, .inr (.inr ⟨hsup, ?_⟩)⟩
        rcases h with h | ⟨key, hkey, j', hj', hdr, hh, tt, htt, h⟩
        · exact .inl ((contentKey_outcome hP halg hsup hspk h1 h2).2.1 h)
        · rw [hj] at hj'
          obtain rfl := Option.some.inj hj'
          refine .inr ⟨key, (contentKey_outcome hP halg hsup hspk h1 h2).1 key |>.1 hkey, by simp [hh], tt, htt, ?_⟩
          rcases h with h | ⟨c, hc, t', ht', h | ⟨iv, hiv, h⟩⟩
          · left
            cases hc : b64Decode j.ciphertext <;> simp_all
          · right
            refine ⟨by simp [ht'], .inl ?_⟩
            cases hc : b64Decode j.iv <;> simp_all
          · right
            exact ⟨by simp [ht'], .inr ⟨iv, hiv, (decrypter_panic_iff ha).1 h⟩⟩
    · rintro ⟨j, hj, alg, spk, halg, hspk, h⟩
      refine ⟨j, hj, alg, halg, spk, hspk, ?_⟩
      by_cases h1 : sk.length < 32
      · exact .inl h1
      · refine .inr ⟨_, ⟨by omega, rfl⟩, ?_⟩
        by_cases h2 : spk.length < 32
        · exact .inl h2
        · refine .inr ⟨_, ⟨by omega, rfl⟩, ?_⟩
          rcases h with h | h | ⟨hsup, h⟩
          · exact absurd h h1
          · exact absurd h h2
          · obtain ⟨a, ha⟩ := ofStr_iff.2 hsup
            refine ⟨a, ha, ?_⟩
            rcases h with h | ⟨key, hkey, hh, tt, htt, h⟩
            · exact .inl ((contentKey_outcome hP halg hsup hspk (by omega) (by omega)).2.2 h)
            · obtain ⟨hdr, hh⟩ := Option.ne_none_iff_exists'.1 hh
              refine .inr ⟨key, (contentKey_outcome hP halg hsup hspk (by omega) (by omega)).1 key |>.2 hkey, j, hj,
                hdr, hh, tt, htt, ?_⟩
              cases hc : b64Decode j.ciphertext with
              | none => left; simp
              | some c =>
                right
                rcases h with h | ⟨ht, h⟩
                · rw [hc] at h; cases h
                · obtain ⟨t', ht'⟩ := Option.ne_none_iff_exists'.1 ht
                  refine ⟨c, rfl, t', ht', ?_⟩
                  rcases h with h | ⟨iv, hiv, h⟩
                  · left; simp [h]
                  · exact .inr ⟨iv, hiv, (decrypter_panic_iff ha).2 h⟩

/-! ## C34 -/

/-- C34, exactly.  `receive` panics if and only if the text is classified as encrypted, a private key is
passed, the text is an envelope, and one of these holds: a key is shorter than 32 bytes; the first recipient
entry that is neither unreadable nor closed has a nonce of the wrong size; the content cannot be decoded, or
its iv or key has a size that the cipher does not take. -/
theorem C34_panic_iff (P : Prims) (hP : Laws P) (o : HOrd) (s : Str) (sk ek vk : Option Bytes) :
    Message.receive P o s sk ek vk = .panic ↔ Message.messageType P s = .ok .jwe ∧
      ∃ k j, sk = some k ∧ Jwe.ofText P.f64 s = some j ∧ Spec.Crashes P j k ek := by
  have hrest : ∀ cur, (Message.verifyStep P (o.sub 1) cur vk >>= fun c =>
      Res.ofOpt Err.serde (Message.ofText P.f64 c)) ≠ .panic := by
    intro cur
    refine Res.bind_ne_panic ?_ fun _ _ => Res.ofOpt_ne_panic
    unfold Message.verifyStep
    refine Res.bind_ne_panic (messageType_ne_panic _ _) fun t ht => ?_
    split
    · exact receiveJws_ne_panic _ _ _ _
    · simp
  have : Message.receive P o s sk ek vk = .panic ↔ Message.decryptStep P (o.sub 0) s sk ek = .panic := by
    unfold Message.receive
    rw [Res.bind_eq_panic]
    constructor
    · rintro (h | ⟨c, -, h⟩)
      · exact h
      · exact absurd h (hrest c)
    · exact .inl
  rw [this]
  unfold Message.decryptStep
  rw [Res.bind_eq_panic]
  constructor
  · rintro (h | ⟨t, ht, h⟩)
    · exact absurd h (messageType_ne_panic _ _)
    · split at h
      · rename_i htj
        subst htj
        simp only [Res.bind_eq_panic, ofOpt_panic, false_or, Res.ofOpt_eq_ok] at h
        obtain ⟨k, hk, h⟩ := h
        obtain ⟨j, hj, hc⟩ := (receiveJwe_outcome hP _ s k ek).2.1 h
        exact ⟨ht, k, j, hk, hj, hc⟩
      · cases h
  · rintro ⟨ht, k, j, rfl, hj, hc⟩
    refine .inr ⟨_, ht, ?_⟩
    rw [if_pos rfl]
    exact (receiveJwe_outcome hP _ s k ek).2.2 ⟨j, hj, hc⟩

/-- C34: a text for which the condition holds, and one (a sealed message) for which it does not. -/
example : (∃ t k ek, ∃ j, Message.messageType (toy fun _ => none) t = .ok .jwe ∧
      Jwe.ofText (toy fun _ => none).f64 t = some j ∧ Spec.Crashes (toy fun _ => none) j k (some ek)) ∧
    (∃ t, Message.messageType (toy fun _ => none) t = .ok .jwe ∧
      ¬ ∃ j, Jwe.ofText (toy fun _ => none).f64 t = some j ∧
        Spec.Crashes (toy fun _ => none) j (exampleKey 1) (some ((toy fun _ => none).x25519Pub (exampleKey 3)))) := by
  have hl := toy_laws fun _ => none
  constructor
  · obtain ⟨t, h⟩ := C34_ciphertext_panic_violated
    have h := h (toy fun _ => none) HOrd.id (exampleKey 1) (exampleKey 2) none (by decide) (by decide)
    obtain ⟨h1, k, j, hk, hj, hc⟩ := (C34_panic_iff _ hl _ _ _ _ _).1 h
    exact ⟨t, k, _, j, h1, hj, hc⟩
  · obtain ⟨t, ht⟩ := C16_seal_total (toy fun _ => none) hl (toy_total _) exampleRand exampleMessage
      (exampleKey 3) (some [some ((toy fun _ => none).x25519Pub (exampleKey 1)),
          some ((toy fun _ => none).x25519Pub (exampleKey 2))]) c!"ECDH-1PU+XC20PKW" (by decide) (by decide)
      (by intro l hl; rw [← Option.some.inj hl]; rfl) (by intro h; cases h) rfl (by decide) (by
        intro i dest hi
        match i with
        | 0 => exact ⟨_, hl.pub_len _, .inl rfl⟩
        | 1 => exact ⟨_, hl.pub_len _, .inl rfl⟩
        | n + 2 => cases hi)
    obtain ⟨rs, h⟩ := C16_seal_receive _ hl exampleRand HOrd.rev exampleMessage (exampleKey 3) (exampleKey 1)
      _ t c!"did:e:f" none (exampleMessage_wf _) (by decide)
      ⟨(by intro k h; cases h), (by intro k h; cases h)⟩ (by decide) rfl (by decide) ht
    have htt : Message.messageType (toy fun _ => none) t = .ok .jwe := by
      obtain ⟨pks, rs, a, c, tag, alg, -, -, -, -, -, -, -, -, -, -, -, rfl⟩ := seal_ok ht
      exact messageType_jwe _ _
    refine ⟨t, htt, ?_⟩
    rintro ⟨j, hj, hc⟩
    have := (C34_panic_iff _ hl HOrd.rev t (some (exampleKey 1))
      (some ((toy fun _ => none).x25519Pub (exampleKey 3))) none).2 ⟨htt, _, j, rfl, hj, hc⟩
    rw [h] at this
    cases this

/-! ## C20 -/

/-- The message is not taken for a signed one, and its numbers survive being written. -/
def Spec.PlainContent (P : Prims) (m : Message) : Prop :=
  m.jwm.typ ≠ .jws ∧ Avoids m.didcomm.other [c!"signature", c!"signatures"] ∧ NumsStable P.f64 m.body

theorem messageType_plain {P : Prims} {o : HOrd} {m : Message} (hw : m.WF P.f64) (hc : Spec.PlainContent P m) :
    ∃ t, Message.messageType P (m.text o) = .ok t ∧ t ≠ .jws := by
  cases hv : m.didcomm.other.get c!"iv" with
  | some v => exact ⟨_, messageType_iv P o hw.nums hv hc.2.1, by simp⟩
  | none =>
    refine ⟨_, messageType_text P o hw ?_, hc.1⟩
    intro k hk
    simp only [classKeys, List.mem_cons, List.not_mem_nil, or_false] at hk
    rcases hk with rfl | rfl | rfl
    · exact hc.2.1 _ (by decide)
    · exact hc.2.1 _ (by decide)
    · exact hv

/-- C20, exactly.  Provided that what the envelope contains is not itself signed, `receive` returns `m` for a
text that is classified as encrypted if and only if a private key is passed with which the envelope opens to a
document of the message `m`, and `m` has a recipient. -/
theorem C20_accepted_iff (P : Prims) (hP : Laws P) (o : HOrd) (s : Str) (sk ek vk : Option Bytes) (m : Message)
    (ht : Message.messageType P s = .ok .jwe)
    (hc : ∀ k j pt m0, sk = some k → Jwe.ofText P.f64 s = some j → Spec.Opens P ((o.sub 0).sub 0) j k ek pt →
      Message.ofBytes P.f64 pt = some m0 → Spec.PlainContent P m0) :
    Message.receive P o s sk ek vk = .ok m ↔ ∃ k j pt, sk = some k ∧ Jwe.ofText P.f64 s = some j ∧
      Spec.Opens P ((o.sub 0).sub 0) j k ek pt ∧ Message.ofBytes P.f64 pt = some m ∧ m.didcomm.to ≠ [] := by
  have hd : ∀ cur, Message.decryptStep P (o.sub 0) s sk ek = .ok cur ↔ ∃ k j pt m0, sk = some k ∧
      Jwe.ofText P.f64 s = some j ∧ Spec.Opens P ((o.sub 0).sub 0) j k ek pt ∧ Message.ofBytes P.f64 pt = some m0 ∧
      cur = m0.text ((o.sub 0).sub 1) := by
    intro cur
    simp only [Message.decryptStep, ht, Res.bind_ok, if_true, Res.bind_eq_ok, Res.ofOpt_eq_ok,
      (receiveJwe_outcome hP _ s _ ek).1]
    constructor
    · rintro ⟨k, hk, j, pt, m0, h⟩
      exact ⟨k, j, pt, m0, hk, h⟩
    · rintro ⟨k, j, pt, m0, hk, h⟩
      exact ⟨k, hk, j, pt, m0, h⟩
  constructor
  · intro h
    simp only [Message.receive, Res.bind_eq_ok, Res.ofOpt_eq_ok] at h
    obtain ⟨cur, hcur, cur', hcur', hm⟩ := h
    obtain ⟨k, j, pt, m0, hk, hj, ho, hm0, rfl⟩ := (hd cur).1 hcur
    have hpl := hc k j pt m0 hk hj ho hm0
    obtain ⟨x, hx, hxm⟩ := ofBytes_doc hm0
    have hn0 := decMessage_nums (fun _ _ => hP.f64_tok) hxm hx
    by_cases hto : m0.didcomm.to = []
    · exfalso
      have hno := ofText_no_to (P := P) ((o.sub 0).sub 1) hn0 (decMessage_avoids hxm _ (by decide)) hto
      simp only [Message.verifyStep, Res.bind_eq_ok] at hcur'
      obtain ⟨ty, hty, hcur'⟩ := hcur'
      split at hcur'
      · rename_i hj'
        subst hj'
        have h1 := presence_message ((o.sub 0).sub 1) (m := m0) (k := c!"signature") (by decide)
          (hpl.2.1 _ (by decide)) rfl
        have h2 := presence_message ((o.sub 0).sub 1) (m := m0) (k := c!"signatures") (by decide)
          (hpl.2.1 _ (by decide)) rfl
        cases hv : m0.didcomm.other.get c!"iv" with
        | some v =>
          rw [messageType_iv P _ hn0 hv hpl.2.1] at hty
          cases hty
        | none =>
          rw [messageType_obj P (parse_message _ hn0) h1 h2
            (presence_message _ (m := m0) (k := c!"iv") (by decide) hv rfl)] at hty
          simp only [Message.ofText, parse_message _ hn0] at hno
          rw [encMessage] at hno
          simp [hno] at hty
      · rw [← Res.ok.inj hcur', hno] at hm
        cases hm
    · obtain ⟨hw, f1, f2⟩ := decMessage_wf (fun _ _ => hP.f64_tok) hxm hx hto hpl.2.2
      obtain ⟨ty, hty, hne⟩ := messageType_plain (o := (o.sub 0).sub 1) hw hpl
      simp only [Message.verifyStep, hty, Res.bind_ok, if_neg hne, Res.ok.injEq] at hcur'
      subst hcur'
      rw [ofText_text _ hw] at hm
      have : m0 = m := by
        rw [← Option.some.inj hm]
        cases m0; simp_all
      subst this
      exact ⟨k, j, pt, hk, hj, ho, hm0, hto⟩
  · rintro ⟨k, j, pt, hk, hj, ho, hm, hto⟩
    have hpl := hc k j pt m hk hj ho hm
    obtain ⟨x, hx, hxm⟩ := ofBytes_doc hm
    obtain ⟨hw, f1, f2⟩ := decMessage_wf (fun _ _ => hP.f64_tok) hxm hx hto hpl.2.2
    obtain ⟨ty, hty, hne⟩ := messageType_plain (o := (o.sub 0).sub 1) hw hpl
    simp only [Message.receive, (hd _).2 ⟨k, j, pt, m, hk, hj, ho, hm, rfl⟩, Res.bind_ok, Message.verifyStep, hty,
      if_neg hne, ofText_text _ hw, Res.ofOpt_some]
    cases m; simp_all

/-- The body of a written message, found by its name. -/
theorem fieldVals_body_message (o : HOrd) {m : Message} (h : Avoids m.didcomm.other reservedKeys) :
    fieldVals c!"body" (jwmEntries (o.sub 0) m.jwm ++ (didcommEntries (o.sub 1) m.didcomm ++
      (optE c!"recipients" (fun l => Json.arr (encList encRecipient (o.sub 2) l)) m.recipients ++
        ((c!"body", m.body) ::
          vecE c!"attachments" (fun l => Json.arr (l.map encAttachment)) m.attachments)))) = [m.body] := by
  have h1 : fieldVals c!"body" (jwmEntries (o.sub 0) m.jwm) = [] := by
    apply fieldVals_none
    intro p hp he
    have h1 := keys_jwm hp
    rw [he] at h1
    revert h1
    decide
  have h2 : fieldVals c!"body" (didcommEntries (o.sub 1) m.didcomm) = [] := by
    apply fieldVals_none
    intro p hp he
    exact keys_didcomm_not (ks := messageKeys) (h.sub (by decide)) (by decide) hp (he ▸ (by decide))
  simp only [fieldVals_append, h1, h2]; look

/-- A message read from a document is determined by its text, if this is the text of a message that can be read. -/
theorem read_text_inj {P : Prims} (hP : Laws P) {o : HOrd} {b : Bytes} {m0 m : Message} (hw : m.WF P.f64)
    (h : Message.ofBytes P.f64 b = some m0) (ht : m0.text o = m.text o) :
    m0 = { m with flatJwe := false, flatJws := false } := by
  obtain ⟨x, hx, hxm⟩ := ofBytes_doc h
  have hn0 := decMessage_nums (fun _ _ => hP.f64_tok) hxm hx
  have hmt := ofText_text o hw
  rw [← ht] at hmt
  have hto : m0.didcomm.to ≠ [] := by
    intro he
    rw [ofText_no_to o hn0 (decMessage_avoids hxm _ (by decide)) he] at hmt
    cases hmt
  have he : encMessage o m0 = encMessage o m := by
    have h1 := parse_message o hn0
    have h2 := parse_message o hw.nums
    rw [ht, h2] at h1
    exact (Option.some.inj h1).symm
  have hb : m0.body = m.body := by
    have h1 := fieldVals_body_message o (decMessage_avoids hxm)
    have h2 := fieldVals_body_message o hw.other
    simp only [encMessage, Json.obj.injEq] at he
    rw [he, h2] at h1
    exact (List.cons.inj h1).1.symm
  obtain ⟨hw0, f1, f2⟩ := decMessage_wf (fun _ _ => hP.f64_tok) hxm hx hto (by rw [hb]; exact canon_stable hw.canon)
  rw [ofText_text o hw0] at hmt
  have := Option.some.inj hmt
  rw [← this]
  cases m0; simp_all

/-- C20: a sealed message meets the condition. -/
example : ∃ t, Message.messageType (toy fun _ => none) t = .ok .jwe ∧
    (∃ m, Message.receive (toy fun _ => none) HOrd.rev t (some (exampleKey 1))
      (some ((toy fun _ => none).x25519Pub (exampleKey 3))) none = .ok m) ∧
    ∀ k j pt m0, some (exampleKey 1) = some k → Jwe.ofText (toy fun _ => none).f64 t = some j →
      Spec.Opens (toy fun _ => none) ((HOrd.rev.sub 0).sub 0) j k
        (some ((toy fun _ => none).x25519Pub (exampleKey 3))) pt →
      Message.ofBytes (toy fun _ => none).f64 pt = some m0 → Spec.PlainContent (toy fun _ => none) m0 := by
  have hl := toy_laws fun _ => none
  obtain ⟨t, ht⟩ := C16_seal_total (toy fun _ => none) hl (toy_total _) exampleRand exampleMessage
    (exampleKey 3) (some [some ((toy fun _ => none).x25519Pub (exampleKey 1)),
        some ((toy fun _ => none).x25519Pub (exampleKey 2))]) c!"ECDH-1PU+XC20PKW" (by decide) (by decide)
    (by intro l hl; rw [← Option.some.inj hl]; rfl) (by intro h; cases h) rfl (by decide) (by
      intro i dest hi
      match i with
      | 0 => exact ⟨_, hl.pub_len _, .inl rfl⟩
      | 1 => exact ⟨_, hl.pub_len _, .inl rfl⟩
      | n + 2 => cases hi)
  obtain ⟨rs, h⟩ := C16_seal_receive _ hl exampleRand HOrd.rev exampleMessage (exampleKey 3) (exampleKey 1)
    _ t c!"did:e:f" none (exampleMessage_wf _) (by decide)
    ⟨(by intro k h; cases h), (by intro k h; cases h)⟩ (by decide) rfl (by decide) ht
  have htt : Message.messageType (toy fun _ => none) t = .ok .jwe := by
    obtain ⟨pks, rs, a, c, tag, alg, -, -, -, -, -, -, -, -, -, -, -, rfl⟩ := seal_ok ht
    exact messageType_jwe _ _
  refine ⟨t, htt, ⟨_, h⟩, ?_⟩
  intro k j pt m0 hk hj ho hm0
  obtain rfl := Option.some.inj hk
  obtain ⟨j', rs', -, -, -, hw, hs⟩ := seal_decrypted hl (exampleMessage_wf _)
    ⟨(by intro k h; cases h), (by intro k h; cases h)⟩ (frm := c!"did:e:f") rfl ht
  have hs := hs 0 _ (exampleKey 1) (some ((toy fun _ => none).x25519Pub (exampleKey 3))) (HOrd.rev.sub 0) rfl
    (by decide) (.inl rfl) (.inl rfl) (by intro x hx; cases hx)
  simp only [Message.decryptStep, htt, Res.bind_ok, if_true, Res.ofOpt_some] at hs
  rw [((receiveJwe_outcome hl _ t (exampleKey 1) _).1 _).2 ⟨j, pt, m0, hj, ho, hm0, rfl⟩] at hs
  have hm := read_text_inj hl hw hm0 (Res.ok.inj hs)
  have h1 : Avoids exampleMessage.didcomm.other [c!"signature", c!"signatures"] := by decide
  rw [hm]
  have h2 : exampleMessage.jwm.typ ≠ .jws := by decide
  exact ⟨h2, h1, canon_stable (exampleMessage_wf _).canon⟩

/-! ## C06 -/

/-- The type of a written message is read back, if the text is read at all. -/
theorem decMessage_typ {F : Str → Option Str} {o : HOrd} {m m' : Message}
    (h : decMessage F (encMessage o m) = some m') : m'.jwm.typ = m.jwm.typ := by
  simp only [decMessage, encMessage, mapEntries, Option.bind_eq_bind, Option.bind_eq_some_iff,
    Option.some.injEq, Option.pure_def, exists_eq_left'] at h
  obtain ⟨_, -, _, -, _, -, -, -, jwm, hj, _, -, rfl⟩ := h
  simp only [decJwmE, Option.bind_eq_bind, Option.bind_eq_some_iff, Option.pure_def, Option.some.injEq] at hj
  obtain ⟨typ, ht, _, -, _, -, _, -, _, -, _, -, _, -, _, -, _, -, rfl⟩ := hj
  show typ = m.jwm.typ
  unfold reqField at ht
  split at ht
  · rename_i v hv
    have hin : Json.str m.jwm.typ.label ∈ fieldVals c!"typ" (((jwmEntries (o.sub 0) m.jwm ++
        (didcommEntries (o.sub 1) m.didcomm ++ (optE c!"recipients" (fun l => Json.arr (encList encRecipient (o.sub 2) l))
          m.recipients ++ ((c!"body", m.body) ::
            vecE c!"attachments" (fun l => Json.arr (l.map encAttachment)) m.attachments)))).filter
              fun p => !messageKeys.contains p.1)) := by
      rw [mem_fieldVals, List.mem_filter]
      exact ⟨by simp [jwmEntries], show (!messageKeys.contains c!"typ") = true by decide⟩
    rw [hv] at hin
    simp only [List.mem_singleton] at hin
    subst hin
    rw [decMessageType] at ht
    have hl := (((C40_labels).1 _ _).1 ht).symm
    revert hl
    generalize m.jwm.typ = u
    cases typ <;> cases u <;> decide
  · cases ht

/-- C06, exactly.  A message whose type is not `application/didcomm-signed+json` and whose custom headers are not
named `iv`, `signature` or `signatures` comes back from plain JSON and `receive` with any keys if and only if its
type is not `application/didcomm-encrypted+json`, it has a recipient, its body is nested at most 126 levels deep,
no custom header has the name of a member, no custom member of a key has the name of a member of a key; and the
forms `flat_jwe` and `flat_jws` are not set.  (The body is one serde_json can hold.) -/
theorem C06_received_iff (P : Prims) (hP : Laws P) (o o' : HOrd) (m : Message) (hb : Canon P.f64 m.body)
    (hn : NumsOk m.body) (ha : Avoids m.didcomm.other classKeys) (h2 : m.jwm.typ ≠ .jws)
    (sk ek vk : Option Bytes) :
    (m.asRawJson o >>= fun t => Message.receive P o' t sk ek vk) = .ok m ↔
      m.jwm.typ ≠ .jwe ∧ m.didcomm.to ≠ [] ∧ m.body.depth ≤ 126 ∧ Avoids m.didcomm.other reservedKeys ∧
      m.jwm.WF ∧ RecipientsWF m.recipients ∧ m.flatJwe = false ∧ m.flatJws = false := by
  constructor
  · intro h
    simp only [Message.asRawJson, Res.bind_ok] at h
    cases hd : decMessage P.f64 (encMessage o m) with
    | none => rw [receive_not_classified P o o' m hn ha hd] at h; cases h
    | some m' =>
      have htyp := decMessage_typ hd
      have hmt : Message.messageType P (m.text o) = .ok m.jwm.typ := by
        have := messageType_obj P (parse_message o hn)
          (presence_message o (k := c!"signature") (by decide) (ha _ (by decide)) rfl)
          (presence_message o (k := c!"signatures") (by decide) (ha _ (by decide)) rfl)
          (presence_message o (k := c!"iv") (by decide) (ha _ (by decide)) rfl)
        rw [encMessage] at hd
        rw [hd] at this
        simpa [Message.text, encMessage, htyp] using this
      have hj : m.jwm.typ ≠ .jwe := by
        intro he
        simp only [Message.receive, Message.decryptStep, hmt, he, Res.bind_ok, if_true, Res.bind_eq_ok] at h
        obtain ⟨cur, ⟨k, -, hk⟩, -⟩ := h
        obtain ⟨j, pt, m0, hjj, -⟩ := ((receiveJwe_outcome hP _ _ _ ek).1 cur).1 hk
        rw [jwe_ofText_message_none P o hn (ha _ (by decide))] at hjj
        cases hjj
      simp only [Message.receive, Message.decryptStep, Message.verifyStep, hmt, Res.bind_ok, if_neg hj, if_neg h2,
        Res.ofOpt_eq_ok] at h
      have hto : m.didcomm.to ≠ [] := by
        intro he
        have hx : decMessage P.f64 (encMessage o m) = some m := by
          simpa [Message.ofText, parse_message o hn] using h
        rw [ofText_no_to o hn (decMessage_avoids hx _ (by decide)) he] at h
        cases h
      obtain ⟨hw, f1, f2⟩ := ofText_wf (fun _ _ => hP.f64_tok) h hto (canon_stable hb)
      exact ⟨hj, hto, hw.depth, hw.other, hw.jwm, hw.recipients, f1, f2⟩
  · rintro ⟨hj, hto, hdp, hav, hjw, hr, f1, f2⟩
    exact C06_plain_roundtrip_partial P o o' m ⟨hjw, hav, hto, hr, hb, hn, hdp⟩ ha hj h2 ⟨f1, f2⟩ sk ek vk

/-- C06: a message for which the conditions hold and one for which only a recipient is missing. -/
example : ∃ m m' : Message, Canon (toy fun _ => none).f64 m.body ∧ NumsOk m.body ∧
    Avoids m.didcomm.other classKeys ∧ m.jwm.typ ≠ .jws ∧ m.WF (toy fun _ => none).f64 ∧ m.jwm.typ ≠ .jwe ∧
    m' = { m with didcomm := { m.didcomm with to := [] } } ∧ ∀ o o', 
      (m.asRawJson o >>= fun t => Message.receive (toy fun _ => none) o' t none none none) = .ok m ∧
      (m'.asRawJson o >>= fun t => Message.receive (toy fun _ => none) o' t none none none) ≠ .ok m' := by
  have hw := richMessage_wf (toy fun _ => none).f64
  have h1 : Avoids richMessage.didcomm.other classKeys := by decide
  have h2 : richMessage.jwm.typ ≠ .jws := by decide
  have h3 : richMessage.jwm.typ ≠ .jwe := by decide
  refine ⟨richMessage, _, hw.canon, hw.nums, h1, h2, hw, h3, rfl, fun o o' => ⟨?_, ?_⟩⟩
  · exact (C06_received_iff _ (toy_laws _) o o' _ hw.canon hw.nums h1 h2 none none none).2
      ⟨h3, hw.to, hw.depth, hw.other, hw.jwm, hw.recipients, rfl, rfl⟩
  · intro h
    exact ((C06_received_iff _ (toy_laws _) o o' { richMessage with didcomm := { richMessage.didcomm with to := [] } }
      hw.canon hw.nums h1 h2 none none none).1 h).2.1 rfl

end Verif
