import Verif.Props.Exact

/-!
# Exactly when sealing, signing and routing succeed, and when they panic

C15, C57 and C60 as equivalences.
-/

namespace Verif

open Spec

/-! ## What is asked of a request -/

/-- The parts of a request that do not concern the keys of the recipients: a private key of 32 bytes, as many keys as
recipients (if keys are given), a recipient, and only one for the flat form. -/
def Spec.Request (m : Message) (ssk : Bytes) (keys : Option (List (Option Bytes))) : Prop :=
  ssk.length = 32 ∧ (∀ l, keys = some l → l.length = m.didcomm.to.length) ∧ m.didcomm.to ≠ [] ∧
    (m.flatJwe = true → m.didcomm.to.length = 1)

/-- A key of at least 32 bytes is known, given or resolved, for the recipient at position `i`. -/
def Spec.Usable (P : Prims) (to : List Str) (keys : Option (List (Option Bytes))) (i : Nat) : Prop :=
  ∃ d pk, to[i]? = some d ∧ KeyFor P d (Spec.keyAt keys i) pk ∧ 32 ≤ pk.length

/-- A key is known for the recipient at position `i`, but has fewer than 32 bytes. -/
def Spec.Short (P : Prims) (to : List Str) (keys : Option (List (Option Bytes))) (i : Nat) : Prop :=
  ∃ d pk, to[i]? = some d ∧ KeyFor P d (Spec.keyAt keys i) pk ∧ pk.length < 32

/-- Requests that are carried out. -/
def Spec.Sealable (P : Prims) (m : Message) (ssk : Bytes) (keys : Option (List (Option Bytes))) : Prop :=
  Spec.Request m ssk keys ∧ (∃ alg, m.jwm.alg = some alg ∧ alg ∈ Spec.supportedAlgs) ∧
    ∀ i, i < m.didcomm.to.length → Spec.Usable P m.didcomm.to keys i

/-- Requests that panic: the first recipient without a usable key has one that is too short.  The name of the
algorithm is looked at after the first recipient's key. -/
def Spec.SealCrashes (P : Prims) (m : Message) (ssk : Bytes) (keys : Option (List (Option Bytes))) : Prop :=
  Spec.Request m ssk keys ∧ ∃ alg i, m.jwm.alg = some alg ∧ Spec.Short P m.didcomm.to keys i ∧
    (i = 0 ∨ alg ∈ Spec.supportedAlgs) ∧ ∀ i', i' < i → Spec.Usable P m.didcomm.to keys i'

/-! ## One recipient -/

theorem keyFor_unique {P : Prims} {d : Str} {k : Option Bytes} {a b : Bytes} (ha : KeyFor P d k a)
    (hb : KeyFor P d k b) : a = b := by
  rw [← publicKeyFor_iff] at ha hb
  exact Res.ok.inj (ha.symm.trans hb)

theorem sharedFor_long {P : Prims} {sk pk : Bytes} {d : Str} {key : Option Bytes} (hk : KeyFor P d key pk)
    (hs : sk.length = 32) (hp : 32 ≤ pk.length) : sharedFor P sk d key = .ok (P.x25519 sk (pk.take 32)) := by
  have h2 : arrayRef32 pk = .ok (pk.take 32) := by simp [arrayRef32, hp]
  simp [sharedFor, publicKeyFor_iff.2 hk, arrayRef32_of hs, h2]

theorem sharedFor_short {P : Prims} {sk pk : Bytes} {d : Str} {key : Option Bytes} (hk : KeyFor P d key pk)
    (hs : sk.length = 32) (hp : pk.length < 32) : sharedFor P sk d key = .panic := by
  simp [sharedFor, publicKeyFor_iff.2 hk, arrayRef32_of hs, arrayRef32_panic.2 hp]

theorem encryptCek_outcome {P : Prims} (hP : Laws P) (ht : Spec.AeadTotal P) {r : RecRand} {m : Message}
    {sk : Bytes} {d : Str} {key : Option Bytes} (hs : sk.length = 32) :
    ((∃ rc, encryptCek P r m sk d cek key = .ok rc) ↔ (∃ alg, m.jwm.alg = some alg ∧ alg ∈ Spec.supportedAlgs) ∧
      ∃ pk, KeyFor P d key pk ∧ 32 ≤ pk.length) ∧
    (encryptCek P r m sk d cek key = .panic ↔ (∃ alg, m.jwm.alg = some alg) ∧
      ∃ pk, KeyFor P d key pk ∧ pk.length < 32) := by
  constructor
  · constructor
    · rintro ⟨rc, h⟩
      obtain ⟨alg, ze, kek, ka, iv, c, tag, hal, hz, -, hw, -⟩ := encryptCek_ok h
      refine ⟨⟨alg, hal, ?_⟩, ?_⟩
      · rcases wrapCek_iv hw with ⟨rfl, -⟩ | ⟨rfl, -⟩ <;> decide
      · simp only [sharedFor, Res.bind_eq_ok, arrayRef32_eq_ok] at hz
        obtain ⟨pk, hpk, -, -, -, ⟨hl, -⟩, -⟩ := hz
        exact ⟨pk, publicKeyFor_iff.1 hpk, hl⟩
    · rintro ⟨⟨alg, hal, ha⟩, pk, hk, hl⟩
      obtain ⟨kek, hkek⟩ := supported_kdf ha P (P.x25519 r.epk (pk.take 32) ++ P.x25519 sk (pk.take 32))
      have hkl := kdf_len hP hkek
      have hw : ∃ ka iv x, wrapCek P r alg kek cek = .ok (ka, iv, x) ∧ 16 ≤ x.length := by
        simp only [Spec.supportedAlgs, List.mem_cons, List.not_mem_nil, or_false] at ha
        unfold wrapCek
        rcases ha with rfl | rfl
        · obtain ⟨x, hx⟩ := (ht kek r.iv12 [] cek hkl).2 r.iv12_len
          rw [if_pos rfl]
          simp only [fromSlice, hkl, r.iv12_len, if_true, Res.bind_ok, hx, Res.ofOpt_some]
          exact ⟨_, _, x, rfl, by rw [hP.gcm_len hx]; omega⟩
        · obtain ⟨x, hx⟩ := (ht kek r.iv24 [] cek hkl).1 r.iv24_len
          rw [if_neg (by decide), if_pos rfl]
          simp only [fromSlice, hkl, r.iv24_len, if_true, Res.bind_ok, hx, Res.ofOpt_some]
          exact ⟨_, _, x, rfl, by rw [hP.xc_len hx]; omega⟩
      obtain ⟨ka, iv, x, hx, hxl⟩ := hw
      simp only [encryptCek, hal, Res.ofOpt_some, Res.bind_ok, sharedFor_long hk r.epk_len hl, generateKek,
        sharedFor_long hk hs hl, hkek, hx, splitTag, hxl, if_true, Res.pure_eq]
      exact ⟨_, rfl⟩
  · constructor
    · intro h
      have hal : ∃ alg, m.jwm.alg = some alg := by
        cases ha : m.jwm.alg with
        | some a => exact ⟨a, rfl⟩
        | none => simp [encryptCek, ha, Res.ofOpt] at h
      refine ⟨hal, ?_⟩
      by_cases hk : ∀ pk, KeyFor P d key pk → 32 ≤ pk.length
      · exact absurd h (encryptCek_ne_panic hP (by omega) hk)
      · simp only [Classical.not_forall] at hk
        obtain ⟨pk, hk, hl⟩ := hk
        exact ⟨pk, hk, by omega⟩
    · rintro ⟨⟨alg, hal⟩, pk, hk, hl⟩
      simp only [encryptCek, hal, Res.ofOpt_some, Res.bind_ok, sharedFor_short hk r.epk_len hl, Res.bind_panic]

/-! ## All recipients -/

theorem sealRecipients_outcome {P : Prims} (hP : Laws P) (ht : Spec.AeadTotal P) {r : Nat → RecRand} {m : Message}
    {sk : Bytes} (hs : sk.length = 32) (l : List (Str × Option Bytes)) (n : Nat) :
    ((∃ rs, Message.sealRecipients P r m sk cek n l = .ok rs) ↔ l = [] ∨
      ((∃ alg, m.jwm.alg = some alg ∧ alg ∈ Spec.supportedAlgs) ∧
        ∀ d k, (d, k) ∈ l → ∃ pk, KeyFor P d k pk ∧ 32 ≤ pk.length)) ∧
    (Message.sealRecipients P r m sk cek n l = .panic ↔ ∃ alg i d k, m.jwm.alg = some alg ∧ l[i]? = some (d, k) ∧
      (∃ pk, KeyFor P d k pk ∧ pk.length < 32) ∧ (i = 0 ∨ alg ∈ Spec.supportedAlgs) ∧
      ∀ i' d' k', i' < i → l[i']? = some (d', k') → ∃ pk, KeyFor P d' k' pk ∧ 32 ≤ pk.length) := by
  induction l generalizing n with
  | nil => exact ⟨by simp [Message.sealRecipients], by simp [Message.sealRecipients]⟩
  | cons p l ih =>
    obtain ⟨d, k⟩ := p
    obtain ⟨e1, e2⟩ := encryptCek_outcome hP ht (r := r n) (m := m) (d := d) (key := k) hs
    obtain ⟨i1, i2⟩ := ih (n + 1)
    constructor
    · constructor
      · rintro ⟨rs, h⟩
        simp only [Message.sealRecipients, Res.bind_eq_ok] at h
        obtain ⟨x, hx, xs, hxs, -⟩ := h
        obtain ⟨ha, hk⟩ := e1.1 ⟨x, hx⟩
        refine .inr ⟨ha, ?_⟩
        intro d' k' hm
        rcases List.mem_cons.1 hm with he | hm
        · obtain ⟨rfl, rfl⟩ := Prod.mk.inj he
          exact hk
        · rcases i1.1 ⟨xs, hxs⟩ with rfl | h
          · cases hm
          · exact h.2 d' k' hm
      · rintro (h | ⟨ha, hk⟩)
        · cases h
        · obtain ⟨x, hx⟩ := e1.2 ⟨ha, hk d k (by simp)⟩
          obtain ⟨xs, hxs⟩ := i1.2 (.inr ⟨ha, fun d k h => hk d k (by simp [h])⟩)
          exact ⟨x :: xs, by simp [Message.sealRecipients, hx, hxs]⟩
    · simp only [Message.sealRecipients, Res.bind_eq_panic]
      constructor
      · rintro (h | ⟨x, hx, h | ⟨xs, -, h⟩⟩)
        · obtain ⟨⟨alg, ha⟩, hk⟩ := e2.1 h
          exact ⟨alg, 0, d, k, ha, rfl, hk, .inl rfl, by intro i' _ _ hi; omega⟩
        · obtain ⟨⟨alg, ha, hsup⟩, hk⟩ := e1.1 ⟨x, hx⟩
          obtain ⟨alg', i, d', k', ha', hi, hsh, -, hall⟩ := i2.1 h
          refine ⟨alg, i + 1, d', k', ha, by simpa using hi, hsh, .inr hsup, ?_⟩
          intro i' d2 k2 hlt hg
          cases i' with
          | zero =>
            simp only [List.getElem?_cons_zero, Option.some.injEq, Prod.mk.injEq] at hg
            obtain ⟨rfl, rfl⟩ := hg
            exact hk
          | succ i' => exact hall i' d2 k2 (by omega) (by simpa using hg)
        · simp at h
      · rintro ⟨alg, i, d', k', ha, hi, hsh, hor, hall⟩
        cases i with
        | zero =>
          simp only [List.getElem?_cons_zero, Option.some.injEq, Prod.mk.injEq] at hi
          obtain ⟨rfl, rfl⟩ := hi
          exact .inl (e2.2 ⟨⟨alg, ha⟩, hsh⟩)
        | succ i =>
          have hsup : alg ∈ Spec.supportedAlgs := by
            rcases hor with h | h
            · omega
            · exact h
          obtain ⟨x, hx⟩ := e1.2 ⟨⟨alg, ha, hsup⟩, hall 0 d k (by omega) rfl⟩
          refine .inr ⟨x, hx, .inl (i2.2 ⟨alg, i, d', k', ha, by simpa using hi, hsh, .inr hsup, ?_⟩)⟩
          intro i' d2 k2 hlt hg
          exact hall (i' + 1) d2 k2 (by omega) (by simpa using hg)

/-! ## C15, C60 -/

theorem sealKeys_len {m : Message} {keys : Option (List (Option Bytes))} {pks : List (Option Bytes)}
    (hp : m.sealKeys keys = .ok pks) : pks.length = m.didcomm.to.length := by
  unfold Message.sealKeys at hp
  split at hp
  · split at hp
    · cases hp
    · rename_i hl; rw [← Res.ok.inj hp]; simpa using hl
  · rw [← Res.ok.inj hp]; simp

theorem zip_keys {m : Message} {keys : Option (List (Option Bytes))} {pks : List (Option Bytes)}
    (hp : m.sealKeys keys = .ok pks) (i : Nat) (d : Str) (k : Option Bytes) :
    (m.didcomm.to.zip pks)[i]? = some (d, k) ↔ m.didcomm.to[i]? = some d ∧ k = Spec.keyAt keys i := by
  constructor
  · intro h
    have := zip_get h
    exact ⟨this.1, sealKeys_get hp this.2⟩
  · rintro ⟨h, rfl⟩
    rw [List.getElem?_zip_eq_some]
    refine ⟨h, ?_⟩
    have hi : i < pks.length := by
      rw [sealKeys_len hp]
      exact (List.getElem?_eq_some_iff.1 h).1
    have hg : pks[i]? = some pks[i] := List.getElem?_eq_getElem hi
    rw [hg, ← sealKeys_get hp hg]

theorem seal_bad_request {P : Prims} {r : Message.SealRand} {m : Message} {ssk : Bytes}
    {keys : Option (List (Option Bytes))} (hreq : ¬ Spec.Request m ssk keys) :
    ∃ e, m.sealJwe P r ssk keys = .err e := by
  by_cases h1 : ssk.length = 32
  · cases hks : m.sealKeys keys with
    | err e => exact ⟨e, by simp [Message.sealJwe, h1, hks]⟩
    | panic =>
      unfold Message.sealKeys at hks
      revert hks
      (repeat' split) <;> simp
    | ok pks =>
      have h2 : ∀ l, keys = some l → l.length = m.didcomm.to.length := by
        rintro l rfl
        simp only [Message.sealKeys] at hks
        split at hks
        · cases hks
        · rename_i hne
          simpa using hne
      by_cases h3 : m.didcomm.to.length = 0
      · exact ⟨.noJweRecipient, by simp [Message.sealJwe, h1, hks, h3]⟩
      · have hfl : m.flatJwe = true ∧ m.didcomm.to.length > 1 := by
          refine Classical.not_not.1 fun hn => hreq ⟨h1, h2, ?_, ?_⟩
          · intro h; rw [h] at h3; simp at h3
          · intro h4
            have : ¬ m.didcomm.to.length > 1 := fun h => hn ⟨h4, h⟩
            omega
        exact ⟨_, by unfold Message.sealJwe; rw [if_neg (by simp [h1]), hks, Res.bind_ok, if_neg h3, if_pos hfl]⟩
  · exact ⟨_, by unfold Message.sealJwe; rw [if_pos h1]⟩

/-- What follows the entries succeeds. -/
theorem seal_rest {P : Prims} (hP : Laws P) (ht : Spec.AeadTotal P) (r : Message.SealRand) {m : Message} {alg : Str}
    (hal : m.jwm.alg = some alg) (hs : alg ∈ Spec.supportedAlgs) {rs : List Recipient}
    (hl : m.flatJwe = true → rs.length = 1) :
    ∃ t, (crypterOfHeader m.jwm >>= fun a =>
      ({ m with recipients := some rs } : Message).encrypt r.ord r.iv (a.encryptor P) cek) = .ok t := by
  obtain ⟨a, ha⟩ := ofStr_iff.2 hs
  have henc : ∀ msg aad, ∃ x, a.encryptor P r.iv.1 cek msg aad = .ok x ∧ 16 ≤ x.length := by
    intro msg aad
    have hn12 : ¬r.iv.1.length < 12 := by rw [r.iv.2]; decide
    rcases ofStr_ok ha with ⟨-, rfl⟩ | ⟨-, rfl⟩
    · obtain ⟨x, hx⟩ := (ht cek (r.iv.1.take 12) aad msg cek_length).2 (by simp [r.iv.2])
      refine ⟨x, ?_, by rw [hP.gcm_len hx]; omega⟩
      simp only [CryptoAlg.encryptor, checkNonce, hn12, if_false, fromSlice, cek_length, if_true,
        Res.bind_ok, hx, Res.ofOpt_some]
    · obtain ⟨x, hx⟩ := (ht cek r.iv.1 aad msg cek_length).1 r.iv.2
      refine ⟨x, ?_, by rw [hP.xc_len hx]; omega⟩
      simp [CryptoAlg.encryptor, checkNonce, fromSlice, cek_length, r.iv.2, hx]
  have hcr : crypterOfHeader m.jwm = .ok a := by simp only [crypterOfHeader, hal, ha]
  obtain ⟨x, hx, hxl⟩ := henc
    (utf8 ({ m with recipients := some rs }.text (r.ord.sub 1)))
    (utf8 (headerB64 (r.ord.sub 0) (Spec.publicHeader m)))
  simp only [hcr, Res.bind_ok, Message.encrypt, jweHeader_some, b64Decode_encode, Res.ofOpt_some]
  rw [hx, Res.bind_ok]
  simp only [splitTag, hxl, if_true, Res.bind_ok, Message.jweOf]
  by_cases hfl : m.flatJwe = true
  · obtain ⟨y, rfl⟩ := List.length_eq_one_iff.1 (hl hfl)
    simp only [hfl, if_true, Res.bind_ok]
    exact ⟨_, rfl⟩
  · rw [if_neg hfl]
    exact ⟨_, rfl⟩

/-- C15 and C60, exactly.  `seal` succeeds if and only if the request is well formed, the message has a supported
algorithm and every recipient a key of at least 32 bytes; it panics if and only if the request is well formed, the
message has an algorithm (a supported one, unless it is the first recipient) and the first recipient whose key
cannot be used has a key that is too short.  In all other cases it returns an error. -/
theorem C60_seal_iff (P : Prims) (hP : Laws P) (ht : Spec.AeadTotal P) (r : Message.SealRand) (m : Message)
    (ssk : Bytes) (keys : Option (List (Option Bytes))) :
    ((∃ t, m.sealJwe P r ssk keys = .ok t) ↔ Spec.Sealable P m ssk keys) ∧
    (m.sealJwe P r ssk keys = .panic ↔ Spec.SealCrashes P m ssk keys) := by
  by_cases hreq : ¬ Spec.Request m ssk keys
  · obtain ⟨e, he⟩ := seal_bad_request (P := P) (r := r) hreq
    rw [he]
    exact ⟨⟨fun ⟨t, h⟩ => by simp at h, fun h => absurd h.1 hreq⟩, ⟨fun h => by simp at h, fun h => absurd h.1 hreq⟩⟩
  have hreq := Classical.not_not.1 hreq
  have hreq' := hreq
  obtain ⟨h1, h2, h3, h4⟩ := hreq
  obtain ⟨pks, hp⟩ : ∃ pks, m.sealKeys keys = .ok pks := by
    cases keys with
    | none => exact ⟨_, rfl⟩
    | some l => exact ⟨l, by simp [Message.sealKeys, h2 l rfl]⟩
  have h0 : m.didcomm.to.length ≠ 0 := by simpa using h3
  have hf1 : ¬(m.flatJwe = true ∧ m.didcomm.to.length > 1) := by
    rintro ⟨h1, h2⟩; rw [h4 h1] at h2; omega
  have hval : m.sealJwe P r ssk keys = (Message.sealRecipients P r.perRec m ssk cek 0 (m.didcomm.to.zip pks) >>=
      fun rs => crypterOfHeader m.jwm >>= fun a =>
        ({ m with recipients := some rs } : Message).encrypt r.ord r.iv (a.encryptor P) cek) := by
    unfold Message.sealJwe
    rw [if_neg (by simp [h1]), hp, Res.bind_ok, if_neg h0, if_neg hf1]
  obtain ⟨o1, o2⟩ := sealRecipients_outcome hP ht (r := r.perRec) (m := m) h1 (m.didcomm.to.zip pks) 0
  have hne : m.didcomm.to.zip pks ≠ [] := by
    intro h
    have := congrArg List.length h
    rw [List.length_zip, sealKeys_len hp, Nat.min_self] at this
    simp at this
    exact h3 this
  have hrest : ∀ rs, Message.sealRecipients P r.perRec m ssk cek 0 (m.didcomm.to.zip pks) = .ok rs →
      ∃ t, m.sealJwe P r ssk keys = .ok t := by
    intro rs hrs
    obtain ⟨⟨alg, hal, hsup⟩, -⟩ := (o1.1 ⟨rs, hrs⟩).resolve_left hne
    rw [hval, hrs, Res.bind_ok]
    refine seal_rest hP ht r hal hsup fun hfl => ?_
    have hl := (sealRecipients_ok hrs).1
    rw [List.length_zip, sealKeys_len hp, Nat.min_self] at hl
    rw [hl]
    exact h4 hfl
  constructor
  · constructor
    · rintro ⟨t, h⟩
      rw [hval, Res.bind_eq_ok] at h
      obtain ⟨rs, hrs, -⟩ := h
      obtain ⟨ha, hk⟩ := (o1.1 ⟨rs, hrs⟩).resolve_left hne
      refine ⟨hreq', ha, fun i hi => ?_⟩
      have hd : m.didcomm.to[i]? = some m.didcomm.to[i] := List.getElem?_eq_getElem hi
      have hz := (zip_keys hp i _ _).2 ⟨hd, rfl⟩
      obtain ⟨pk, hpk, hl⟩ := hk _ _ (List.mem_of_getElem? hz)
      exact ⟨_, pk, hd, hpk, hl⟩
    · rintro ⟨-, ha, hk⟩
      obtain ⟨rs, hrs⟩ := o1.2 (.inr ⟨ha, fun d k hm => by
        obtain ⟨i, hi⟩ := List.getElem?_of_mem hm
        obtain ⟨hd, rfl⟩ := (zip_keys hp i _ _).1 hi
        obtain ⟨d', pk, hd', hpk, hl⟩ := hk i (List.getElem?_eq_some_iff.1 hd).1
        rw [hd] at hd'
        rw [Option.some.inj hd']
        exact ⟨pk, hpk, hl⟩⟩)
      exact hrest rs hrs
  · have hpan : m.sealJwe P r ssk keys = .panic ↔
        Message.sealRecipients P r.perRec m ssk cek 0 (m.didcomm.to.zip pks) = .panic := by
      constructor
      · intro h
        cases hrs : Message.sealRecipients P r.perRec m ssk cek 0 (m.didcomm.to.zip pks) with
        | ok rs => obtain ⟨t, h'⟩ := hrest rs hrs; rw [h] at h'; cases h'
        | err e => rw [hval, hrs] at h; simp at h
        | panic => rfl
      · intro h
        rw [hval, h]
        rfl
    rw [hpan, o2]
    constructor
    · rintro ⟨alg, i, d, k, ha, hi, ⟨pk, hpk, hl⟩, hor, hall⟩
      obtain ⟨hd, rfl⟩ := (zip_keys hp i _ _).1 hi
      refine ⟨hreq', alg, i, ha, ⟨d, pk, hd, hpk, hl⟩, hor, fun i' hi' => ?_⟩
      have hlt : i' < m.didcomm.to.length := Nat.lt_trans hi' (List.getElem?_eq_some_iff.1 hd).1
      have hd' : m.didcomm.to[i']? = some m.didcomm.to[i'] := List.getElem?_eq_getElem hlt
      obtain ⟨pk', hpk', hl'⟩ := hall i' _ _ hi' ((zip_keys hp i' _ _).2 ⟨hd', rfl⟩)
      exact ⟨_, pk', hd', hpk', hl'⟩
    · rintro ⟨-, alg, i, ha, ⟨d, pk, hd, hpk, hl⟩, hor, hall⟩
      refine ⟨alg, i, d, _, ha, (zip_keys hp i _ _).2 ⟨hd, rfl⟩, ⟨pk, hpk, hl⟩, hor, ?_⟩
      intro i' d' k' hi' hz
      obtain ⟨hd', rfl⟩ := (zip_keys hp i' _ _).1 hz
      obtain ⟨d2, pk', hd2, hpk', hl'⟩ := hall i' hi'
      rw [hd'] at hd2
      rw [Option.some.inj hd2]
      exact ⟨pk', hpk', hl'⟩

/-- C60: a request that is carried out, one that panics at the second recipient, and one that is refused because the
first recipient has no key although the second one's is too short. -/
example : Spec.Sealable (toy fun _ => none) exampleMessage (exampleKey 3) (some [some (exampleKey 1), some (exampleKey 2)]) ∧
    Spec.SealCrashes (toy fun _ => none) exampleMessage (exampleKey 3) (some [some (exampleKey 1), some [1, 2]]) ∧
    ¬ Spec.SealCrashes (toy fun _ => none) exampleMessage (exampleKey 3) (some [none, some [1, 2]]) ∧
    ¬ Spec.Sealable (toy fun _ => none) exampleMessage (exampleKey 3) (some [none, some [1, 2]]) := by
  have hreq : ∀ a b, Spec.Request exampleMessage (exampleKey 3) (some [a, b]) := fun a b =>
    ⟨by decide, by intro l hl; rw [← Option.some.inj hl]; rfl, by decide, by intro h; cases h⟩
  have hu : ¬ Spec.Usable (toy fun _ => none) exampleMessage.didcomm.to (some [none, some [1, 2]]) 0 := by
    rintro ⟨d, pk, -, h | ⟨-, _, h, -⟩, -⟩ <;> cases h
  refine ⟨⟨hreq _ _, ⟨c!"ECDH-1PU+XC20PKW", rfl, by decide⟩, fun i hi => ?_⟩,
    ⟨hreq _ _, c!"ECDH-1PU+XC20PKW", 1, rfl, ⟨_, [1, 2], rfl, .inl rfl, by decide⟩, .inr (by decide), fun i hi => ?_⟩,
    ?_, fun h => hu (h.2.2 0 (by decide))⟩
  · have hi : i < 2 := hi
    match i, hi with
    | 0, _ => exact ⟨_, exampleKey 1, rfl, .inl rfl, by decide⟩
    | 1, _ => exact ⟨_, exampleKey 2, rfl, .inl rfl, by decide⟩
  · match i, hi with
    | 0, _ => exact ⟨_, exampleKey 1, rfl, .inl rfl, by decide⟩
  · rintro ⟨-, alg, i, -, ⟨d, pk, hd, hk, hl⟩, -, hall⟩
    cases i with
    | zero => rcases hk with h | ⟨-, _, h, -⟩ <;> cases h
    | succ i => exact hu (hall 0 (by omega))

theorem sealable_body {P : Prims} {m : Message} {b : Json} {ty : MessageType} {ssk : Bytes}
    {keys : Option (List (Option Bytes))} :
    (Spec.Sealable P (Message.setTyp { m with body := b } ty) ssk keys ↔ Spec.Sealable P m ssk keys) ∧
    (Spec.SealCrashes P (Message.setTyp { m with body := b } ty) ssk keys ↔ Spec.SealCrashes P m ssk keys) :=
  ⟨Iff.rfl, Iff.rfl⟩

/-- C60, exactly, for `seal_signed`: with a signing key that signs, it succeeds and panics in the same cases as
`seal`. -/
theorem C60_seal_signed_iff (P : Prims) (hP : Laws P) (ht : Spec.AeadTotal P) (r : Message.SealRand) (o : HOrd)
    (m : Message) (ssk : Bytes) (keys : Option (List (Option Bytes))) (a : SignAlg) (signKey : Bytes)
    (hsig : ∀ x, ∃ s, a.signer P signKey x = .ok s) :
    ((∃ t, m.sealSigned P r o ssk keys a signKey = .ok t) ↔ Spec.Sealable P m ssk keys) ∧
    (m.sealSigned P r o ssk keys a signKey = .panic ↔ Spec.SealCrashes P m ssk keys) := by
  obtain ⟨hal', _, _, _⟩ := signName (a := a) (h := m.jwm)
  obtain ⟨sig, hs⟩ := hsig (Message.signingInput (headerB64 (o.sub 0) (Spec.signedHeader (m.asJws a)))
        (Spec.payloadText (o.sub 1) (m.asJws a)))
  have hsign := sign_of (o := o) (m := m.asJws a) (signer := a.signer P) (key := signKey) (sig := sig) hal' hs
  simp only [Message.sealSigned, hsign, Res.bind_ok, valueOfText_jwsOf, Res.ofOpt_some]
  exact C60_seal_iff P hP ht r (Message.setTyp { m with body := _ } .jws) ssk keys

example (x : Bytes) : ∃ s, SignAlg.edDsa.signer (toy fun _ => none) (exampleKey 5) x = .ok s := by
  obtain ⟨s, hs, -⟩ := toy_signPair (fun _ => none) .edDsa (exampleKey 5) x
  exact ⟨s, by unfold SignAlg.signer; rw [hs]; rfl⟩

/-! ## C57 -/

/-- C57, exactly.  For a mediator with a name, `routed_by` succeeds if and only if `seal` succeeds for the message
and the mediator has a key of at least 32 bytes; it panics if and only if the message has a supported algorithm and
no recipient, or `seal` panics and the algorithm is supported, or `seal` succeeds and the mediator's key is too
short. -/
theorem C57_routed_iff (P : Prims) (hP : Laws P) (ht : Spec.AeadTotal P) (r1 r2 : Message.SealRand) (uuid : Str)
    (m : Message) (ssk : Bytes) (keys : Option (List (Option Bytes))) (med : Str) (mkey : Option Bytes)
    (hmed : med ≠ []) :
    ((∃ t, m.routedBy P r1 r2 uuid ssk keys med mkey = .ok t) ↔ Spec.Sealable P m ssk keys ∧
      ∃ pk, KeyFor P med mkey pk ∧ 32 ≤ pk.length) ∧
    (m.routedBy P r1 r2 uuid ssk keys med mkey = .panic ↔ (∃ alg, m.jwm.alg = some alg ∧ alg ∈ Spec.supportedAlgs) ∧
      (m.didcomm.to = [] ∨ Spec.SealCrashes P m ssk keys ∨
        Spec.Sealable P m ssk keys ∧ ∃ pk, KeyFor P med mkey pk ∧ pk.length < 32)) := by
  obtain ⟨s1, s2⟩ := C60_seal_iff P hP ht r1 m ssk keys
  by_cases hsup : ∃ alg, m.jwm.alg = some alg ∧ alg ∈ Spec.supportedAlgs
  case neg =>
    have : ∃ e, m.routedBy P r1 r2 uuid ssk keys med mkey = .err e := by
      have hc : ∃ e, crypterOfHeader m.jwm = .err e := by
        unfold crypterOfHeader
        cases hal : m.jwm.alg with
        | none => exact ⟨_, rfl⟩
        | some alg =>
          cases hof : CryptoAlg.ofStr alg with
          | ok a => exact absurd ⟨alg, hal, ofStr_iff.1 ⟨a, hof⟩⟩ hsup
          | err e => exact ⟨e, by simp [hof]⟩
          | panic => exact absurd hof (ofStr_ne_panic alg)
      obtain ⟨e, he⟩ := hc
      exact ⟨e, by simp [Message.routedBy, he]⟩
    obtain ⟨e, he⟩ := this
    rw [he]
    exact ⟨⟨fun ⟨t, h⟩ => by simp at h, fun h => absurd h.1.2.1 hsup⟩,
      ⟨fun h => by simp at h, fun h => absurd h.1 hsup⟩⟩
  obtain ⟨alg, hal, hs⟩ := hsup
  obtain ⟨a, ha⟩ := ofStr_iff.2 hs
  have hcr : crypterOfHeader m.jwm = .ok a := by unfold crypterOfHeader; rw [hal]; exact ha
  by_cases hto : m.didcomm.to = []
  · have hp := C57_no_recipient_panics_violated P r1 r2 uuid m ssk keys med mkey a hcr hto
    rw [hp]
    exact ⟨⟨fun ⟨t, h⟩ => by simp at h, fun h => absurd hto h.1.1.2.2.1⟩,
      ⟨fun _ => ⟨⟨alg, hal, hs⟩, .inl hto⟩, fun _ => rfl⟩⟩
  obtain ⟨next, hn⟩ : ∃ next, m.didcomm.to.head? = some next := by
    cases hh : m.didcomm.to with
    | nil => exact absurd hh hto
    | cons x l => exact ⟨x, rfl⟩
  cases hseal : m.sealJwe P r1 ssk keys with
  | err e =>
    have he : m.routedBy P r1 r2 uuid ssk keys med mkey = .err e := by
      simp [Message.routedBy, hcr, hn, hseal, Res.unwrap]
    rw [hseal] at s1 s2
    rw [he]
    have n1 : ¬ Spec.Sealable P m ssk keys := fun h => by obtain ⟨t, h⟩ := s1.2 h; cases h
    have n2 : ¬ Spec.SealCrashes P m ssk keys := fun h => by have := s2.2 h; cases this
    exact ⟨⟨fun ⟨t, h⟩ => by simp at h, fun h => absurd h.1 n1⟩, ⟨fun h => by simp at h, fun h => by
      rcases h.2 with h | h | h
      · exact absurd h hto
      · exact absurd h n2
      · exact absurd h.1 n1⟩⟩
  | panic =>
    have he : m.routedBy P r1 r2 uuid ssk keys med mkey = .panic := by
      simp [Message.routedBy, hcr, hn, hseal, Res.unwrap]
    rw [hseal] at s1 s2
    rw [he]
    have n1 : ¬ Spec.Sealable P m ssk keys := fun h => by obtain ⟨t, h⟩ := s1.2 h; cases h
    exact ⟨⟨fun ⟨t, h⟩ => by simp at h, fun h => absurd h.1 n1⟩,
      ⟨fun _ => ⟨⟨alg, hal, hs⟩, .inr (.inl (s2.1 rfl))⟩, fun _ => rfl⟩⟩
  | ok inner =>
    rw [hseal] at s1 s2
    have y1 : Spec.Sealable P m ssk keys := s1.1 ⟨inner, rfl⟩
    have n2 : ¬ Spec.SealCrashes P m ssk keys := fun h => by have := s2.2 h; cases this
    obtain ⟨kid, hkid⟩ := asJwe_eq P (((Message.new uuid).addTo [med]).setFrom (m.didcomm.from.getD [])) a mkey
    have hhead : ∃ alg', (JwmHeader.dflt.asEncrypted a).alg = some alg' ∧ alg' ∈ Spec.supportedAlgs := by
      rcases ofStr_ok ha with ⟨-, rfl⟩ | ⟨-, rfl⟩
      · exact ⟨_, rfl, by decide⟩
      · exact ⟨_, rfl, by decide⟩
    obtain ⟨alg', h1, h2⟩ := hhead
    have he : m.routedBy P r1 r2 uuid ssk keys med mkey =
        (Spec.forwardMessage uuid med (m.didcomm.from.getD []) kid a ⟨next, utf8 inner⟩).sealJwe P r2 ssk (some [mkey]) := by
      simp only [Message.routedBy, hcr, hn, hseal, Res.bind_ok, Res.unwrap, hkid, Message.setBody, Mediated.new,
        Mediated.withPayload, valueOfText_mediated, Res.ofOpt_some]
      rw [(C08_to_appends (Message.new uuid) [med]).1, new_to hmed]
      rfl
    obtain ⟨f1, f2⟩ := C60_seal_iff P hP ht r2
      (Spec.forwardMessage uuid med (m.didcomm.from.getD []) kid a ⟨next, utf8 inner⟩) ssk (some [mkey])
    have hreq : Spec.Request (Spec.forwardMessage uuid med (m.didcomm.from.getD []) kid a ⟨next, utf8 inner⟩) ssk
        (some [mkey]) :=
      ⟨y1.1.1, by intro l hl; rw [← Option.some.inj hl]; rfl, (by intro h; cases h), (by intro h; cases h)⟩
    rw [he, f1, f2]
    refine ⟨⟨fun h => ⟨y1, ?_⟩, fun h => ⟨hreq, ⟨alg', h1, h2⟩, fun i hi => ?_⟩⟩,
      ⟨fun h => ⟨⟨alg, hal, hs⟩, .inr (.inr ⟨y1, ?_⟩)⟩, fun h => ?_⟩⟩
    · obtain ⟨d, pk, hd, hk, hl⟩ := h.2.2 0 (by show 0 < 1; omega)
      obtain rfl := Option.some.inj hd
      exact ⟨pk, hk, hl⟩
    · have hi : i < 1 := hi
      obtain rfl : i = 0 := by omega
      obtain ⟨pk, hk, hl⟩ := h.2
      exact ⟨med, pk, rfl, hk, hl⟩
    · obtain ⟨-, _, i, -, ⟨d, pk, hd, hk, hl⟩, -⟩ := h
      cases i with
      | zero =>
        obtain rfl := Option.some.inj hd
        exact ⟨pk, hk, hl⟩
      | succ i => cases hd
    · rcases h.2 with h | h | ⟨-, pk, hk, hl⟩
      · exact absurd h hto
      · exact absurd h n2
      · exact ⟨hreq, alg', 0, h1, ⟨med, pk, rfl, hk, hl⟩, .inl rfl, by intro i hi; omega⟩

/-- C57: a message that is routed, and one that makes routing panic because of the mediator's key. -/
example : (∃ t, exampleMessage.routedBy (toy fun _ => none) exampleRand exampleRand c!"u" (exampleKey 3)
      (some [some (exampleKey 1), some (exampleKey 2)]) c!"did:m:m" (some (exampleKey 4)) = .ok t) ∧
    exampleMessage.routedBy (toy fun _ => none) exampleRand exampleRand c!"u" (exampleKey 3)
      (some [some (exampleKey 1), some (exampleKey 2)]) c!"did:m:m" (some [0]) = .panic := by
  have hs : Spec.Sealable (toy fun _ => none) exampleMessage (exampleKey 3)
      (some [some (exampleKey 1), some (exampleKey 2)]) := by
    refine ⟨⟨by decide, by intro l hl; rw [← Option.some.inj hl]; rfl, by decide, by intro h; cases h⟩,
      ⟨c!"ECDH-1PU+XC20PKW", rfl, by decide⟩, fun i hi => ?_⟩
    have hi : i < 2 := hi
    match i, hi with
    | 0, _ => exact ⟨_, exampleKey 1, rfl, .inl rfl, by decide⟩
    | 1, _ => exact ⟨_, exampleKey 2, rfl, .inl rfl, by decide⟩
  exact ⟨(C57_routed_iff _ (toy_laws _) (toy_total _) exampleRand exampleRand c!"u" exampleMessage _ _ c!"did:m:m" _
      (by decide)).1.2 ⟨hs, exampleKey 4, .inl rfl, by decide⟩,
    (C57_routed_iff _ (toy_laws _) (toy_total _) exampleRand exampleRand c!"u" exampleMessage _ _ c!"did:m:m" _
      (by decide)).2.2 ⟨⟨c!"ECDH-1PU+XC20PKW", rfl, by decide⟩, .inr (.inr ⟨hs, [0], .inl rfl, by decide⟩)⟩⟩

end Verif
