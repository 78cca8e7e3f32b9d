import Verif.Props.Keys
import Verif.Props.Classify
import Verif.Lemma.Envelope

/-!
# Sealing and opening

Lemmas for the properties of `seal` and `receive`.
-/

namespace Verif

open Spec

/-! ## Header text and iteration orders -/

/-- A key with at most one custom member: its text does not depend on the iteration order. -/
def JwkFixed (k : Jwk) : Prop := k.other.entries.length ≤ 1

/-- A JOSE header whose text does not depend on iteration orders. -/
def HeaderFixed (h : JwmHeader) : Prop :=
  (∀ k, h.jwk = some k → JwkFixed k) ∧ (∀ k, h.epk = some k → JwkFixed k)

theorem mapE_fixed {α : Type} {e : α → Json} {m : HMap α} (h : m.entries.length ≤ 1) (o o' : HOrd) :
    mapE o e m = mapE o' e m := by
  have key : ∀ o, mapE o e m = m.entries.map fun p => (p.1, e p.2) := by
    intro o
    unfold mapE
    have hp := o.perm [] (m.entries.map fun p => (p.1, e p.2))
    rcases hm : m.entries with _ | ⟨a, _ | ⟨b, l⟩⟩
    · rw [hm] at hp; simpa [HOrd.here] using List.perm_nil.1 hp
    · rw [hm] at hp; simpa [HOrd.here] using List.perm_singleton.1 hp
    · rw [hm] at h; simp at h
  rw [key o, key o']

theorem encJwk_fixed {k : Jwk} (h : JwkFixed k) (o o' : HOrd) : encJwk o k = encJwk o' k := by
  unfold encJwk
  rw [mapE_fixed h o o']

theorem encJwm_fixed {h : JwmHeader} (hf : HeaderFixed h) (o o' : HOrd) : encJwm o h = encJwm o' h := by
  have e : ∀ (k : Str) (x : Option Jwk) (o o' : HOrd), (∀ j, x = some j → JwkFixed j) →
      optE k (encJwk o) x = optE k (encJwk o') x := by
    intro k x o o' hx
    cases x with
    | none => rfl
    | some j => simp only [optE]; rw [encJwk_fixed (hx j rfl) o o']
  unfold encJwm jwmEntries
  rw [e _ _ (o.sub 0) (o'.sub 0) hf.1, e _ _ (o.sub 1) (o'.sub 1) hf.2]

theorem headerB64_fixed {h : JwmHeader} (hf : HeaderFixed h) (o o' : HOrd) :
    headerB64 o h = headerB64 o' h := by
  unfold headerB64
  rw [encJwm_fixed hf o o']

/-! ## Wrapped keys -/

theorem splitTag_ok {b c t : Bytes} (h : splitTag b = .ok (c, t)) : c ++ t = b := by
  unfold splitTag at h
  split at h
  · obtain ⟨rfl, rfl⟩ := Prod.mk.inj (Res.ok.inj h)
    exact List.take_append_drop _ _
  · cases h

/-- A label that `receive` maps to a cipher is one of the two implemented ones. -/
theorem ofStr_ok {s : Str} {a : CryptoAlg} (h : CryptoAlg.ofStr s = .ok a) :
    (s = c!"ECDH-1PU+A256KW" ∧ a = .a256gcm) ∨ (s = c!"ECDH-1PU+XC20PKW" ∧ a = .xc20p) := by
  unfold CryptoAlg.ofStr at h
  split at h
  · exact .inl ⟨by assumption, (Res.ok.inj h).symm⟩
  · split at h
    · exact .inr ⟨by assumption, (Res.ok.inj h).symm⟩
    · cases h

/-- The wrapped key opens under the same key-encryption key. -/
theorem unwrap_wrap {P : Prims} (hP : Laws P) {r : RecRand} {alg : Str} {kek cek : Bytes}
    {ka : KeyAlgorithm} {iv c : Bytes} (h : wrapCek P r alg kek cek = .ok (ka, iv, c)) :
    unwrapCek P alg kek iv c = .ok cek ∧ c.length = cek.length + 16 := by
  unfold wrapCek at h
  split at h
  · rename_i ha
    subst ha
    simp only [Res.bind_eq_ok, Res.ofOpt_eq_ok, Res.pure_eq, Res.ok.injEq, Prod.mk.injEq] at h
    obtain ⟨k, hk, n, hn, d, hd, -, rfl, rfl⟩ := h
    have hne : c!"ECDH-1PU+A256KW" ≠ c!"ECDH-1PU+XC20PKW" := by decide
    refine ⟨?_, hP.gcm_len hd⟩
    unfold unwrapCek
    rw [if_neg hne, if_pos rfl]
    simp only [hk, hn, Res.bind_ok, hP.gcm_dec hd, Res.ofOpt_some]
  · split at h
    · rename_i ha
      subst ha
      simp only [Res.bind_eq_ok, Res.ofOpt_eq_ok, Res.pure_eq, Res.ok.injEq, Prod.mk.injEq] at h
      obtain ⟨k, hk, n, hn, d, hd, -, rfl, rfl⟩ := h
      refine ⟨?_, hP.xc_len hd⟩
      unfold unwrapCek
      rw [if_pos rfl]
      simp only [hk, hn, Res.bind_ok, hP.xc_dec hd, Res.ofOpt_some]
    · cases h

/-- The recipient entry made by `encrypt_cek`. -/
theorem encryptCek_ok {P : Prims} {r : RecRand} {m : Message} {sk cek : Bytes} {dest : Str}
    {key : Option Bytes} {rc : Recipient} (h : encryptCek P r m sk dest cek key = .ok rc) :
    ∃ alg ze kek ka iv c tag, m.jwm.alg = some alg ∧ sharedFor P r.epk dest key = .ok ze ∧
      generateKek P dest sk ze alg key = .ok kek ∧
      wrapCek P r alg kek cek = .ok (ka, iv, c ++ tag) ∧ tag.length = 16 ∧
      rc.encryptedKey = b64Encode c ∧ rc.header.kid = some (didOfUrl dest) ∧ rc.header.alg = ka ∧
      rc.header.epk = some ⟨c!"OKP", c!"X25519", b64Encode (P.x25519Pub r.epk), none⟩ ∧
      rc.header.other = (HMap.empty.insert c!"iv" (b64Encode iv)).insert c!"tag" (b64Encode tag) ∧
      rc.header.kty = none ∧ rc.header.use_ = none ∧ rc.header.crv = none ∧
      rc.header.keyOps = [] := by
  simp only [encryptCek, Res.bind_eq_ok, Res.ofOpt_eq_ok, Res.pure_eq, Res.ok.injEq] at h
  obtain ⟨alg, ha, ze, hz, kek, hk, ⟨ka, iv, sealed⟩, hw, ⟨c, tag⟩, hs, rfl⟩ := h
  have hst := hs
  unfold splitTag at hst
  split at hst
  · rename_i hl
    obtain ⟨rfl, rfl⟩ := Prod.mk.inj (Res.ok.inj hst)
    refine ⟨alg, ze, kek, ka, iv, _, _, ha, hz, hk, ?_, ?_, rfl, rfl, rfl, rfl, rfl, rfl, rfl, rfl, rfl⟩
    · rw [List.take_append_drop]; exact hw
    · simp only at hl; simp; omega
  · cases hst

theorem wrapCek_iv {P : Prims} {r : RecRand} {alg : Str} {kek cek : Bytes}
    {ka : KeyAlgorithm} {iv c : Bytes} (h : wrapCek P r alg kek cek = .ok (ka, iv, c)) :
    (alg = c!"ECDH-1PU+XC20PKW" ∧ iv.length = 24 ∧ ka = .ecdh1puXc20pkw) ∨
      (alg = c!"ECDH-1PU+A256KW" ∧ iv.length = 12 ∧ ka = .ecdh1puA256kw) := by
  unfold wrapCek at h
  split at h
  · rename_i ha
    simp only [Res.bind_eq_ok, Res.ofOpt_eq_ok, Res.pure_eq, Res.ok.injEq, Prod.mk.injEq] at h
    obtain ⟨k, hk, n, hn, d, hd, e, rfl, rfl⟩ := h
    exact .inr ⟨ha, r.iv12_len, e.symm⟩
  · split at h
    · rename_i ha
      simp only [Res.bind_eq_ok, Res.ofOpt_eq_ok, Res.pure_eq, Res.ok.injEq, Prod.mk.injEq] at h
      obtain ⟨k, hk, n, hn, d, hd, e, rfl, rfl⟩ := h
      exact .inl ⟨ha, r.iv24_len, e.symm⟩
    · cases h

theorem encryptCek_wf {P : Prims} {r : RecRand} {m : Message} {sk cek : Bytes} {dest : Str}
    {key : Option Bytes} {rc : Recipient} (h : encryptCek P r m sk dest cek key = .ok rc) :
    rc.header.WF := by
  obtain ⟨alg, ze, kek, ka, iv, c, tag, -, -, -, -, -, -, -, -, -, ho, -⟩ := encryptCek_ok h
  unfold Jwk.WF
  rw [ho]
  intro k hk
  rw [HMap.get_insert, if_neg, HMap.get_insert, if_neg, HMap.get_empty]
  · rintro rfl; revert hk; decide
  · rintro rfl; revert hk; decide

/-- Reading an entry made by `encrypt_cek` leads to the unwrapping step. -/
theorem decryptCek_of {P : Prims} {r : RecRand} {jwe : Jwe} {alg frm : Str}
    (ha : jwe.getAlg = some alg) (hs : jwe.getSkid = some frm)
    {rc : Recipient} {iv c tag : Bytes}
    (he : rc.encryptedKey = b64Encode c)
    (hepk : rc.header.epk = some ⟨c!"OKP", c!"X25519", b64Encode (P.x25519Pub r.epk), none⟩)
    (ho : rc.header.other = (HMap.empty.insert c!"iv" (b64Encode iv)).insert c!"tag" (b64Encode tag))
    (hl : (P.x25519Pub r.epk).length = 32) {sk : Bytes} (hsk : sk.length = 32) (key : Option Bytes) :
    decryptCek P jwe sk rc key =
      (generateKek P frm sk (P.x25519 sk (P.x25519Pub r.epk)) alg key >>= fun kek =>
        unwrapCek P alg kek iv (c ++ tag)) := by
  have h1 : rc.header.other.get c!"iv" = some (b64Encode iv) := by
    rw [ho, HMap.get_insert, if_neg (by decide), HMap.get_insert, if_pos rfl]
  have h2 : rc.header.other.get c!"tag" = some (b64Encode tag) := by
    rw [ho, HMap.get_insert, if_pos rfl]
  simp only [decryptCek, ha, hs, hepk, Res.ofOpt_some, Res.bind_ok, b64Decode_encode, hl, if_true,
    arrayRef32_of hsk, h1, h2, he]

/-- The recipient unwraps what the sender wrapped for it. -/
theorem decryptCek_encryptCek {P : Prims} (hP : Laws P) {r : RecRand} {m : Message}
    {ssk rsk cek : Bytes} {dest frm : Str} {key key' : Option Bytes} {rc : Recipient} {jwe : Jwe}
    {alg : Str} (h : encryptCek P r m ssk dest cek key = .ok rc) (hm : m.jwm.alg = some alg)
    (ha : jwe.getAlg = some alg) (hs : jwe.getSkid = some frm) (h1 : ssk.length = 32)
    (h2 : rsk.length = 32) (hkr : KeyFor P dest key (P.x25519Pub rsk))
    (hks : KeyFor P frm key' (P.x25519Pub ssk)) : decryptCek P jwe rsk rc key' = .ok cek := by
  obtain ⟨alg', ze, kek, ka, iv, c, tag, ha', hz, hk, hw, -, he, -, -, hepk, ho, -⟩ := encryptCek_ok h
  obtain rfl : alg = alg' := by rw [hm] at ha'; exact Option.some.inj ha'
  rw [decryptCek_of ha hs he hepk ho (hP.pub_len _) h2]
  have := C37_same_kek P hP ssk rsk r.epk h1 h2 r.epk_len dest frm alg key key' hkr hks
  rw [← this, hz, Res.bind_ok, hk, Res.bind_ok, (unwrap_wrap hP hw).1]

/-- Opening an entry made by `encrypt_cek` with any key does not panic. -/
theorem decryptCek_no_panic {P : Prims} (hP : Laws P) {r : RecRand} {m : Message}
    {ssk rsk cek : Bytes} {dest frm : Str} {key key' : Option Bytes} {rc : Recipient} {jwe : Jwe}
    {alg : Str} {pk : Bytes} (h : encryptCek P r m ssk dest cek key = .ok rc)
    (hm : m.jwm.alg = some alg)
    (ha : jwe.getAlg = some alg) (hs : jwe.getSkid = some frm)
    (h2 : rsk.length = 32) (hpk : pk.length = 32) (hks : KeyFor P frm key' pk) :
    decryptCek P jwe rsk rc key' ≠ .panic := by
  obtain ⟨alg', ze, kek, ka, iv, c, tag, ha', hz, hk, hw, -, he, -, -, hepk, ho, -⟩ := encryptCek_ok h
  obtain rfl : alg = alg' := by rw [hm] at ha'; exact Option.some.inj ha'
  rw [decryptCek_of ha hs he hepk ho (hP.pub_len _) h2]
  intro hp
  rw [Res.bind_eq_panic] at hp
  rcases hp with hp | ⟨k, hk', hp⟩
  · simp only [generateKek, sharedFor_ok hks h2 hpk, Res.bind_ok] at hp
    exact (C37_kdf_fails_only_if_long _ _ _ _ _).2 hp
  · have hkl : k.length = 32 := by
      simp only [generateKek, concatKdf, Res.bind_eq_ok, Res.pure_eq, Res.ok.injEq] at hk'
      obtain ⟨_, -, _, -, rfl⟩ := hk'
      exact hP.sha_len _
    unfold unwrapCek at hp
    rcases wrapCek_iv hw with ⟨rfl, hl, -⟩ | ⟨rfl, hl, -⟩
    · rw [if_pos rfl] at hp
      simp [fromSlice, hl, hkl] at hp
    · rw [if_neg (by decide), if_pos rfl] at hp
      simp [fromSlice, hl, hkl] at hp

/-! ## The recipient loop -/

theorem sealRecipients_ok {P : Prims} {r : Nat → RecRand} {m : Message} {sk cek : Bytes} {i : Nat}
    {l : List (Str × Option Bytes)} {rs : List Recipient}
    (h : Message.sealRecipients P r m sk cek i l = .ok rs) :
    rs.length = l.length ∧ ∀ j rc, rs[j]? = some rc →
      ∃ dest key, l[j]? = some (dest, key) ∧ encryptCek P (r (i + j)) m sk dest cek key = .ok rc := by
  induction l generalizing i rs with
  | nil =>
    obtain rfl : [] = rs := Res.ok.inj h
    exact ⟨rfl, by intro j rc h; simp at h⟩
  | cons p l ih =>
    obtain ⟨dest, key⟩ := p
    simp only [Message.sealRecipients, Res.bind_eq_ok, Res.pure_eq, Res.ok.injEq] at h
    obtain ⟨x, hx, xs, hxs, rfl⟩ := h
    obtain ⟨hl, hall⟩ := ih hxs
    refine ⟨by simp [hl], ?_⟩
    intro j rc hj
    cases j with
    | zero =>
      simp only [List.getElem?_cons_zero, Option.some.injEq] at hj
      subst hj
      exact ⟨dest, key, rfl, hx⟩
    | succ j =>
      simp only [List.getElem?_cons_succ] at hj ⊢
      obtain ⟨d, k, h1, h2⟩ := hall j rc hj
      exact ⟨d, k, h1, by rw [show i + (j + 1) = i + 1 + j by omega]; exact h2⟩

theorem sealRecipients_wf {P : Prims} {r : Nat → RecRand} {m : Message} {sk cek : Bytes} {i : Nat}
    {l : List (Str × Option Bytes)} {rs : List Recipient}
    (h : Message.sealRecipients P r m sk cek i l = .ok rs) : ∀ rc ∈ rs, rc.header.WF := by
  intro rc hrc
  obtain ⟨j, hj, rfl⟩ := List.getElem_of_mem hrc
  obtain ⟨d, k, -, h2⟩ := (sealRecipients_ok h).2 j _ (List.getElem?_eq_getElem hj)
  exact encryptCek_wf h2

/-! ## The envelope -/

/-- The protected header of a sealed message. -/
def Spec.publicHeader (m : Message) : JwmHeader :=
  { m.jwm with typ := if m.jwm.typ = .forward then .forward else .jwe, skid := m.didcomm.from }

/-- The envelope of a sealed message. -/
def Spec.envelope (m : Message) (rs : List Recipient) (iv c tag : Bytes) : Jwe :=
  { protected_ := some (Spec.publicHeader m)
    unprotected := none
    recipient := if m.flatJwe then rs.head? else none
    recipients := if m.flatJwe then none else some rs
    ciphertext := b64Encode c
    iv := b64Encode iv
    tag := some (b64Encode tag) }

theorem jweHeader_some (m : Message) (rs : List Recipient) :
    Message.jweHeader { m with recipients := some rs } = .ok (Spec.publicHeader m) := by
  simp only [Message.jweHeader, Spec.publicHeader]
  by_cases ht : m.jwm.typ = .forward
  · rw [if_neg (by simp [ht]), if_pos ht]
    congr 1
    cases hj : m.jwm; simp_all
  · rw [if_pos ht, if_neg ht]

/-- What a successful `seal` produces. -/
theorem seal_ok {P : Prims} {r : Message.SealRand} {m : Message} {sk : Bytes}
    {keys : Option (List (Option Bytes))} {t : Str} (h : m.sealJwe P r sk keys = .ok t) :
    ∃ pks rs a c tag alg, m.sealKeys keys = .ok pks ∧ pks.length = m.didcomm.to.length ∧
      sk.length = 32 ∧ m.didcomm.to ≠ [] ∧ (m.flatJwe = true → rs.length = 1) ∧
      Message.sealRecipients P r.perRec m sk cek 0 (m.didcomm.to.zip pks) = .ok rs ∧
      rs.length = m.didcomm.to.length ∧ m.jwm.alg = some alg ∧ CryptoAlg.ofStr alg = .ok a ∧
      a.encryptor P r.iv.1 cek (utf8 ({ m with recipients := some rs }.text (r.ord.sub 1)))
        (utf8 (headerB64 (r.ord.sub 0) (Spec.publicHeader m))) = .ok (c ++ tag) ∧
      tag.length = 16 ∧
      t = (Spec.envelope m rs r.iv.1 c tag).text (r.ord.sub 2) := by
  unfold Message.sealJwe at h
  split at h
  · cases h
  rename_i hk
  simp only [ne_eq, Decidable.not_not] at hk
  simp only [Res.bind_eq_ok] at h
  obtain ⟨pks, hp, h⟩ := h
  split at h
  · cases h
  rename_i h0
  split at h
  · cases h
  rename_i hf
  simp only [Res.bind_eq_ok] at h
  obtain ⟨rs, hrs, a, hcr, henc⟩ := h
  have hpl : pks.length = m.didcomm.to.length := by
    unfold Message.sealKeys at hp
    split at hp
    · split at hp
      · cases hp
      · rename_i hl; rw [← Res.ok.inj hp]; simpa using hl
    · rw [← Res.ok.inj hp]; simp
  have hl := (sealRecipients_ok hrs).1
  rw [List.length_zip, hpl, Nat.min_self] at hl
  have hto : m.didcomm.to ≠ [] := by intro he; rw [he] at h0; exact h0 rfl
  have hfl : m.flatJwe = true → rs.length = 1 := by
    intro hfl; simp only [hfl, true_and] at hf; omega
  obtain ⟨alg, halg, hal⟩ : ∃ alg, m.jwm.alg = some alg ∧ CryptoAlg.ofStr alg = .ok a := by
    simp only [crypterOfHeader] at hcr
    cases hx : m.jwm.alg with
    | none => rw [hx] at hcr; cases hcr
    | some x => rw [hx] at hcr; exact ⟨x, rfl, hcr⟩
  have hhd := jweHeader_some m rs
  simp only [Message.encrypt, hhd, Res.bind_ok, b64Decode_encode, Res.ofOpt_some, Res.bind_eq_ok,
    Res.pure_eq, Res.ok.injEq] at henc
  obtain ⟨ct, hct, ⟨c, tag⟩, hsp, jwe, hj, ht⟩ := henc
  have hst := hsp
  unfold splitTag at hst
  by_cases hlen : 16 ≤ ct.length
  case neg => rw [if_neg hlen] at hst; cases hst
  rw [if_pos hlen] at hst
  obtain ⟨hc1, hc2⟩ := Prod.mk.inj (Res.ok.inj hst)
  refine ⟨pks, rs, a, c, tag, alg, hp, hpl, hk, hto, hfl, hrs, hl, halg, hal, ?_, ?_, ?_⟩
  · rw [splitTag_ok hsp]; exact hct
  · rw [← hc2]; simp; omega
  · rw [← ht]
    congr 1
    simp only [Message.jweOf] at hj
    split at hj
    · rename_i hflat
      have hlen1 := hfl hflat
      obtain ⟨x, hx⟩ := List.length_eq_one_iff.1 hlen1
      rw [hx] at hj ⊢
      rw [← Res.ok.inj hj]
      simp [Spec.envelope, hflat, Jwe.newFlat]
    · rename_i hflat
      rw [← Res.ok.inj hj]
      simp [Spec.envelope, hflat, Jwe.new]

/-! ## Reading an envelope -/

theorem publicHeader_wf {m : Message} (h : m.jwm.WF) : (Spec.publicHeader m).WF := h

theorem publicHeader_fixed {m : Message} (h : HeaderFixed m.jwm) : HeaderFixed (Spec.publicHeader m) := h

theorem envelope_wf {m : Message} {rs : List Recipient} {iv c tag : Bytes} (h : m.jwm.WF)
    (hr : ∀ rc ∈ rs, rc.header.WF) : (Spec.envelope m rs iv c tag).WF where
  prot := by
    intro x hx
    rw [← Option.some.inj hx]
    exact publicHeader_wf h
  unprot := by intro x hx; cases hx
  recipient := by
    intro x hx
    simp only [Spec.envelope] at hx
    split at hx
    · exact hr x (List.mem_of_mem_head? hx)
    · cases hx
  recipients := by
    intro l hx
    simp only [Spec.envelope] at hx
    split at hx
    · cases hx
    · rw [← Option.some.inj hx]; exact hr

theorem envelope_alg {m : Message} {rs : List Recipient} {iv c tag : Bytes} {alg : Str}
    (h : m.jwm.alg = some alg) : (Spec.envelope m rs iv c tag).getAlg = some alg := by
  simp [Jwe.getAlg, Jwe.getter, fallback, Spec.envelope, Spec.publicHeader, h]

theorem envelope_skid {m : Message} {rs : List Recipient} {iv c tag : Bytes} :
    (Spec.envelope m rs iv c tag).getSkid = m.didcomm.from := by
  cases h : m.didcomm.from <;>
    simp [Jwe.getSkid, Jwe.getter, fallback, Spec.envelope, Spec.publicHeader, h]

theorem envelope_recipients {m : Message} {rs : List Recipient} {iv c tag : Bytes}
    (h : m.flatJwe = true → rs.length = 1) :
    Message.recipientsOf (Spec.envelope m rs iv c tag) = some rs := by
  unfold Message.recipientsOf Spec.envelope
  by_cases hf : m.flatJwe = true
  · obtain ⟨x, rfl⟩ := List.length_eq_one_iff.1 (h hf)
    simp [hf]
  · simp [hf]

theorem parseBytes_utf8 (s : Str) : parseBytes (utf8 s) = parseJson s := by
  unfold parseBytes
  rw [utf8Decode_utf8]

theorem ofBytes_utf8 (F : Str → Option Str) (s : Str) :
    Message.ofBytes F (utf8 s) = Message.ofText F s := by
  unfold Message.ofBytes Message.ofText
  rw [parseBytes_utf8]
  cases parseJson s <;> rfl

theorem nums_jwe (o : HOrd) (j : Jwe) : Spec.NumsOk (encJwe o j) :=
  (nice_jwe (F := fun t => some t) o j).2.1

theorem parse_jwe (o : HOrd) (j : Jwe) : parseJson (j.text o) = some (encJwe o j) :=
  parseJson_print (nums_jwe o j)

/-- `decrypt` of an envelope made by `encrypt`. -/
theorem decrypt_reads {P : Prims} (hP : Laws P) {m : Message} {rs : List Recipient}
    {iv c tag key : Bytes} {o o1 o2 o3 : HOrd} {a : CryptoAlg} {b : Json} (ha : a ≠ .a256cbc)
    (hw : Message.ReadsAs P.f64 { m with recipients := some rs } b) (hf : HeaderFixed m.jwm)
    (hr : ∀ rc ∈ rs, rc.header.WF)
    (he : a.encryptor P iv key (utf8 ({ m with recipients := some rs }.text o1))
        (utf8 (headerB64 o2 (Spec.publicHeader m))) = .ok (c ++ tag)) :
    Message.decrypt P o (utf8 ((Spec.envelope m rs iv c tag).text o3)) (a.decrypter P) key =
      .ok { m with recipients := some rs, body := b, flatJwe := false, flatJws := false } := by
  have h1 := decJwe_enc (F := P.f64) o3 (envelope_wf (m := m) (iv := iv) (c := c) (tag := tag) hw.jwm hr)
  have h2 := C55_decrypt_encrypt P hP a ha _ _ _ _ _ he
  have h3 : Message.ofBytes P.f64 (utf8 ({ m with recipients := some rs }.text o1)) =
      some { m with recipients := some rs, body := b, flatJwe := false, flatJws := false } := by
    rw [ofBytes_utf8, ofText_reads o1 hw]
  unfold Message.decrypt
  rw [parseBytes_utf8, parse_jwe, Option.bind_some, h1]
  simp only [Res.ofOpt_some, Res.bind_ok, Spec.envelope, Jwe.getPayload, Jwe.getIv,
    b64Decode_encode, Res.unwrap_some]
  rw [headerB64_fixed (publicHeader_fixed hf) o o2, h2]
  simp only [Message.plugErr, Res.bind_ok, h3, Res.ofOpt_some]

/-- Scanning past entries that do not open, or open to the same key. -/
theorem firstKey_of {P : Prims} {j : Jwe} {sk : Bytes} {key : Option Bytes} {cek : Bytes}
    {rs : List Recipient} {i : Nat} {rc : Recipient} (hi : rs[i]? = some rc)
    (hd : decryptCek P j sk rc key = .ok cek)
    (hb : ∀ x ∈ rs.take i, decryptCek P j sk x key ≠ .panic ∧
      ∀ c, decryptCek P j sk x key = .ok c → c = cek) :
    Message.firstKey P j sk key rs = .ok cek := by
  induction rs generalizing i with
  | nil => simp at hi
  | cons x rs ih =>
    cases i with
    | zero =>
      simp only [List.getElem?_cons_zero, Option.some.injEq] at hi
      subst hi
      simp [Message.firstKey, hd]
    | succ i =>
      have hx := hb x (by simp)
      simp only [List.getElem?_cons_succ] at hi
      have := ih hi (fun y hy => hb y (by simp [hy]))
      unfold Message.firstKey
      cases hdx : decryptCek P j sk x key with
      | ok c => rw [hx.2 c hdx]
      | err e => exact this
      | panic => exact absurd hdx hx.1

theorem senderKey_ok {P : Prims} {j : Jwe} {frm : Str} {key : Option Bytes} {pk : Bytes}
    (hs : j.getSkid = some frm) (hk : KeyFor P frm key pk) : Message.senderKey P j key = .ok pk := by
  rcases hk with rfl | ⟨rfl, d, h1, h2⟩
  · rfl
  · simp [Message.senderKey, hs, h1, h2]

theorem ofStr_ne_cbc {s : Str} {a : CryptoAlg} (h : CryptoAlg.ofStr s = .ok a) : a ≠ .a256cbc := by
  rcases ofStr_ok h with ⟨-, rfl⟩ | ⟨-, rfl⟩ <;> decide

/-- `receive_jwe` of a sealed envelope, once the content key is found. -/
theorem receiveJwe_reads {P : Prims} (hP : Laws P) {m : Message} {rs : List Recipient}
    {iv c tag key : Bytes} {o o1 o2 o3 : HOrd} {alg frm : Str} {a : CryptoAlg}
    {b : Json} (hal : m.jwm.alg = some alg) (ha : CryptoAlg.ofStr alg = .ok a)
    (hw : Message.ReadsAs P.f64 { m with recipients := some rs } b) (hf : HeaderFixed m.jwm)
    (hr : ∀ rc ∈ rs, rc.header.WF) (hfl : m.flatJwe = true → rs.length = 1)
    (he : a.encryptor P iv key (utf8 ({ m with recipients := some rs }.text o1))
        (utf8 (headerB64 o2 (Spec.publicHeader m))) = .ok (c ++ tag))
    (hfrom : m.didcomm.from = some frm) {sk pk : Bytes} {ek : Option Bytes}
    (hsk : sk.length = 32) (hpk : pk.length = 32) (hks : KeyFor P frm ek pk)
    (hfk : Message.firstKey P (Spec.envelope m rs iv c tag) sk ek rs = .ok key) :
    Message.receiveJwe P o ((Spec.envelope m rs iv c tag).text o3) sk ek =
      .ok ({ m with recipients := some rs, body := b, flatJwe := false, flatJws := false }.text (o.sub 1)) := by
  have h1 := jwe_ofText_text (F := P.f64) o3
    (envelope_wf (m := m) (iv := iv) (c := c) (tag := tag) hw.jwm hr)
  have hsk' : (Spec.envelope m rs iv c tag).getSkid = some frm := by rw [envelope_skid, hfrom]
  have hdec := decrypt_reads (o := o.sub 0) (o3 := o3) hP (ofStr_ne_cbc ha) hw hf hr he
  simp only [Message.receiveJwe, h1, Res.ofOpt_some, Res.bind_ok, envelope_alg hal,
    senderKey_ok hsk' hks, arrayRef32_of hsk, arrayRef32_of hpk, ha, Message.contentKey,
    envelope_recipients hfl, hfk, hdec, Res.pure_eq]

/-- Classification members of an encoded JWE. -/
theorem presence_jwe (o : HOrd) (j : Jwe) {es : List (Str × Json)} (he : encJwe o j = .obj es) :
    Message.presence c!"signature" es = some false ∧ Message.presence c!"signatures" es = some false ∧
      Message.presence c!"iv" es = some true := by
  have hfr : ∀ k ∈ [c!"signature", c!"signatures", c!"iv"],
      fieldVals k (flatRecipient (o.sub 2) j.recipient) = [] := by
    intro k hk
    apply fieldVals_flatRecipient
    · rintro rfl; revert hk; decide
    · rintro rfl; revert hk; decide
  simp only [List.forall_mem_cons] at hfr
  obtain ⟨f1, f2, f3, -⟩ := hfr
  simp only [encJwe, Json.obj.injEq] at he
  subst he
  refine ⟨presence_absent (by look; simp [f1]), presence_absent (by look; simp [f2]), ?_⟩
  unfold Message.presence optField
  rw [show fieldVals c!"iv" _ = [Json.str j.iv] from by look; simp [f3]]
  rfl

theorem messageType_jwe {P : Prims} (o : HOrd) (j : Jwe) :
    Message.messageType P (j.text o) = .ok .jwe := by
  obtain ⟨h1, h2, h3⟩ := presence_jwe o j rfl
  rw [messageType_obj P (parse_jwe o j) h1 h2 h3]
  rfl

theorem messageType_envelope {P : Prims} {m : Message} {rs : List Recipient} {iv c tag : Bytes}
    {o : HOrd} : Message.messageType P ((Spec.envelope m rs iv c tag).text o) = .ok .jwe :=
  messageType_jwe o _

/-- `receive` of a sealed envelope, once the content key is found. -/
theorem receive_reads {P : Prims} (hP : Laws P) {m : Message} {rs : List Recipient}
    {iv c tag key : Bytes} {o o1 o2 o3 : HOrd} {alg frm : Str} {a : CryptoAlg}
    {b b' : Json} (hal : m.jwm.alg = some alg) (ha : CryptoAlg.ofStr alg = .ok a)
    (hw : m.ReadsAs P.f64 b) (hb : normJ P.f64 b = some b') (hc : Avoids m.didcomm.other classKeys) (hf : HeaderFixed m.jwm)
    (hj : m.jwm.typ ≠ .jws)
    (hr : ∀ rc ∈ rs, rc.header.WF) (hfl : m.flatJwe = true → rs.length = 1)
    (he : a.encryptor P iv key (utf8 ({ m with recipients := some rs }.text o1))
        (utf8 (headerB64 o2 (Spec.publicHeader m))) = .ok (c ++ tag))
    (hfrom : m.didcomm.from = some frm) {sk pk : Bytes} {ek vk : Option Bytes}
    (hsk : sk.length = 32) (hpk : pk.length = 32) (hks : KeyFor P frm ek pk)
    (hfk : Message.firstKey P (Spec.envelope m rs iv c tag) sk ek rs = .ok key) :
    Message.receive P o ((Spec.envelope m rs iv c tag).text o3) (some sk) ek vk =
      .ok { m with recipients := some rs, body := b', flatJwe := false, flatJws := false } := by
  have hF : ∀ t u, P.f64 t = some u → Spec.NumTok u := fun _ _ => hP.f64_tok
  have hwr : Message.ReadsAs P.f64 { m with recipients := some rs } b :=
    ⟨hw.jwm, hw.other, hw.to, by intro l hl; rw [← Option.some.inj hl]; exact hr, hw.norm, hw.nums,
      hw.depth⟩
  have hwf : Message.ReadsAs P.f64 { m with recipients := some rs, body := b, flatJwe := false, flatJws := false } b' :=
    ⟨hwr.jwm, hwr.other, hwr.to, hwr.recipients, hb, normJ_numsOk hF hw.norm hw.nums,
      Nat.le_trans (normJ_depth hF hw.norm) hw.depth⟩
  have hrec := receiveJwe_reads (o := o.sub 0) (o3 := o3) hP hal ha hwr hf hr hfl he hfrom hsk hpk
    hks hfk
  simp only [Message.receive, Message.decryptStep, messageType_envelope, Res.bind_ok, if_true,
    Res.ofOpt_some, hrec, Message.verifyStep, messageType_reads P ((o.sub 0).sub 1) hwf hc, hj,
    if_false, ofText_reads ((o.sub 0).sub 1) hwf]

/-- The same if the body is read as itself. -/
theorem decrypt_envelope {P : Prims} (hP : Laws P) {m : Message} {rs : List Recipient}
    {iv c tag key : Bytes} {o o1 o2 o3 : HOrd} {a : CryptoAlg} (ha : a ≠ .a256cbc)
    (hw : Message.WF P.f64 { m with recipients := some rs }) (hf : HeaderFixed m.jwm)
    (hr : ∀ rc ∈ rs, rc.header.WF)
    (he : a.encryptor P iv key (utf8 ({ m with recipients := some rs }.text o1))
        (utf8 (headerB64 o2 (Spec.publicHeader m))) = .ok (c ++ tag)) :
    Message.decrypt P o (utf8 ((Spec.envelope m rs iv c tag).text o3)) (a.decrypter P) key =
      .ok { m with recipients := some rs, flatJwe := false, flatJws := false } := decrypt_reads hP ha hw.reads hf hr he

/-- The same if the body is read as itself. -/
theorem receiveJwe_envelope {P : Prims} (hP : Laws P) {m : Message} {rs : List Recipient}
    {iv c tag key : Bytes} {o o1 o2 o3 : HOrd} {alg frm : Str} {a : CryptoAlg}
    (hal : m.jwm.alg = some alg) (ha : CryptoAlg.ofStr alg = .ok a)
    (hw : Message.WF P.f64 { m with recipients := some rs }) (hf : HeaderFixed m.jwm)
    (hr : ∀ rc ∈ rs, rc.header.WF) (hfl : m.flatJwe = true → rs.length = 1)
    (he : a.encryptor P iv key (utf8 ({ m with recipients := some rs }.text o1))
        (utf8 (headerB64 o2 (Spec.publicHeader m))) = .ok (c ++ tag))
    (hfrom : m.didcomm.from = some frm) {sk pk : Bytes} {ek : Option Bytes}
    (hsk : sk.length = 32) (hpk : pk.length = 32) (hks : KeyFor P frm ek pk)
    (hfk : Message.firstKey P (Spec.envelope m rs iv c tag) sk ek rs = .ok key) :
    Message.receiveJwe P o ((Spec.envelope m rs iv c tag).text o3) sk ek =
      .ok ({ m with recipients := some rs, flatJwe := false, flatJws := false }.text (o.sub 1)) :=
  receiveJwe_reads hP hal ha hw.reads hf hr hfl he hfrom hsk hpk hks hfk

/-- The same if the body is read as itself. -/
theorem receive_envelope {P : Prims} (hP : Laws P) {m : Message} {rs : List Recipient}
    {iv c tag key : Bytes} {o o1 o2 o3 : HOrd} {alg frm : Str} {a : CryptoAlg}
    (hal : m.jwm.alg = some alg) (ha : CryptoAlg.ofStr alg = .ok a)
    (hw : m.WF P.f64) (hc : Avoids m.didcomm.other classKeys) (hf : HeaderFixed m.jwm)
    (hj : m.jwm.typ ≠ .jws)
    (hr : ∀ rc ∈ rs, rc.header.WF) (hfl : m.flatJwe = true → rs.length = 1)
    (he : a.encryptor P iv key (utf8 ({ m with recipients := some rs }.text o1))
        (utf8 (headerB64 o2 (Spec.publicHeader m))) = .ok (c ++ tag))
    (hfrom : m.didcomm.from = some frm) {sk pk : Bytes} {ek vk : Option Bytes}
    (hsk : sk.length = 32) (hpk : pk.length = 32) (hks : KeyFor P frm ek pk)
    (hfk : Message.firstKey P (Spec.envelope m rs iv c tag) sk ek rs = .ok key) :
    Message.receive P o ((Spec.envelope m rs iv c tag).text o3) (some sk) ek vk =
      .ok { m with recipients := some rs, flatJwe := false, flatJws := false } :=
  receive_reads hP hal ha hw.reads (normJ_canon hw.canon) hc hf hj hr hfl he hfrom hsk hpk hks hfk

end Verif
