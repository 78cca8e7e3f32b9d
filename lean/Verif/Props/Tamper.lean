import Verif.Props.Algo
import Verif.Lemma.Algo.Tags
import Verif.Props.Exact
import Verif.Props.Entries

/-!
# Altered ciphertexts and headers

C119.
-/

namespace Verif

open Spec

/-- C119.  For XChaCha20-Poly1305: whatever the tags, two different pairs of associated data and ciphertext are
both accepted only under one-time keys of a set with at most eight elements per block of the longer pair; there
are `2 ^ 106` of them. -/
theorem C119_xc (P : Prims) (aad c t aad' c' t' : Bytes) (ht : t.length = 16) (ht' : t'.length = 16)
    (h1 : aad.length < 2 ^ 64) (h2 : c.length < 2 ^ 64) (h1' : aad'.length < 2 ^ 64) (h2' : c'.length < 2 ^ 64)
    (hne : (aad, c) ≠ (aad', c')) :
    ∃ S : Finset Nat, S.card ≤ 8 * max (tagBlocks aad.length c.length) (tagBlocks aad'.length c'.length) ∧
      ∀ key nonce m m', CryptoAlg.decrypter P.std .xc20p nonce key (c ++ t) aad = .ok m →
        CryptoAlg.decrypter P.std .xc20p nonce key (c' ++ t') aad' = .ok m' → xcPlace key nonce ∈ S := by
  obtain ⟨S, hS, h⟩ := Algo.xchachaOpen_few aad c t aad' c' t' ht ht' h1 h2 h1' h2' hne
  refine ⟨S, hS, fun key nonce m m' e e' => ?_⟩
  have op : ∀ {ct aad pt : Bytes}, CryptoAlg.decrypter P.std .xc20p nonce key ct aad = .ok pt →
      Algo.xchachaOpen key nonce aad ct = some pt := by
    intro ct aad pt h
    rcases decrypter_ok (alg := c!"ECDH-1PU+XC20PKW") rfl h with ⟨-, h⟩ | ⟨h, -⟩
    · exact h
    · exact absurd h (by decide)
  exact h key nonce m m' (op e) (op e')

/-- C119.  For AES-256-GCM: whatever the tags, two different pairs are both accepted only under hash keys of a set
with at most one element per block of the longer pair; there are `2 ^ 128` of them. -/
theorem C119_gcm (P : Prims) (aad c t aad' c' t' : Bytes) (ht : t.length = 16) (ht' : t'.length = 16)
    (h1 : aad.length < 2 ^ 61) (h2 : c.length < 2 ^ 61) (h1' : aad'.length < 2 ^ 61) (h2' : c'.length < 2 ^ 61)
    (hne : (aad, c) ≠ (aad', c')) :
    ∃ S : Finset Nat, S.card ≤ max (tagBlocks aad.length c.length) (tagBlocks aad'.length c'.length) ∧
      ∀ key nonce m m', CryptoAlg.decrypter P.std .a256gcm nonce key (c ++ t) aad = .ok m →
        CryptoAlg.decrypter P.std .a256gcm nonce key (c' ++ t') aad' = .ok m' → gcmPlace key ∈ S := by
  obtain ⟨S, hS, h⟩ := Algo.gcmOpen_few aad c t aad' c' t' ht ht' h1 h2 h1' h2' hne
  refine ⟨S, hS, fun key nonce m m' e e' => ?_⟩
  have op : ∀ {ct aad pt : Bytes}, CryptoAlg.decrypter P.std .a256gcm nonce key ct aad = .ok pt →
      Algo.gcmOpen key (nonce.take 12) aad ct = some pt := by
    intro ct aad pt h
    rcases decrypter_ok (alg := c!"ECDH-1PU+A256KW") rfl h with ⟨h, -⟩ | ⟨-, h⟩
    · exact absurd h (by decide)
    · exact h
  exact h key _ m m' (op e) (op e')

/-- What was opened when `receive` accepts an envelope. -/
theorem receive_opened {P : Prims} {o : HOrd} {s : Str} {j : Jwe} {sk ek vk : Option Bytes} {x : Message}
    (hs : Message.messageType P s = .ok .jwe) (hj : Jwe.ofText P.f64 s = some j)
    (h : Message.receive P o s sk ek vk = .ok x) :
    ∃ k spk alg a key hdr tt t c iv pt, sk = some k ∧ 32 ≤ k.length ∧ 32 ≤ spk.length ∧
      Message.senderKey P j ek = .ok spk ∧ j.getAlg = some alg ∧ CryptoAlg.ofStr alg = .ok a ∧
      Message.contentKey P j k ek (P.x25519 (k.take 32) (spk.take 32)) = .ok key ∧ j.protected_ = some hdr ∧
      j.tag = some tt ∧ b64Decode tt = some t ∧ b64Decode j.ciphertext = some c ∧ b64Decode j.iv = some iv ∧
      a.decrypter P iv key (c ++ t) (utf8 (headerB64 ((o.sub 0).sub 0) hdr)) = .ok pt := by
  simp only [Message.receive, Res.bind_eq_ok, Res.ofOpt_eq_ok] at h
  obtain ⟨cur, hcur, -⟩ := h
  simp only [Message.decryptStep, hs, Res.bind_ok, if_true, Res.bind_eq_ok, Res.ofOpt_eq_ok] at hcur
  obtain ⟨k, hk, hr⟩ := hcur
  simp only [Message.receiveJwe, Res.bind_eq_ok, Res.ofOpt_eq_ok, Res.pure_eq, Res.ok.injEq, arrayRef32_eq_ok] at hr
  obtain ⟨j1, hj1, alg, halg, spk, hpk, _, ⟨hs1, rfl⟩, _, ⟨hs2, rfl⟩, a, ha, key, hkey, m0, hm0, -⟩ := hr
  obtain rfl : j = j1 := Option.some.inj (hj.symm.trans hj1)
  obtain ⟨j3, hdr, tt, t, c, iv, pt, e1, e2, e3, e4, e5, e6, e7, -⟩ := decrypt_ok hm0
  rw [jwe_ofBytes, hj] at e1
  obtain rfl := Option.some.inj e1
  exact ⟨k, spk, alg, a, key, hdr, tt, t, c, iv, pt, hk, hs1, hs2, hpk, halg, ha, hkey, e2, e3, e4, e5, e6, e7⟩

/-- C119, for envelopes.  Take any two envelopes that agree in iv, algorithm, name of the sender and entries, and
differ in the protected header or the ciphertext.  There is a small set of hash keys, which depends on nothing
else, such that `receive` accepts both with the same keys only if the hash key that belongs to the content key
and the iv is in this set. -/
theorem C119_envelope (P : Prims) (s s' : Str) (j j' : Jwe) (hdr hdr' : JwmHeader) (alg tt tt' : Str)
    (c c' t t' : Bytes)
    (hs : Message.messageType P.std s = .ok .jwe) (hs' : Message.messageType P.std s' = .ok .jwe)
    (hj : Jwe.ofText P.f64 s = some j) (hj' : Jwe.ofText P.f64 s' = some j')
    (hp : j.protected_ = some hdr) (hp' : j'.protected_ = some hdr') (hf : HeaderFixed hdr) (hf' : HeaderFixed hdr')
    (hc : b64Decode j.ciphertext = some c) (hc' : b64Decode j'.ciphertext = some c')
    (htt : j.tag = some tt) (htt' : j'.tag = some tt') (ht : b64Decode tt = some t) (ht' : b64Decode tt' = some t')
    (hl : t.length = 16) (hl' : t'.length = 16) (hiv : j'.iv = j.iv)
    (halg : j.getAlg = some alg) (halg' : j'.getAlg = some alg) (hsk : j'.getSkid = j.getSkid)
    (hr : j'.recipients = j.recipients) (hr' : j'.recipient = j.recipient)
    (hsz : (utf8 (headerB64 HOrd.id hdr)).length < 2 ^ 61) (hsz' : (utf8 (headerB64 HOrd.id hdr')).length < 2 ^ 61)
    (hcz : c.length < 2 ^ 61) (hcz' : c'.length < 2 ^ 61)
    (hne : hdr ≠ hdr' ∨ c ≠ c') :
    ∃ S : Finset Nat,
      S.card ≤ 8 * max (tagBlocks (utf8 (headerB64 HOrd.id hdr)).length c.length)
        (tagBlocks (utf8 (headerB64 HOrd.id hdr')).length c'.length) ∧
      ∀ o o' k ek vk vk' x x', Message.receive P.std o s (some k) ek vk = .ok x →
        Message.receive P.std o' s' (some k) ek vk' = .ok x' →
        ∃ spk key iv, Message.senderKey P.std j ek = .ok spk ∧
          Message.contentKey P.std j k ek (P.std.x25519 (k.take 32) (spk.take 32)) = .ok key ∧
          b64Decode j.iv = some iv ∧ tagPlace alg key iv ∈ S := by
  have hpair : (utf8 (headerB64 HOrd.id hdr), c) ≠ (utf8 (headerB64 HOrd.id hdr'), c') := by
    intro he
    obtain ⟨h1, h2⟩ := Prod.mk.inj he
    rcases hne with hne | hne
    · refine hne (headerB64_inj ?_ ?_ (utf8_injective h1))
      · have hj := hj
        rw [← jwe_ofBytes] at hj
        obtain ⟨x, -, hx⟩ := Option.bind_eq_some_iff.1 hj
        exact decJwe_protected_wf hx hp
      · have hj' := hj'
        rw [← jwe_ofBytes] at hj'
        obtain ⟨x, -, hx⟩ := Option.bind_eq_some_iff.1 hj'
        exact decJwe_protected_wf hx hp'
    · exact hne h2
  obtain ⟨S, hS, hx⟩ : ∃ S : Finset Nat,
      S.card ≤ 8 * max (tagBlocks (utf8 (headerB64 HOrd.id hdr)).length c.length)
        (tagBlocks (utf8 (headerB64 HOrd.id hdr')).length c'.length) ∧
      ∀ a key iv m m', CryptoAlg.ofStr alg = .ok a →
        a.decrypter P.std iv key (c ++ t) (utf8 (headerB64 HOrd.id hdr)) = .ok m →
        a.decrypter P.std iv key (c' ++ t') (utf8 (headerB64 HOrd.id hdr')) = .ok m' → tagPlace alg key iv ∈ S := by
    by_cases hx : alg = c!"ECDH-1PU+XC20PKW"
    · obtain ⟨S, hS, h⟩ := C119_xc P (utf8 (headerB64 HOrd.id hdr)) c t (utf8 (headerB64 HOrd.id hdr')) c' t' hl hl'
        (by omega) (by omega) (by omega) (by omega) hpair
      refine ⟨S, hS, fun a key iv m m' ha e e' => ?_⟩
      subst hx
      obtain rfl : CryptoAlg.xc20p = a := Res.ok.inj ha
      rw [tagPlace, if_pos rfl]
      exact h key iv m m' e e'
    · obtain ⟨S, hS, h⟩ := C119_gcm P (utf8 (headerB64 HOrd.id hdr)) c t (utf8 (headerB64 HOrd.id hdr')) c' t' hl hl'
        hsz hcz hsz' hcz' hpair
      refine ⟨S, by omega, fun a key iv m m' ha e e' => ?_⟩
      rcases ofStr_ok ha with ⟨-, rfl⟩ | ⟨h1, -⟩
      · rw [tagPlace, if_neg hx]
        exact h key iv m m' e e'
      · exact absurd h1 hx
  refine ⟨S, hS, fun o o' k ek vk vk' x x' e e' => ?_⟩
  obtain ⟨k1, spk, alg1, a, key, hdr1, tt1, t1, c1, iv, pt, hk, -, -, hspk, ha1, ha, hkey, g1, g2, g3, g4, g5, g6⟩ :=
    receive_opened hs hj e
  obtain ⟨k2, spk', alg2, a', key', hdr2, tt2, t2, c2, iv', pt', hk', -, -, hspk', ha1', ha', hkey', g1', g2', g3', g4', g5', g6'⟩ :=
    receive_opened hs' hj' e'
  obtain rfl := Option.some.inj hk
  obtain rfl := Option.some.inj hk'
  obtain rfl : alg = alg1 := Option.some.inj (halg.symm.trans ha1)
  obtain rfl : alg = alg2 := Option.some.inj (halg'.symm.trans ha1')
  obtain rfl : a = a' := Res.ok.inj (ha.symm.trans ha')
  have hsend : Message.senderKey P.std j' ek = Message.senderKey P.std j ek := by
    cases ek with
    | some k => rfl
    | none => simp only [Message.senderKey, hsk]
  rw [hsend] at hspk'
  obtain rfl : spk = spk' := Res.ok.inj (hspk.symm.trans hspk')
  have hck : ∀ p, Message.contentKey P.std j' k ek p = Message.contentKey P.std j k ek p := by
    intro p
    unfold Message.contentKey Message.recipientsOf
    rw [hr, hr']
    have hd : ∀ r, decryptCek P.std j' k r ek = decryptCek P.std j k r ek := by
      intro r
      unfold decryptCek
      rw [halg', halg, hsk]
    cases j.recipients with
    | some l => exact firstKey_congr fun r _ => hd r
    | none =>
      cases j.recipient with
      | some r => exact firstKey_congr fun r _ => hd r
      | none => rfl
  rw [hck] at hkey'
  obtain rfl : key = key' := Res.ok.inj (hkey.symm.trans hkey')
  obtain rfl := Option.some.inj (hp.symm.trans g1)
  obtain rfl := Option.some.inj (hp'.symm.trans g1')
  obtain rfl := Option.some.inj (htt.symm.trans g2)
  obtain rfl := Option.some.inj (htt'.symm.trans g2')
  obtain rfl := Option.some.inj (ht.symm.trans g3)
  obtain rfl := Option.some.inj (ht'.symm.trans g3')
  obtain rfl := Option.some.inj (hc.symm.trans g4)
  obtain rfl := Option.some.inj (hc'.symm.trans g4')
  rw [hiv] at g5'
  obtain rfl := Option.some.inj (g5.symm.trans g5')
  rw [headerB64_fixed hf _ HOrd.id] at g6
  rw [headerB64_fixed hf' _ HOrd.id] at g6'
  exact ⟨spk, key, iv, hspk, hkey, g5, hx a key iv pt pt' ha g6 g6'⟩

/-! ## A concrete case -/

/-- An envelope without entries, which is encrypted under the shared secret of sender and receiver: message,
ciphertext, tag. -/
def bareEnvelope (m : Message) (c tag : Bytes) : Jwe :=
  { Spec.envelope m [] (List.replicate 24 8) c tag with recipients := none, recipient := none }

theorem bare_accepted (m : Message) (hm : m.WF (toy fun _ => none).f64) (hc : Avoids m.didcomm.other classKeys)
    (hf : HeaderFixed m.jwm) (hj : m.jwm.typ ≠ .jws) (hfrom : m.didcomm.from = some c!"did:e:f")
    (hal : m.jwm.alg = some c!"ECDH-1PU+XC20PKW") :
    ∃ c tag, tag.length = 16 ∧ c.length = (utf8 ({ m with recipients := some [] }.text HOrd.id)).length ∧
      Jwe.ofText (toy fun _ => none).f64 ((bareEnvelope m c tag).text HOrd.id) = some (bareEnvelope m c tag) ∧
      ∃ x, Message.receive (toy fun _ => none).std HOrd.id ((bareEnvelope m c tag).text HOrd.id) (some (exampleKey 1))
        (some (exampleKey 3)) none = .ok x := by
  set P := (toy fun _ => none)
  have hP : Laws P.std := std_laws P (toy_laws fun _ => none).f64_tok
  obtain ⟨ct, hct, hlen⟩ := (C97_seals_everything P (List.replicate 24 8) (P.std.x25519 (exampleKey 1) (exampleKey 3))
    (utf8 (headerB64 HOrd.id (Spec.publicHeader m))) (utf8 ({ m with recipients := some [] }.text HOrd.id))
    (hP.dh_len _ _)).1 (by decide)
  refine ⟨ct.take (ct.length - 16), ct.drop (ct.length - 16), by rw [List.length_drop]; omega,
    by rw [List.length_take]; omega, ?_⟩
  have hw := envelope_wf (m := m) (rs := []) (iv := List.replicate 24 8) (c := ct.take (ct.length - 16))
    (tag := ct.drop (ct.length - 16)) hm.jwm (by intro x hx; cases hx)
  have hwb : (bareEnvelope m (ct.take (ct.length - 16)) (ct.drop (ct.length - 16))).WF :=
    ⟨hw.prot, hw.unprot, (by intro x hx; cases hx), (by intro x hx; cases hx)⟩
  have hof := jwe_ofText_text (F := P.f64) HOrd.id hwb
  refine ⟨hof, _, receive_entries (o1 := HOrd.id) (o2 := HOrd.id) hP hal (a := .xc20p) rfl hm.reads (normJ_canon hm.canon)
    hc hf hj (rs := []) (by intro x hx; cases hx)
    (by rw [List.take_append_drop]; exact hct) hfrom (by decide) (by decide) (.inl rfl)
    (messageType_jwe _ _) hof rfl⟩

/-- Another message with the same header. -/
def otherMessage : Message := { exampleMessage with body := .obj [] }

theorem otherMessage_wf (F : Str → Option Str) : otherMessage.WF F :=
  have h := exampleMessage_wf F
  ⟨h.jwm, h.other, h.to, h.recipients, (show Canon F (.obj []) from ⟨trivial, trivial⟩), (show NumsOk (.obj []) from trivial),
    (show (Json.obj []).depth ≤ 126 by decide)⟩

/-- C119: two envelopes that meet the conditions and are both accepted with the same keys. -/
example : ∃ (s s' : Str) (j j' : Jwe) (c c' : Bytes) (hdr : JwmHeader),
    Jwe.ofText (toy fun _ => none).f64 s = some j ∧ Jwe.ofText (toy fun _ => none).f64 s' = some j' ∧
    j.protected_ = some hdr ∧ j'.protected_ = some hdr ∧ HeaderFixed hdr ∧ b64Decode j.ciphertext = some c ∧
    b64Decode j'.ciphertext = some c' ∧ c ≠ c' ∧ c.length < 2 ^ 61 ∧ c'.length < 2 ^ 61 ∧ j'.iv = j.iv ∧
    j'.recipients = j.recipients ∧ j'.recipient = j.recipient ∧
    (∃ x, Message.receive (toy fun _ => none).std HOrd.id s (some (exampleKey 1)) (some (exampleKey 3)) none = .ok x) ∧
    ∃ x, Message.receive (toy fun _ => none).std HOrd.id s' (some (exampleKey 1)) (some (exampleKey 3)) none = .ok x := by
  have hf : HeaderFixed exampleMessage.jwm := ⟨(by intro k h; cases h), (by intro k h; cases h)⟩
  obtain ⟨c, tag, -, h2, h3, h4⟩ := bare_accepted exampleMessage (exampleMessage_wf _) (by decide) hf (by decide) rfl rfl
  obtain ⟨c', tag', -, h2', h3', h4'⟩ := bare_accepted otherMessage (otherMessage_wf _) (by decide) hf (by decide) rfl rfl
  have e : (utf8 ({ exampleMessage with recipients := some [] }.text HOrd.id)).length < 2 ^ 61 ∧
      (utf8 ({ otherMessage with recipients := some [] }.text HOrd.id)).length < 2 ^ 61 ∧
      (utf8 ({ exampleMessage with recipients := some [] }.text HOrd.id)).length ≠
        (utf8 ({ otherMessage with recipients := some [] }.text HOrd.id)).length := by decide +kernel
  refine ⟨_, _, _, _, c, c', _, h3, h3', rfl, rfl, publicHeader_fixed hf, b64Decode_encode _, b64Decode_encode _, ?_,
    by rw [h2]; exact e.1, by rw [h2']; exact e.2.1, rfl, rfl, rfl, h4, h4'⟩
  intro h
  rw [h, h2'] at h2
  exact e.2.2 h2.symm

end Verif
