import Verif.Props.Flow
import Verif.Props.Open
import Verif.Props.Keys

/-!
# Which headers decide

C66 (signature headers), C67 (sender named twice), C68 (the `enc` label).
-/

namespace Verif

open Spec

/-! ## C66: algorithm and key of a signature -/

/-- A JWS with one signature whose protected header is `h` and whose unprotected header is `u`. -/
def Spec.jwsWith (payload : Str) (h u : JwmHeader) (sig : Bytes) : Jws :=
  { payload := payload, signature := none,
    signatures := some [{ protected_ := some h, header := some u, signature := sig }] }

theorem jwsWith_wf {p : Str} {h u : JwmHeader} {sig : Bytes} (hh : h.WF) (hu : u.WF) :
    (Spec.jwsWith p h u sig).WF where
  signature := by intro s hs; cases hs
  signatures := by
    intro l hl s hs
    rw [← Option.some.inj hl, List.mem_singleton] at hs
    subst hs
    exact ⟨by intro x hx; rw [← Option.some.inj hx]; exact hh,
      by intro x hx; rw [← Option.some.inj hx]; exact hu⟩

theorem jwsWith_class {P : Prims} (o : HOrd) (p : Str) (h u : JwmHeader) (sig : Bytes) :
    Message.messageType P ((Spec.jwsWith p h u sig).text o) = .ok .jws ∧
      Message.ofText P.f64 ((Spec.jwsWith p h u sig).text o) = none := by
  have hp := parse_jws o (Spec.jwsWith p h u sig)
  generalize (Spec.jwsWith p h u sig).text o = t at hp
  constructor
  · rw [messageType_obj P hp (a := false) (b := true) (c := false)]
    · rfl
    · exact presence_absent rfl
    · exact presence_some rfl (by simp)
    · exact presence_absent rfl
  · unfold Message.ofText
    rw [hp]
    exact decMessage_none (k := c!"id") (by decide) (by show 0 ≠ 1; decide)

/-- C66, as written, is false: whatever algorithm and key the signed (protected) header names, the
unsigned header of the signature decides.  For every protected header `h`, every message and every key
pair of any supported algorithm there is a JWS with that protected header that is accepted: its
unsigned header names the other algorithm and key. -/
theorem C66_signed_header_decides_violated (P : Prims) (a : SignAlg) (sk pk : Bytes)
    (hpair : SignPair P a sk pk) (h : JwmHeader) (hh : h.WF) (hf : HeaderFixed h) (m : Message)
    (hm : m.WF P.f64) (o' : HOrd) :
    ∃ t j s, Jws.ofText P.f64 t = some j ∧ j.signatures = some [s] ∧ s.protected_ = some h ∧
      ∀ dk ek, Message.receive P o' t dk ek none =
        .ok { m with jwm := JwmHeader.dflt, flatJwe := false, flatJws := false } := by
  obtain ⟨b, hb, hmb⟩ := payload_decodes (F := P.f64) HOrd.id hm
  generalize Spec.payloadText HOrd.id m = p at hb
  obtain ⟨sig, -, hs2⟩ := hpair (Message.signingInput (headerB64 HOrd.id h) p)
  obtain ⟨-, alg, -, hofs⟩ := signName (a := a) (h := JwmHeader.dflt)
  obtain ⟨u, hu, hua, huk⟩ : ∃ u : JwmHeader, u.WF ∧ u.alg = some alg ∧ u.kid = some (hexEncode pk) :=
    ⟨{ JwmHeader.dflt with alg := some alg, kid := some (hexEncode pk) },
      ⟨(by intro k hk; cases hk), (by intro k hk; cases hk)⟩, rfl, rfl⟩
  have hw := jwsWith_wf (p := p) (sig := sig) hh hu
  have hj := jws_ofText_text (F := P.f64) HOrd.id hw
  have hd : Jws.ofBytes P.f64 (utf8 ((Spec.jwsWith p h u sig).text HOrd.id)) =
      some ⟨p, some ⟨none, none, []⟩, some [⟨some h, some u, sig⟩]⟩ := by
    rw [ofBytes_jws, decJws_enc _ hw]; rfl
  obtain ⟨hc, hn⟩ := jwsWith_class (P := P) HOrd.id p h u sig
  refine ⟨_, _, _, hj, rfl, rfl, ?_⟩
  generalize (Spec.jwsWith p h u sig).text HOrd.id = t at hj hd hc hn ⊢
  intro dk ek
  have hga : Signature.getAlg ⟨some h, some u, sig⟩ = some alg := by
    simp [Signature.getAlg, Signature.getter, fallback, hua]
  have hgk : Signature.getKid ⟨some h, some u, sig⟩ = some (hexEncode pk) := by
    simp [Signature.getKid, Signature.getter, fallback, huk]
  have hv1 : Message.verifyOne P ((((o'.sub 1).sub 0).sub 0).sub 0) p pk ⟨some h, some u, sig⟩ = .ok true := by
    unfold Message.verifyOne
    rw [hga]
    simp only [Res.ofOpt_some, Res.bind_ok, hofs]
    rw [headerB64_fixed hf _ HOrd.id]
    unfold SignAlg.validator
    rw [hs2]
    rfl
  have hv := verify_first hd rfl hv1 hb hmb
  have hwu := unsigned_wf hm
  rw [receive_jws_form hc hn hj rfl hga (k := pk) ?_ hv]
  · rw [ofText_text (m := { Spec.unsigned m with flatJwe := false, flatJws := false }) _
      ⟨hwu.jwm, hwu.other, hwu.to, hwu.recipients, hwu.canon, hwu.nums, hwu.depth⟩]
    rfl
  · rw [hgk]
    simp [signingKey, hexDecode_encode]

/-- C66: a protected header that names another algorithm and another key. -/
example : ∃ h : JwmHeader, h.alg = some c!"ES256K" ∧ h.kid = some c!"00" ∧ h.WF ∧ HeaderFixed h ∧
    SignPair (toy fun _ => none) .edDsa [7] [7] ∧ richMessage.WF (toy fun _ => none).f64 :=
  ⟨{ JwmHeader.dflt with alg := some c!"ES256K", kid := some c!"00" }, rfl, rfl,
    ⟨(by intro k hk; cases hk), (by intro k hk; cases hk)⟩,
    ⟨(by intro k hk; cases hk), (by intro k hk; cases hk)⟩, toy_signPair _ _ _, richMessage_wf _⟩

/-- C66, what holds: if no signature carries an unsigned header, the accepted signature is valid for the
algorithm named in its signed header, and without an explicit key (for input that is a JWS) the key is
the one named there. -/
theorem C66_signed_header_decides_partial (P : Prims) (j : Jws) (s : Str)
    (hj : Jws.ofText P.f64 s = some j) (hn : ∀ x ∈ Spec.signatures j, x.header = none) :
    (∀ o key m, Message.verify P o (utf8 s) key = .ok m → ∃ x ∈ Spec.signatures j, ∃ h a o',
      x.protected_ = some h ∧ h.alg = some (Spec.signAlgName a) ∧
      P.verify a key (utf8 (headerB64 o' h ++ ['.'] ++ j.payload)) x.signature = some true) ∧
    (∀ o sk ek m, Message.decryptStep P (o.sub 0) s sk ek = .ok s → Message.ofText P.f64 s = none →
      Message.messageType P s = .ok .jws → Message.receive P o s sk ek none = .ok m →
      ∃ x ∈ Spec.signatures j, ∃ h kid k o' v, x.protected_ = some h ∧ h.kid = some kid ∧
        hexDecode kid = some k ∧ Message.verify P o' (utf8 s) k = .ok v) := by
  constructor
  · intro o key m hv
    obtain ⟨j', x, pt, o', h1, h3, ⟨a, hdr, h4, h5, h6⟩, -, -⟩ := C25_verified_is_signed P o _ key m hv
    obtain rfl : j = j' := by
      rw [jws_ofBytes_utf8, hj] at h1
      exact Option.some.inj h1
    have hx : x ∈ Spec.signatures j := by
      unfold Spec.signatures
      rcases h3 with ⟨l, hl, hx⟩ | ⟨hl, hx⟩
      · simpa only [hl] using hx
      · simp only [hl, hx, Option.toList_some, List.mem_singleton]
    refine ⟨x, hx, hdr, a, o', h5, ?_, h6⟩
    rcases h4 with h4 | h4
    · rw [hn x hx] at h4; cases h4
    · exact h4.2
  · intro o sk ek m hcur hno hc h
    rw [receive_eq hcur] at h
    simp only [Message.verifyStep, hc, Res.bind_ok, if_true, Res.bind_eq_ok, Res.ofOpt_eq_ok] at h
    obtain ⟨t, ht, -⟩ := h
    obtain ⟨v, ⟨o', b, k, kid, hv, hk, hb⟩, -⟩ := receiveJws_ok ht
    rcases hk with hk | ⟨-, kid, rfl, hx⟩
    · cases hk
    rcases hb with ⟨m, hm, -⟩ | ⟨-, rfl, j', x, hj', hx', hkid⟩
    · rw [hno] at hm; cases hm
    · obtain rfl : j = j' := by rw [hj] at hj'; exact Option.some.inj hj'
      cases hp : x.protected_ with
      | none => simp [Signature.getKid, Signature.getter, fallback, hn x hx', hp] at hkid
      | some h =>
        refine ⟨x, hx', h, kid, k, o', v, hp, ?_, hx, hv⟩
        simpa [Signature.getKid, Signature.getter, fallback, hn x hx', hp] using hkid.symm

/-! ## C67: the sender is named twice -/

/-- Opening an envelope whose header was made for `m` and whose content is `x`. -/
theorem receive_mixed {P : Prims} (hP : Laws P) {m x : Message} {rs : List Recipient}
    {iv c tag key : Bytes} {o o1 o2 o3 : HOrd} {alg frm : Str} {a : CryptoAlg}
    (hal : m.jwm.alg = some alg) (ha : CryptoAlg.ofStr alg = .ok a)
    (hmj : m.jwm.WF) (hf : HeaderFixed m.jwm) (hx : x.WF P.f64)
    (hc : Avoids x.didcomm.other classKeys) (hj : x.jwm.typ ≠ .jws)
    (hr : ∀ rc ∈ rs, rc.header.WF) (hfl : m.flatJwe = true → rs.length = 1)
    (he : a.encryptor P iv key (utf8 (x.text o1))
        (utf8 (headerB64 o2 (Spec.publicHeader m))) = .ok (c ++ tag))
    (hfrom : m.didcomm.from = some frm) {sk pk : Bytes} {ek vk : Option Bytes}
    (hsk : sk.length = 32) (hpk : pk.length = 32) (hks : KeyFor P frm ek pk)
    (hfk : Message.firstKey P (Spec.envelope m rs iv c tag) sk ek rs = .ok key) :
    Message.receive P o ((Spec.envelope m rs iv c tag).text o3) (some sk) ek vk =
      .ok { x with flatJwe := false, flatJws := false } := by
  have hwf := envelope_wf (m := m) (iv := iv) (c := c) (tag := tag) hmj hr
  have h1 := jwe_ofText_text (F := P.f64) o3 hwf
  have h2 := C55_decrypt_encrypt P hP a (ofStr_ne_cbc ha) _ _ _ _ _ he
  have h3 : Message.ofBytes P.f64 (utf8 (x.text o1)) = some { x with flatJwe := false, flatJws := false } := by
    rw [ofBytes_utf8, ofText_text o1 hx]
  have hdec : ∀ o, Message.decrypt P o (utf8 ((Spec.envelope m rs iv c tag).text o3)) (a.decrypter P) key =
      .ok { x with flatJwe := false, flatJws := false } := by
    intro o
    unfold Message.decrypt
    rw [parseBytes_utf8, parse_jwe, Option.bind_some, decJwe_enc (F := P.f64) o3 hwf]
    simp only [Res.ofOpt_some, Res.bind_ok, Spec.envelope, Jwe.getPayload, Jwe.getIv,
      b64Decode_encode, Res.unwrap_some]
    rw [headerB64_fixed (publicHeader_fixed hf) o o2, h2]
    simp only [Message.plugErr, Res.bind_ok, h3, Res.ofOpt_some]
  have hsk' : (Spec.envelope m rs iv c tag).getSkid = some frm := by rw [envelope_skid, hfrom]
  have hrec : Message.receiveJwe P (o.sub 0) ((Spec.envelope m rs iv c tag).text o3) sk ek =
      .ok ({ x with flatJwe := false, flatJws := false }.text ((o.sub 0).sub 1)) := by
    simp only [Message.receiveJwe, h1, Res.ofOpt_some, Res.bind_ok, envelope_alg hal,
      senderKey_ok hsk' hks, arrayRef32_of hsk, arrayRef32_of hpk, ha, Message.contentKey,
      envelope_recipients hfl, hfk, hdec, Res.pure_eq]
  have hwx : Message.WF P.f64 { x with flatJwe := false, flatJws := false } :=
    ⟨hx.jwm, hx.other, hx.to, hx.recipients, hx.canon, hx.nums, hx.depth⟩
  simp only [Message.receive, Message.decryptStep, messageType_envelope, Res.bind_ok, if_true,
    Res.ofOpt_some, hrec, Message.verifyStep, messageType_text P ((o.sub 0).sub 1) hwx hc, hj,
    if_false, ofText_text ((o.sub 0).sub 1) hwx]

/-- C67, as written, is false: the sender authenticated by the envelope (`skid`, whose key opens the
recipient entry) and the sender named in the message (`from`) need not agree.  For every sender `frm`
with its own key, every recipient key and every message `x`, whatever its `from`, there is an envelope
that names `frm` and is received as `x`. -/
theorem C67_sender_names_agree_violated (P : Prims) (hP : Laws P) (ht : Spec.AeadTotal P)
    (frm : Str) (ssk rsk : Bytes) (hs : ssk.length = 32) (hr : rsk.length = 32) (x : Message)
    (hx : x.WF P.f64) (hc : Avoids x.didcomm.other classKeys) (hj : x.jwm.typ ≠ .jws) (r : Message.SealRand)
    (o : HOrd) (ek vk : Option Bytes) (hks : KeyFor P frm ek (P.x25519Pub ssk)) :
    ∃ t j h, Jwe.ofText P.f64 t = some j ∧ j.protected_ = some h ∧ h.skid = some frm ∧
      j.unprotected = none ∧
      Message.receive P o t (some rsk) ek vk = .ok { x with flatJwe := false, flatJws := false } := by
  let m : Message := ((Message.new []).setFrom frm).asJwe P .xc20p (some [])
  have hal : m.jwm.alg = some c!"ECDH-1PU+XC20PKW" := rfl
  have ha : CryptoAlg.ofStr c!"ECDH-1PU+XC20PKW" = .ok .xc20p := rfl
  have hw : m.jwm.WF := ⟨(by intro k h; cases h), (by intro k h; cases h)⟩
  have hf : HeaderFixed m.jwm := ⟨(by intro k h; cases h), (by intro k h; cases h)⟩
  have hfrom : m.didcomm.from = some frm := rfl
  have hflat : m.flatJwe = false := rfl
  generalize m = m at hal hw hf hfrom hflat
  obtain ⟨rc, hrc⟩ := encryptCek_total (r := r.perRec 0) (cek := cek) (dest := []) hP ht hal (by decide) hs
    (hP.pub_len rsk) (.inl rfl)
  obtain ⟨ct, hct, -⟩ := encryptor_total hP ht ha r.iv (utf8 (x.text HOrd.id))
    (utf8 (headerB64 HOrd.id (Spec.publicHeader m)))
  rw [← List.take_append_drop (ct.length - 16) ct] at hct
  have hrs : ∀ y ∈ [rc], y.header.WF := by
    intro y hy
    rw [List.mem_singleton] at hy
    subst hy
    exact encryptCek_wf hrc
  refine ⟨_, _, _, jwe_ofText_text (F := P.f64) HOrd.id (envelope_wf (m := m) (rs := [rc]) hw hrs), rfl, hfrom, rfl,
    receive_mixed hP hal ha hw hf hx hc hj hrs (by intro h; rw [hflat] at h; cases h) hct hfrom hr
      (hP.pub_len ssk) hks ?_⟩
  refine firstKey_of (i := 0) rfl
    (decryptCek_encryptCek hP hrc hal (envelope_alg hal) (by rw [envelope_skid, hfrom]) hs hr (.inl rfl) hks) ?_
  intro y hy
  cases hy

/-- C67, what holds: envelopes made by `seal` name the same sender in the protected header and in the
message that is received. -/
theorem C67_sender_names_agree_partial (P : Prims) (hP : Laws P) (r : Message.SealRand) (o : HOrd) (m : Message)
    (ssk rsk : Bytes) (rest : List (Option Bytes)) (t frm : Str) (vk : Option Bytes)
    (hm : m.WF P.f64) (hc : Avoids m.didcomm.other classKeys) (hf : HeaderFixed m.jwm)
    (hj : m.jwm.typ ≠ .jws) (hfrom : m.didcomm.from = some frm) (hrk : rsk.length = 32)
    (hseal : m.sealJwe P r ssk (some (some (P.x25519Pub rsk) :: rest)) = .ok t) :
    ∃ j h x, Jwe.ofText P.f64 t = some j ∧ j.protected_ = some h ∧
      Message.receive P o t (some rsk) (some (P.x25519Pub ssk)) vk = .ok x ∧
      h.skid = some frm ∧ x.didcomm.from = some frm := by
  obtain ⟨rs', h⟩ := C16_seal_receive P hP r o m ssk rsk rest t frm vk hm hc hf hj hfrom hrk hseal
  obtain ⟨pks, rs, a, c, tag, alg, hp, hpl, hk, hto, hflat, hrs, hl, hal, ha, he, -, rfl⟩ := seal_ok hseal
  exact ⟨_, _, _, jwe_ofText_text (F := P.f64) _ (envelope_wf hm.jwm (sealRecipients_wf hrs)), rfl, h, hfrom, hfrom⟩

/-! ## C68: the `enc` label -/

/-- C68, as written, is false: the `enc` member of the protected header is not looked at.  For every
label `e` there is a sealed envelope whose protected header says `enc = e`, whose content is encrypted
with the cipher chosen by `alg` alone, and that is received. -/
theorem C68_enc_names_cipher_violated (P : Prims) (hP : Laws P) (ht : Spec.AeadTotal P) (r : Message.SealRand)
    (o : HOrd) (m : Message) (e : Option Str) (alg : Str) (ssk rsk : Bytes) (frm dest : Str) (vk : Option Bytes)
    (hm : m.WF P.f64) (hc : Avoids m.didcomm.other classKeys) (hf : HeaderFixed m.jwm)
    (hj : m.jwm.typ ≠ .jws) (hfrom : m.didcomm.from = some frm) (hto : m.didcomm.to = [dest])
    (hal : m.jwm.alg = some alg) (hsup : alg ∈ Spec.supportedAlgs)
    (hs : ssk.length = 32) (hr : rsk.length = 32) :
    ∃ t j h a iv msg aad c g tag x,
      ({ m with jwm := { m.jwm with enc := e } } : Message).sealJwe P r ssk (some [some (P.x25519Pub rsk)]) = .ok t ∧
      Jwe.ofText P.f64 t = some j ∧ j.protected_ = some h ∧ h.enc = e ∧
      CryptoAlg.ofStr alg = .ok a ∧ j.getIv = .ok iv ∧ j.getPayload = .ok c ∧ j.tag = some g ∧
      b64Decode g = some tag ∧ a.encryptor P iv cek msg aad = .ok (c ++ tag) ∧
      Message.receive P o t (some rsk) (some (P.x25519Pub ssk)) vk = .ok x ∧ x.body = m.body := by
  generalize hm' : ({ m with jwm := { m.jwm with enc := e } } : Message) = m'
  have hw : m'.WF P.f64 := by
    subst hm'
    exact ⟨⟨hm.jwm.1, hm.jwm.2⟩, hm.other, hm.to, hm.recipients, hm.canon, hm.nums, hm.depth⟩
  have hto' : m'.didcomm.to = [dest] := by subst hm'; exact hto
  have hal' : m'.jwm.alg = some alg := by subst hm'; exact hal
  obtain ⟨t, hseal⟩ := C16_seal_total P hP ht r m' ssk (some [some (P.x25519Pub rsk)]) alg hs hw.to
    (by intro l h; rw [← Option.some.inj h, hto']; rfl) (by intro _; rw [hto']; rfl) hal' hsup (by
      intro i d hi
      rw [hto'] at hi
      match i with
      | 0 => exact ⟨_, hP.pub_len _, .inl rfl⟩
      | n + 1 => cases hi)
  obtain ⟨rs', h⟩ := C16_seal_receive P hP r o m' ssk rsk [] t frm vk hw (by subst hm'; exact hc)
    (by subst hm'; exact hf) (by subst hm'; exact hj) (by subst hm'; exact hfrom) hr hseal
  have hseal' := hseal
  obtain ⟨pks, rs, a, c, tag, alg', hp, hpl, hk, -, hflat, hrs, hl, hal2, ha, he, -, rfl⟩ := seal_ok hseal
  obtain rfl : alg = alg' := by rw [hal'] at hal2; exact Option.some.inj hal2
  refine ⟨_, _, _, a, _, _, _, c, _, tag, _, hseal',
    jwe_ofText_text (F := P.f64) _ (envelope_wf hw.jwm (sealRecipients_wf hrs)), rfl, ?_, ha, ?_, ?_, rfl,
    b64Decode_encode _, he, h, ?_⟩
  · subst hm'; rfl
  · simp [Jwe.getIv, Spec.envelope, b64Decode_encode]
  · simp [Jwe.getPayload, Spec.envelope, b64Decode_encode]
  · subst hm'; rfl

/-- Name of the content cipher in `enc`, RFC 7518 and the XChaCha draft. -/
def Spec.contentName : CryptoAlg → Option Str
  | .xc20p => some c!"XC20P"
  | .a256gcm => some c!"A256GCM"
  | .a256cbc => none

/-- C68, what holds: for messages set up with `as_jwe`, the protected header of the sealed envelope
names the cipher the content is encrypted with. -/
theorem C68_enc_names_cipher_partial (P : Prims) (r : Message.SealRand) (m : Message) (a : CryptoAlg)
    (kid : Option Bytes) (ssk : Bytes) (keys : Option (List (Option Bytes))) (t : Str) (hm : m.jwm.WF)
    (hseal : (m.asJwe P a kid).sealJwe P r ssk keys = .ok t) :
    ∃ j h iv msg aad c g tag, Jwe.ofText P.f64 t = some j ∧ j.protected_ = some h ∧
      h.enc = Spec.contentName a ∧ h.enc ≠ none ∧ j.getIv = .ok iv ∧ j.getPayload = .ok c ∧ j.tag = some g ∧
      b64Decode g = some tag ∧ a.encryptor P iv cek msg aad = .ok (c ++ tag) := by
  have hne : a ≠ .a256cbc := by
    rintro rfl
    exact C39_cbc_never_sealed P r m kid ssk keys t hseal
  have hcr := C39_jwe_label P m a hne kid
  obtain ⟨k, hk⟩ := asJwe_eq P m a kid
  have hw : (m.asJwe P a kid).jwm.WF := by
    rw [hk]; cases a <;> exact ⟨hm.1, hm.2⟩
  have henc : (m.asJwe P a kid).jwm.enc = Spec.contentName a ∧ Spec.contentName a ≠ none := by
    rw [hk]
    cases a
    · exact ⟨rfl, by simp [Spec.contentName]⟩
    · exact ⟨rfl, by simp [Spec.contentName]⟩
    · exact absurd rfl hne
  generalize m.asJwe P a kid = m' at hseal hcr hw henc
  obtain ⟨pks, rs, a', c, tag, alg, hp, hpl, -, -, hflat, hrs, hl, hal, ha, he, -, rfl⟩ := seal_ok hseal
  obtain rfl : a = a' := by
    simp only [crypterOfHeader, hal, ha] at hcr
    exact (Res.ok.inj hcr).symm
  refine ⟨_, _, _, _, _, c, _, tag,
    jwe_ofText_text (F := P.f64) _ (envelope_wf hw (sealRecipients_wf hrs)), rfl, henc.1,
    ?_, ?_, ?_, rfl, b64Decode_encode _, he⟩
  · rw [show (Spec.publicHeader m').enc = m'.jwm.enc from rfl, henc.1]; exact henc.2
  · simp [Jwe.getIv, Spec.envelope, b64Decode_encode]
  · simp [Jwe.getPayload, Spec.envelope, b64Decode_encode]

/-- C67, C68: messages and keys meeting the hypotheses. -/
example : Laws (toy fun _ => none) ∧ Spec.AeadTotal (toy fun _ => none) ∧
    KeyFor (toy fun _ => none) c!"did:m:m" (some ((toy fun _ => none).x25519Pub (exampleKey 3)))
      ((toy fun _ => none).x25519Pub (exampleKey 3)) ∧
    exampleMessage.WF (toy fun _ => none).f64 ∧ exampleMessage.didcomm.from ≠ some c!"did:m:m" ∧
    exampleMessage.jwm.alg = some c!"ECDH-1PU+XC20PKW" ∧ exampleMessage.jwm.enc ≠ some c!"A256GCM" :=
  ⟨toy_laws _, toy_total _, .inl rfl, exampleMessage_wf _, by decide, by decide, by decide⟩

end Verif
