import Verif.Lemma.Algo.EdSign
import Verif.Props.Algo
import Verif.Props.Ecdsa

/-!
# C104, C105, C106, C107: EdDSA as the standard has it

`P.signed nonce` are primitives whose signatures are those of RFC 8032 and SEC 1; of `(P.signed nonce).std` only the
resolution of DIDs and the printing of fractional numbers are arbitrary.
-/

namespace Verif

open Spec

/-! ## C104 -/

theorem signed_sign_ed {P : Prims} {nonce : Bytes → Bytes → Nat} (k b : Bytes) :
    (P.signed nonce).sign .edDsa k b = Algo.edSign k b := rfl

theorem signed_verify_ed {P : Prims} {nonce : Bytes → Bytes → Nat} (k b s : Bytes) :
    (P.signed nonce).verify .edDsa k b s = Algo.edVerify k b s := rfl

theorem signer_ed {P : Prims} {nonce : Bytes → Bytes → Nat} {k b s : Bytes} :
    SignAlg.edDsa.signer (P.signed nonce) k b = .ok s ↔ Algo.edSign k b = some s := by
  unfold SignAlg.signer
  rw [Res.ofOpt_eq_ok, signed_sign_ed]

theorem signPair_std {P : Prims} {a : SignAlg} {sk pk : Bytes} (h : SignPair P a sk pk) : SignPair P.std a sk pk := h

/-- C104.  Every secret of 32 bytes, followed by its public key, signs everything, and the signatures are accepted
under that public key. -/
theorem C104_pair (P : Prims) (nonce : Bytes → Bytes → Nat) (sk : Bytes) (hsk : sk.length = 32) :
    SignPair (P.signed nonce) .edDsa (sk ++ edPublic sk) (edPublic sk) := by
  intro b
  obtain ⟨sig, -, h1, h2⟩ := Algo.ed_sign_verify sk b hsk
  refine ⟨sig, ?_, ?_⟩
  · rw [signed_sign_ed]; unfold edPublic; exact h1
  · rw [signed_verify_ed]; unfold edPublic; exact h2

/-- C104.  Every message is signed with such a secret, verifies under its public key and is received with that key,
given or named in `kid`. -/
theorem C104_sign_verify (P : Prims) (nonce : Bytes → Bytes → Nat) (sk : Bytes) (hsk : sk.length = 32) (m : Message)
    (hm : m.WF P.f64) (hf : HeaderFixed m.jwm) (o : HOrd) :
    ∃ t, (m.asJws .edDsa).sign o (SignAlg.edDsa.signer (P.signed nonce)) (sk ++ edPublic sk) = .ok t ∧
      (∀ o', Message.verify (P.signed nonce) o' (utf8 t) (edPublic sk) =
        .ok { m with jwm := JwmHeader.dflt, flatJwe := false, flatJws := false }) ∧
      ∀ o' dk ek vk, (vk = some (edPublic sk) ∨ vk = none ∧ m.jwm.kid = some (hexEncode (edPublic sk))) →
        Message.receive (P.signed nonce) o' t dk ek vk =
          .ok { m with jwm := JwmHeader.dflt, flatJwe := false, flatJws := false } := by
  have hp := C104_pair P nonce sk hsk
  obtain ⟨t, ht, -⟩ := C24_sign_verify (P.signed nonce) .edDsa _ _ hp m hm hf o o
  have hv : ∀ o', Message.verify (P.signed nonce) o' (utf8 t) (edPublic sk) =
      .ok { m with jwm := JwmHeader.dflt, flatJwe := false, flatJws := false } := by
    intro o'
    obtain ⟨t', ht', h⟩ := C24_sign_verify (P.signed nonce) .edDsa _ _ hp m hm hf o o'
    rw [ht] at ht'
    obtain rfl := Res.ok.inj ht'
    exact h
  exact ⟨t, ht, hv, fun o' dk ek vk hvk => receive_signed (P := P.signed nonce) hm ht hv hvk⟩

/-- C104.  Which keys sign: exactly those of 64 bytes whose second half is a point of the curve. -/
theorem C104_keys (P : Prims) (nonce : Bytes → Bytes → Nat) (key b : Bytes) :
    (∃ sig, SignAlg.edDsa.signer (P.signed nonce) key b = .ok sig) ↔ key.length = 64 ∧ EdPoint (key.drop 32) := by
  rw [← Algo.edSign_some (m := b)]
  simp only [signer_ed]

/-! ## C105 -/

/-- The neutral element as a key. -/
theorem edNeutral_read : Algo.edDecompress edNeutral = some (0, 1) := by decide +kernel

/-- C105 fails: under the public key that is the neutral element, which is taken for a key, anybody can sign.  Every
number less than the order gives 64 bytes that are accepted as the signature of every message. -/
theorem C105_neutral_violated (P : Prims) (nonce : Bytes → Bytes → Nat) (s : Nat) (hs : s < Algo.edL) :
    (∀ b, SignAlg.edDsa.validator (P.signed nonce) edNeutral b (edFree s) = .ok true) ∧
    ∀ (m : Message), m.WF P.f64 → HeaderFixed m.jwm → ∀ o, ∃ t,
      (m.asJws .edDsa).sign o (fun _ _ => .ok (edFree s)) [] = .ok t ∧
      (∀ o', Message.verify (P.signed nonce) o' (utf8 t) edNeutral =
        .ok { m with jwm := JwmHeader.dflt, flatJwe := false, flatJws := false }) ∧
      ∀ o' dk ek vk, (vk = some edNeutral ∨ vk = none ∧ m.jwm.kid = some (hexEncode edNeutral)) →
        Message.receive (P.signed nonce) o' t dk ek vk =
          .ok { m with jwm := JwmHeader.dflt, flatJwe := false, flatJws := false } := by
  have hv : ∀ b, (P.signed nonce).verify .edDsa edNeutral b (edFree s) = some true := fun b => by
    rw [signed_verify_ed]
    unfold edFree
    exact Algo.ed_weak edNeutral_read Algo.estands_zero (n := 1) (by simp) hs b (Nat.mod_one _)
  refine ⟨fun b => ?_, fun m hm hf o => ?_⟩
  · unfold SignAlg.validator
    rw [hv]
    rfl
  · have hw : (m.asJws .edDsa).WF P.f64 := ⟨hm.jwm, hm.other, hm.to, hm.recipients, hm.canon, hm.nums, hm.depth⟩
    obtain ⟨hal, alg, ha, hofs⟩ := signName (a := .edDsa) (h := m.jwm)
    have ht := sign_of (o := o) (m := m.asJws .edDsa) (signer := fun _ _ => .ok (edFree s)) (key := [])
      (sig := edFree s) hal rfl
    have hver : ∀ o', Message.verify (P.signed nonce) o' (utf8 ((Spec.jwsOf (m.asJws .edDsa)
        (Spec.payloadText (o.sub 1) (m.asJws .edDsa)) (edFree s)).text (o.sub 2))) edNeutral =
        .ok { m with jwm := JwmHeader.dflt, flatJwe := false, flatJws := false } := fun o' =>
      verify_signed (P := P.signed nonce) (a := .edDsa) (fun {b s'} h => by
        obtain rfl := Res.ok.inj h
        exact hv b) hw hf ha hofs ht o'
    exact ⟨_, ht, hver, fun o' dk ek vk hvk => receive_signed (P := P.signed nonce) hm ht hver hvk⟩

/-- C105 holds for public keys that belong to a secret: a signature that is accepted for two messages makes the
hashes of both, with the signature and the key before them, agree modulo the order. -/
theorem C105_bound_partial (P : Prims) (nonce : Bytes → Bytes → Nat) (sk b b' sig : Bytes)
    (h : SignAlg.edDsa.validator (P.signed nonce) (edPublic sk) b sig = .ok true)
    (h' : SignAlg.edDsa.validator (P.signed nonce) (edPublic sk) b' sig = .ok true) :
    Algo.leNat (Algo.sha512 (sig.take 32 ++ edPublic sk ++ b)) % Algo.edL =
      Algo.leNat (Algo.sha512 (sig.take 32 ++ edPublic sk ++ b')) % Algo.edL := by
  unfold SignAlg.validator at h h'
  rw [Res.ofOpt_eq_ok, signed_verify_ed] at h h'
  have := Algo.edVerify_message h h'
  unfold Algo.edHash at this
  exact this

/-- C103 holds for EdDSA: under every key, be it weak or not, to a message and a first half there is at most one second
half that is accepted. -/
theorem C103_eddsa_partial (P : Prims) (nonce : Bytes → Bytes → Nat) (pk b sig sig' : Bytes)
    (h : SignAlg.edDsa.validator (P.signed nonce) pk b sig = .ok true)
    (h' : SignAlg.edDsa.validator (P.signed nonce) pk b sig' = .ok true) (he : sig.take 32 = sig'.take 32) :
    sig = sig' := by
  unfold SignAlg.validator at h h'
  rw [Res.ofOpt_eq_ok, signed_verify_ed] at h h'
  exact Algo.edVerify_unique h h' he

/-! ## C106 -/

/-- C106 fails: the public half of the key is not compared with the secret.  Whoever sees one message signed with one
secret and two public halves computes a number with which texts are made, for every message, that verify under the
public key of the secret. -/
theorem C106_halves_violated (P : Prims) (nonce : Bytes → Bytes → Nat) (sk pk pk' : Bytes) (hsk : sk.length = 32)
    (hp : EdPoint pk) (hp' : EdPoint pk') (b : Bytes) :
    ∃ sig sig', SignAlg.edDsa.signer (P.signed nonce) (sk ++ pk) b = .ok sig ∧
      SignAlg.edDsa.signer (P.signed nonce) (sk ++ pk') b = .ok sig' ∧ sig.take 32 = sig'.take 32 ∧
      (Algo.edHash (sig.take 32 ++ pk ++ b) ≠ Algo.edHash (sig'.take 32 ++ pk' ++ b) →
        ∀ (r : Nat), r < Algo.edL → ∀ (m : Message), m.WF P.f64 → HeaderFixed m.jwm → ∀ o, ∃ t,
          (m.asJws .edDsa).sign o (fun _ x => .ok (edForge (edRecover pk pk' b sig sig') (edPublic sk) r x)) [] = .ok t ∧
          ∀ o', Message.verify (P.signed nonce) o' (utf8 t) (edPublic sk) =
            .ok { m with jwm := JwmHeader.dflt, flatJwe := false, flatJws := false }) := by
  have hex : ∀ {pk}, EdPoint pk → ∃ a, Algo.edDecompress pk = some a := fun h => Algo.edDecompress_some.2 h
  obtain ⟨a, ha⟩ := hex hp
  obtain ⟨a', ha'⟩ := hex hp'
  have h1 := Algo.edSign_eq hsk ha b
  have h2 := Algo.edSign_eq hsk ha' b
  have hl := Algo.edCompress_len (Algo.edMul (Algo.edHash ((Algo.sha512 sk).drop 32 ++ b)) Algo.edBase)
  have h3 := (List.take_left' (l₂ := Algo.leBytes 32 ((Algo.edHash ((Algo.sha512 sk).drop 32 ++ b) +
        Algo.edHash (Algo.edCompress (Algo.edMul (Algo.edHash ((Algo.sha512 sk).drop 32 ++ b)) Algo.edBase) ++ pk ++ b) *
          Algo.edScalar sk) % Algo.edL)) hl).trans
    (List.take_left' (l₂ := Algo.leBytes 32 ((Algo.edHash ((Algo.sha512 sk).drop 32 ++ b) +
        Algo.edHash (Algo.edCompress (Algo.edMul (Algo.edHash ((Algo.sha512 sk).drop 32 ++ b)) Algo.edBase) ++ pk' ++ b) *
          Algo.edScalar sk) % Algo.edL)) hl).symm
  generalize Algo.edCompress (Algo.edMul (Algo.edHash ((Algo.sha512 sk).drop 32 ++ b)) Algo.edBase) ++
    Algo.leBytes 32 ((Algo.edHash ((Algo.sha512 sk).drop 32 ++ b) +
        Algo.edHash (Algo.edCompress (Algo.edMul (Algo.edHash ((Algo.sha512 sk).drop 32 ++ b)) Algo.edBase) ++ pk ++ b) *
          Algo.edScalar sk) % Algo.edL) = sig at h1 h3
  generalize Algo.edCompress (Algo.edMul (Algo.edHash ((Algo.sha512 sk).drop 32 ++ b)) Algo.edBase) ++
    Algo.leBytes 32 ((Algo.edHash ((Algo.sha512 sk).drop 32 ++ b) +
        Algo.edHash (Algo.edCompress (Algo.edMul (Algo.edHash ((Algo.sha512 sk).drop 32 ++ b)) Algo.edBase) ++ pk' ++ b) *
          Algo.edScalar sk) % Algo.edL) = sig' at h2 h3
  refine ⟨sig, sig', ?_, ?_, h3, ?_⟩
  · exact signer_ed.2 h1
  · exact signer_ed.2 h2
  · intro hne r hr m hm hf o
    have he := Algo.ed_recover hsk h1 h2 hne
    generalize edRecover pk pk' b sig sig' = e at he ⊢
    have hw : (m.asJws .edDsa).WF P.f64 := ⟨hm.jwm, hm.other, hm.to, hm.recipients, hm.canon, hm.nums, hm.depth⟩
    obtain ⟨hal, alg, hal', hofs⟩ := signName (a := .edDsa) (h := m.jwm)
    have ht := sign_of (o := o) (m := m.asJws .edDsa) (key := []) (signer := fun _ x =>
      .ok (edForge e (edPublic sk) r x)) hal rfl
    refine ⟨_, ht, fun o' => ?_⟩
    refine verify_signed (P := P.signed nonce) (a := .edDsa) (fun {b s'} h => ?_) hw hf hal' hofs ht o'
    obtain rfl := Res.ok.inj h
    rw [signed_verify_ed]
    exact Algo.ed_forge he hr b

/-- What remains of C106: a signature made with another public half is refused under the public key of the secret,
unless the hashes agree modulo the order. -/
theorem C106_refused_partial (P : Prims) (nonce : Bytes → Bytes → Nat) (sk pk b sig : Bytes) (hsk : sk.length = 32)
    (h : SignAlg.edDsa.signer (P.signed nonce) (sk ++ pk) b = .ok sig) :
    SignAlg.edDsa.validator (P.signed nonce) (edPublic sk) b sig = .ok true ↔
      Algo.edHash (sig.take 32 ++ pk ++ b) = Algo.edHash (sig.take 32 ++ edPublic sk ++ b) := by
  unfold SignAlg.validator
  rw [Res.ofOpt_eq_ok, signed_verify_ed]
  exact Algo.ed_mismatch hsk (signer_ed.1 h)

/-! ## C107 -/

/-- C107.  With the standard algorithms throughout, nothing assumed of them: a message for recipients whose public keys
belong to the private keys `rsk :: rsks` is signed with a secret and sealed, and the first recipient reads what
the sender wrote, with the public key of the secret given or named in `kid`. -/
theorem C107_seal_signed (P : Prims) (nonce : Bytes → Bytes → Nat) (hf : ∀ {t u}, P.f64 t = some u → NumTok u)
    (r : Message.SealRand) (o o' : HOrd) (m : Message) (sk ssk rsk : Bytes) (rsks : List Bytes) (alg frm : Str)
    (vk : Option Bytes) (hm : m.WF P.f64) (hc : Avoids m.didcomm.other classKeys) (hh : HeaderFixed m.jwm)
    (hfrom : m.didcomm.from = some frm) (hal : m.jwm.alg = some alg) (hs : alg ∈ Spec.supportedAlgs)
    (hflat : m.flatJwe = true → m.didcomm.to.length = 1) (hlen : m.didcomm.to.length = rsks.length + 1)
    (hsk : sk.length = 32) (hssk : ssk.length = 32) (hrsk : rsk.length = 32)
    (hvk : vk = some (edPublic sk) ∨ vk = none ∧ m.jwm.kid = some (hexEncode (edPublic sk))) :
    ∃ t, m.sealSigned (P.signed nonce).std r o ssk (some ((rsk :: rsks).map fun k => some (P.std.x25519Pub k)))
        .edDsa (sk ++ edPublic sk) = .ok t ∧
      Message.receive (P.signed nonce).std o' t (some rsk) (some (P.std.x25519Pub ssk)) vk =
        .ok { m with jwm := JwmHeader.dflt, flatJwe := false, flatJws := false } := by
  have hl : Laws (P.signed nonce).std := std_laws (P.signed nonce) hf
  have hp : SignPair (P.signed nonce).std .edDsa (sk ++ edPublic sk) (edPublic sk) :=
    signPair_std (C104_pair P nonce sk hsk)
  have hkey : ∀ i (hi : i < (rsk :: rsks).length),
      Spec.keyAt (some ((rsk :: rsks).map fun k => some (P.std.x25519Pub k))) i =
        some (P.std.x25519Pub (rsk :: rsks)[i]) := by
    intro i hi
    simp only [Spec.keyAt, List.getElem?_map, List.getElem?_eq_getElem hi, Option.map_some, Option.getD_some]
  obtain ⟨t, ht⟩ := C28_total (P.signed nonce).std hl (std_total (P.signed nonce)) r o m ssk
    (some ((rsk :: rsks).map fun k => some (P.std.x25519Pub k))) alg .edDsa _ _ hp hssk
    (by intro h; rw [h] at hlen; cases hlen) (by intro l hl'; rw [← Option.some.inj hl']; simp [hlen]) hflat hal hs (by
      intro i dest hi
      have hi' : i < (rsk :: rsks).length := by
        have := (List.getElem?_eq_some_iff.1 hi).1
        simpa [hlen] using this
      exact ⟨_, hl.pub_len _, .inl (hkey i hi')⟩)
  refine ⟨t, ht, ?_⟩
  obtain ⟨j, rs, -, -, -, h⟩ := C28_seal_signed (P.signed nonce).std hl r o m ssk _ t frm .edDsa _ _ hp hm hc hh hfrom ht
  obtain ⟨dest, l, hto⟩ := List.exists_cons_of_ne_nil (show m.didcomm.to ≠ [] from hm.to)
  exact h 0 dest rsk _ vk o' (by rw [hto]; rfl) hrsk (.inl (hkey 0 (by simp))) (.inl rfl) (by simp) hvk

/-! ## Examples -/

/-- The secret of RFC 8032, section 7.1, test 2. -/
def rfcSecret : Bytes := Algo.beBytes 32 0x4ccd089b28ff96da9db6c346ec114e0f5b8a319f35aba624da8cf6ed4fb8a6fb

/-- The public key of RFC 8032, section 7.1, test 2. -/
def rfcPoint : Bytes := Algo.beBytes 32 0x3d4017c3e843895a92b70aa74d1b7ebc9c982ccf2ec4968cc0cd55f12af4660c

/-- The signature of RFC 8032, section 7.1, test 2. -/
def rfcEdSig : Bytes :=
  Algo.beBytes 64 0x92a009a9f0d4cab8720e820b5f642540a2b27b5416503f8fb3762223ebdb69da085ac1e43e15996e458f3613d0f11d8c387b2eaeb4302aeeb00d291612bb0c00

/-- The public key of RFC 8032, section 7.1, test 2, comes out. -/
theorem rfcPoint_eq : edPublic rfcSecret = rfcPoint := by decide +kernel

/-- The signature of RFC 8032, section 7.1, test 2, comes out. -/
theorem rfcEdSig_eq : Algo.edSign (rfcSecret ++ rfcPoint) [0x72] = some rfcEdSig := by decide +kernel

/-- C104: a message to which the theorems apply. -/
example (P : Prims) (nonce : Bytes → Bytes → Nat) (hm : richMessage.WF P.f64) : rfcSecret.length = 32 ∧ ∃ t,
    (richMessage.asJws .edDsa).sign HOrd.id (SignAlg.edDsa.signer (P.signed nonce)) (rfcSecret ++ edPublic rfcSecret) = .ok t ∧
    Message.verify (P.signed nonce) HOrd.rev (utf8 t) (edPublic rfcSecret) = .ok richMessage := by
  refine ⟨rfl, ?_⟩
  obtain ⟨t, h1, h2, -⟩ := C104_sign_verify P nonce rfcSecret rfl richMessage hm
    ⟨(by intro k h; cases h), (by intro k h; cases h)⟩ HOrd.id
  exact ⟨t, h1, h2 _⟩

/-- C104: keys that are taken and keys that are not, as the second half is no point, or is missing. -/
example : EdPoint edNeutral ∧ ¬EdPoint (2 :: List.replicate 31 0) ∧ ¬EdPoint [] := by
  refine ⟨Algo.edDecompress_some.1 ⟨_, edNeutral_read⟩, ?_, fun h => by cases h.1⟩
  rw [← Algo.edDecompress_some]
  rintro ⟨a, h⟩
  rw [show Algo.edDecompress (2 :: List.replicate 31 0) = none by decide +kernel] at h
  cases h

/-- C105: one signature for two messages, and a message that is received under the weak key. -/
example (P : Prims) (nonce : Bytes → Bytes → Nat) (hm : richMessage.WF P.f64) :
    SignAlg.edDsa.validator (P.signed nonce) edNeutral [1] (edFree 7) = .ok true ∧
    SignAlg.edDsa.validator (P.signed nonce) edNeutral [2] (edFree 7) = .ok true ∧
    ∃ t, Message.receive (P.signed nonce) HOrd.rev t none none (some edNeutral) = .ok richMessage := by
  obtain ⟨h1, h2⟩ := C105_neutral_violated P nonce 7 (by decide)
  obtain ⟨t, -, -, h⟩ := h2 richMessage hm ⟨(by intro k h; cases h), (by intro k h; cases h)⟩ HOrd.id
  exact ⟨h1 _, h1 _, t, h _ _ _ _ (.inl rfl)⟩

/-- C105, C103: signatures to which the theorems apply. -/
example (P : Prims) (nonce : Bytes → Bytes → Nat) (b : Bytes) : ∃ sig, sig.length = 64 ∧
    SignAlg.edDsa.validator (P.signed nonce) (edPublic rfcSecret) b sig = .ok true := by
  obtain ⟨sig, hl, -, h⟩ := Algo.ed_sign_verify rfcSecret b rfl
  refine ⟨sig, hl, ?_⟩
  unfold SignAlg.validator edPublic
  rw [Res.ofOpt_eq_ok, signed_verify_ed]
  exact h

/-- C106: signatures with which the secret is computed, and a text made with it. -/
example (P : Prims) (nonce : Bytes → Bytes → Nat) (hm : richMessage.WF P.f64) : ∃ sig sig' t,
    SignAlg.edDsa.signer (P.signed nonce) (rfcSecret ++ edPublic rfcSecret) [0x72] = .ok sig ∧
    SignAlg.edDsa.signer (P.signed nonce) (rfcSecret ++ edNeutral) [0x72] = .ok sig' ∧
    (richMessage.asJws .edDsa).sign HOrd.id (fun _ x =>
      .ok (edForge (edRecover (edPublic rfcSecret) edNeutral [0x72] sig sig') (edPublic rfcSecret) 5 x)) [] = .ok t ∧
    Message.verify (P.signed nonce) HOrd.id (utf8 t) (edPublic rfcSecret) = .ok richMessage ∧
    SignAlg.edDsa.validator (P.signed nonce) (edPublic rfcSecret) [0x72] sig' ≠ .ok true := by
  have hp : EdPoint (edPublic rfcSecret) := Algo.edDecompress_some.1 ⟨_, by
    obtain ⟨G, hG, -⟩ := Algo.exists_edBase
    exact Algo.estands_read (Algo.edPublic_stands hG rfcSecret)⟩
  have hn : EdPoint edNeutral := Algo.edDecompress_some.1 ⟨_, edNeutral_read⟩
  have h := C106_halves_violated P nonce rfcSecret (edPublic rfcSecret) edNeutral rfl hp hn [0x72]
  obtain ⟨sig, sig', h1, h2, h3, h4⟩ := h
  have hs : Algo.edSign (rfcSecret ++ edPublic rfcSecret) [0x72] = some sig := signer_ed.1 h1
  have hne : Algo.edHash (sig.take 32 ++ edPublic rfcSecret ++ [0x72]) ≠ Algo.edHash (sig'.take 32 ++ edNeutral ++ [0x72]) := by
    rw [rfcPoint_eq, rfcEdSig_eq] at hs
    obtain rfl := Option.some.inj hs
    rw [← h3, rfcPoint_eq]
    decide +kernel
  obtain ⟨t, h5, h6⟩ := h4 hne 5 (by decide) richMessage hm ⟨(by intro k h; cases h), (by intro k h; cases h)⟩ HOrd.id
  refine ⟨sig, sig', t, h1, h2, h5, h6 _, fun h => hne ?_⟩
  have := (C106_refused_partial P nonce rfcSecret edNeutral [0x72] sig' rfl h2).1 h
  rw [this, h3]

/-- C107: a message to which the theorem applies. -/
example (nonce : Bytes → Bytes → Nat) : ∃ t, exampleMessage.sealSigned ((toy fun _ => none).signed nonce).std exampleRand
      HOrd.id (exampleKey 3) (some [some ((toy fun _ => none).std.x25519Pub (exampleKey 1)),
        some ((toy fun _ => none).std.x25519Pub (exampleKey 2))]) .edDsa (rfcSecret ++ edPublic rfcSecret) = .ok t ∧
    Message.receive ((toy fun _ => none).signed nonce).std HOrd.rev t (some (exampleKey 1))
      (some ((toy fun _ => none).std.x25519Pub (exampleKey 3))) (some (edPublic rfcSecret)) = .ok richMessage :=
  C107_seal_signed (toy fun _ => none) nonce (toy_laws fun _ => none).f64_tok exampleRand HOrd.id HOrd.rev exampleMessage
    rfcSecret (exampleKey 3) (exampleKey 1) [exampleKey 2] c!"ECDH-1PU+XC20PKW" c!"did:e:f" _ (exampleMessage_wf _)
    (by decide) ⟨(by intro k h; cases h), (by intro k h; cases h)⟩ rfl rfl (by decide) (by intro h; cases h) rfl rfl
    (by decide) (by decide) (.inl rfl)

end Verif
