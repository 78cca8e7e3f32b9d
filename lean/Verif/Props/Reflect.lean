import Verif.Props.Raw
import Verif.Props.Weak
import Verif.Props.Wrong

/-!
# Envelopes sent back to their sender

C142.
-/

namespace Verif

open Spec

/-- What is read from the text as an envelope has no recipient entries. -/
def Spec.NoEntries (P : Prims) (t : Str) : Prop :=
  ∀ j, Jwe.ofText P.f64 t = some j → j.recipients = none ∧ j.recipient = none

/-- C142, as written, is false: with an envelope that has no recipient entries, each of two parties that takes the other
for the sender gets the same result. -/
theorem C142_reflected_violated (P : Prims) (hP : Laws P) (o : HOrd) (t : Str) (hn : NoEntries P t) (a b : Bytes)
    (ha : a.length = 32) (hb : b.length = 32) (vk : Option Bytes) :
    Message.receive P o t (some a) (some (P.x25519Pub b)) vk =
      Message.receive P o t (some b) (some (P.x25519Pub a)) vk := by
  have key : ∀ o, Message.receiveJwe P o t a (some (P.x25519Pub b)) = Message.receiveJwe P o t b (some (P.x25519Pub a)) := by
    intro o
    unfold Message.receiveJwe
    cases hj : Jwe.ofText P.f64 t with
    | none => rfl
    | some j =>
      have hr : Message.recipientsOf j = none := by
        rw [Message.recipientsOf, (hn j hj).1, (hn j hj).2]
        rfl
      simp only [Res.ofOpt_some, Res.bind_ok, Message.senderKey, arrayRef32_of ha, arrayRef32_of hb,
        arrayRef32_of (hP.pub_len _), Message.contentKey, hr, hP.dh ha hb]
  simp only [Message.receive, Message.decryptStep, Res.ofOpt_some, Res.bind_ok, key]

/-- C142, as written, is false: what one party encrypts for another under their shared secret is accepted by itself as
coming from the other. -/
theorem C142_own_violated (P : Prims) (hP : Laws P) (m : Message) (o o' : HOrd) (iv : Iv) (ssk rsk : Bytes)
    (a : CryptoAlg) (alg frm t : Str) (vk : Option Bytes) (hm : m.WF P.f64) (hc : Avoids m.didcomm.other classKeys)
    (hf : HeaderFixed m.jwm) (hj : m.jwm.typ ≠ .jws) (hrec : m.recipients = none) (hal : m.jwm.alg = some alg)
    (ha : CryptoAlg.ofStr alg = .ok a) (hfrom : m.didcomm.from = some frm) (hs : ssk.length = 32) (hrk : rsk.length = 32)
    (h : m.encrypt o iv (a.encryptor P) (P.x25519 ssk (P.x25519Pub rsk)) = .ok t) :
    Message.receive P o' t (some ssk) (some (P.x25519Pub rsk)) vk =
      .ok { m with flatJwe := false, flatJws := false } :=
  C85_shared_secret P hP m o o' iv rsk ssk a alg frm t _ vk hm hc hf hj hrec hal ha hfrom hrk hs (.inl rfl)
    (hP.dh hs hrk ▸ h)

theorem pub_onCurve (P : Prims) (e : Bytes) : OnCurve (P.std.x25519Pub e) := by
  rw [← onCurve_iff]
  obtain ⟨G, hG⟩ := Algo.base_point
  have hc : ((Algo.uCoord (P.std.x25519Pub e) : ℕ) : Algo.Fp) = Algo.xc (Algo.clamp e • G) := by
    rw [← Algo.cast_montMul hG (Algo.clamp_lt e), uCoord_cast, keyNumber, ofDigits_eq]
    have h1 := Algo.montMul_lt (Algo.clamp e) 9
    have h2 : Algo.p25519 < 2 ^ 255 := by decide
    show ((Algo.leNat (Algo.leBytes 32 (Algo.montMul (Algo.clamp e) 9)) % 2 ^ 255 : ℕ) : Algo.Fp) = _
    have h3 : (256 : ℕ) ^ 32 = 2 ^ 256 := by decide
    rw [Algo.leNat_leBytes, h3, Nat.mod_eq_of_lt (a := Algo.montMul _ _), Nat.mod_eq_of_lt]
    · omega
    · omega
  rw [hc]
  generalize Algo.clamp e • G = D
  match D with
  | .zero => exact ⟨0, by rw [Algo.xc]; simp [Algo.rhs]⟩
  | .some x y h =>
    have he := (WeierstrassCurve.Affine.equation_iff ..).1 h.1
    exact ⟨y, by rw [Algo.rhs]; simp only [Algo.xc]; simp only [Algo.mont] at he; linear_combination -he⟩

/-- C142.  What holds of sealed messages, with X25519 as standardised: the key-encryption key of an entry is derived by its
sender from other bytes than by the same party reading the entry as coming from the recipient, unless the two have the same
public key.  This holds whatever the ephemeral key `e`. -/
theorem C142_derived_partial (P : Prims) (e a b : Bytes) (alg : Str) (x : Bytes)
    (hs : kdfInput (P.std.x25519 e (P.std.x25519Pub b) ++ P.std.x25519 a (P.std.x25519Pub b)) alg none none = .ok x)
    (hr : kdfInput (P.std.x25519 a (P.std.x25519Pub e) ++ P.std.x25519 a (P.std.x25519Pub b)) alg none none = .ok x) :
    P.std.x25519Pub a = P.std.x25519Pub b := by
  have hl : ∀ k pk, (P.std.x25519 k pk).length = 32 := fun k pk => Algo.leBytes_length ..
  obtain ⟨h, -⟩ := C38_injective _ _ (by simp [hl]) _ _ _ _ _ _ _ hs hr
  have h1 := (List.append_inj h (by rw [hl, hl])).1
  rw [C98_same_secret] at h1
  have hw : ¬ WeakKey (P.std.x25519Pub e) := fun hw =>
    C99_weak_partial P a e ((C132_zero P a _).2 hw)
  rw [C98_same_public]
  rcases (C132_secrets P b a _ hw).1 h1 with h | ⟨-, h⟩ | ⟨hn, -⟩
  · exact .inl h.symm
  · exact .inr (by omega)
  · exact absurd (pub_onCurve P e) hn

/-- C142.  What holds of sealed messages: the sender who gets its own message back and takes it for one of the recipient gets
an error, if what is wrapped under the key it derived for an entry is rejected under the key it derives on reading. -/
theorem C142_sealed_partial (P : Prims) (hP : Laws P) (r : Message.SealRand) (m : Message) (hw : m.jwm.WF)
    (ssk rsk : Bytes) (keys : Option (List (Option Bytes))) (t frm : Str) (hfrom : m.didcomm.from = some frm)
    (hseal : m.sealJwe P r ssk keys = .ok t) (vk : Option Bytes) (o : HOrd) (hs : ssk.length = 32)
    (hcl : ∀ i, Spec.EntryClosed P r m ssk keys ssk (P.x25519Pub rsk) i) :
    Message.receive P o t (some ssk) (some (P.x25519Pub rsk)) vk = .err (.generic "could not decrypt cek") :=
  C89_wrong_key P hP r m hw ssk keys t frm hfrom hseal ssk _ _ vk o hs (hP.pub_len _) (.inl rfl) hcl

/-! ## The hypotheses can be met -/

/-- C142: the sender (`exampleKey 3`) encrypts for the recipient (`exampleKey 1`) an envelope that has no entries, and
accepts it itself as the recipient's. -/
example : ∃ t, exampleMessage.encrypt HOrd.id exampleRand.iv (CryptoAlg.xc20p.encryptor (toy fun _ => none))
      ((toy fun _ => none).x25519 (exampleKey 3) ((toy fun _ => none).x25519Pub (exampleKey 1))) = .ok t ∧
    NoEntries (toy fun _ => none) t ∧
    Message.receive (toy fun _ => none) HOrd.rev t (some (exampleKey 3))
      (some ((toy fun _ => none).x25519Pub (exampleKey 1))) none = .ok exampleMessage := by
  have hl := toy_laws fun _ => none
  let key := (toy fun _ => none).x25519 (exampleKey 3) ((toy fun _ => none).x25519Pub (exampleKey 1))
  have hkey : key.length = 32 := hl.dh_len _ _
  have hfix : HeaderFixed exampleMessage.jwm := ⟨(by intro k h; cases h), (by intro k h; cases h)⟩
  have hout : rawOutput exampleMessage HOrd.id exampleRand.iv.1 (CryptoAlg.xc20p.encryptor (toy fun _ => none)) key =
      .ok (utf8 (exampleMessage.text (HOrd.id.sub 1)) ++ toyTag key exampleRand.iv.1
        (utf8 (headerB64 (HOrd.id.sub 0) (rawHeader exampleMessage))) (utf8 (exampleMessage.text (HOrd.id.sub 1)))) := by
    simp [rawOutput, CryptoAlg.encryptor, checkNonce, fromSlice, exampleRand.iv.2, hkey, toy, toyEnc]
  have henc := ((((C83_encrypt_outcomes exampleMessage HOrd.id exampleRand.iv
    (CryptoAlg.xc20p.encryptor (toy fun _ => none)) key).2 (by intro _; decide)).2.2.2 _ _ hout
      (toyTag_length _ _ _ _)).2 (by intro h; cases h))
  refine ⟨_, henc, ?_, C142_own_violated _ hl exampleMessage HOrd.id HOrd.rev exampleRand.iv (exampleKey 3) (exampleKey 1)
    .xc20p c!"ECDH-1PU+XC20PKW" c!"did:e:f" _ none (exampleMessage_wf _) (by decide) hfix (by decide) rfl rfl
    (by decide) rfl (by decide) (by decide) henc⟩
  obtain ⟨c, tag, -, -, -, -, h⟩ := encrypt_ok henc
  have hm := exampleMessage_wf fun _ => none
  intro j hj
  rw [h, jwe_ofText_text (F := (toy fun _ => none).f64) (HOrd.id.sub 2)
    (rawEnvelope_wf (m := exampleMessage) (iv := exampleRand.iv.1) (c := c) (tag := tag) hm.jwm hm.recipients)] at hj
  rw [← Option.some.inj hj]
  exact ⟨rfl, rfl⟩

/-- C142: two private keys with different public keys, an ephemeral key, and the input of the derivation. -/
example (P : Prims) : (∃ x, kdfInput (P.std.x25519 (exampleKey 2) (P.std.x25519Pub (8 :: List.replicate 31 1)) ++
      P.std.x25519 (exampleKey 1) (P.std.x25519Pub (8 :: List.replicate 31 1))) c!"ECDH-1PU+XC20PKW" none none = .ok x) ∧
    P.std.x25519Pub (exampleKey 1) ≠ P.std.x25519Pub (8 :: List.replicate 31 1) := by
  refine ⟨⟨_, rfl⟩, fun h => ?_⟩
  have := (C98_same_public P _ _).1 h
  revert this
  decide +kernel

theorem reflected_closed (i : Nat) : Spec.EntryClosed (toy fun _ => none) exampleRand exampleMessage otherKey
    (some [some ((toy fun _ => none).x25519Pub (exampleKey 1)), some ((toy fun _ => none).x25519Pub (exampleKey 2))])
    otherKey ((toy fun _ => none).x25519Pub (exampleKey 1)) i := by
  intro dest alg rpk k k' hd halg hr hk hk'
  obtain rfl : c!"ECDH-1PU+XC20PKW" = alg := Option.some.inj halg
  match i with
  | 0 =>
    obtain rfl := keyFor_unique (.inl rfl) hr
    rw [← Res.ok.inj hk, ← Res.ok.inj hk']
    exact toy_rejects (by decide +kernel)
  | 1 =>
    obtain rfl := keyFor_unique (.inl rfl) hr
    rw [← Res.ok.inj hk, ← Res.ok.inj hk']
    exact toy_rejects (by decide +kernel)
  | n + 2 => cases hd

/-- C142: a message sealed for two recipients, sent back to its sender. -/
example : ∃ t, exampleMessage.sealJwe (toy fun _ => none) exampleRand otherKey
      (some [some ((toy fun _ => none).x25519Pub (exampleKey 1)),
        some ((toy fun _ => none).x25519Pub (exampleKey 2))]) = .ok t ∧
    Message.receive (toy fun _ => none) HOrd.rev t (some otherKey)
      (some ((toy fun _ => none).x25519Pub (exampleKey 1))) none = .err (.generic "could not decrypt cek") := by
  have hl := toy_laws fun _ => none
  obtain ⟨t, ht⟩ := C16_seal_total (toy fun _ => none) hl (toy_total _) exampleRand exampleMessage
    otherKey (some [some ((toy fun _ => none).x25519Pub (exampleKey 1)),
        some ((toy fun _ => none).x25519Pub (exampleKey 2))]) c!"ECDH-1PU+XC20PKW" (by decide) (by decide)
    (by intro l hl; rw [← Option.some.inj hl]; rfl) (by intro h; cases h) rfl (by decide) (by
      intro i dest hi
      match i with
      | 0 => exact ⟨_, hl.pub_len _, .inl rfl⟩
      | 1 => exact ⟨_, hl.pub_len _, .inl rfl⟩
      | n + 2 => cases hi)
  exact ⟨t, ht, C142_sealed_partial _ hl exampleRand exampleMessage (exampleMessage_wf fun _ => none).jwm _ _ _ t _ rfl ht
    none HOrd.rev (by decide) reflected_closed⟩

end Verif
