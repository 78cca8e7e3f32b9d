import Verif.Lemma.Algo.EdKeys
import Verif.Props.EcdsaOwner
import Verif.Props.EdDsa

/-!
# C124: which keys an EdDSA signature is of

As in C105, EdDSA is that of RFC 8032 with the checks of the libraries.
-/

namespace Verif

open Spec

theorem edNeutrals_read : ∀ pk ∈ edNeutrals, Algo.edDecompress pk = some (0, 1) := by decide +kernel

/-- C124 fails: there are four public keys, all of them taken, that accept one signature for every input. -/
theorem C124_violated (P : Prims) (nonce : Bytes → Bytes → Nat) (s : Nat) (hs : s < Algo.edL) :
    edNeutrals.Nodup ∧ edNeutrals.length = 4 ∧
      ∀ pk ∈ edNeutrals, ∀ b, SignAlg.edDsa.validator (P.signed nonce) pk b (edFree s) = .ok true := by
  refine ⟨by decide +kernel, rfl, fun pk hpk b => validator_iff.2 ?_⟩
  rw [signed_verify_ed]
  unfold edFree
  exact Algo.ed_weak (edNeutrals_read pk hpk) Algo.estands_zero (n := 1) (by simp) hs b (Nat.mod_one _)

/-- C124 fails for messages: to every message there is a signed text that verifies and is received under each of the four
keys. -/
theorem C124_messages_violated (P : Prims) (nonce : Bytes → Bytes → Nat) (s : Nat) (hs : s < Algo.edL) (m : Message)
    (hm : m.WF P.f64) (hf : HeaderFixed m.jwm) (o : HOrd) : ∃ t,
      (m.asJws .edDsa).sign o (fun _ _ => .ok (edFree s)) [] = .ok t ∧ ∀ pk ∈ edNeutrals,
        (∀ o', Message.verify (P.signed nonce) o' (utf8 t) pk =
          .ok { m with jwm := JwmHeader.dflt, flatJwe := false, flatJws := false }) ∧
        ∀ o' dk ek, Message.receive (P.signed nonce) o' t dk ek (some pk) =
          .ok { m with jwm := JwmHeader.dflt, flatJwe := false, flatJws := false } := by
  obtain ⟨hal, alg, ha, hofs⟩ := signName (a := .edDsa) (h := m.jwm)
  have ht := sign_of (o := o) (m := m.asJws .edDsa) (signer := fun _ _ => .ok (edFree s)) (key := [])
    (sig := edFree s) hal rfl
  refine ⟨_, ht, fun pk hpk => ?_⟩
  have hver : ∀ o', Message.verify (P.signed nonce) o' (utf8 ((Spec.jwsOf (m.asJws .edDsa)
      (Spec.payloadText (o.sub 1) (m.asJws .edDsa)) (edFree s)).text (o.sub 2))) pk =
      .ok { m with jwm := JwmHeader.dflt, flatJwe := false, flatJws := false } := fun o' =>
    verify_signed (P := P.signed nonce) (a := .edDsa) (fun {b s'} h => by
      obtain rfl := Res.ok.inj h
      exact validator_iff.1 ((C124_violated P nonce s hs).2.2 pk hpk b)) (asJws_wf (a := .edDsa) hm) hf ha hofs ht o'
  exact ⟨hver, fun o' dk ek => receive_signed (P := P.signed nonce) hm ht hver (.inl rfl)⟩

/-- C124, what holds: a signature that is accepted under the public key of a secret is accepted under the public key of
another if and only if the products of hash and secret scalar agree modulo the order.  Both hashes are taken over the public
key, so that no key can be computed from the signature as in C122. -/
theorem C124_secrets_partial (P : Prims) (nonce : Bytes → Bytes → Nat) (sk sk' b b' sig : Bytes)
    (h : SignAlg.edDsa.validator (P.signed nonce) (edPublic sk) b sig = .ok true) :
    SignAlg.edDsa.validator (P.signed nonce) (edPublic sk') b' sig = .ok true ↔
      Algo.leNat (Algo.sha512 (sig.take 32 ++ edPublic sk ++ b)) * Algo.edScalar sk % Algo.edL =
        Algo.leNat (Algo.sha512 (sig.take 32 ++ edPublic sk' ++ b')) * Algo.edScalar sk' % Algo.edL := by
  rw [validator_iff, signed_verify_ed] at h ⊢
  rw [Algo.edVerify_keys h]
  unfold Algo.edHash
  rw [Nat.mod_mul_mod, Nat.mod_mul_mod]

/-- C124, what holds: the keys of small order, to which the four belong, are public keys of no secret, and none of them
accepts a signature that is accepted under the public key of a secret, for whatever input — unless the hash is a multiple of
the order. -/
theorem C124_weak_partial (P : Prims) (nonce : Bytes → Bytes → Nat) (sk pk : Bytes) (hw : EdWeak pk) :
    pk ≠ edPublic sk ∧ ∀ b b' sig, SignAlg.edDsa.validator (P.signed nonce) (edPublic sk) b sig = .ok true →
      SignAlg.edDsa.validator (P.signed nonce) pk b' sig = .ok true →
      Algo.leNat (Algo.sha512 (sig.take 32 ++ edPublic sk ++ b)) % Algo.edL = 0 := by
  refine ⟨by rintro rfl; exact Algo.edPublic_not_weak _ hw, fun b b' sig h h' => ?_⟩
  rw [validator_iff, signed_verify_ed] at h h'
  exact Algo.edVerify_weak hw h h'

/-! ## Examples -/

theorem zero_read : Algo.edDecompress (List.replicate 32 0) = some (Algo.edI, 0) := by decide +kernel

/-- The four keys, and another of small order. -/
example : edNeutral ∈ edNeutrals ∧ (∀ pk ∈ edNeutrals, EdWeak pk) ∧ EdWeak (List.replicate 32 0) ∧
    List.replicate 32 0 ∉ edNeutrals ∧ ¬EdWeak (edPublic rfcSecret) := by
  refine ⟨by decide +kernel, fun pk h => ⟨_, edNeutrals_read pk h, by decide +kernel⟩,
    ⟨_, zero_read, by decide +kernel⟩, by decide +kernel, Algo.edPublic_not_weak _⟩

/-- A text that is received under two keys. -/
example (P : Prims) (nonce : Bytes → Bytes → Nat) (hm : richMessage.WF P.f64) : ∃ t,
    Message.receive (P.signed nonce) HOrd.rev t none none (some (Algo.leBytes 32 1)) = .ok richMessage ∧
    Message.receive (P.signed nonce) HOrd.rev t none none (some (Algo.leBytes 32 (2 ^ 255 + 1))) = .ok richMessage := by
  obtain ⟨t, -, h⟩ := C124_messages_violated P nonce 7 (by decide) richMessage hm
    ⟨(by intro k h; cases h), (by intro k h; cases h)⟩ HOrd.id
  exact ⟨t, (h _ (by simp [edNeutrals])).2 _ _ _, (h _ (by simp [edNeutrals])).2 _ _ _⟩

/-- The secret of RFC 8032, section 7.1, test 1. -/
def rfcSecret1 : Bytes := Algo.beBytes 32 0x9d61b19deffd5a60ba844af492ec2cc44449c5697b326919703bac031cae7f60

theorem rfcSecret1_eq : edPublic rfcSecret1 =
    Algo.beBytes 32 0xd75a980182b10ab7d54bfed3c964073a0ee172f3daa62325af021a68f707511a := by decide +kernel

/-- The signature of RFC 8032, section 7.1, test 2, is not of the secret of test 1 and not of a key of small order. -/
example (P : Prims) (nonce : Bytes → Bytes → Nat) :
    SignAlg.edDsa.validator (P.signed nonce) (edPublic rfcSecret) [0x72] rfcEdSig = .ok true ∧
    SignAlg.edDsa.validator (P.signed nonce) (edPublic rfcSecret1) [0x72] rfcEdSig ≠ .ok true ∧
    ∀ pk b, EdWeak pk → SignAlg.edDsa.validator (P.signed nonce) pk b rfcEdSig ≠ .ok true := by
  have h : SignAlg.edDsa.validator (P.signed nonce) (edPublic rfcSecret) [0x72] rfcEdSig = .ok true := by
    obtain ⟨sig, -, h1, h2⟩ := Algo.ed_sign_verify rfcSecret [0x72] rfl
    have h3 := rfcEdSig_eq
    rw [← rfcPoint_eq] at h3
    obtain rfl := Option.some.inj (h1.symm.trans h3)
    exact validator_iff.2 (by rw [signed_verify_ed]; exact h2)
  refine ⟨h, fun h' => ?_, fun pk b hw h' => ?_⟩
  · have := (C124_secrets_partial P nonce _ _ _ _ _ h).1 h'
    rw [rfcPoint_eq, rfcSecret1_eq] at this
    exact absurd this (by decide +kernel)
  · have := (C124_weak_partial P nonce _ _ hw).2 _ _ _ h h'
    rw [rfcPoint_eq] at this
    exact absurd this (by decide +kernel)

end Verif
