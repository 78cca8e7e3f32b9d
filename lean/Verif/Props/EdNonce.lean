import Verif.Props.EdDsa

/-!
# Two EdDSA signatures with one first half

C131.
-/

namespace Verif

open Spec

namespace Algo

/-- The scalar from two accepted signatures with the same first half. -/
theorem ed_extract {sk m m' sig sig' : Bytes} (h : edVerify (edPublic sk) m sig = some true)
    (h' : edVerify (edPublic sk) m' sig' = some true) (ht : sig.take 32 = sig'.take 32)
    (hne : edHash (sig.take 32 ++ edPublic sk ++ m) ≠ edHash (sig'.take 32 ++ edPublic sk ++ m')) :
    ((edExtract (edPublic sk) m m' sig sig' : ℕ) : ZMod edL) = (edScalar sk : ℕ) := by
  obtain ⟨G, hG, hL⟩ := exists_edOrder
  obtain ⟨a, s, rb, ha, hrb, hs, rfl⟩ := edVerify_shape h
  obtain ⟨a', s', rb', ha', hrb', hs', rfl⟩ := edVerify_shape h'
  rw [List.take_left' hrb, List.take_left' hrb'] at ht
  subst ht
  have hA := edPublic_stands hG sk
  have hpk : edDecompress (edPublic sk) = some _ := estands_read hA
  obtain ⟨q, hq, h1⟩ := (edVerify_iff hpk hA hG m rb hrb hs).1 h
  obtain ⟨q', hq', h2⟩ := (edVerify_iff hpk hA hG m' rb hrb hs').1 h'
  obtain rfl := estands_compress hq hq' (h1.trans h2.symm)
  have he := estands_inj hq hq'
  unfold edExtract
  rw [List.take_left' hrb, List.take_left' hrb] at hne
  rw [List.take_left' hrb, List.take_left' hrb, List.drop_left' hrb, List.drop_left' hrb, leNat_s hs, leNat_s hs']
  have hk := edHash_lt (rb ++ edPublic sk ++ m)
  have hk' := edHash_lt (rb ++ edPublic sk ++ m')
  generalize edHash (rb ++ edPublic sk ++ m) = k at *
  generalize edHash (rb ++ edPublic sk ++ m') = k' at *
  have he : (s + edScalar sk * k') • G = (s' + edScalar sk * k) • G := by
    rw [neg_nsmul, neg_nsmul, ← mul_nsmul, ← mul_nsmul] at he
    rw [add_nsmul, add_nsmul]
    generalize (edScalar sk * k) • G = X at *
    generalize (edScalar sk * k') • G = X' at *
    rw [neg_add_eq_iff_eq_add] at he
    rw [he]
    abel
  rw [nsmul_eq_nsmul_iff_modEq, hL, ← ZMod.natCast_eq_natCast_iff] at he
  push_cast at he
  have : NeZero edL := ⟨edL_pos.ne'⟩
  have : Fact edL.Prime := ⟨prime_ell⟩
  have hkk : (k : ZMod edL) - k' ≠ 0 := by
    intro h
    apply hne
    rw [sub_eq_zero, ZMod.natCast_eq_natCast_iff'] at h
    rwa [Nat.mod_eq_of_lt hk, Nat.mod_eq_of_lt hk'] at h
  rw [ZMod.natCast_val, ZMod.cast_id, ← div_eq_mul_inv, div_eq_iff hkk]
  linear_combination he

end Algo

/-- C131.  Two signatures that are accepted under the public key of a secret, for messages of different hash, and have
the same first half give away the scalar of the secret, and with it the power to sign: the number `edExtract`, which
is computed from messages, signatures and public key, makes texts with every message that verify and are received. -/
theorem C131_accepted (P : Prims) (nonce : Bytes → Bytes → Nat) (sk b b' sig sig' : Bytes)
    (h : SignAlg.edDsa.validator (P.signed nonce) (edPublic sk) b sig = .ok true)
    (h' : SignAlg.edDsa.validator (P.signed nonce) (edPublic sk) b' sig' = .ok true)
    (ht : sig.take 32 = sig'.take 32)
    (hne : Algo.edHash (sig.take 32 ++ edPublic sk ++ b) ≠ Algo.edHash (sig'.take 32 ++ edPublic sk ++ b')) :
    edExtract (edPublic sk) b b' sig sig' = Algo.edScalar sk % Algo.edL ∧
    ∀ r < Algo.edL, ∀ (m : Message), m.WF P.f64 → HeaderFixed m.jwm → ∀ o, ∃ t,
      (m.asJws .edDsa).sign o (fun _ x => .ok (edForge (edExtract (edPublic sk) b b' sig sig') (edPublic sk) r x)) [] = .ok t ∧
      (∀ o', Message.verify (P.signed nonce) o' (utf8 t) (edPublic sk) =
        .ok { m with jwm := JwmHeader.dflt, flatJwe := false, flatJws := false }) ∧
      ∀ o' dk ek vk, (vk = some (edPublic sk) ∨ vk = none ∧ m.jwm.kid = some (hexEncode (edPublic sk))) →
        Message.receive (P.signed nonce) o' t dk ek vk =
          .ok { m with jwm := JwmHeader.dflt, flatJwe := false, flatJws := false } := by
  unfold SignAlg.validator at h h'
  rw [Res.ofOpt_eq_ok, signed_verify_ed] at h h'
  have he := Algo.ed_extract h h' ht hne
  have : NeZero Algo.edL := ⟨Algo.edL_pos.ne'⟩
  have hlt : edExtract (edPublic sk) b b' sig sig' < Algo.edL := ZMod.val_lt _
  generalize edExtract (edPublic sk) b b' sig sig' = e at he hlt ⊢
  refine ⟨?_, ?_⟩
  · rw [ZMod.natCast_eq_natCast_iff', Nat.mod_eq_of_lt hlt] at he
    exact he
  · intro r hr m hm hf o
    have hw : (m.asJws .edDsa).WF P.f64 := ⟨hm.jwm, hm.other, hm.to, hm.recipients, hm.canon, hm.nums, hm.depth⟩
    obtain ⟨hal, alg, hal', hofs⟩ := signName (a := .edDsa) (h := m.jwm)
    have hs := sign_of (o := o) (m := m.asJws .edDsa) (key := []) (signer := fun _ x =>
      .ok (edForge e (edPublic sk) r x)) hal rfl
    have hver := verify_signed (P := P.signed nonce) (a := .edDsa) (pk := edPublic sk) (fun {b s'} h => by
      obtain rfl := Res.ok.inj h
      rw [signed_verify_ed]
      exact Algo.ed_forge he hr b) hw hf hal' hofs hs
    exact ⟨_, hs, hver, fun o' dk ek vk hvk => receive_signed (P := P.signed nonce) hm hs hver hvk⟩

/-- C131: two signatures of different messages with one first half. -/
example (P : Prims) (nonce : Bytes → Bytes → Nat) : ∃ sig sig',
    SignAlg.edDsa.validator (P.signed nonce) (edPublic rfcSecret) [1] sig = .ok true ∧
    SignAlg.edDsa.validator (P.signed nonce) (edPublic rfcSecret) [2] sig' = .ok true ∧ sig.take 32 = sig'.take 32 ∧
    Algo.edHash (sig.take 32 ++ edPublic rfcSecret ++ [1]) ≠ Algo.edHash (sig'.take 32 ++ edPublic rfcSecret ++ [2]) := by
  have hv : ∀ b, SignAlg.edDsa.validator (P.signed nonce) (edPublic rfcSecret) b
      (edForge (Algo.edScalar rfcSecret) (edPublic rfcSecret) 0 b) = .ok true := fun b => by
    unfold SignAlg.validator
    rw [Res.ofOpt_eq_ok, signed_verify_ed]
    exact Algo.ed_forge rfl (by decide) b
  have ht : ∀ b, (edForge (Algo.edScalar rfcSecret) (edPublic rfcSecret) 0 b).take 32 =
      Algo.edCompress (Algo.edMul 0 Algo.edBase) := fun b => List.take_left' (Algo.edCompress_len _)
  refine ⟨_, _, hv _, hv _, (ht _).trans (ht _).symm, ?_⟩
  rw [ht, ht, rfcPoint_eq]
  decide +kernel

end Verif
