import Verif.Lemma.Algo.EdCount
import Verif.Props.EdOwner

/-!
# C134: which public keys for EdDSA are weak, and what an accepted signature says under the others

As in C104, EdDSA is that of RFC 8032.
-/

namespace Verif

open Spec

theorem validator_ed {P : Prims} {nonce : Bytes → Bytes → Nat} {pk b s : Bytes} :
    SignAlg.edDsa.validator (P.signed nonce) pk b s = .ok true ↔ Algo.edVerify pk b s = some true := by
  rw [show SignAlg.edDsa.validator (P.signed nonce) pk b s = Res.ofOpt .edDsa ((P.signed nonce).verify .edDsa pk b s) from rfl,
    signed_verify_ed, Res.ofOpt_eq_ok]

theorem edHash_eq (b : Bytes) : Algo.edHash b = Algo.leNat (Algo.sha512 b) % Algo.edL := rfl

/-- C134.  The public keys of small order are fourteen strings of 32 bytes.  All of them are taken for keys. -/
theorem C134_fourteen : edWeakKeys.Nodup ∧ edWeakKeys.length = 14 ∧ (∀ pk, EdWeak pk ↔ pk ∈ edWeakKeys) ∧
    ∀ pk ∈ edWeakKeys, EdPoint pk :=
  ⟨by decide +kernel, by decide +kernel, fun _ => Algo.edWeak_iff, fun pk h => by
    obtain ⟨a, ha, -⟩ := Algo.edWeak_iff.2 h
    exact Algo.edDecompress_some.1 ⟨a, ha⟩⟩

/-- C134.  Under every other key, be it the public key of a secret or not, a signature is for one message: it is accepted
for another if and only if the hashes agree modulo the order. -/
theorem C134_message (P : Prims) (nonce : Bytes → Bytes → Nat) (pk b b' sig : Bytes) (hw : pk ∉ edWeakKeys)
    (h : SignAlg.edDsa.validator (P.signed nonce) pk b sig = .ok true) :
    SignAlg.edDsa.validator (P.signed nonce) pk b' sig = .ok true ↔
      Algo.leNat (Algo.sha512 (sig.take 32 ++ pk ++ b)) % Algo.edL =
        Algo.leNat (Algo.sha512 (sig.take 32 ++ pk ++ b')) % Algo.edL := by
  rw [validator_ed] at h ⊢
  obtain ⟨a, s, rb, ha, -⟩ := Algo.edVerify_shape h
  obtain ⟨A, hA⟩ := Algo.edDecompress_stands ha
  rw [Algo.edVerify_messages ha hA h, ← edHash_eq, ← edHash_eq]
  rcases Algo.ed_addOrder A with ⟨h8, -⟩ | ⟨-, hd⟩
  · exact absurd (Algo.edWeak_iff.1 ((Algo.edWeak_iff_eight ha hA).2 h8)) hw
  · have hpos : addOrderOf A ≠ 0 := by
      have : addOrderOf A ∣ 8 * Algo.edL := addOrderOf_dvd_iff_nsmul_eq_zero.2 (Algo.ed_order A)
      intro h0
      rw [h0] at this
      exact absurd (Nat.eq_zero_of_zero_dvd this) (by decide)
    have hle := Nat.le_of_dvd (Nat.pos_of_ne_zero hpos) hd
    rw [Nat.mod_eq_of_lt ((Algo.edHash_lt _).trans_le hle), Nat.mod_eq_of_lt ((Algo.edHash_lt _).trans_le hle)]

/-- C134.  Under each of the fourteen keys a signature is accepted for another message if and only if the hashes agree
modulo a divisor of eight, and what is computed without any secret is accepted if and only if that number divides the
hash. -/
theorem C134_weak (P : Prims) (nonce : Bytes → Bytes → Nat) (pk : Bytes) (hw : pk ∈ edWeakKeys) :
    ∃ n, n ∣ 8 ∧
      (∀ b b' sig, SignAlg.edDsa.validator (P.signed nonce) pk b sig = .ok true →
        (SignAlg.edDsa.validator (P.signed nonce) pk b' sig = .ok true ↔
          Algo.leNat (Algo.sha512 (sig.take 32 ++ pk ++ b)) % Algo.edL % n =
            Algo.leNat (Algo.sha512 (sig.take 32 ++ pk ++ b')) % Algo.edL % n)) ∧
      ∀ s < Algo.edL, ∀ b, SignAlg.edDsa.validator (P.signed nonce) pk b (edFree s) = .ok true ↔
        Algo.leNat (Algo.sha512 ((edFree s).take 32 ++ pk ++ b)) % Algo.edL % n = 0 := by
  obtain ⟨a, ha, h8⟩ := Algo.edWeak_iff.2 hw
  obtain ⟨A, hA⟩ := Algo.edDecompress_stands ha
  refine ⟨addOrderOf A, ?_, fun b b' sig h => ?_, fun s hs b => ?_⟩
  · exact addOrderOf_dvd_iff_nsmul_eq_zero.2 ((Algo.edWeak_iff_eight ha hA).1 ⟨a, ha, h8⟩)
  · rw [validator_ed] at h ⊢
    exact Algo.edVerify_messages ha hA h
  · rw [validator_ed]
    exact Algo.edVerify_free ha hA hs b

theorem eight_sub {M : Type*} [AddCommGroup M] {A G : M} {k x s r : Nat} (h8 : 8 • A = (8 * k) • G)
    (e : (8 * s) • G = (8 * r + 8 * k * x) • G) : 8 • (x • -A + s • G) = (8 * r) • G := by
  have h1 : 8 • (x • -A) = -((8 * k * x) • G) := by
    rw [neg_nsmul, smul_neg, ← mul_nsmul', mul_comm 8 x, mul_nsmul', h8, ← mul_nsmul', mul_comm x (8 * k)]
  have h2 : 8 • (s • G) = (8 * s) • G := (mul_nsmul' ..).symm
  rw [smul_add, h1, h2, e, add_nsmul]
  abel

/-- C134.  To every key that is taken belongs one number less than the order, which is zero for the fourteen only: eight
times the key is eight times that multiple of the base point.  Whatever is accepted under the key is, but for points of
small order, what this number makes of some nonce: as a signature of RFC 8032 is made of the secret scalar. -/
theorem C134_number (P : Prims) (nonce : Bytes → Bytes → Nat) (pk : Bytes) (hp : EdPoint pk) :
    ∃ a k, Algo.edDecompress pk = some a ∧ k < Algo.edL ∧
      Algo.edMul 8 a = Algo.edMul 8 (Algo.edMul k Algo.edBase) ∧ (k = 0 ↔ pk ∈ edWeakKeys) ∧
      (∀ k', k' < Algo.edL → Algo.edMul 8 a = Algo.edMul 8 (Algo.edMul k' Algo.edBase) → k' = k) ∧
      ∀ b sig, SignAlg.edDsa.validator (P.signed nonce) pk b sig = .ok true →
        ∃ r q, r < Algo.edL ∧ Algo.edDecompress (sig.take 32) = some q ∧
          Algo.edMul 8 q = Algo.edMul 8 (Algo.edMul r Algo.edBase) ∧
          Algo.leNat (sig.drop 32) = (r + Algo.leNat (Algo.sha512 (sig.take 32 ++ pk ++ b)) * k) % Algo.edL := by
  obtain ⟨a, ha⟩ := Algo.edDecompress_some.2 hp
  obtain ⟨A, hA⟩ := Algo.edDecompress_stands ha
  obtain ⟨G, hG, hL⟩ := Algo.exists_edOrder
  obtain ⟨k, hk, h8⟩ := Algo.ed_multiple (A := A) hL
  have hL0 : Algo.edL • G = 0 := by rw [← hL]; exact addOrderOf_nsmul_eq_zero G
  have s8 : (8 : Nat) < 2 ^ 256 := by decide
  have lt {x : Nat} (hx : x < Algo.edL) : x < 2 ^ 256 := (hx.trans Algo.edL_lt).trans (by decide)
  have mulG {x : Nat} (hx : x < Algo.edL) : Algo.EStands (Algo.edMul 8 (Algo.edMul x Algo.edBase)) ((8 * x) • G) := by
    have := Algo.estands_mul (Algo.estands_mul hG (lt hx)) s8
    rwa [← mul_nsmul'] at this
  have hA8 := Algo.estands_mul hA s8
  have c8 {x y : Nat} (h : (8 * x) • G = (8 * y) • G) : x % Algo.edL = y % Algo.edL := by
    rw [nsmul_eq_nsmul_iff_modEq, hL] at h
    exact Nat.ModEq.cancel_left_of_coprime (by decide) h
  refine ⟨a, k, ha, hk, ?_, ?_, fun k' hk' he => ?_, fun b sig hv => ?_⟩
  · rw [h8] at hA8
    exact Algo.estands_unique hA8 (mulG hk)
  · rw [← Algo.edWeak_iff, Algo.edWeak_iff_eight ha hA, h8]
    constructor
    · rintro rfl; rw [mul_zero, zero_nsmul]
    · intro h0
      have := c8 (x := k) (y := 0) (by rw [h0, mul_zero, zero_nsmul])
      rwa [Nat.mod_eq_of_lt hk, Nat.zero_mod] at this
  · rw [he] at hA8
    have e := Algo.estands_inj hA8 (mulG hk')
    rw [h8] at e
    have := c8 e
    rw [Nat.mod_eq_of_lt hk, Nat.mod_eq_of_lt hk'] at this
    exact this.symm
  · rw [validator_ed] at hv
    obtain ⟨a', s, rb, -, hrb, hs, rfl⟩ := Algo.edVerify_shape hv
    obtain ⟨q, hq, h1⟩ := (Algo.edVerify_iff ha hA hG b rb hrb hs).1 hv
    rw [List.take_append_of_le_length hrb.ge, List.take_of_length_le hrb.le, List.drop_append_of_le_length hrb.ge,
      List.drop_of_length_le hrb.le, List.nil_append, Algo.leNat_s hs]
    have hx := Algo.edHash_lt (rb ++ pk ++ b)
    have hnat : (Algo.leNat (Algo.sha512 (rb ++ pk ++ b)) : ZMod Algo.edL) = Algo.edHash (rb ++ pk ++ b) := by
      rw [edHash_eq, ZMod.natCast_mod]
    generalize Algo.edHash (rb ++ pk ++ b) = x at hq hx hnat
    let r : ZMod Algo.edL := s - x * k
    have hr : ((r.val : ℕ) : ZMod Algo.edL) = s - x * k := ZMod.natCast_rightInverse r
    refine ⟨r.val, q, ZMod.val_lt r, ?_, ?_, ?_⟩
    · rw [← h1]; exact Algo.estands_read hq
    · refine Algo.estands_unique (D := (8 * r.val) • G) ?_ (mulG (ZMod.val_lt r))
      have hq8 := Algo.estands_mul hq s8
      have e : 8 • (x • -A + s • G) = (8 * r.val) • G := by
        have e1 : (8 * s) • G = (8 * r.val + 8 * k * x) • G := Algo.nsmul_edL hL0 (by
          push_cast
          rw [hr]
          ring)
        exact eight_sub h8 e1
      rwa [e] at hq8
    · refine Algo.cast_inj hs (Nat.mod_lt _ Algo.edL_pos) ?_
      rw [ZMod.natCast_mod]
      push_cast
      rw [hr, hnat]
      ring

/-- C105 holds for all keys but the fourteen: a signature that is accepted for two messages makes their hashes agree. -/
theorem C105_others_partial (P : Prims) (nonce : Bytes → Bytes → Nat) (pk b b' sig : Bytes) (hw : pk ∉ edWeakKeys)
    (h : SignAlg.edDsa.validator (P.signed nonce) pk b sig = .ok true)
    (h' : SignAlg.edDsa.validator (P.signed nonce) pk b' sig = .ok true) :
    Algo.leNat (Algo.sha512 (sig.take 32 ++ pk ++ b)) % Algo.edL =
      Algo.leNat (Algo.sha512 (sig.take 32 ++ pk ++ b')) % Algo.edL :=
  (C134_message P nonce pk b b' sig hw h).1 h'

/-! ## Examples -/

/-- C134 applies to the key of RFC 8032, section 7.1, test 2: it is none of the fourteen, and accepts a signature. -/
example (P : Prims) (nonce : Bytes → Bytes → Nat) : rfcPoint ∉ edWeakKeys ∧ EdPoint rfcPoint ∧
    ∃ sig, SignAlg.edDsa.validator (P.signed nonce) rfcPoint [0x72] sig = .ok true := by
  refine ⟨by decide +kernel, ?_, rfcEdSig, ?_⟩
  · rw [← rfcPoint_eq]
    obtain ⟨G, hG, -⟩ := Algo.exists_edOrder
    exact Algo.edDecompress_some.1 ⟨_, Algo.estands_read (Algo.edPublic_stands hG rfcSecret)⟩
  · rw [validator_ed, ← rfcPoint_eq]
    have h := Algo.ed_sign_verify rfcSecret [0x72] (by decide)
    obtain ⟨sig, -, h1, h2⟩ := h
    rw [show Algo.edCompress (Algo.edMul (Algo.edScalar rfcSecret) Algo.edBase) = rfcPoint from rfcPoint_eq, rfcEdSig_eq] at h1
    rw [Option.some.inj h1]
    exact h2

end Verif
