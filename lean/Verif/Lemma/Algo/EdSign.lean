import Verif.Lemma.Algo.Ed25519
import Verif.Lemma.Algo.X25519Order
import Verif.Spec.EdKey

/-!
# Signatures with Ed25519: which are accepted, and what two of them tell
-/

namespace Verif.Algo

open WeierstrassCurve.Affine Spec

theorem edL_eq : edL = ell := rfl

instance : Fact (Nat.Prime edL) := ⟨prime_ell⟩

/-- The base point, with its order. -/
theorem exists_edOrder : ∃ G : (mont ed.A).Point, EStands edBase G ∧ addOrderOf G = edL := by
  obtain ⟨G, hG, hL⟩ := exists_edBase
  refine ⟨G, hG, addOrderOf_eq_prime hL ?_⟩
  rintro rfl
  exact absurd (estands_unique hG estands_zero) (by decide)

theorem leBytes_leNat (b : Bytes) : leBytes b.length (leNat b) = b := by
  induction b with
  | nil => rfl
  | cons x b ih =>
    simp only [List.length_cons, leBytes, leNat]
    have hx : x.toNat < 256 := x.toNat_lt
    rw [show (x.toNat + 256 * leNat b) / 256 = leNat b by omega, ih]
    congr 1
    apply UInt8.toNat_inj.1
    rw [UInt8.toNat_ofNat']
    omega

theorem estands_compress {p q : Nat × Nat} {D E : (mont ed.A).Point} (hp : EStands p D) (hq : EStands q E)
    (h : edCompress p = edCompress q) : p = q :=
  Option.some.inj ((estands_read hp).symm.trans (h ▸ estands_read hq))

theorem estands_inj {p : Nat × Nat} {D E : (mont ed.A).Point} (hp : EStands p D) (hq : EStands p E) : D = E := by
  have h := estands_add hp (estands_neg hq)
  have h0 := estands_add hq (estands_neg hq)
  rw [add_neg_cancel] at h0
  have := estands_zero_eq h (estands_unique h0 estands_zero)
  exact eq_of_sub_eq_zero (by rw [sub_eq_add_neg]; exact this)

/-- What accepted signatures look like. -/
theorem edVerify_shape {pk m sig : Bytes} (h : edVerify pk m sig = some true) :
    ∃ a s rb, edDecompress pk = some a ∧ rb.length = 32 ∧ s < edL ∧ sig = rb ++ leBytes 32 s := by
  unfold edVerify at h
  split at h
  · cases h
  · rename_i a ha
    simp only at h
    split at h
    · cases h
    · rename_i h1
      split at h
      · cases h
      · rename_i h2
        rw [not_or, not_not, not_le] at h1
        refine ⟨a, leNat (sig.drop 32), sig.take 32, ha, by simp [h1.1], by omega, ?_⟩
        have := leBytes_leNat (sig.drop 32)
        rw [List.length_drop, h1.1] at this
        rw [this, List.take_append_drop]

theorem edHash_lt (b : Bytes) : edHash b < edL := Nat.mod_lt _ edL_pos

/-- Which signatures are accepted: those whose first half is the point that the second half gives. -/
theorem edVerify_iff {pk : Bytes} {a : Nat × Nat} {A G : (mont ed.A).Point} (hpk : edDecompress pk = some a)
    (hA : EStands a A) (hG : EStands edBase G) (m rb : Bytes) (hrb : rb.length = 32) {s : Nat} (hs : s < edL) :
    edVerify pk m (rb ++ leBytes 32 s) = some true ↔
      ∃ q, EStands q (edHash (rb ++ pk ++ m) • -A + s • G) ∧ edCompress q = rb := by
  have hk : edHash (rb ++ pk ++ m) < 2 ^ 256 := (Nat.mod_lt _ edL_pos).trans (by decide)
  have h1 := estands_add (estands_mul (estands_neg hA) hk) (estands_mul hG ((hs.trans edL_lt).trans (by decide)))
  rw [edVerify_group hpk hA hG m rb hrb hs h1 rfl]
  constructor
  · intro h
    exact ⟨_, h1, by simpa using h⟩
  · rintro ⟨q, hq, rfl⟩
    rw [estands_unique h1 hq, beq_self_eq_true]

/-- There is one second half to a first half. -/
theorem edVerify_unique {pk m sig sig' : Bytes} (h : edVerify pk m sig = some true) (h' : edVerify pk m sig' = some true)
    (he : sig.take 32 = sig'.take 32) : sig = sig' := by
  obtain ⟨G, hG, hL⟩ := exists_edOrder
  obtain ⟨a, s, rb, ha, hrb, hs, rfl⟩ := edVerify_shape h
  obtain ⟨a', s', rb', ha', hrb', hs', rfl⟩ := edVerify_shape h'
  rw [List.take_append_of_le_length hrb.ge, List.take_of_length_le hrb.le, List.take_append_of_le_length hrb'.ge,
    List.take_of_length_le hrb'.le] at he
  subst he
  obtain ⟨A, hA⟩ := edDecompress_stands ha
  obtain ⟨q, hq, h1⟩ := (edVerify_iff ha hA hG m rb hrb hs).1 h
  obtain ⟨q', hq', h2⟩ := (edVerify_iff ha hA hG m rb hrb hs').1 h'
  obtain rfl := estands_compress hq hq' (h1.trans h2.symm)
  have := add_left_cancel (estands_inj hq hq')
  rw [nsmul_eq_nsmul_iff_modEq, hL] at this
  have : s = s' := by
    unfold Nat.ModEq at this
    rwa [Nat.mod_eq_of_lt hs, Nat.mod_eq_of_lt hs'] at this
  rw [this]

/-- Under the public key of a secret a signature is for one message, or the hashes agree. -/
theorem edVerify_message {sk m m' sig : Bytes} (h : edVerify (edPublic sk) m sig = some true)
    (h' : edVerify (edPublic sk) m' sig = some true) :
    edHash (sig.take 32 ++ edPublic sk ++ m) = edHash (sig.take 32 ++ edPublic sk ++ m') := by
  obtain ⟨G, hG, hL⟩ := exists_edOrder
  obtain ⟨a, s, rb, ha, hrb, hs, rfl⟩ := edVerify_shape h
  rw [List.take_append_of_le_length hrb.ge, List.take_of_length_le hrb.le]
  have hA := edPublic_stands hG sk
  have hpk : edDecompress (edPublic sk) = some _ := estands_read hA
  obtain ⟨q, hq, h1⟩ := (edVerify_iff hpk hA hG m rb hrb hs).1 h
  obtain ⟨q', hq', h2⟩ := (edVerify_iff hpk hA hG m' rb hrb hs).1 h'
  obtain rfl := estands_compress hq hq' (h1.trans h2.symm)
  have := add_right_cancel (estands_inj hq hq')
  rw [neg_nsmul, neg_nsmul, neg_inj, ← mul_nsmul, ← mul_nsmul, nsmul_eq_nsmul_iff_modEq, hL] at this
  have hc : Nat.gcd edL (edScalar sk) = 1 :=
    (Nat.Prime.coprime_iff_not_dvd prime_ell).2 (ell_not_dvd_clamp _)
  have := Nat.ModEq.cancel_left_of_coprime hc this
  unfold Nat.ModEq at this
  rwa [Nat.mod_eq_of_lt (edHash_lt _), Nat.mod_eq_of_lt (edHash_lt _)] at this

theorem nsmul_edL {G : (mont ed.A).Point} (hL : edL • G = 0) {a b : Nat} (h : (a : ZMod edL) = b) : a • G = b • G := by
  rw [ZMod.natCast_eq_natCast_iff'] at h
  rw [← mod_edL hL a, h, mod_edL hL]

/-- Who knows the scalar up to the order can sign. -/
theorem ed_forge {sk : Bytes} {e : Nat} (he : (e : ZMod edL) = (edScalar sk : ℕ)) {r : Nat} (hr : r < edL) (m : Bytes) :
    edVerify (edPublic sk) m (edForge e (edPublic sk) r m) = some true := by
  obtain ⟨G, hG, hL⟩ := exists_edBase
  have hA := edPublic_stands hG sk
  have hpk : edDecompress (edPublic sk) = some _ := estands_read hA
  have hR := estands_mul hG ((hr.trans edL_lt).trans (show 2 ^ 253 < 2 ^ 256 by decide))
  unfold edForge
  simp only
  rw [edVerify_group hpk hA hG m _ (edCompress_len _) (Nat.mod_lt _ edL_pos) hR, beq_self_eq_true]
  generalize edHash (edCompress (edMul r edBase) ++ edPublic sk ++ m) = k
  rw [mod_edL hL, add_nsmul, mul_comm k e, mul_nsmul, nsmul_edL hL he, neg_nsmul]
  abel

/-- The scalar from two signatures with one secret and different public halves. -/
theorem ed_recover {sk pk pk' m sig sig' : Bytes} (hsk : sk.length = 32) (h : edSign (sk ++ pk) m = some sig)
    (h' : edSign (sk ++ pk') m = some sig')
    (hne : edHash (sig.take 32 ++ pk ++ m) ≠ edHash (sig'.take 32 ++ pk' ++ m)) :
    ((edRecover pk pk' m sig sig' : ℕ) : ZMod edL) = (edScalar sk : ℕ) := by
  have shape : ∀ {pk sig}, edSign (sk ++ pk) m = some sig → ∃ r k,
      r = edHash ((sha512 sk).drop 32 ++ m) ∧ k = edHash (sig.take 32 ++ pk ++ m) ∧
      leNat (sig.drop 32) = (r + k * edScalar sk) % edL := by
    intro pk sig h
    have hd : ∃ a, edDecompress pk = some a := by
      unfold edSign at h
      split at h
      · cases h
      · rw [show (sk ++ pk).drop 32 = pk by rw [← hsk, List.drop_left]] at h
        simp only at h
        split at h
        · cases h
        · exact ⟨_, by assumption⟩
    obtain ⟨a, ha⟩ := hd
    rw [edSign_eq hsk ha] at h
    obtain rfl := Option.some.inj h
    refine ⟨_, _, rfl, rfl, ?_⟩
    have hl := edCompress_len (edMul (edHash ((sha512 sk).drop 32 ++ m)) edBase)
    rw [List.drop_left' hl, List.take_left' hl, leNat_s (Nat.mod_lt _ edL_pos)]
  obtain ⟨r, k, hr, hk, h1⟩ := shape h
  obtain ⟨r', k', hr', hk', h2⟩ := shape h'
  have hrr : r' = r := hr'.trans hr.symm
  rw [hrr] at h2
  clear hr hr' hrr
  rw [← hk, ← hk'] at hne
  unfold edRecover
  rw [← hk, ← hk', h1, h2]
  have : NeZero edL := ⟨edL_pos.ne'⟩
  rw [ZMod.natCast_val, ZMod.cast_id, ZMod.natCast_mod, ZMod.natCast_mod]
  have hkk : (k : ZMod edL) - k' ≠ 0 := by
    intro h
    apply hne
    exact cast_inj (by rw [hk]; exact edHash_lt _) (by rw [hk']; exact edHash_lt _) (sub_eq_zero.1 h)
  rw [← div_eq_mul_inv, div_eq_iff hkk]
  push_cast
  ring

/-- A signature made with another public half is refused under the public key of the secret, or the hashes agree. -/
theorem ed_mismatch {sk pk m sig : Bytes} (hsk : sk.length = 32) (h : edSign (sk ++ pk) m = some sig) :
    edVerify (edPublic sk) m sig = some true ↔
      edHash (sig.take 32 ++ pk ++ m) = edHash (sig.take 32 ++ edPublic sk ++ m) := by
  obtain ⟨a, ha⟩ : ∃ a, edDecompress pk = some a := by
    unfold edSign at h
    split at h
    · cases h
    · rw [show (sk ++ pk).drop 32 = pk by rw [← hsk, List.drop_left]] at h
      simp only at h
      split at h
      · cases h
      · exact ⟨_, by assumption⟩
  rw [edSign_eq hsk ha] at h
  have hr := edHash_lt ((sha512 sk).drop 32 ++ m)
  have hl := edCompress_len (edMul (edHash ((sha512 sk).drop 32 ++ m)) edBase)
  generalize edHash ((sha512 sk).drop 32 ++ m) = r at h hr hl
  obtain rfl := Option.some.inj h
  rw [List.take_left' hl]
  obtain ⟨G, hG, hL⟩ := exists_edOrder
  have hL0 : edL • G = 0 := by rw [← hL]; exact addOrderOf_nsmul_eq_zero G
  have hA := edPublic_stands hG sk
  have hpk : edDecompress (edPublic sk) = some _ := estands_read hA
  have hR := estands_mul hG ((hr.trans edL_lt).trans (show 2 ^ 253 < 2 ^ 256 by decide))
  rw [edVerify_iff hpk hA hG m _ hl (Nat.mod_lt _ edL_pos)]
  have hk := edHash_lt (edCompress (edMul r edBase) ++ pk ++ m)
  have hk' := edHash_lt (edCompress (edMul r edBase) ++ edPublic sk ++ m)
  generalize edHash (edCompress (edMul r edBase) ++ pk ++ m) = k at hk
  generalize edHash (edCompress (edMul r edBase) ++ edPublic sk ++ m) = k' at hk'
  rw [mod_edL hL0, add_nsmul, mul_comm k, mul_nsmul, neg_nsmul]
  constructor
  · rintro ⟨q, hq, hc⟩
    obtain rfl := estands_compress hq hR hc
    have := estands_inj hq hR
    have h1 : k • edScalar sk • G = k' • edScalar sk • G := by
      rw [← sub_eq_zero] at this ⊢
      rw [← this]
      abel
    rw [← mul_nsmul, ← mul_nsmul, nsmul_eq_nsmul_iff_modEq, hL] at h1
    have hc : Nat.gcd edL (edScalar sk) = 1 :=
      (Nat.Prime.coprime_iff_not_dvd prime_ell).2 (ell_not_dvd_clamp _)
    have := Nat.ModEq.cancel_left_of_coprime hc h1
    unfold Nat.ModEq at this
    rwa [Nat.mod_eq_of_lt hk, Nat.mod_eq_of_lt hk'] at this
  · rintro rfl
    refine ⟨_, ?_, rfl⟩
    rw [show -(k • edScalar sk • G) + (r • G + k • edScalar sk • G) = r • G by abel]
    exact hR

/-- Which bytes are read as a point. -/
theorem edDecompress_some {b : Bytes} : (∃ a, edDecompress b = some a) ↔ EdPoint b := by
  constructor
  · rintro ⟨⟨x, y⟩, h⟩
    refine ⟨edDecompress_len h, x, ?_⟩
    have ho := (edDecompress_on h).2
    have hy : y = leNat b % 2 ^ 255 % p25519 := by
      unfold edDecompress at h
      split at h
      · cases h
      · simp only at h
        rw [Option.ite_none_right_eq_some] at h
        exact (congrArg Prod.snd (Option.some.inj h.2)).symm
    have hyc : ((y : ℕ) : Fp) = (leNat b % 2 ^ 255 : ℕ) := by rw [hy, ZMod.natCast_mod]
    generalize leNat b % 2 ^ 255 = Y at hyc ⊢
    rw [← ZMod.natCast_eq_natCast_iff']
    unfold Ed.On pc at ho
    rw [ed_d] at ho
    simp only at ho
    rw [hyc] at ho
    push_cast
    linear_combination -ho
  · rintro ⟨hl, x, hx⟩
    unfold edDecompress
    rw [if_neg (by rw [hl]; simp)]
    have hy : ((leNat b % 2 ^ 255 % p25519 : ℕ) : Fp) = (leNat b % 2 ^ 255 : ℕ) := ZMod.natCast_mod _ _
    generalize leNat b % 2 ^ 255 = Y at hx hy ⊢
    simp only
    generalize Y % p25519 = y at hy ⊢
    rw [← ZMod.natCast_eq_natCast_iff'] at hx
    push_cast at hx
    rw [← hy] at hx
    have hw : ((fMul (fSub (fMul y y) 1) (fInv (fAdd (fMul edD (fMul y y)) 1)) : ℕ) : Fp) = (x : Fp) ^ 2 := by
      simp only [cast_mul, cast_sub, cast_add, cast_fInv, Nat.cast_one]
      rw [← div_eq_mul_inv, div_eq_iff (ed_denom y)]
      linear_combination -hx
    obtain ⟨h1, -⟩ := ed_sqrt (fMul_lt _ _) hw
    rw [if_pos h1]
    exact ⟨_, rfl⟩

/-- Which keys sign. -/
theorem edSign_some {key m : Bytes} : (∃ sig, edSign key m = some sig) ↔ key.length = 64 ∧ EdPoint (key.drop 32) := by
  unfold edSign
  rw [← edDecompress_some]
  by_cases h : key.length = 64
  · rw [if_neg (by simpa using h)]
    simp only
    cases edDecompress (key.drop 32) <;> simp [h]
  · rw [if_pos h]
    simp [h]

end Verif.Algo
