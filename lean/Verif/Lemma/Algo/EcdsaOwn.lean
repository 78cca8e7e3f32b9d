import Verif.Lemma.Algo.CurveCount
import Verif.Lemma.Algo.Tags

/-!
# Every key and every signature for ECDSA that is accepted belongs to a secret
-/

namespace Verif.Algo

open WeierstrassCurve.Affine

theorem counted_p256 : Counted p256 where
  toGood := good_p256
  b_le := by decide
  disc' := by decide +kernel
  near := by decide
  diff := by decide
  other := ⟨1, 102115190326278650337567375412245725727637609029412000186549234011302560365818, by decide, by decide,
    by decide +kernel, by decide +kernel⟩

theorem counted_k256 : Counted k256 where
  toGood := good_k256
  b_le := by decide
  disc' := by decide +kernel
  near := by decide
  diff := by decide
  other := ⟨1, 5194389836662979989662726313411894162497359183832872900194037722989987713543, by decide, by decide,
    by decide +kernel, by decide +kernel⟩

variable {c : Curve}

theorem beBytes_beNat {b : Bytes} (h : b.length = 32) : beBytes 32 (beNat b) = b := by
  have hb : beNat b < 2 ^ 256 := by
    rw [beNat_eq, show (2 : Nat) ^ 256 = 256 ^ b.reverse.length by rw [List.length_reverse, h]; decide]
    exact leNat_lt_pow _
  exact beNat_inj (by rw [beBytes_length, h]) (beNat_beBytes hb)

/-- A point on the curve does not have a zero as second coordinate. -/
theorem Counted.y_ne_zero (h : Counted c) {x y : Nat} {D : (wei c).Point} (hD : Stands c (some (x, y)) D) : y ≠ 0 := by
  have := h.fact_p
  have := h.fact_n
  rintro rfl
  obtain ⟨d, hd0, hdn, hm⟩ := h.multiple hD
  obtain ⟨G, hG, hnG⟩ := h.exists_base
  have hs := h.mul_stands hG hdn
  rw [hm] at hs
  have hn := stands_neg hs
  rw [show (c.p - 0) % c.p = 0 by simp] at hn
  obtain ⟨-, -, _, e1⟩ := hs
  obtain ⟨-, -, _, e2⟩ := hn
  have e : d • G = -(d • G) := e1.trans e2.symm
  have h2 : (d + d) • G = 0 := by
    rw [add_nsmul]
    nth_rw 1 [e]
    exact neg_add_cancel _
  have hz := h.nsmul_zero hG hnG h2
  rw [Nat.cast_add, ← two_mul] at hz
  exact (mul_ne_zero h.two_ne_zero (natCast_ne_zero_of_lt hd0 hdn)) hz

/-- Every key that is read is the public key of a secret. -/
theorem Counted.public_of_ofSec1 (h : Counted c) {pk : Bytes} {q : Nat × Nat} (hq : c.ofSec1 pk = some q) :
    ∃ short sk, Spec.ecPublic c short sk = some pk := by
  have := h.fact_p
  have hp := h.p_lt
  have h4 := h.mod4
  obtain ⟨x, y⟩ := q
  have key : ∀ short, x < c.p → y < c.p → y * y % c.p = c.rhs x →
      (y ≠ 0 → pk = if short = true then (if y % 2 = 0 then 2 else 3) :: beBytes 32 x
        else 4 :: beBytes 32 x ++ beBytes 32 y) → ∃ short sk, Spec.ecPublic c short sk = some pk := by
    intro short hx hy hxy hpk
    obtain ⟨D, hD⟩ := stands_of_eq h.p_gt h.disc hx hy hxy
    obtain ⟨d, hd0, hdn, hm⟩ := h.multiple hD
    refine ⟨short, beBytes 32 d, ?_⟩
    have hs : c.ofSecret (beBytes 32 d) = some d := by
      rw [ofSecret_iff, beNat_beBytes (hdn.trans h.n_lt)]
      exact ⟨beBytes_length .., hd0, hdn, rfl⟩
    unfold Spec.ecPublic
    rw [hs]
    simp only [hm]
    rw [hpk (h.y_ne_zero hD)]
  match pk with
  | [] => cases hq
  | t :: b =>
    unfold Curve.ofSec1 at hq
    simp only at hq
    split at hq
    · rename_i h64
      split at hq
      · rename_i hh
        simp only [Option.some.injEq, Prod.mk.injEq] at hq
        obtain ⟨hx, hy⟩ := hq
        rw [hx, hy] at hh
        refine key false hh.1 hh.2.1 hh.2.2 fun _ => ?_
        rw [← hx, ← hy, h64.1]
        simp only [Bool.false_eq_true, if_false, List.cons_append]
        rw [beBytes_beNat (by rw [List.length_take, h64.2]; rfl), beBytes_beNat (by rw [List.length_drop, h64.2]),
          List.take_append_drop]
      · cases hq
    · split at hq
      · rename_i _ h32
        split at hq
        · rename_i hh
          simp only [Option.some.injEq, Prod.mk.injEq] at hq
          obtain ⟨hx, hy⟩ := hq
          rw [hx] at hh hy
          have hy' : expMod c.p (c.rhs x) ((c.p + 1) / 4) 256 < c.p := by
            rw [expMod_eq h.prime_p.one_lt, powMod_eq _ _ (by omega)]
            exact Nat.mod_lt _ h.prime_p.pos
          revert hy hy' hh
          generalize expMod c.p (c.rhs x) ((c.p + 1) / 4) 256 = y'
          intro hh hy hy'
          have hyp : y < c.p := by
            rw [← hy]
            split
            · exact hy'
            · exact Nat.mod_lt _ h.prime_p.pos
          have hyy : y * y % c.p = c.rhs x := by
            rw [← hh.2, ← hy]
            split
            · rfl
            · rw [← ZMod.natCast_eq_natCast_iff', Nat.cast_mul, Nat.cast_mul, ZMod.natCast_mod, Nat.cast_sub hy'.le,
                ZMod.natCast_self]
              ring
          refine key true hh.1 hyp hyy fun hy0 => ?_
          have hpar : y % 2 = t.toNat % 2 := by
            rw [← hy] at hy0 ⊢
            split
            · assumption
            · rename_i hne
              rw [if_neg hne] at hy0
              have : y' ≠ 0 := by
                rintro rfl
                exact hy0 (by simp)
              rw [Nat.mod_eq_of_lt (a := c.p - y') (by omega)]
              omega
          have hb : beBytes 32 x = b := by
            rw [← hx, List.take_of_length_le (by omega), beBytes_beNat h32.2]
          simp only [if_true, hb]
          rcases h32.1 with rfl | rfl
          · rw [if_pos (by rw [hpar]; rfl)]
          · rw [if_neg (by rw [hpar]; decide)]
        · cases hq
      · cases hq

/-- A public key is of one secret and in one form. -/
theorem Good.public_inj (h : Good c) {short short' : Bool} {sk sk' pk : Bytes} (hk : Spec.ecPublic c short sk = some pk)
    (hk' : Spec.ecPublic c short' sk' = some pk) : short = short' ∧ sk = sk' := by
  have := h.fact_p
  have := h.fact_n
  constructor
  · have len : ∀ {short : Bool} {sk : Bytes}, Spec.ecPublic c short sk = some pk →
        pk.length = if short = true then 33 else 65 := by
      intro short sk hk
      unfold Spec.ecPublic at hk
      split at hk
      · cases hk
      · split at hk
        · cases hk
        · obtain rfl := Option.some.inj hk
          cases short <;> simp
    have l1 := len hk
    have l2 := len hk'
    cases short <;> cases short' <;> simp_all
  · obtain ⟨d, q, hd, hdn, hm, hpk⟩ := h.ofSec1_public hk
    obtain ⟨d', q', hd', hdn', hm', hpk'⟩ := h.ofSec1_public hk'
    obtain ⟨l, -, -, rfl⟩ := ofSecret_iff.1 hd
    obtain ⟨l', -, -, rfl⟩ := ofSecret_iff.1 hd'
    rw [hpk] at hpk'
    obtain rfl := Option.some.inj hpk'
    obtain ⟨G, hG, hnG⟩ := h.exists_base
    have s1 := h.mul_stands hG hdn
    have s2 := h.mul_stands hG (show c.n - beNat sk' < c.n by have := (ofSecret_iff.1 hd').2.1; omega)
    have s3 := h.mul_stands hG hdn'
    rw [hm] at s1
    rw [hm'] at s3
    have e : beNat sk • G = beNat sk' • G := by
      obtain ⟨-, -, _, e1⟩ := s1
      obtain ⟨-, -, _, e2⟩ := s3
      rw [e1, e2]
    have hz : (beNat sk + (c.n - beNat sk')) • G = 0 := by
      rw [add_nsmul, e, ← add_nsmul, Nat.add_sub_cancel' hdn'.le, hnG]
    have := h.nsmul_zero hG hnG hz
    rw [Nat.cast_add, Nat.cast_sub hdn'.le, ZMod.natCast_self, zero_sub, ← sub_eq_add_neg, sub_eq_zero] at this
    exact beNat_inj (by rw [l, l']) (cast_inj hdn hdn' this)

/-- The signatures that are accepted under a public key are those that its secret makes with some nonce. -/
theorem Good.verify_iff_sign (h : Good c) {low short : Bool} {sk pk m sig : Bytes}
    (hk : Spec.ecPublic c short sk = some pk) (hv : c.verify low pk m sig = some true) :
    ∃ k, ∀ nonce : Bytes → Bytes → Nat, nonce sk m = k → c.sign low nonce sk m = some sig := by
  have := h.fact_n
  have : NeZero c.n := ⟨h.prime_n.ne_zero⟩
  obtain ⟨r, s, hs, hlow, hh⟩ := (h.verify_iff hk).1 hv
  obtain ⟨d, q, hd, hdn, hm, hpk⟩ := h.ofSec1_public hk
  obtain ⟨-, -, -, rfl⟩ := ofSecret_iff.1 hd
  obtain ⟨hl, hr0, hrn, hs0, hsn, hr, hs'⟩ := ofSignature_parts hs
  generalize he : (s : ZMod c.n)⁻¹ * (Curve.hash m + r * beNat sk) = e at hh
  unfold hits at hh
  split at hh
  · cases hh
  · rename_i x y hxy
    have hx : x % c.n = r := by simpa using hh
    have hel := ZMod.val_lt e
    have he0 : 0 < e.val := by
      rcases Nat.eq_zero_or_pos e.val with h0 | h0
      · rw [h0, h.mul_base_zero] at hxy; cases hxy
      · exact h0
    have hez : e ≠ 0 := by
      rintro rfl
      simp at he0
    have hsz := natCast_ne_zero_of_lt hs0 hsn
    have hzz : (Curve.hash m + r * beNat sk : ZMod c.n) ≠ 0 := by
      intro h0
      rw [h0, mul_zero] at he
      exact hez he.symm
    refine ⟨e.val - 1, fun nonce hn => ?_⟩
    have hsw : c.signWith (beNat sk) e.val (Curve.hash m) = some (r, s) := by
      unfold Curve.signWith
      simp only [hxy, hx]
      have : invMod c.n e.val * (Curve.hash m + r * beNat sk) % c.n = s := by
        refine cast_inj (Nat.mod_lt _ h.prime_n.pos) hsn ?_
        rw [ZMod.natCast_mod, Nat.cast_mul, cast_invMod h.n_gt h.n_lt.le, ZMod.natCast_rightInverse, ← he]
        push_cast
        rw [mul_inv, inv_inv, mul_assoc, inv_mul_cancel₀ hzz, mul_one]
      rw [this, if_neg (by omega)]
    unfold Curve.sign
    rw [hd]
    simp only
    rw [hn, Nat.mod_eq_of_lt (by omega), show 1 + (e.val - 1) = e.val by omega, hsw]
    simp only
    have : (low && decide (c.n / 2 < s)) = false := by
      cases low
      · rfl
      · simp only [Bool.true_and, decide_eq_false_iff_not]
        exact fun h' => hlow ⟨rfl, h'⟩
    rw [this, if_neg (by decide), hr, hs', beBytes_beNat (by rw [List.length_take, hl]; rfl),
      beBytes_beNat (by rw [List.length_drop, hl]), List.take_append_drop]

end Verif.Algo
