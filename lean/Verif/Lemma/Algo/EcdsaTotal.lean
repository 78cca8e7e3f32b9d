import Verif.Lemma.Algo.EcdsaBytes
import Verif.Lemma.Algo.Curves

/-!
# Every secret has a public key and a nonce for every message, and mirrored signatures as bytes
-/

namespace Verif.Algo

open WeierstrassCurve.Affine

variable {c : Curve}

theorem ofSecret_iff {sk : Bytes} {d : Nat} :
    c.ofSecret sk = some d ↔ sk.length = 32 ∧ 0 < beNat sk ∧ beNat sk < c.n ∧ beNat sk = d := by
  unfold Curve.ofSecret
  split
  · rename_i h; simp [h]
  · rename_i h; simp only [reduceCtorEq, false_iff]; intro h'; exact h ⟨h'.1, h'.2.1, h'.2.2.1⟩

theorem Good.mul_ne_none (h : Good c) {d : Nat} (h0 : 0 < d) (hd : d < c.n) : c.mul d c.base ≠ none := by
  have := h.fact_p
  have := h.fact_n
  intro hq
  obtain ⟨G, hG, hnG⟩ := h.exists_base
  have hst := h.mul_stands hG hd
  rw [hq] at hst
  have hst : d • G = 0 := hst
  have hdz : (d : ZMod c.n) ≠ 0 := by
    intro hz
    have := cast_inj hd h.prime_n.pos (by rw [hz, Nat.cast_zero])
    omega
  have hinv : ((d * ((d : ZMod c.n)⁻¹).val : ℕ) : ZMod c.n) = (1 : ℕ) := by
    have : NeZero c.n := ⟨h.prime_n.ne_zero⟩
    rw [Nat.cast_mul, ZMod.natCast_rightInverse, mul_inv_cancel₀ hdz, Nat.cast_one]
  have h1 := nsmul_cast hnG hinv
  rw [one_nsmul, mul_comm, mul_nsmul', hst, nsmul_zero] at h1
  obtain ⟨-, -, hh, hG'⟩ := hG
  rw [← h1] at hG'
  cases hG'

theorem Good.public_exists (h : Good c) {sk : Bytes} {d : Nat} (hd : c.ofSecret sk = some d) (short : Bool) :
    ∃ pk, Spec.ecPublic c short sk = some pk := by
  obtain ⟨-, h0, hn, rfl⟩ := ofSecret_iff.1 hd
  unfold Spec.ecPublic
  rw [hd]
  simp only
  cases hq : c.mul (beNat sk) c.base with
  | none => exact absurd hq (h.mul_ne_none h0 hn)
  | some xy => exact ⟨_, rfl⟩

/-- The base point and its double give two different nonzero numbers. -/
structure Two (c : Curve) where
  x1 : Nat
  x2 : Nat
  m1 : (c.mul 1 c.base).map (·.1) = some x1
  m2 : (c.mul 2 c.base).map (·.1) = some x2
  n1 : x1 % c.n ≠ 0
  n2 : x2 % c.n ≠ 0
  ne : x1 % c.n ≠ x2 % c.n

def two_p256 : Two p256 where
  x1 := p256.gx
  x2 := 0x7cf27b188d034f7e8a52380304b51ac3c08969e277f21b35a60b48fc47669978
  m1 := by decide +kernel
  m2 := by decide +kernel
  n1 := by decide
  n2 := by decide
  ne := by decide

def two_k256 : Two k256 where
  x1 := k256.gx
  x2 := 0xc6047f9441ed7d6d3045406e95c07cd85c778e4b8cef3ca7abac09b95c709ee5
  m1 := by decide +kernel
  m2 := by decide +kernel
  n1 := by decide
  n2 := by decide
  ne := by decide

theorem Good.signWith_of (h : Good c) {d k z x : Nat} (hk0 : 0 < k) (hk : k < c.n)
    (hm : (c.mul k c.base).map (·.1) = some x)
    (hx : x % c.n ≠ 0) (hs : (z + x % c.n * d) % c.n ≠ 0) : ∃ rs, c.signWith d k z = some rs := by
  have := h.fact_n
  unfold Curve.signWith
  cases hq : c.mul k c.base with
  | none => rw [hq] at hm; cases hm
  | some xy =>
    obtain ⟨x', y⟩ := xy
    rw [hq] at hm
    obtain rfl : x' = x := Option.some.inj hm
    simp only
    rw [if_neg]
    · exact ⟨_, rfl⟩
    · rintro (h0 | h0)
      · exact hx h0
      · apply hs
        have hz : ((invMod c.n k * (z + x' % c.n * d) % c.n : ℕ) : ZMod c.n) = 0 := by rw [h0, Nat.cast_zero]
        rw [ZMod.natCast_mod, Nat.cast_mul, cast_invMod h.n_gt h.n_lt.le] at hz
        rcases mul_eq_zero.1 hz with hz | hz
        · rw [inv_eq_zero] at hz
          have := cast_inj hk h.prime_n.pos (by rw [hz, Nat.cast_zero])
          omega
        · have := (ZMod.natCast_eq_zero_iff _ _).1 hz
          exact Nat.mod_eq_zero_of_dvd this

theorem Good.exists_nonce (h : Good c) (t : Two c) {d : Nat} (h0 : 0 < d) (hd : d < c.n) (z : Nat) :
    ∃ k, 0 < k ∧ k < c.n ∧ ∃ rs, c.signWith d k z = some rs := by
  have := h.fact_n
  have h3 := h.n_gt
  by_cases hs : (z + t.x1 % c.n * d) % c.n = 0
  · refine ⟨2, by omega, by omega, h.signWith_of (by omega) (by omega) t.m2 t.n2 ?_⟩
    intro hs'
    have e1 : ((z + t.x1 % c.n * d : ℕ) : ZMod c.n) = 0 := by rw [← ZMod.natCast_mod, hs, Nat.cast_zero]
    have e2 : ((z + t.x2 % c.n * d : ℕ) : ZMod c.n) = 0 := by rw [← ZMod.natCast_mod, hs', Nat.cast_zero]
    push_cast at e1 e2
    have e3 : (((t.x1 % c.n : ℕ) : ZMod c.n) - ((t.x2 % c.n : ℕ) : ZMod c.n)) * d = 0 := by
      linear_combination e1 - e2
    rcases mul_eq_zero.1 e3 with e | e
    · exact t.ne (cast_inj (Nat.mod_lt _ h.prime_n.pos) (Nat.mod_lt _ h.prime_n.pos) (sub_eq_zero.1 e))
    · have := cast_inj hd h.prime_n.pos (by rw [e, Nat.cast_zero])
      omega
  · exact ⟨1, by omega, by omega, h.signWith_of (by omega) (by omega) t.m1 t.n1 hs⟩

theorem Good.sign_exists (h : Good c) (t : Two c) {sk : Bytes} {d : Nat} (hd : c.ofSecret sk = some d) (low : Bool)
    (m : Bytes) : ∃ k sig, ∀ nonce : Bytes → Bytes → Nat, nonce sk m = k → c.sign low nonce sk m = some sig := by
  obtain ⟨-, h0, hn, rfl⟩ := ofSecret_iff.1 hd
  obtain ⟨k, hk0, hkn, ⟨r, s⟩, hs⟩ := h.exists_nonce t h0 hn (Curve.hash m)
  refine ⟨k - 1, beBytes 32 r ++ beBytes 32 (if low && c.n / 2 < s then c.n - s else s), fun nonce hnc => ?_⟩
  unfold Curve.sign
  rw [hd]
  simp only
  rw [hnc, Nat.mod_eq_of_lt (by omega), show 1 + (k - 1) = k by omega, hs]

theorem Good.sign_shape (h : Good c) {low : Bool} {nonce : Bytes → Bytes → Nat} {sk m sig : Bytes}
    (hs : c.sign low nonce sk m = some sig) :
    ∃ r s, sig = beBytes 32 r ++ beBytes 32 s ∧ 0 < r ∧ r < c.n ∧ 0 < s ∧ s < c.n := by
  have := h.fact_n
  unfold Curve.sign at hs
  cases hd : c.ofSecret sk with
  | none => rw [hd] at hs; cases hs
  | some d =>
    rw [hd] at hs
    simp only at hs
    cases hw : c.signWith d (1 + nonce sk m % (c.n - 1)) (Curve.hash m) with
    | none => rw [hw] at hs; cases hs
    | some rs =>
      obtain ⟨r, s⟩ := rs
      rw [hw] at hs
      obtain ⟨-, hr0, hrn, hs0, hsn, -, -⟩ := h.signWith_parts hw
      obtain rfl := Option.some.inj hs
      refine ⟨r, _, rfl, hr0, hrn, ?_⟩
      split <;> omega

/-- The mirrored signature, as bytes. -/
theorem Good.verify_mirror_bytes (h : Good c) {low short : Bool} {sk pk m : Bytes}
    (hk : Spec.ecPublic c short sk = some pk) {r s : Nat} (hr0 : 0 < r) (hrn : r < c.n) (hs0 : 0 < s) (hsn : s < c.n) :
    (c.verify false pk m (beBytes 32 r ++ beBytes 32 s) = c.verify false pk m (beBytes 32 r ++ beBytes 32 (c.n - s))) ∧
    (low = true → c.verify low pk m (beBytes 32 r ++ beBytes 32 s) = some true →
      c.verify low pk m (beBytes 32 r ++ beBytes 32 (c.n - s)) = some false) := by
  have := h.fact_p
  have := h.fact_n
  obtain ⟨d, q, hd, hdn, hq, hpk⟩ := h.ofSec1_public hk
  have hv' := h.verify_mirror (z := Curve.hash m) (r := r) hdn hsn.le
  rw [hq] at hv'
  unfold Curve.verify
  rw [hpk]
  simp only [h.ofSignature_bytes hr0 hrn hs0 hsn, h.ofSignature_bytes hr0 hrn (s := c.n - s) (by omega) (by omega), hv',
    Bool.false_and, true_and]
  rintro rfl
  simp only [Bool.true_and, Option.some.injEq, Bool.and_eq_true, Bool.not_eq_true', decide_eq_false_iff_not, and_imp]
  intro h1 _
  have hodd : c.n % 2 = 1 := by
    rcases h.prime_n.eq_two_or_odd with h' | h'
    · have := h.n_gt; omega
    · exact h'
  rw [decide_eq_true (show c.n / 2 < c.n - s by omega)]
  rfl

end Verif.Algo
