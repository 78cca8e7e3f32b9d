import Verif.Lemma.Algo.Ecdsa
import Verif.Lemma.Algo.X25519
import Verif.Spec.EcKey

/-!
# Keys and signatures of ECDSA as bytes
-/

namespace Verif.Algo

open WeierstrassCurve.Affine

theorem beNat_reverse (b : Bytes) : beNat b.reverse = leNat b := by
  unfold beNat
  rw [List.foldl_reverse]
  induction b with
  | nil => rfl
  | cons x b ih => simp only [List.foldr_cons, ih, leNat]; omega

theorem beNat_beBytes {x : Nat} (h : x < 2 ^ 256) : beNat (beBytes 32 x) = x := by
  unfold beBytes
  rw [beNat_reverse, leNat_leBytes, Nat.mod_eq_of_lt (by rw [show (256 : Nat) ^ 32 = 2 ^ 256 by decide]; exact h)]

theorem take_beBytes (x : Nat) (r : Bytes) : (beBytes 32 x ++ r).take 32 = beBytes 32 x :=
  List.take_left' (beBytes_length ..)

theorem drop_beBytes (x : Nat) (r : Bytes) : (beBytes 32 x ++ r).drop 32 = r := List.drop_left' (beBytes_length ..)

variable {c : Curve}

theorem Good.ofSignature_bytes (h : Good c) {r s : Nat} (hr : 0 < r) (hrn : r < c.n) (hs : 0 < s) (hsn : s < c.n) :
    c.ofSignature (beBytes 32 r ++ beBytes 32 s) = some (r, s) := by
  have hl : (beBytes 32 r ++ beBytes 32 s).length = 64 := by simp
  have := h.n_lt
  simp only [Curve.ofSignature, take_beBytes, drop_beBytes, beNat_beBytes (hrn.trans this), beNat_beBytes (hsn.trans this), hl,
    hr, hrn, hs, hsn, and_self, if_true]

/-- The square root that is computed is one of the two. -/
theorem Good.sqrt (h : Good c) {y : Nat} (hy : y < c.p) {v : Nat} (hv : y * y % c.p = v) :
    let y' := expMod c.p v ((c.p + 1) / 4) 256
    y' < c.p ∧ (y' = y ∨ y' = (c.p - y) % c.p) := by
  have := h.fact_p
  have hm := h.mod4
  have hlt := h.p_lt
  have hpos := h.prime_p.pos
  have he : (c.p + 1) / 4 < 2 ^ 256 := by omega
  intro y'
  have hy' : y' < c.p := by
    show expMod .. < _
    rw [expMod_eq h.prime_p.one_lt, powMod_eq _ _ he]
    exact Nat.mod_lt _ hpos
  refine ⟨hy', ?_⟩
  have hcast : (y' : ZMod c.p) = (y : ZMod c.p) * (y : ZMod c.p) ^ (c.p / 2) := by
    show ((expMod .. : ℕ) : ZMod c.p) = _
    rw [cast_expMod h.prime_p.one_lt _ he, ← hv, ZMod.natCast_mod, Nat.cast_mul, ← pow_two, ← pow_mul, ← pow_succ']
    congr 1; omega
  by_cases hy0 : (y : ZMod c.p) = 0
  · left
    refine cast_inj hy' hy ?_
    rw [hcast, hy0, zero_mul]
  · rcases ZMod.pow_div_two_eq_neg_one_or_one c.p hy0 with h1 | h1
    · left
      refine cast_inj hy' hy ?_
      rw [hcast, h1, mul_one]
    · right
      refine cast_inj hy' (Nat.mod_lt _ hpos) ?_
      rw [hcast, h1, ZMod.natCast_mod, Nat.cast_sub hy.le, ZMod.natCast_self]; ring

theorem rhs_of_stands [Fact c.p.Prime] {x y : Nat} {D : (wei c).Point} (h : Stands c (some (x, y)) D) :
    x < c.p ∧ y < c.p ∧ y * y % c.p = c.rhs x := by
  obtain ⟨hx, hy, h1, -⟩ := h
  refine ⟨hx, hy, ?_⟩
  have := wei_eq h1
  unfold Curve.rhs
  rw [← ZMod.natCast_eq_natCast_iff']
  push_cast
  linear_combination this

/-- The public key of a secret is read as its point. -/
theorem Good.ofSec1_public (h : Good c) {short : Bool} {sk pk : Bytes} (hk : Spec.ecPublic c short sk = some pk) :
    ∃ d q, c.ofSecret sk = some d ∧ d < c.n ∧ c.mul d c.base = some q ∧ c.ofSec1 pk = some q := by
  have := h.fact_p
  obtain ⟨G, hG, -⟩ := h.exists_base
  unfold Spec.ecPublic at hk
  cases hd : c.ofSecret sk with
  | none => rw [hd] at hk; cases hk
  | some d =>
    rw [hd] at hk
    have hdn : d < c.n := by
      unfold Curve.ofSecret at hd
      split at hd
      · rename_i h'; rw [← Option.some.inj hd]; exact h'.2.2
      · cases hd
    simp only at hk
    cases hq : c.mul d c.base with
    | none => rw [hq] at hk; cases hk
    | some q =>
      obtain ⟨x, y⟩ := q
      rw [hq] at hk
      refine ⟨d, (x, y), rfl, hdn, hq, ?_⟩
      have hst := h.mul_stands hG hdn
      rw [hq] at hst
      obtain ⟨hx, hy, hxy⟩ := rhs_of_stands hst
      have hx' := hx.trans h.p_lt
      have hy' := hy.trans h.p_lt
      obtain rfl := Option.some.inj hk
      have hodd := h.mod4
      cases short with
      | false =>
        simp only [Bool.false_eq_true, if_false, List.cons_append, Curve.ofSec1, take_beBytes, drop_beBytes,
          beNat_beBytes hx', beNat_beBytes hy', List.length_append, beBytes_length, hx, hy, hxy, and_self, if_true]
      | true =>
        obtain ⟨hr, hs⟩ := h.sqrt hy hxy
        have htk : (beBytes 32 x).take 32 = beBytes 32 x := List.take_of_length_le (by simp)
        have hsq : expMod c.p (c.rhs x) ((c.p + 1) / 4) 256 * expMod c.p (c.rhs x) ((c.p + 1) / 4) 256 % c.p = c.rhs x := by
          rw [← hxy]
          rcases hs with hs | hs
          · rw [← hxy] at hs; rw [hs]
          · rw [← hxy] at hs
            rw [hs, ← ZMod.natCast_eq_natCast_iff', Nat.cast_mul, Nat.cast_mul, ZMod.natCast_mod, Nat.cast_sub hy.le,
              ZMod.natCast_self]
            ring
        have hpar : ∀ t : Nat, t % 2 = y % 2 → (if expMod c.p (c.rhs x) ((c.p + 1) / 4) 256 % 2 = t % 2 then
            expMod c.p (c.rhs x) ((c.p + 1) / 4) 256 else (c.p - expMod c.p (c.rhs x) ((c.p + 1) / 4) 256) % c.p) = y := by
          intro t ht
          rw [ht]
          generalize expMod c.p (c.rhs x) ((c.p + 1) / 4) 256 = y0 at hs hr
          rcases hs with rfl | rfl
          · rw [if_pos rfl]
          · by_cases hy0 : y = 0
            · subst hy0; simp
            · have h1 : (c.p - y) % c.p = c.p - y := Nat.mod_eq_of_lt (by omega)
              rw [h1, if_neg (by omega), show c.p - (c.p - y) = y by omega, Nat.mod_eq_of_lt hy]
        by_cases hev : y % 2 = 0
        · have := hpar 2 (by omega)
          simp only [if_true, hev, Curve.ofSec1, htk, beNat_beBytes hx', beBytes_length, hx, hsq, true_and, and_true]
          simpa using this
        · have := hpar 3 (by omega)
          simp only [if_true, hev, if_false, Curve.ofSec1, htk, beNat_beBytes hx', beBytes_length, hx, hsq, true_and, and_true]
          simpa using this

/-- What is signed with a secret verifies under its public key. -/
theorem Good.sign_verify_bytes (h : Good c) {low short : Bool} {nonce : Bytes → Bytes → Nat} {sk pk m sig : Bytes}
    (hk : Spec.ecPublic c short sk = some pk) (hs : c.sign low nonce sk m = some sig) :
    c.verify low pk m sig = some true := by
  have := h.fact_p
  have := h.fact_n
  obtain ⟨d, q, hd, hdn, hq, hpk⟩ := h.ofSec1_public hk
  unfold Curve.sign at hs
  rw [hd] at hs
  simp only at hs
  have h3 := h.n_gt
  have hkn : 1 + nonce sk m % (c.n - 1) < c.n := by
    have := Nat.mod_lt (nonce sk m) (show 0 < c.n - 1 by omega)
    omega
  cases hw : c.signWith d (1 + nonce sk m % (c.n - 1)) (Curve.hash m) with
  | none => rw [hw] at hs; cases hs
  | some rs =>
    obtain ⟨r, s⟩ := rs
    rw [hw] at hs
    obtain ⟨-, hr0, hrn, hs0, hsn, -, -⟩ := h.signWith_parts hw
    have hv := h.sign_verify hdn hkn hw
    have hv' := h.verify_mirror (z := Curve.hash m) (r := r) hdn hsn.le
    rw [hv, hq] at hv'
    rw [hq] at hv
    obtain rfl := Option.some.inj hs
    unfold Curve.verify
    rw [hpk]
    cases low with
    | false =>
      simp only [Bool.false_and, Bool.false_eq_true, if_false, h.ofSignature_bytes hr0 hrn hs0 hsn, hv, Bool.not_false, Bool.and_true]
    | true =>
      by_cases hhi : c.n / 2 < s
      · have hodd : c.n % 2 = 1 := by
          rcases h.prime_n.eq_two_or_odd with h' | h'
          · omega
          · exact h'
        simp only [hhi, decide_true, Bool.and_self, if_true, h.ofSignature_bytes hr0 hrn (s := c.n - s) (by omega) (by omega), hv',
          Bool.true_and, Bool.and_true]
        rw [decide_eq_false (by omega)]; rfl
      · simp only [hhi, decide_false, Bool.and_false, Bool.false_eq_true, if_false, h.ofSignature_bytes hr0 hrn hs0 hsn, hv,
          Bool.not_false, Bool.and_true]

end Verif.Algo
