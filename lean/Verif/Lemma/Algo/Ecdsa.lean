import Verif.Lemma.Algo.Weierstrass
import Verif.Lemma.Algo.Symmetric

/-!
# What ECDSA signs it verifies, and the mirrored signature as well
-/

namespace Verif.Algo

open WeierstrassCurve.Affine

variable {c : Curve}

theorem Good.fact_p (h : Good c) : Fact c.p.Prime := ⟨h.prime_p⟩
theorem Good.fact_n (h : Good c) : Fact c.n.Prime := ⟨h.prime_n⟩

section

variable [hp : Fact c.p.Prime] [hn : Fact c.n.Prime]

omit hn in
theorem Good.mul_stands (h : Good c) {q : Pt} {D : (wei c).Point} (hD : Stands c q D) {k : Nat} (hk : k < c.n) :
    Stands c (c.mul k q) (k • D) := stands_mul h.p_gt h.p_lt.le hD (hk.trans h.n_lt)

omit hn in
/-- The base point, in the group. -/
theorem Good.exists_base (h : Good c) : ∃ G : (wei c).Point, Stands c c.base G ∧ c.n • G = 0 := by
  obtain ⟨G, hG⟩ := stands_of_eq h.p_gt h.disc h.gx_lt h.gy_lt h.base
  refine ⟨G, hG, ?_⟩
  have := stands_mul h.p_gt h.p_lt.le hG h.n_lt
  rw [show c.mul c.n (some (c.gx, c.gy)) = none from h.order] at this
  exact this

theorem nsmul_cast {G : (wei c).Point} (hG : c.n • G = 0) {a b : Nat} (h : (a : ZMod c.n) = b) : a • G = b • G := by
  rw [ZMod.natCast_eq_natCast_iff'] at h
  have key : ∀ a : Nat, a • G = (a % c.n) • G := by
    intro a
    conv_lhs => rw [← Nat.mod_add_div a c.n]
    rw [add_nsmul, mul_nsmul, hG, nsmul_zero, add_zero]
  rw [key a, key b, h]

omit hn in
theorem stands_neg {x y : Nat} {D : (wei c).Point} (h : Stands c (some (x, y)) D) : Stands c (some (x, (c.p - y) % c.p)) (-D) := by
  obtain ⟨hx, hy, h1, rfl⟩ := h
  refine ⟨hx, Nat.mod_lt _ hp.out.pos, ?_⟩
  refine some_of_eq (Point.neg_some _) rfl ?_
  rw [wei_negY, ZMod.natCast_mod, Nat.cast_sub hy.le, ZMod.natCast_self, zero_sub]

/-- What the verification looks at, for a key that belongs to a secret. -/
theorem Good.verifyWith_eq (h : Good c) {G : (wei c).Point} (hG : Stands c c.base G) (hnG : c.n • G = 0) {d z r s e : Nat}
    (hd : d < c.n) (he : (e : ZMod c.n) = (s : ZMod c.n)⁻¹ * (z + r * d)) (hel : e < c.n) :
    c.verifyWith (c.mul d c.base) z r s = match c.mul e c.base with
      | none => false
      | some (x, _) => x % c.n == r := by
  have hQ := h.mul_stands hG hd
  have hpos := hn.out.pos
  have h1 := h.mul_stands hG (Nat.mod_lt (z * invMod c.n s) hpos)
  have h2 := h.mul_stands hQ (Nat.mod_lt (r * invMod c.n s) hpos)
  have h12 := stands_add h.p_gt h.p_lt.le h1 h2
  have hm : (z * invMod c.n s % c.n) • G + (r * invMod c.n s % c.n) • d • G = e • G := by
    rw [← mul_nsmul', ← add_nsmul]
    apply nsmul_cast hnG
    push_cast
    rw [ZMod.natCast_mod, ZMod.natCast_mod, he]
    push_cast
    rw [cast_invMod h.n_gt h.n_lt.le]
    ring
  rw [hm] at h12
  have := stands_unique h12 (h.mul_stands hG hel)
  unfold Curve.verifyWith
  simp only [this]
  rfl

omit hp in
theorem Good.signWith_parts {d k z r s : Nat} (h : Good c) (hs : c.signWith d k z = some (r, s)) :
    (∃ x y, c.mul k c.base = some (x, y) ∧ r = x % c.n) ∧ 0 < r ∧ r < c.n ∧ 0 < s ∧ s < c.n ∧
      (s : ZMod c.n) = (k : ZMod c.n)⁻¹ * (z + r * d) ∧ (s : ZMod c.n) ≠ 0 := by
  unfold Curve.signWith at hs
  cases hk : c.mul k c.base with
  | none => rw [hk] at hs; cases hs
  | some xy =>
    obtain ⟨x, y⟩ := xy
    rw [hk] at hs
    simp only at hs
    split at hs
    · cases hs
    · rename_i hne
      simp only [Option.some.injEq, Prod.mk.injEq] at hs
      obtain ⟨rfl, rfl⟩ := hs
      have hpos := hn.out.pos
      have hr := Nat.mod_lt x hpos
      have hsl := Nat.mod_lt (invMod c.n k * (z + x % c.n * d)) hpos
      refine ⟨⟨x, y, rfl, rfl⟩, by omega, hr, by omega, hsl, ?_, ?_⟩
      · rw [ZMod.natCast_mod, Nat.cast_mul, cast_invMod h.n_gt h.n_lt.le]; push_cast; rfl
      · intro h0
        have := cast_inj hsl hpos (by rw [h0, Nat.cast_zero])
        omega

/-- A signature verifies. -/
theorem Good.sign_verify (h : Good c) {d k z r s : Nat} (hd : d < c.n) (hk : k < c.n)
    (hs : c.signWith d k z = some (r, s)) : c.verifyWith (c.mul d c.base) z r s = true := by
  obtain ⟨G, hG, hnG⟩ := h.exists_base
  obtain ⟨⟨x, y, hx, hr⟩, _, _, hs0, hsl, hse, hsn⟩ := h.signWith_parts hs
  have ht0 : (z + r * d : ZMod c.n) ≠ 0 := by
    intro h0
    rw [h0, mul_zero] at hse
    exact hsn hse
  rw [h.verifyWith_eq hG hnG (e := k) hd ?_ hk, hx]
  · simp [hr]
  · rw [hse, mul_inv, inv_inv, mul_assoc, inv_mul_cancel₀ ht0, mul_one]

/-- The mirror image of a signature verifies exactly if the signature does. -/
theorem Good.verify_mirror (h : Good c) {d z r s : Nat} (hd : d < c.n) (hs : s ≤ c.n) :
    c.verifyWith (c.mul d c.base) z r (c.n - s) = c.verifyWith (c.mul d c.base) z r s := by
  obtain ⟨G, hG, hnG⟩ := h.exists_base
  obtain ⟨e, hel, he⟩ : ∃ e : Nat, e < c.n ∧ (e : ZMod c.n) = (s : ZMod c.n)⁻¹ * (z + r * d) := by
    have : NeZero c.n := ⟨hn.out.ne_zero⟩
    exact ⟨_, ZMod.val_lt _, ZMod.natCast_rightInverse _⟩
  have hkl : (c.n - e) % c.n < c.n := Nat.mod_lt _ hn.out.pos
  have hkn : (((c.n - e) % c.n : ℕ) : ZMod c.n) = -(e : ZMod c.n) := by
    rw [ZMod.natCast_mod, Nat.cast_sub hel.le, ZMod.natCast_self, zero_sub]
  rw [h.verifyWith_eq hG hnG hd he hel, h.verifyWith_eq hG hnG (e := (c.n - e) % c.n) hd ?_ hkl]
  · have h1 := h.mul_stands hG hkl
    have h2 := h.mul_stands hG hel
    have : ((c.n - e) % c.n) • G = -(e • G) := by
      rw [eq_neg_iff_add_eq_zero, ← add_nsmul]
      have := nsmul_cast hnG (a := (c.n - e) % c.n + e) (b := 0) (by
        rw [Nat.cast_add, hkn, neg_add_cancel, Nat.cast_zero])
      rw [this, zero_nsmul]
    rw [this] at h1
    cases hx : c.mul e c.base with
    | none =>
      rw [hx] at h2
      rw [show e • G = 0 from h2, neg_zero] at h1
      rw [stands_unique (q := none) h1 rfl]
    | some xy =>
      obtain ⟨x, y⟩ := xy
      rw [hx] at h2
      rw [stands_unique h1 (stands_neg h2)]
  · rw [hkn, Nat.cast_sub hs, ZMod.natCast_self, zero_sub, inv_neg, neg_mul, he]

end

end Verif.Algo
