import Verif.Lemma.Algo.Prime
import Verif.Lemma.Algo.Montgomery
import Mathlib.NumberTheory.LegendreSymbol.Basic

/-!
# X25519 is multiplication on a group

The function on numbers computes the first coordinate of a multiple of a point of Curve25519, so both parties
of a key agreement get the same secret.
-/

namespace Verif.Algo

open WeierstrassCurve.Affine

instance : Fact (Nat.Prime p25519) := ⟨prime_p25519⟩

/-- The field of Curve25519. -/
abbrev Fp := ZMod p25519

theorem p_pos : 0 < p25519 := prime_p25519.pos

theorem p_lt : p25519 < 2 ^ 255 := by decide

theorem cast_add (a b : Nat) : ((fAdd a b : Nat) : Fp) = a + b := by
  simp [fAdd]

theorem cast_sub (a b : Nat) : ((fSub a b : Nat) : Fp) = a - b := by
  have h : b % p25519 ≤ p25519 := (Nat.mod_lt _ p_pos).le
  simp [fSub, Nat.cast_sub h, sub_eq_add_neg]

theorem cast_mul (a b : Nat) : ((fMul a b : Nat) : Fp) = a * b := by
  simp [fMul]

theorem cast_pow (a : Nat) {e n : Nat} (h : e < 2 ^ n) : ((fPow a e n : Nat) : Fp) = (a : Fp) ^ e := by
  induction n generalizing e with
  | zero =>
    have : e = 0 := by simpa using h
    subst this; simp [fPow]
  | succ n ih =>
    have h2 : e / 2 < 2 ^ n := by
      rw [Nat.pow_succ] at h; omega
    simp only [fPow]
    split
    · rename_i ho
      rw [cast_mul, cast_mul, ih h2, ← pow_add, ← pow_succ]
      congr 1; omega
    · rename_i ho
      rw [cast_mul, ih h2, ← pow_add]
      congr 1; omega

theorem two_ne : (2 : Fp) ≠ 0 := by
  intro h
  have h1 : ((2 : ℕ) : Fp) = ((0 : ℕ) : Fp) := by push_cast; exact h
  rw [ZMod.natCast_eq_natCast_iff'] at h1
  revert h1; decide

/-- The power by which Euler decides whether a number is a square. -/
theorem cast_pow_one {a e n : Nat} (h : e < 2 ^ n) : ((a : Fp) ^ e = 1) ↔ powMod p25519 a e n = 1 := by
  rw [powMod_eq _ _ h]
  have := ZMod.natCast_eq_natCast_iff' (a ^ e) 1 p25519
  rw [show (1 : Nat) % p25519 = 1 by decide] at this
  rw [← this]; push_cast; rfl

/-- The constant of Curve25519 (RFC 7748, section 4.1). -/
abbrev curveA : Fp := ((486662 : ℕ) : Fp)

theorem nonsquare (r : Fp) : r ^ 2 ≠ curveA ^ 2 - 4 := by
  intro h
  have h1 : curveA ^ 2 - 4 = (((486662 : ℕ) ^ 2 - 4 : ℕ) : Fp) := by
    rw [Nat.cast_sub (by decide)]; push_cast; rfl
  have h0 : (((486662 : ℕ) ^ 2 - 4 : ℕ) : Fp) ≠ 0 := by
    intro h
    have h2 : (((486662 : ℕ) ^ 2 - 4 : ℕ) : Fp) = ((0 : ℕ) : Fp) := by simpa using h
    rw [ZMod.natCast_eq_natCast_iff'] at h2
    revert h2; decide
  have h2 := (ZMod.euler_criterion p25519 h0).1 ⟨r, by rw [← h1, ← h]; ring⟩
  rw [cast_pow_one (n := 255) (by decide)] at h2
  revert h2
  decide +kernel

/-- The first coordinate of a point, zero at infinity (RFC 7748, section 5). -/
def xc : (mont curveA).Point → Fp
  | .zero => 0
  | .some x _ _ => x

theorem rep_value {P : (mont curveA).Point} {X Z : Fp} (h : Rep P X Z) : X * Z ^ (p25519 - 2) = xc P := by
  match P, h with
  | .zero, ⟨_, hz⟩ => rw [hz, zero_pow (by decide), mul_zero]; rfl
  | .some x y hp, ⟨hz, hx⟩ =>
    have h1 : Z ^ (p25519 - 2) * Z = 1 := by
      rw [← pow_succ, show p25519 - 2 + 1 = p25519 - 1 by decide]
      exact ZMod.pow_card_sub_one_eq_one hz
    rw [hx]
    show _ = x
    linear_combination x * h1

theorem step_rep {P : (mont curveA).Point} {x1 y1 : Fp} {hD : (mont curveA).Nonsingular x1 y1} (hx1 : x1 ≠ 0)
    {u : Nat} (hu : (u : Fp) = x1) {s : Ladder} (h2 : Rep P (s.x2 : Fp) s.z2)
    (h3 : Rep (P + .some x1 y1 hD) (s.x3 : Fp) s.z3) :
    Rep (P + P) ((s.step u).x2 : Fp) (s.step u).z2 ∧
    Rep (P + (P + .some x1 y1 hD)) ((s.step u).x3 : Fp) (s.step u).z3 := by
  have hd := rep_double two_ne nonsquare h2
  have ha := rep_add two_ne nonsquare hx1 rfl h2 h3
  constructor
  · convert hd using 1
    · simp only [Ladder.step, cast_mul, cast_add, cast_sub]; ring
    · simp only [Ladder.step, cast_mul, cast_add, cast_sub]; push_cast; ring
  · convert ha using 1
    · simp only [Ladder.step, cast_mul, cast_add, cast_sub]; ring
    · simp only [Ladder.step, cast_mul, cast_add, cast_sub, hu]; ring

/-- Two states of the ladder that differ by the other order of the points. -/
theorem step_rep' {P : (mont curveA).Point} {x1 y1 : Fp} {hD : (mont curveA).Nonsingular x1 y1} (hx1 : x1 ≠ 0)
    {u : Nat} (hu : (u : Fp) = x1) {s : Ladder} (h2 : Rep P (s.x2 : Fp) s.z2)
    (h3 : Rep (P + .some x1 y1 hD) (s.x3 : Fp) s.z3) :
    Rep (P + (P + .some x1 y1 hD)) ((s.swap.step u).swap.x2 : Fp) (s.swap.step u).swap.z2 ∧
    Rep (P + .some x1 y1 hD + (P + .some x1 y1 hD)) ((s.swap.step u).swap.x3 : Fp) (s.swap.step u).swap.z3 := by
  have hd := rep_double two_ne nonsquare h3
  have ha := rep_add two_ne nonsquare hx1 rfl h2 h3
  constructor
  · convert ha using 1
    · simp only [Ladder.swap, Ladder.step, cast_mul, cast_add, cast_sub]; ring
    · simp only [Ladder.swap, Ladder.step, cast_mul, cast_add, cast_sub, hu]; ring
  · convert hd using 1
    · simp only [Ladder.swap, Ladder.step, cast_mul, cast_add, cast_sub]; ring
    · simp only [Ladder.swap, Ladder.step, cast_mul, cast_add, cast_sub]; push_cast; ring

theorem bits_succ (k n m : Nat) : m * 2 ^ (n + 1) + k % 2 ^ (n + 1) = (2 * m + k >>> n % 2) * 2 ^ n + k % 2 ^ n := by
  rw [Nat.shiftRight_eq_div_pow]
  have : k % 2 ^ (n + 1) = k / 2 ^ n % 2 * 2 ^ n + k % 2 ^ n := by
    rw [Nat.pow_succ, Nat.mod_mul]; ring
  rw [this, Nat.pow_succ]; ring

theorem ladder_rep {x1 y1 : Fp} {hD : (mont curveA).Nonsingular x1 y1} (hx1 : x1 ≠ 0) {u : Nat} (hu : (u : Fp) = x1)
    (k : Nat) {n m : Nat} {s : Ladder} (h2 : Rep (m • (.some x1 y1 hD : (mont curveA).Point)) (s.x2 : Fp) s.z2)
    (h3 : Rep (m • (.some x1 y1 hD : (mont curveA).Point) + .some x1 y1 hD) (s.x3 : Fp) s.z3) :
    Rep ((m * 2 ^ n + k % 2 ^ n) • (.some x1 y1 hD : (mont curveA).Point)) ((ladder u k n s).x2 : Fp) (ladder u k n s).z2 := by
  induction n generalizing m s with
  | zero => simpa [ladder, Nat.mod_one] using h2
  | succ n ih =>
    rw [bits_succ]
    simp only [ladder]
    split
    · rename_i hb
      obtain ⟨g2, g3⟩ := step_rep' hx1 hu h2 h3
      rw [hb]
      refine ih (m := 2 * m + 1) ?_ ?_
      · convert g2 using 1
        rw [add_nsmul, one_nsmul, two_mul, add_nsmul]; abel
      · convert g3 using 1
        rw [add_nsmul, one_nsmul, two_mul, add_nsmul]; abel
    · rename_i hb
      have hb : k >>> n % 2 = 0 := by omega
      obtain ⟨g2, g3⟩ := step_rep hx1 hu h2 h3
      rw [hb]
      refine ih (m := 2 * m + 0) ?_ ?_
      · convert g2 using 1
        rw [add_zero, two_mul, add_nsmul]
      · convert g3 using 1
        rw [add_zero, two_mul, add_nsmul]; abel

/-- The ladder at the point of order two and at infinity. -/
theorem ladder_zero {u : Nat} (hu : (u : Fp) = 0) (k : Nat) {n : Nat} {s : Ladder} (h2 : (s.x2 : Fp) * s.z2 = 0)
    (h3 : (s.x3 : Fp) * s.z3 = 0) : ((ladder u k n s).x2 : Fp) * (ladder u k n s).z2 = 0 := by
  induction n generalizing s with
  | zero => exact h2
  | succ n ih =>
    have hs : ∀ t : Ladder, (t.x2 : Fp) * t.z2 = 0 → ((t.step u).x2 : Fp) * (t.step u).z2 = 0 ∧
        ((t.step u).x3 : Fp) * (t.step u).z3 = 0 := by
      intro t ht
      simp only [Ladder.step, cast_mul, cast_add, cast_sub, hu]
      refine ⟨?_, by ring⟩
      have : ((t.x2 : Fp) + t.z2) * (t.x2 + t.z2) - (t.x2 - t.z2) * (t.x2 - t.z2) = 0 := by
        linear_combination 4 * ht
      rw [this]; ring
    simp only [ladder]
    split
    · obtain ⟨a, b⟩ := hs s.swap h3
      exact ih b a
    · obtain ⟨a, b⟩ := hs s h2
      exact ih a b

theorem xc_zero_mul {D : (mont curveA).Point} (h : xc D = 0) (k : Nat) : xc (k • D) = 0 := by
  have : ∀ k : Nat, k • D = 0 ∨ k • D = D := by
    have hdd : D + D = 0 := by
      match D, h with
      | .zero, _ => rw [← Point.zero_def, add_zero]
      | .some x y hp, h =>
        have hx : x = 0 := h
        have e := mont_eq hp
        have hy : y = 0 := by
          have : y ^ 2 = 0 := by rw [e, hx]; ring
          exact pow_eq_zero_iff (by decide) |>.1 this
        exact Point.add_self_of_Y_eq (by rw [mont_negY, hy, neg_zero])
    intro k
    induction k with
    | zero => left; exact zero_nsmul D
    | succ k ih =>
      rw [succ_nsmul]
      rcases ih with ih | ih
      · right; rw [ih, zero_add]
      · left; rw [ih, hdd]
  rcases this k with h' | h'
  · rw [h']; rfl
  · rw [h']; exact h

/-- The function on numbers is multiplication of points. -/
theorem cast_montMul {D : (mont curveA).Point} {u : Nat} (hu : (u : Fp) = xc D) {k : Nat} (hk : k < 2 ^ 255) :
    ((montMul k u : Nat) : Fp) = xc (k • D) := by
  have hp : p25519 - 2 < 2 ^ 255 := lt_of_le_of_lt (Nat.sub_le ..) p_lt
  simp only [montMul]
  rw [cast_mul, cast_pow _ hp]
  by_cases h0 : xc D = 0
  · rw [xc_zero_mul h0]
    have := ladder_zero (u := u) (by rw [hu, h0]) k (n := 255) (s := ⟨1, 0, u, 1⟩) (by simp)
      (by push_cast; rw [hu, h0]; ring)
    rcases mul_eq_zero.1 this with h | h
    · rw [h, zero_mul]
    · rw [h, zero_pow (by decide), mul_zero]
  · match D, hu, h0 with
    | .zero, _, h0 => exact absurd rfl h0
    | .some x y hD, hu, h0 =>
      have hu : (u : Fp) = x := hu
      have h0 : x ≠ 0 := h0
      have := ladder_rep (hD := hD) h0 hu k (n := 255) (m := 0) (s := ⟨1, 0, u, 1⟩)
        (by rw [zero_nsmul, Point.zero_def]; exact ⟨by simp, by simp⟩)
        (by rw [zero_nsmul, zero_add]; exact ⟨by simp, by simp [hu]⟩)
      rw [Nat.zero_mul, Nat.zero_add, Nat.mod_eq_of_lt hk] at this
      exact rep_value this

theorem montMul_lt (k u : Nat) : montMul k u < p25519 := Nat.mod_lt _ p_pos

/-- The second coordinate of the base point (RFC 7748, section 4.1). -/
def baseY : Nat := 14781619447589544791020593568409986887264606134616475288964881837755586237401

/-- The base point. -/
theorem base_point : ∃ G : (mont curveA).Point, ((9 : ℕ) : Fp) = xc G := by
  have he : (mont curveA).Equation ((9 : ℕ) : Fp) ((baseY : ℕ) : Fp) := by
    rw [equation_iff]
    have : ((baseY ^ 2 : ℕ) : Fp) = ((9 ^ 3 + 486662 * 9 ^ 2 + 9 : ℕ) : Fp) := by
      rw [ZMod.natCast_eq_natCast_iff']; decide +kernel
    simp only [mont]
    push_cast at this ⊢
    linear_combination this
  have hn : (mont curveA).Nonsingular ((9 : ℕ) : Fp) ((baseY : ℕ) : Fp) := by
    rw [nonsingular_iff]
    refine ⟨he, .inr ?_⟩
    simp only [mont]
    intro h
    have h1 : ((2 * baseY : ℕ) : Fp) = ((0 : ℕ) : Fp) := by push_cast; linear_combination h
    rw [ZMod.natCast_eq_natCast_iff'] at h1
    revert h1; decide +kernel
  exact ⟨.some _ _ hn, rfl⟩

theorem clamp_lt (b : Bytes) : clamp b < 2 ^ 255 := by
  simp only [clamp]
  have := Nat.mod_lt (leNat b) (show 2 ^ 254 > 0 by decide)
  omega

theorem leNat_leBytes (n x : Nat) : leNat (leBytes n x) = x % 256 ^ n := by
  induction n generalizing x with
  | zero => simp [leBytes, leNat, Nat.mod_one]
  | succ n ih =>
    simp only [leBytes, leNat, ih]
    rw [Nat.pow_succ, Nat.mul_comm (256 ^ n) 256, Nat.mod_mul]
    simp

theorem uCoord_leBytes {x : Nat} (h : x < p25519) : uCoord (leBytes 32 x) = x := by
  have h1 := p_lt
  have h2 : (256 : ℕ) ^ 32 = 2 ^ 256 := by decide
  have h3 : x % 2 ^ 256 = x := Nat.mod_eq_of_lt (by omega)
  have h4 : x % 2 ^ 255 = x := Nat.mod_eq_of_lt (by omega)
  rw [uCoord, leNat_leBytes, h2, h3, h4, Nat.mod_eq_of_lt h]

/-- Both parties compute the same secret. -/
theorem x25519_comm (a b : Bytes) : x25519 a (x25519Pub b) = x25519 b (x25519Pub a) := by
  obtain ⟨G, hG⟩ := base_point
  simp only [x25519, x25519Pub, uCoord_leBytes (montMul_lt ..)]
  congr 1
  have h1 := cast_montMul (cast_montMul hG (clamp_lt b)) (clamp_lt a)
  have h2 := cast_montMul (cast_montMul hG (clamp_lt a)) (clamp_lt b)
  rw [smul_smul, Nat.mul_comm, ← smul_smul, ← h2, ZMod.natCast_eq_natCast_iff'] at h1
  rwa [Nat.mod_eq_of_lt (montMul_lt ..), Nat.mod_eq_of_lt (montMul_lt ..)] at h1

end Verif.Algo
