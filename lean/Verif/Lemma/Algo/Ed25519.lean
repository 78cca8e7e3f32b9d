import Verif.Lemma.Algo.Edwards
import Verif.Lemma.Algo.X25519
import Verif.Lemma.Algo.PrimeOrder
import Verif.Lemma.Algo.Weierstrass
import Verif.Model.Algo.Ed25519

/-!
# Points of Ed25519: the group, and points as bytes
-/

namespace Verif.Algo

open WeierstrassCurve.Affine

theorem fp_eq {a b : Nat} (h : a % p25519 = b % p25519) : ((a : ℕ) : Fp) = b := (ZMod.natCast_eq_natCast_iff' a b p25519).2 h

/-- The curve of Ed25519. -/
def ed : Ed Fp where
  d := (edD : ℕ)
  c := ((6853475219497561581579357271197624642482790079785650197046958215289687604742 : ℕ) : Fp)
  i := (edI : ℕ)
  A := curveA
  two_ne := two_ne
  hi := by
    have := fp_eq (a := edI * edI + 1) (b := 0) (by decide)
    push_cast at this
    linear_combination this
  hd := by
    intro r h
    have h0 : ((edD : ℕ) : Fp) ≠ 0 := by
      intro h
      have h2 : ((edD : ℕ) : Fp) = ((0 : ℕ) : Fp) := by simpa using h
      rw [ZMod.natCast_eq_natCast_iff'] at h2
      revert h2; decide
    have h2 := (ZMod.euler_criterion p25519 h0).1 ⟨r, by rw [← h]; ring⟩
    rw [cast_pow_one (n := 255) (by decide)] at h2
    revert h2
    decide +kernel
  hc := by
    have := fp_eq (a := 6853475219497561581579357271197624642482790079785650197046958215289687604742 *
      6853475219497561581579357271197624642482790079785650197046958215289687604742 * (1 + edD) + 4) (b := 0) (by decide)
    push_cast at this ⊢
    linear_combination this
  hA := by
    have := fp_eq (a := 486662 + 6853475219497561581579357271197624642482790079785650197046958215289687604742 *
      6853475219497561581579357271197624642482790079785650197046958215289687604742 + 2) (b := 0) (by decide)
    push_cast at this ⊢
    linear_combination this

theorem ed_d : ed.d = (edD : ℕ) := rfl
theorem ed_i : ed.i = (edI : ℕ) := rfl

/-- The pair in the field. -/
def pc (p : Nat × Nat) : Fp × Fp := (p.1, p.2)

/-- Both coordinates are reduced. -/
def Red (p : Nat × Nat) : Prop := p.1 < p25519 ∧ p.2 < p25519

theorem fMul_lt (a b : Nat) : fMul a b < p25519 := Nat.mod_lt _ p_pos
theorem fSub_lt (a b : Nat) : fSub a b < p25519 := Nat.mod_lt _ p_pos

theorem cast_fInv (a : Nat) : ((fInv a : ℕ) : Fp) = (a : Fp)⁻¹ := by
  unfold fInv
  rw [cast_pow _ (by decide)]
  by_cases h : (a : Fp) = 0
  · rw [h, inv_zero, zero_pow (by decide)]
  · refine eq_inv_of_mul_eq_one_left ?_
    rw [← pow_succ, show p25519 - 2 + 1 = p25519 - 1 by decide]
    exact ZMod.pow_card_sub_one_eq_one h

theorem pc_add (p q : Nat × Nat) : pc (edAdd p q) = ed.add (pc p) (pc q) := by
  unfold edAdd pc Ed.add
  simp only [cast_mul, cast_add, cast_sub, cast_fInv, Nat.cast_one, div_eq_mul_inv, ed_d]

theorem red_add (p q : Nat × Nat) : Red (edAdd p q) := ⟨fMul_lt _ _, fMul_lt _ _⟩

/-- A pair of numbers stands for a point. -/
def EStands (p : Nat × Nat) (D : (mont ed.A).Point) : Prop := Red p ∧ ed.Rel (pc p) D

theorem estands_zero : EStands (0, 1) 0 := by
  refine ⟨⟨p_pos, by decide⟩, ?_⟩
  show ed.Rel _ .zero
  constructor <;> simp [pc]

theorem estands_add {p q : Nat × Nat} {D E : (mont ed.A).Point} (hp : EStands p D) (hq : EStands q E) :
    EStands (edAdd p q) (D + E) :=
  ⟨red_add _ _, by rw [pc_add]; exact Ed.rel_add hp.2 hq.2⟩

theorem estands_unique {p q : Nat × Nat} {D : (mont ed.A).Point} (hp : EStands p D) (hq : EStands q D) : p = q := by
  have := Ed.rel_unique hp.2 hq.2
  unfold pc at this
  simp only [Prod.mk.injEq] at this
  exact Prod.ext (cast_inj hp.1.1 hq.1.1 this.1) (cast_inj hp.1.2 hq.1.2 this.2)

theorem estands_neg {p : Nat × Nat} {D : (mont ed.A).Point} (hp : EStands p D) : EStands (edNeg p) (-D) := by
  refine ⟨⟨fSub_lt _ _, hp.1.2⟩, ?_⟩
  have := Ed.rel_neg hp.2
  unfold edNeg pc
  simp only [cast_sub, Nat.cast_zero, zero_sub]
  exact this

theorem estands_mulFrom {q acc : Nat × Nat} {D : (mont ed.A).Point} (hD : EStands q D) (k : Nat)
    (n a : Nat) (ha : EStands acc (a • D)) : EStands (edMulFrom k q n acc) ((a * 2 ^ n + k % 2 ^ n) • D) := by
  induction n generalizing acc a with
  | zero => simpa [edMulFrom, Nat.mod_one] using ha
  | succ n ih =>
    simp only [edMulFrom]
    have hd : EStands (edAdd acc acc) ((2 * a) • D) := by
      have := estands_add ha ha
      rwa [← add_nsmul, ← Nat.two_mul] at this
    have hk : k % 2 ^ (n + 1) = (k >>> n % 2) * 2 ^ n + k % 2 ^ n := by
      rw [Nat.shiftRight_eq_div_pow, Nat.pow_succ, Nat.mod_mul]; ring
    split
    · rename_i h
      have := ih (2 * a + 1) (by
        have := estands_add hd hD
        rwa [← succ_nsmul] at this)
      rw [hk, h]
      convert this using 2
      rw [Nat.pow_succ]; ring
    · rename_i h
      have := ih (2 * a) hd
      rw [hk, show k >>> n % 2 = 0 by omega]
      convert this using 2
      rw [Nat.pow_succ]; ring

theorem estands_mul {q : Nat × Nat} {D : (mont ed.A).Point} (hD : EStands q D) {k : Nat}
    (hk : k < 2 ^ 256) : EStands (edMul k q) (k • D) := by
  have := estands_mulFrom (acc := (0, 1)) hD k 256 0 (by rw [zero_nsmul]; exact estands_zero)
  rwa [Nat.zero_mul, Nat.zero_add, Nat.mod_eq_of_lt hk] at this

theorem exists_estands {p : Nat × Nat} (hr : Red p) (ho : ed.On (pc p)) : ∃ D, EStands p D := by
  obtain ⟨D, hD⟩ := Ed.exists_rel ho
  exact ⟨D, hr, hD⟩

theorem estands_zero_eq {p : Nat × Nat} {D : (mont ed.A).Point} (h : EStands p D) (hp : p = (0, 1)) : D = 0 := by
  subst hp
  match D, h with
  | .zero, _ => rfl
  | .some u v hh, h =>
    obtain ⟨-, -, h1, -⟩ := h
    exact absurd (by simp [pc]) h1

/-- The base point, in the group. -/
theorem exists_edBase : ∃ G : (mont ed.A).Point, EStands edBase G ∧ edL • G = 0 := by
  obtain ⟨G, hG⟩ := exists_estands (p := edBase) ⟨by decide, by decide⟩ (by
    have := fp_eq (a := edBase.2 * edBase.2) (b := edBase.1 * edBase.1 + 1 + edD * (edBase.1 * edBase.1) * (edBase.2 * edBase.2))
      (by decide)
    unfold Ed.On pc
    simp only [ed_d]
    push_cast at this
    linear_combination this)
  refine ⟨G, hG, ?_⟩
  exact estands_zero_eq (estands_mul hG (by decide)) (by decide +kernel)

/-! ## Bytes -/

theorem fourth_root {z : Fp} (h : z ^ 4 = 1) : z ^ 2 = 1 ∨ z ^ 2 = -1 := by
  have : (z ^ 2 - 1) * (z ^ 2 + 1) = 0 := by linear_combination h
  rcases mul_eq_zero.1 this with h | h
  · exact .inl (sub_eq_zero.1 h)
  · exact .inr (eq_neg_of_add_eq_zero_left h)

/-- The square root that is computed is one of the two. -/
theorem ed_sqrt {x w : Nat} (hw : w < p25519) (hxw : (w : Fp) = (x : Fp) ^ 2) :
    let x1 := fPow w ((p25519 + 3) / 8) 255
    let x2 := if fMul x1 x1 = w then x1 else fMul x1 edI
    fMul x2 x2 = w ∧ ((x2 : Fp) = x ∨ (x2 : Fp) = -x) := by
  intro x1 x2
  have h1 : (x1 : Fp) = x * (x : Fp) ^ ((p25519 - 1) / 4) := by
    show ((fPow .. : ℕ) : Fp) = _
    rw [cast_pow _ (by decide), hxw, ← pow_mul, ← pow_succ']
    rfl
  have hsq : ∀ a : Nat, fMul a a = w ↔ (a : Fp) ^ 2 = (x : Fp) ^ 2 := by
    intro a
    rw [← hxw]
    constructor
    · intro h; rw [← h, cast_mul]; ring
    · intro h; exact cast_inj (fMul_lt _ _) hw (by rw [cast_mul, ← h]; ring)
  have main : (x2 : Fp) ^ 2 = (x : Fp) ^ 2 := by
    show (((if fMul x1 x1 = w then x1 else fMul x1 edI : ℕ)) : Fp) ^ 2 = _
    split
    · rename_i h; exact (hsq x1).1 h
    · rename_i h
      have hx0 : (x : Fp) ≠ 0 := by
        intro h0
        apply h
        rw [hsq, h1, h0, zero_mul]
      have h4 : ((x : Fp) ^ ((p25519 - 1) / 4)) ^ 4 = 1 := by
        rw [← pow_mul, show (p25519 - 1) / 4 * 4 = p25519 - 1 by decide]
        exact ZMod.pow_card_sub_one_eq_one hx0
      rcases fourth_root h4 with hz | hz
      · exfalso
        apply h
        rw [hsq, h1]
        linear_combination (x : Fp) ^ 2 * hz
      · have hi := ed.hi
        rw [ed_i] at hi
        rw [cast_mul, h1]
        linear_combination (x : Fp) ^ 2 * (edI : Fp) ^ 2 * hz - (x : Fp) ^ 2 * hi
  refine ⟨(hsq x2).2 main, ?_⟩
  exact sq_eq_sq_iff_eq_or_eq_neg.1 main

theorem ed_denom (y : Fp) : (edD : Fp) * (y * y) + 1 ≠ 0 := by
  intro h
  have hy : y ≠ 0 := by
    rintro rfl
    simp at h
  have hi := ed.hi
  rw [ed_i] at hi
  refine ed.hd ((edI : Fp) / y) ?_
  rw [ed_d, div_pow, div_eq_iff (pow_ne_zero 2 hy)]
  linear_combination hi - h

theorem fPow_lt (a k n : Nat) : fPow a k (n + 1) < p25519 := by
  simp only [fPow]
  split <;> exact fMul_lt _ _

theorem leBytes_len (n x : Nat) : (leBytes n x).length = n := by
  induction n generalizing x with
  | zero => rfl
  | succ n ih => simp [leBytes, ih]

/-- A point that is written as bytes is read again. -/
theorem edDecompress_compress {p : Nat × Nat} (hr : Red p) (ho : ed.On (pc p)) : edDecompress (edCompress p) = some p := by
  obtain ⟨x, y⟩ := p
  obtain ⟨hx, hy⟩ := hr
  simp only at hx hy
  have hp : p25519 < 2 ^ 255 := p_lt
  have hle : leNat (edCompress (x, y)) = y + x % 2 * 2 ^ 255 := by
    unfold edCompress
    rw [leNat_leBytes, Nat.mod_eq_of_lt]
    rw [show (256 : Nat) ^ 32 = 2 ^ 256 by decide]
    have := Nat.mod_lt x (show 2 > 0 by decide)
    simp only
    omega
  have hy1 : leNat (edCompress (x, y)) % 2 ^ 255 % p25519 = y := by
    rw [hle, Nat.add_mul_mod_self_right, Nat.mod_eq_of_lt (hy.trans hp), Nat.mod_eq_of_lt hy]
  have hy2 : leNat (edCompress (x, y)) / 2 ^ 255 = x % 2 := by
    rw [hle, Nat.add_mul_div_right _ _ (by decide), Nat.div_eq_of_lt (hy.trans hp), Nat.zero_add]
  have hlen : (edCompress (x, y)).length = 32 := leBytes_len _ _
  unfold edDecompress
  rw [if_neg (by rw [hlen]; simp)]
  simp only [hy1, hy2]
  have hDn := ed.D_ne
  unfold Ed.On pc at ho
  rw [ed_d] at hDn ho
  simp only at ho
  have hw : ((fMul (fSub (fMul y y) 1) (fInv (fAdd (fMul edD (fMul y y)) 1)) : ℕ) : Fp) = (x : Fp) ^ 2 := by
    simp only [cast_mul, cast_sub, cast_add, cast_fInv, Nat.cast_one]
    have hne : (edD : Fp) * (y * y) + 1 ≠ 0 := by
      intro h
      apply hDn
      have h1 : (y : Fp) ^ 2 = 1 := by linear_combination ho + (x : Fp) ^ 2 * h
      linear_combination h - (edD : Fp) * h1
    rw [← div_eq_mul_inv, div_eq_iff hne]
    linear_combination ho
  obtain ⟨h1, h2⟩ := ed_sqrt (fMul_lt _ _) hw
  generalize fMul (fSub (fMul y y) 1) (fInv (fAdd (fMul edD (fMul y y)) 1)) = w at h1 h2 hw
  have hlt : (if fMul (fPow w ((p25519 + 3) / 8) 255) (fPow w ((p25519 + 3) / 8) 255) = w then
      fPow w ((p25519 + 3) / 8) 255 else fMul (fPow w ((p25519 + 3) / 8) 255) edI) < p25519 := by
    split
    · exact fPow_lt _ _ 254
    · exact fMul_lt _ _
  generalize (if fMul (fPow w ((p25519 + 3) / 8) 255) (fPow w ((p25519 + 3) / 8) 255) = w then
      fPow w ((p25519 + 3) / 8) 255 else fMul (fPow w ((p25519 + 3) / 8) 255) edI) = x2 at h1 h2 hlt
  rw [if_pos h1]
  have hodd : p25519 % 2 = 1 := by decide
  have hs : x2 = x ∨ x2 = fSub 0 x := by
    rcases h2 with h2 | h2
    · exact .inl (cast_inj hlt hx h2)
    · exact .inr (cast_inj hlt (fSub_lt _ _) (by rw [h2, cast_sub, Nat.cast_zero, zero_sub]))
  have hfs : fSub 0 x = if x = 0 then 0 else p25519 - x := by
    unfold fSub
    rw [Nat.mod_eq_of_lt hx, Nat.zero_add]
    split
    · rename_i h; rw [h, Nat.sub_zero, Nat.mod_self]
    · exact Nat.mod_eq_of_lt (by omega)
  have hfs2 : fSub 0 (fSub 0 x) = x := by
    refine cast_inj (fSub_lt _ _) hx ?_
    rw [cast_sub, cast_sub, Nat.cast_zero]; ring
  rcases hs with rfl | hs
  · rw [if_pos rfl]
  · rw [hs]
    by_cases h0 : x = 0
    · subst h0
      rw [show fSub 0 0 = 0 by decide]
      rfl
    · rw [hfs2, if_neg]
      rw [hfs, if_neg h0]
      omega

/-- What is read is a point of the curve. -/
theorem edDecompress_on {b : Bytes} {p : Nat × Nat} (h : edDecompress b = some p) : Red p ∧ ed.On (pc p) := by
  unfold edDecompress at h
  split at h
  · cases h
  simp only at h
  have hy : leNat b % 2 ^ 255 % p25519 < p25519 := Nat.mod_lt _ p_pos
  generalize leNat b % 2 ^ 255 % p25519 = y at h hy
  have hw : ((fMul (fSub (fMul y y) 1) (fInv (fAdd (fMul edD (fMul y y)) 1)) : ℕ) : Fp) *
      ((edD : Fp) * (y * y) + 1) = (y : Fp) * y - 1 := by
    simp only [cast_mul, cast_sub, cast_add, cast_fInv, Nat.cast_one]
    rw [mul_assoc, inv_mul_cancel₀ (ed_denom y), mul_one]
  generalize fMul (fSub (fMul y y) 1) (fInv (fAdd (fMul edD (fMul y y)) 1)) = w at h hw
  have hlt : (if fMul (fPow w ((p25519 + 3) / 8) 255) (fPow w ((p25519 + 3) / 8) 255) = w then
      fPow w ((p25519 + 3) / 8) 255 else fMul (fPow w ((p25519 + 3) / 8) 255) edI) < p25519 := by
    split
    · exact fPow_lt _ _ 254
    · exact fMul_lt _ _
  generalize (if fMul (fPow w ((p25519 + 3) / 8) 255) (fPow w ((p25519 + 3) / 8) 255) = w then
      fPow w ((p25519 + 3) / 8) 255 else fMul (fPow w ((p25519 + 3) / 8) 255) edI) = x at h hlt
  split at h
  · rename_i h1
    obtain rfl := Option.some.inj h
    have hx : (x : Fp) * x = w := by rw [← cast_mul, h1]
    have hon : ∀ z : Nat, (z : Fp) * z = w → ed.On (pc (z, y)) := by
      intro z hz
      unfold Ed.On pc
      rw [ed_d]
      simp only
      linear_combination -hw + ((edD : Fp) * (y * y) + 1) * -hz
    split
    · exact ⟨⟨hlt, hy⟩, hon x hx⟩
    · refine ⟨⟨fSub_lt _ _, hy⟩, hon _ ?_⟩
      rw [cast_sub, Nat.cast_zero]
      linear_combination hx
  · cases h

theorem edCompress_len (p : Nat × Nat) : (edCompress p).length = 32 := leBytes_len _ _

theorem edDecompress_stands {b : Bytes} {p : Nat × Nat} (h : edDecompress b = some p) : ∃ D, EStands p D :=
  exists_estands (edDecompress_on h).1 (edDecompress_on h).2

theorem estands_read {p : Nat × Nat} {D : (mont ed.A).Point} (h : EStands p D) : edDecompress (edCompress p) = some p :=
  edDecompress_compress h.1 (Ed.rel_on h.2)

theorem edL_pos : 0 < edL := by decide
theorem edL_lt : edL < 2 ^ 253 := by decide

theorem leNat_s {s : Nat} (h : s < edL) : leNat (leBytes 32 s) = s := by
  rw [leNat_leBytes, Nat.mod_eq_of_lt]
  exact (h.trans edL_lt).trans (by decide)

/-- Which signatures are accepted, in the group. -/
theorem edVerify_group {pk : Bytes} {a : Nat × Nat} {A G : (mont ed.A).Point} (hpk : edDecompress pk = some a)
    (hA : EStands a A) (hG : EStands edBase G) (m rb : Bytes) (hrb : rb.length = 32) {s : Nat} (hs : s < edL)
    {q : Nat × Nat} {Q : (mont ed.A).Point} (hQ : EStands q Q)
    (hq : Q = edHash (rb ++ pk ++ m) • -A + s • G) :
    edVerify pk m (rb ++ leBytes 32 s) = some (edCompress q == rb) := by
  have hd : (rb ++ leBytes 32 s).drop 32 = leBytes 32 s := by rw [← hrb, List.drop_left]
  have ht : (rb ++ leBytes 32 s).take 32 = rb := by rw [← hrb, List.take_left]
  unfold edVerify
  rw [hpk]
  simp only [hd, ht, leNat_s hs]
  rw [if_neg, if_neg (by omega)]
  · have hk : edHash (rb ++ pk ++ m) < 2 ^ 256 := (Nat.mod_lt _ edL_pos).trans (by decide)
    have h1 := estands_add (estands_mul (estands_neg hA) hk) (estands_mul hG ((hs.trans edL_lt).trans (by decide)))
    rw [← hq] at h1
    rw [estands_unique h1 hQ]
  · rw [List.length_append, hrb, leBytes_len]
    have := edL_lt
    rintro (h | h) <;> omega

/-- The public key of a secret, and the point. -/
theorem edPublic_stands {G : (mont ed.A).Point} (hG : EStands edBase G) (sk : Bytes) :
    EStands (edMul (edScalar sk) edBase) (edScalar sk • G) :=
  estands_mul hG ((clamp_lt _).trans (by decide))

theorem edDecompress_len {b : Bytes} {p : Nat × Nat} (h : edDecompress b = some p) : b.length = 32 := by
  unfold edDecompress at h
  split at h
  · cases h
  · rename_i h'; exact not_not.1 h'

/-- What is signed with: the first half of the key gives the scalars, the second half only enters the hash. -/
theorem edSign_eq {sk pk : Bytes} {a : Nat × Nat} (hsk : sk.length = 32) (hpk : edDecompress pk = some a) (m : Bytes) :
    edSign (sk ++ pk) m = some (edCompress (edMul (edHash ((sha512 sk).drop 32 ++ m)) edBase) ++
      leBytes 32 ((edHash ((sha512 sk).drop 32 ++ m) +
        edHash (edCompress (edMul (edHash ((sha512 sk).drop 32 ++ m)) edBase) ++ pk ++ m) * edScalar sk) % edL)) := by
  have ht : (sk ++ pk).take 32 = sk := by rw [← hsk, List.take_left]
  have hd : (sk ++ pk).drop 32 = pk := by rw [← hsk, List.drop_left]
  unfold edSign
  rw [if_neg (by rw [List.length_append, hsk, edDecompress_len hpk]; simp), ht, hd]
  simp only [hpk]

/-- Multiples only depend on the number modulo the order. -/
theorem mod_edL {G : (mont ed.A).Point} (hL : edL • G = 0) (n : Nat) : (n % edL) • G = n • G := by
  conv_rhs => rw [← Nat.mod_add_div n edL]
  rw [add_nsmul, mul_nsmul, hL, nsmul_zero, add_zero]

/-- Every secret of 32 bytes with its public key signs, and the signature is accepted. -/
theorem ed_sign_verify (sk m : Bytes) (hsk : sk.length = 32) :
    ∃ sig, sig.length = 64 ∧ edSign (sk ++ edCompress (edMul (edScalar sk) edBase)) m = some sig ∧
      edVerify (edCompress (edMul (edScalar sk) edBase)) m sig = some true := by
  obtain ⟨G, hG, hL⟩ := exists_edBase
  have hA := edPublic_stands hG sk
  have hpk := estands_read hA
  generalize edMul (edScalar sk) edBase = a at hA hpk ⊢
  generalize edCompress a = pk at hpk ⊢
  refine ⟨_, ?_, edSign_eq hsk hpk m, ?_⟩
  · rw [List.length_append, edCompress_len, leBytes_len]
  · have hr : edHash ((sha512 sk).drop 32 ++ m) < edL := Nat.mod_lt _ edL_pos
    generalize edHash ((sha512 sk).drop 32 ++ m) = r at hr ⊢
    have hR := estands_mul hG ((hr.trans edL_lt).trans (show 2 ^ 253 < 2 ^ 256 by decide))
    rw [edVerify_group hpk hA hG m _ (edCompress_len _) (Nat.mod_lt _ edL_pos) hR, beq_self_eq_true]
    generalize edHash (edCompress (edMul r edBase) ++ pk ++ m) = k
    generalize edScalar sk = e
    rw [mod_edL hL, add_nsmul, mul_comm k e, mul_nsmul, neg_nsmul]
    abel

/-- Under a key whose point is a point of small order the signatures `(sB, s)` are accepted for the messages whose hash
is a multiple of that order. -/
theorem ed_weak {pk : Bytes} {a : Nat × Nat} {A : (mont ed.A).Point} (hpk : edDecompress pk = some a)
    (hA : EStands a A) {n : Nat} (hn : n • A = 0) {s : Nat} (hs : s < edL) (m : Bytes)
    (hk : edHash (edCompress (edMul s edBase) ++ pk ++ m) % n = 0) :
    edVerify pk m (edCompress (edMul s edBase) ++ leBytes 32 s) = some true := by
  obtain ⟨G, hG, -⟩ := exists_edBase
  have hS := estands_mul hG ((hs.trans edL_lt).trans (show 2 ^ 253 < 2 ^ 256 by decide))
  rw [edVerify_group hpk hA hG m _ (edCompress_len _) hs hS, beq_self_eq_true]
  obtain ⟨c, hc⟩ := Nat.dvd_of_mod_eq_zero hk
  rw [hc, neg_nsmul, mul_nsmul, hn, nsmul_zero, neg_zero, zero_add]

end Verif.Algo
