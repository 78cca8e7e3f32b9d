import Verif.Lemma.Algo.Base58
import Verif.Lemma.Algo.EdSign
import Verif.Lemma.Algo.X25519Order

/-! # The key agreement key of a did:key -/

namespace Verif.Algo

open Verif.Spec

theorem fInv_lt (a : Nat) : fInv a < p25519 := fPow_lt a _ 254

/-- The coordinate on the Montgomery curve as a number. -/
def uOf (y : Nat) : Nat := fMul (fAdd 1 y) (fInv (fSub 1 y))

theorem uOf_lt (y : Nat) : uOf y < p25519 := fMul_lt _ _

theorem cast_uOf (y : Nat) : ((uOf y : ℕ) : Fp) = (1 + y) * (1 - (y : Fp))⁻¹ := by
  rw [uOf, cast_mul, cast_add, cast_fInv, cast_sub]; simp

theorem uOf_stands {p : Nat × Nat} {D : (mont ed.A).Point} (h : EStands p D) : ((uOf p.2 : ℕ) : Fp) = xc D := by
  rw [cast_uOf]
  obtain ⟨-, h⟩ := h
  match D, h with
  | .zero, h =>
    have h2 : (p.2 : Fp) = 1 := h.2
    rw [h2]; simp [xc]
  | .some u v hD, h =>
    obtain ⟨-, h1, h2, -⟩ := h
    have h1 : (p.2 : Fp) ≠ 1 := h1
    have h2 : u * (1 - (p.2 : Fp)) = 1 + p.2 := h2
    show _ = u
    rw [← h2, mul_assoc, mul_inv_cancel₀ (sub_ne_zero.2 h1.symm), mul_one]

theorem base_uOf : uOf edBase.2 = 9 := by decide +kernel

theorem base_coord {G : (mont ed.A).Point} (hG : EStands edBase G) : ((9 : ℕ) : Fp) = xc G := by
  rw [← uOf_stands hG, base_uOf]

theorem edToX_of {pk : Bytes} {p : Nat × Nat} (h : edDecompress pk = some p) : edToX pk = some (leBytes 32 (uOf p.2)) := by
  rw [edToX, h]; rfl

/-- The X25519 key of a public key is the public key of the X25519 secret. -/
theorem edToX_public (sk : Bytes) : edToX (edPublic sk) = some (x25519Pub (xOfEd sk)) := by
  obtain ⟨G, hG, -⟩ := exists_edBase
  have hp := edPublic_stands hG sk
  rw [edPublic, edToX_of (estands_read hp), x25519Pub]
  congr 2
  have h1 := uOf_stands hp
  have h2 := cast_montMul (base_coord hG) (clamp_lt (xOfEd sk))
  have h3 : edScalar sk = clamp (xOfEd sk) := rfl
  rw [h3] at h1
  have h4 := h1.trans h2.symm
  rw [ZMod.natCast_eq_natCast_iff', Nat.mod_eq_of_lt (uOf_lt _), Nat.mod_eq_of_lt (montMul_lt ..)] at h4
  exact h4

theorem edDecompress_public (sk : Bytes) : ∃ p, edDecompress (edPublic sk) = some p := by
  obtain ⟨G, hG, -⟩ := exists_edBase
  rw [edPublic]
  exact ⟨_, estands_read (edPublic_stands hG sk)⟩

theorem didKeyBytes_iff (b : Bytes) (did : Str) : didKeyBytes did = some b ↔ did = c!"did:key:z" ++ b58Encode b := by
  rw [didKeyBytes]
  constructor
  · intro h
    rw [Option.ite_none_right_eq_some] at h
    rw [(b58_iff _ _).1 h.2, ← h.1, List.take_append_drop]
  · rintro rfl
    exact (if_pos rfl).trans ((b58_iff _ _).2 rfl)

theorem didKeyX_ed (pk : Bytes) : didKeyX (didOfEd pk) = edToX pk := by
  rw [didKeyX, (didKeyBytes_iff ([0xed, 0x01] ++ pk) (didOfEd pk)).2 rfl]; rfl

theorem didKeyX_x {pk : Bytes} (h : pk.length = 32) : didKeyX (didOfX pk) = some pk := by
  rw [didKeyX, (didKeyBytes_iff ([0xec, 0x01] ++ pk) (didOfX pk)).2 rfl]; exact if_pos h

theorem didOfEd_inj {a b : Bytes} (h : didOfEd a = didOfEd b) : a = b := by
  have h1 := (didKeyBytes_iff ([0xed, 0x01] ++ a) _).2 rfl
  have h2 := (didKeyBytes_iff ([0xed, 0x01] ++ b) _).2 rfl
  rw [show c!"did:key:z" ++ b58Encode ([0xed, 0x01] ++ a) = c!"did:key:z" ++ b58Encode ([0xed, 0x01] ++ b) from h, h2] at h1
  exact (List.append_cancel_left (Option.some.inj h1)).symm

theorem didOfEd_ne_x (a b : Bytes) : didOfEd a ≠ didOfX b := by
  intro h
  have h1 := (didKeyBytes_iff ([0xed, 0x01] ++ a) _).2 rfl
  have h2 := (didKeyBytes_iff ([0xec, 0x01] ++ b) _).2 rfl
  rw [show c!"did:key:z" ++ b58Encode ([0xed, 0x01] ++ a) = c!"did:key:z" ++ b58Encode ([0xec, 0x01] ++ b) from h, h2] at h1
  simp at h1

/-- Keys of points, not zero, are the same only for a point and its mirror image. -/
theorem edToX_same {a b : Bytes} {p q : Nat × Nat} (hp : edDecompress a = some p) (hq : edDecompress b = some q)
    (h : edToX a = edToX b) (h0 : edToX a ≠ some (List.replicate 32 0)) : q = p ∨ q = edNeg p := by
  obtain ⟨D, hD⟩ := edDecompress_stands hp
  obtain ⟨E, hE⟩ := edDecompress_stands hq
  rw [edToX_of hp, edToX_of hq, Option.some.injEq] at h
  rw [edToX_of hp] at h0
  have hu := leBytes_inj (uOf_lt _) (uOf_lt _) h
  have hx : xc D = xc E := by rw [← uOf_stands hD, ← uOf_stands hE, hu]
  have hx0 : xc D ≠ 0 := by
    rw [← uOf_stands hD]
    intro hz
    apply h0
    have : uOf p.2 = 0 := by
      have h1 : ((uOf p.2 : ℕ) : Fp) = ((0 : ℕ) : Fp) := by simpa using hz
      rw [ZMod.natCast_eq_natCast_iff', Nat.mod_eq_of_lt (uOf_lt _)] at h1
      simpa using h1
    rw [this]; decide
  rcases eq_or_neg_of_xc hx hx0 with rfl | h
  · exact .inl (estands_unique hE hD)
  · right
    have hD' := estands_neg hD
    rw [show -D = E by rw [h]; exact neg_neg E] at hD'
    exact estands_unique hE hD'

/-- The mirror image of a point has the same key. -/
theorem edToX_mirror {a : Bytes} {p : Nat × Nat} (hp : edDecompress a = some p) :
    edDecompress (edCompress (edNeg p)) = some (edNeg p) ∧ edToX (edCompress (edNeg p)) = edToX a := by
  obtain ⟨D, hD⟩ := edDecompress_stands hp
  have h := estands_read (estands_neg hD)
  exact ⟨h, by rw [edToX_of h, edToX_of hp]; rfl⟩

/-- The public key of a secret is not its mirror image. -/
theorem edPublic_mirror {sk : Bytes} {p : Nat × Nat} (hp : edDecompress (edPublic sk) = some p) :
    edCompress (edNeg p) ≠ edPublic sk := by
  intro h
  have h1 := (edToX_mirror hp).1
  rw [h, hp, Option.some.injEq] at h1
  obtain ⟨G, hG, -⟩ := exists_edBase
  have hs := edPublic_stands hG sk
  have hps : EStands p (edScalar sk • G) := by
    have := estands_read hs
    rw [show edCompress (edMul (edScalar sk) edBase) = edPublic sk from rfl, hp] at this
    rw [Option.some.inj this]; exact hs
  have hn := estands_neg hps
  rw [← h1] at hn
  have he := estands_inj hps hn
  refine ell_not_dvd_clamp (xOfEd sk) (ell_dvd (base_coord hG) ?_)
  have h2 : edScalar sk • G + edScalar sk • G = 0 := by
    conv_lhs => arg 1; rw [he]
    exact neg_add_cancel _
  rw [Nat.two_mul]
  exact (add_nsmul (M := (mont ed.A).Point) G _ _).trans h2

end Verif.Algo
