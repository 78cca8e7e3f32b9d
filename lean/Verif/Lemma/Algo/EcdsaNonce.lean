import Verif.Lemma.Algo.EcdsaKeys
import Verif.Model.Algo.Rfc6979

/-! # Nonces of ECDSA -/

namespace Verif.Algo

variable {c : Curve}

/-! ## A nonce used twice -/

theorem solve_secret {F : Type*} [Field F] {d r s s' z z' : F} (hr : r ≠ 0) (hs : s' - s ≠ 0)
    (h : s' * (z + r * d) = s * (z' + r * d)) : d = (s * z' - s' * z) * (r * (s' - s))⁻¹ := by
  rw [eq_mul_inv_iff_mul_eq₀ (mul_ne_zero hr hs)]
  linear_combination h

/-- The secret is found if the second halves, up to sign, belong to one nonce. -/
theorem Good.shared_secret (h : Good c) {b b' sig sig' : Bytes} {d r s s' : Nat} (hd : d < c.n)
    (hs : c.ofSignature sig = some (r, s)) (hs' : c.ofSignature sig' = some (r, s'))
    (hh : ((s' : ZMod c.n) * (Curve.hash b + r * d) = s * (Curve.hash b' + r * d) ∧ (s' : ZMod c.n) - s ≠ 0) ∨
      ((s' : ZMod c.n) * (Curve.hash b + r * d) = -s * (Curve.hash b' + r * d) ∧ (s' : ZMod c.n) - -s ≠ 0)) :
    d ∈ Spec.sharedSecrets c b b' sig sig' := by
  have := h.fact_n
  obtain ⟨-, hr0, hrn, hs0, hsn, hr, hs⟩ := ofSignature_parts hs
  obtain ⟨-, -, -, hs0', hsn', -, hs'⟩ := ofSignature_parts hs'
  have hrz := natCast_ne_zero_of_lt hr0 hrn
  simp only [Spec.sharedSecrets, ← hr, ← hs, ← hs', List.mem_cons, List.not_mem_nil, or_false]
  rcases hh with ⟨h1, h2⟩ | ⟨h1, h2⟩
  · left
    refine cast_inj hd (Nat.mod_lt _ h.prime_n.pos) ?_
    rw [ZMod.natCast_mod, Nat.cast_mul, cast_invMod h.n_gt h.n_lt.le, solve_secret hrz h2 h1]
    push_cast [Nat.cast_sub hsn.le, Nat.cast_sub hsn'.le, ZMod.natCast_self]
    unfold Curve.hash
    congr 1
    · ring
    · congr 1; ring
  · right
    refine cast_inj hd (Nat.mod_lt _ h.prime_n.pos) ?_
    rw [ZMod.natCast_mod, Nat.cast_mul, cast_invMod h.n_gt h.n_lt.le, solve_secret hrz h2 h1]
    push_cast [Nat.cast_sub hsn.le, Nat.cast_sub hsn'.le, ZMod.natCast_self]
    unfold Curve.hash
    congr 1
    · ring
    · congr 1; ring

/-- Two signatures with one first half that are accepted give the secret. -/
theorem Good.shared_accepted (h : Good c) {low short : Bool} {sk pk b b' sig sig' : Bytes}
    (hk : Spec.ecPublic c short sk = some pk) (h1 : c.verify low pk b sig = some true)
    (h2 : c.verify low pk b' sig' = some true) (ht : sig.take 32 = sig'.take 32)
    (hr : c.p ≤ beNat (sig.take 32) + c.n) (hne : beNat (sig.drop 32) ≠ beNat (sig'.drop 32))
    (hnm : beNat (sig.drop 32) + beNat (sig'.drop 32) ≠ c.n) : beNat sk ∈ Spec.sharedSecrets c b b' sig sig' := by
  have := h.fact_n
  obtain ⟨r, s, hs, -, h1⟩ := (h.verify_iff hk).1 h1
  obtain ⟨r', s', hs', -, h2⟩ := (h.verify_iff hk).1 h2
  obtain ⟨-, hr0, hrn, hs0, hsn, hre, hse⟩ := ofSignature_parts hs
  obtain ⟨-, hr0', hrn', hs0', hsn', hre', hse'⟩ := ofSignature_parts hs'
  rw [← ht, ← hre] at hre'
  subst hre'
  obtain ⟨d, -, hd, hdn, -⟩ := h.ofSec1_public hk
  obtain ⟨-, -, -, rfl⟩ := ofSecret_iff.1 hd
  rw [← hse, ← hse'] at hne hnm
  rw [← hre] at hr
  have hsz := natCast_ne_zero_of_lt hs0 hsn
  have hsz' := natCast_ne_zero_of_lt hs0' hsn'
  refine h.shared_secret hdn hs hs' ?_
  rcases h.hits_unique hr h1 h2 with hh | hh
  · refine .inl ⟨?_, fun h0 => hne (cast_inj hsn hsn' (sub_eq_zero.1 h0).symm)⟩
    field_simp at hh
    linear_combination hh
  · refine .inr ⟨?_, fun h0 => ?_⟩
    · field_simp at hh
      linear_combination hh
    · rw [sub_neg_eq_add, ← Nat.cast_add, ZMod.natCast_eq_zero_iff] at h0
      obtain ⟨q, hq⟩ := h0
      match q, hq with
      | 0, hq => omega
      | 1, hq => omega
      | q + 2, hq => nlinarith

/-- Two signatures with one nonce have the same first half and give the secret. -/
theorem Good.shared_nonce (h : Good c) {low : Bool} {nonce : Bytes → Bytes → Nat} {sk b b' sig sig' : Bytes}
    (h1 : c.sign low nonce sk b = some sig) (h2 : c.sign low nonce sk b' = some sig')
    (hn : nonce sk b % (c.n - 1) = nonce sk b' % (c.n - 1)) (hz : Curve.hash b % c.n ≠ Curve.hash b' % c.n) :
    sig.take 32 = sig'.take 32 ∧ beNat sk ∈ Spec.sharedSecrets c b b' sig sig' := by
  have := h.fact_n
  unfold Curve.sign at h1 h2
  cases hd : c.ofSecret sk with
  | none => rw [hd] at h1; cases h1
  | some d =>
    rw [hd] at h1 h2
    simp only at h1 h2
    rw [← hn] at h2
    generalize hk : 1 + nonce sk b % (c.n - 1) = k at h1 h2
    have hkl : k < c.n := by
      have := Nat.mod_lt (nonce sk b) (show 0 < c.n - 1 by have := h.n_gt; omega)
      omega
    have hkz := natCast_ne_zero_of_lt (n := c.n) (a := k) (by omega) hkl
    cases hw : c.signWith d k (Curve.hash b) with
    | none => rw [hw] at h1; cases h1
    | some rs =>
      cases hw' : c.signWith d k (Curve.hash b') with
      | none => rw [hw'] at h2; cases h2
      | some rs' =>
        obtain ⟨r, s⟩ := rs
        obtain ⟨r', s'⟩ := rs'
        rw [hw] at h1
        rw [hw'] at h2
        obtain ⟨⟨x, y, hm, hr⟩, hr0, hrn, hs0, hsn, hse, -⟩ := h.signWith_parts hw
        obtain ⟨⟨x', y', hm', hr'⟩, -, -, hs0', hsn', hse', -⟩ := h.signWith_parts hw'
        obtain ⟨rfl, rfl⟩ := Prod.mk.inj (Option.some.inj (hm.symm.trans hm'))
        rw [← hr] at hr'
        subst hr'
        simp only [Option.some.injEq] at h1 h2
        subst h1 h2
        refine ⟨by rw [take_beBytes, take_beBytes], ?_⟩
        obtain ⟨-, -, hdn, rfl⟩ := ofSecret_iff.1 hd
        have hne : (s' : ZMod c.n) - s ≠ 0 := by
          intro h0
          rw [hse, hse', ← mul_sub, mul_eq_zero, inv_eq_zero] at h0
          rcases h0 with h0 | h0
          · exact hkz h0
          · apply hz
            rw [← ZMod.natCast_eq_natCast_iff']
            linear_combination -h0
        have e1 : (s : ZMod c.n) * k = Curve.hash b + r' * beNat sk := by rw [hse]; field_simp
        have e2 : (s' : ZMod c.n) * k = Curve.hash b' + r' * beNat sk := by rw [hse']; field_simp
        have hb : ∀ {u : Nat}, 0 < u → u < c.n →
            0 < (if low && c.n / 2 < u then c.n - u else u) ∧ (if low && c.n / 2 < u then c.n - u else u) < c.n ∧
            (((if low && c.n / 2 < u then c.n - u else u : Nat) : ZMod c.n) = u ∨
              ((if low && c.n / 2 < u then c.n - u else u : Nat) : ZMod c.n) = -u) := by
          intro u hu0 hun
          split
          · refine ⟨by omega, by omega, .inr ?_⟩
            rw [Nat.cast_sub hun.le, ZMod.natCast_self, zero_sub]
          · exact ⟨hu0, hun, .inl rfl⟩
        obtain ⟨a1, a2, a3⟩ := hb hs0 hsn
        obtain ⟨b1, b2, b3⟩ := hb hs0' hsn'
        refine h.shared_secret hdn (h.ofSignature_bytes hr0 hrn a1 a2) (h.ofSignature_bytes hr0 hrn b1 b2) ?_
        rw [← e1, ← e2]
        rcases a3 with a3 | a3 <;> rcases b3 with b3 | b3 <;> rw [a3, b3]
        · exact .inl ⟨by ring, hne⟩
        · exact .inr ⟨by ring, fun h0 => hne (by linear_combination -h0)⟩
        · exact .inr ⟨by ring, fun h0 => hne (by linear_combination h0)⟩
        · exact .inl ⟨by ring, fun h0 => hne (by linear_combination -h0)⟩

/-! ## The generator -/

/-- The state after a value was taken. -/
def drbgNext (s : Drbg) : Drbg := drbgStep (s.1, hmac s.1 s.2) [0]

theorem drbgNonce_some {n k : Nat} {s : Drbg} (h : drbgNonce n s = some k) :
    ∃ i, beNat (hmac (drbgNext^[i] s).1 (drbgNext^[i] s).2) = k ∧ 0 < k ∧ k < n ∧ ∀ j < i,
      ¬ (0 < beNat (hmac (drbgNext^[j] s).1 (drbgNext^[j] s).2) ∧ beNat (hmac (drbgNext^[j] s).1 (drbgNext^[j] s).2) < n) := by
  refine drbgNonce.partial_correctness n (fun s k => ∃ i, beNat (hmac (drbgNext^[i] s).1 (drbgNext^[i] s).2) = k ∧
    0 < k ∧ k < n ∧ ∀ j < i, ¬ (0 < beNat (hmac (drbgNext^[j] s).1 (drbgNext^[j] s).2) ∧
      beNat (hmac (drbgNext^[j] s).1 (drbgNext^[j] s).2) < n)) ?_ s k h
  intro f hf s k hk
  simp only at hk
  split at hk
  · rename_i hv
    obtain rfl := Option.some.inj hk
    exact ⟨0, rfl, hv.1, hv.2, fun j hj => absurd hj (Nat.not_lt_zero j)⟩
  · rename_i hv
    obtain ⟨i, h1, h2, h3, h4⟩ := hf _ _ hk
    refine ⟨i + 1, h1, h2, h3, fun j hj => ?_⟩
    cases j with
    | zero => exact hv
    | succ j => exact h4 j (by omega)

theorem drbgNonce_unfold (n : Nat) (s : Drbg) : drbgNonce n s =
    if 0 < beNat (hmac s.1 s.2) ∧ beNat (hmac s.1 s.2) < n then some (beNat (hmac s.1 s.2))
    else drbgNonce n (drbgNext s) := drbgNonce.eq_1 n s

theorem drbgNonce_of {n : Nat} (i : Nat) : ∀ {s : Drbg},
    0 < beNat (hmac (drbgNext^[i] s).1 (drbgNext^[i] s).2) ∧ beNat (hmac (drbgNext^[i] s).1 (drbgNext^[i] s).2) < n →
    (∀ j < i, ¬ (0 < beNat (hmac (drbgNext^[j] s).1 (drbgNext^[j] s).2) ∧
      beNat (hmac (drbgNext^[j] s).1 (drbgNext^[j] s).2) < n)) →
    drbgNonce n s = some (beNat (hmac (drbgNext^[i] s).1 (drbgNext^[i] s).2)) := by
  induction i with
  | zero =>
    intro s h _
    rw [Function.iterate_zero, id] at h
    rw [drbgNonce_unfold, if_pos h, Function.iterate_zero, id]
  | succ i ih =>
    intro s h hj
    rw [Function.iterate_succ_apply] at h
    have h0 := hj 0 (by omega)
    rw [Function.iterate_zero, id] at h0
    rw [drbgNonce_unfold, if_neg h0, Function.iterate_succ_apply]
    refine ih h fun j hji => ?_
    have := hj (j + 1) (by omega)
    rwa [Function.iterate_succ_apply] at this

/-- The signatures of the crates are signatures for a nonce. -/
theorem signDet_sign {low : Bool} {sk b sig : Bytes} :
    c.signDet low sk b = some sig ↔ ∃ k, c.nonceOf (beNat sk) b = some k ∧ 0 < k ∧ k < c.n ∧
      ∀ nonce : Bytes → Bytes → Nat, nonce sk b = k - 1 → c.sign low nonce sk b = some sig := by
  have hx : ∀ {nonce nonce' : Bytes → Bytes → Nat}, nonce sk b = nonce' sk b →
      c.sign low nonce sk b = c.sign low nonce' sk b := by
    intro nonce nonce' he
    unfold Curve.sign
    rw [he]
  unfold Curve.signDet
  constructor
  · intro hs
    cases hd : c.ofSecret sk with
    | none => rw [hd] at hs; cases hs
    | some d =>
      rw [hd] at hs
      obtain ⟨-, -, -, rfl⟩ := ofSecret_iff.1 hd
      simp only at hs
      cases hk : c.nonceOf (beNat sk) b with
      | none => rw [hk] at hs; cases hs
      | some k =>
        rw [hk] at hs
        obtain ⟨-, -, h0, hn, -⟩ := drbgNonce_some hk
        exact ⟨k, rfl, h0, hn, fun nonce he => (hx he).trans hs⟩
  · rintro ⟨k, hk, h0, hn, hs⟩
    have := hs (fun _ _ => k - 1) rfl
    cases hd : c.ofSecret sk with
    | none => unfold Curve.sign at this; rw [hd] at this; cases this
    | some d =>
      obtain ⟨-, -, -, rfl⟩ := ofSecret_iff.1 hd
      simp only
      rw [hk]
      exact this

end Verif.Algo
