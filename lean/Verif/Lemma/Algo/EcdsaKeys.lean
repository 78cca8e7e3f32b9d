import Verif.Lemma.Algo.EcdsaTotal

/-!
# For which messages and under which keys an ECDSA signature is accepted
-/

namespace Verif.Algo

open WeierstrassCurve.Affine

variable {c : Curve}

/-- A multiple of the base point has a given first coordinate modulo the order. -/
def hits (c : Curve) (e : ZMod c.n) (r : Nat) : Bool :=
  match c.mul e.val c.base with
  | none => false
  | some (x, _) => x % c.n == r

theorem Good.verifyWith_hits (h : Good c) {d z r s : Nat} (hd : d < c.n) :
    c.verifyWith (c.mul d c.base) z r s = hits c ((s : ZMod c.n)⁻¹ * (z + r * d)) r := by
  have := h.fact_p
  have := h.fact_n
  have : NeZero c.n := ⟨h.prime_n.ne_zero⟩
  obtain ⟨G, hG, hnG⟩ := h.exists_base
  exact h.verifyWith_eq hG hnG hd (ZMod.natCast_rightInverse _) (ZMod.val_lt _)

theorem Good.hits_neg (h : Good c) (e : ZMod c.n) (r : Nat) : hits c (-e) r = hits c e r := by
  have := h.fact_p
  have := h.fact_n
  have : NeZero c.n := ⟨h.prime_n.ne_zero⟩
  have h3 := h.n_gt
  have hm := h.verify_mirror (d := 0) (z := e.val) (r := r) (s := 1) h.prime_n.pos (by omega)
  rw [h.verifyWith_hits h.prime_n.pos, h.verifyWith_hits h.prime_n.pos, Nat.cast_sub (by omega)] at hm
  simpa [ZMod.natCast_rightInverse e, inv_neg] using hm

/-- The order of the base point. -/
theorem Good.nsmul_zero [Fact c.p.Prime] [Fact c.n.Prime] (h : Good c) {G : (wei c).Point} (hG : Stands c c.base G)
    (hnG : c.n • G = 0) {a : Nat} (ha : a • G = 0) : (a : ZMod c.n) = 0 := by
  have hlt := Nat.mod_lt a h.prime_n.pos
  have h1 := h.mul_stands hG hlt
  rw [nsmul_cast hnG (ZMod.natCast_mod a c.n), ha] at h1
  by_cases h0 : a % c.n = 0
  · rw [← ZMod.natCast_mod, h0, Nat.cast_zero]
  · exact absurd (stands_unique (q := none) h1 rfl) (h.mul_ne_none (by omega) hlt)

/-- Unless the first half is small, only two opposite multiples have it as coordinate. -/
theorem Good.hits_unique (h : Good c) {e e' : ZMod c.n} {r : Nat} (hr : c.p ≤ r + c.n) (h1 : hits c e r = true)
    (h2 : hits c e' r = true) : e = e' ∨ e = -e' := by
  have := h.fact_p
  have := h.fact_n
  have : NeZero c.n := ⟨h.prime_n.ne_zero⟩
  obtain ⟨G, hG, hnG⟩ := h.exists_base
  have key : ∀ {e : ZMod c.n}, hits c e r = true → ∃ y, Stands c (some (r, y)) (e.val • G) := by
    intro e he
    have hst := h.mul_stands hG (ZMod.val_lt e)
    unfold hits at he
    split at he
    · cases he
    · rename_i x y hm
      rw [hm] at hst
      have hx := hst.1
      have he : x % c.n = r := by simpa using he
      have hxr : x = r := by
        by_cases hq : x < c.n
        · rw [Nat.mod_eq_of_lt hq] at he; exact he
        · exfalso
          have := Nat.div_add_mod x c.n
          have : 1 ≤ x / c.n := Nat.div_pos (by omega) h.prime_n.pos
          have : c.n ≤ c.n * (x / c.n) := Nat.le_mul_of_pos_right _ this
          omega
      exact ⟨y, hxr ▸ hst⟩
  obtain ⟨y, hy⟩ := key h1
  obtain ⟨y', hy'⟩ := key h2
  have hor : e.val • G = e'.val • G ∨ e.val • G = -(e'.val • G) := by
    obtain ⟨-, -, n1, e1⟩ := hy
    obtain ⟨-, -, n2, e2⟩ := hy'
    rw [e1, e2, Point.neg_some]
    rcases Y_eq_of_X_eq n1.1 n2.1 rfl with hh | hh
    · left; simp only [Point.some.injEq]; exact ⟨trivial, hh⟩
    · right; simp only [Point.some.injEq]; exact ⟨trivial, hh⟩
  rcases hor with hh | hh
  · left
    have hz : (e.val + (c.n - e'.val)) • G = 0 := by
      rw [add_nsmul, hh, ← add_nsmul, Nat.add_sub_cancel' (ZMod.val_lt e').le, hnG]
    have := h.nsmul_zero hG hnG hz
    rw [Nat.cast_add, Nat.cast_sub (ZMod.val_lt e').le, ZMod.natCast_self, zero_sub, ZMod.natCast_rightInverse,
      ZMod.natCast_rightInverse] at this
    exact add_neg_eq_zero.1 this
  · right
    have hz : (e.val + e'.val) • G = 0 := by rw [add_nsmul, hh, neg_add_cancel]
    have := h.nsmul_zero hG hnG hz
    rw [Nat.cast_add, ZMod.natCast_rightInverse, ZMod.natCast_rightInverse] at this
    exact eq_neg_of_add_eq_zero_left this

/-- When a signature is accepted under the public key of a secret. -/
theorem Good.verify_iff (h : Good c) {low short : Bool} {sk pk m sig : Bytes} (hk : Spec.ecPublic c short sk = some pk) :
    c.verify low pk m sig = some true ↔ ∃ r s, c.ofSignature sig = some (r, s) ∧ ¬ (low = true ∧ c.n / 2 < s) ∧
      hits c ((s : ZMod c.n)⁻¹ * (Curve.hash m + r * beNat sk)) r = true := by
  obtain ⟨d, q, hd, hdn, hq, hpk⟩ := h.ofSec1_public hk
  obtain ⟨-, -, -, rfl⟩ := ofSecret_iff.1 hd
  unfold Curve.verify
  rw [hpk]
  cases hs : c.ofSignature sig with
  | none => simp
  | some rs =>
    obtain ⟨r, s⟩ := rs
    simp only [← hq, h.verifyWith_hits hdn, Option.some.injEq, Prod.mk.injEq, Bool.and_eq_true, Bool.not_eq_true',
      Bool.and_eq_false_iff, decide_eq_false_iff_not]
    constructor
    · rintro ⟨h1, h2⟩
      exact ⟨r, s, ⟨rfl, rfl⟩, by rcases h1 with h1 | h1 <;> simp [h1], h2⟩
    · rintro ⟨_, _, ⟨rfl, rfl⟩, h1, h2⟩
      refine ⟨?_, h2⟩
      cases low
      · exact .inl rfl
      · exact .inr fun h' => h1 ⟨rfl, h'⟩

theorem ofSignature_parts {sig : Bytes} {r s : Nat} (h : c.ofSignature sig = some (r, s)) :
    sig.length = 64 ∧ 0 < r ∧ r < c.n ∧ 0 < s ∧ s < c.n ∧ r = beNat (sig.take 32) ∧ s = beNat (sig.drop 32) := by
  unfold Curve.ofSignature at h
  simp only at h
  split at h
  · rename_i hh
    simp only [Option.some.injEq, Prod.mk.injEq] at h
    obtain ⟨rfl, rfl⟩ := h
    exact ⟨hh.1, hh.2.1, hh.2.2.1, hh.2.2.2.1, hh.2.2.2.2, rfl, rfl⟩
  · cases h

theorem natCast_ne_zero_of_lt {n a : Nat} (h0 : 0 < a) (hn : a < n) : (a : ZMod n) ≠ 0 := by
  intro hz
  rw [ZMod.natCast_eq_zero_iff] at hz
  exact absurd (Nat.le_of_dvd h0 hz) (by omega)

theorem mod_eq_zero_iff_cast {n a : Nat} : a % n = 0 ↔ (a : ZMod n) = 0 := by
  rw [ZMod.natCast_eq_zero_iff, Nat.dvd_iff_mod_eq_zero]

theorem Good.two_ne_zero (h : Good c) : (2 : ZMod c.n) ≠ 0 := by
  have := natCast_ne_zero_of_lt (n := c.n) (a := 2) (by omega) (by have := h.n_gt; omega)
  exact_mod_cast this

/-- A signature that is accepted for two messages: the hashes agree, or the secret is known. -/
theorem Good.two_messages (h : Good c) {low short : Bool} {sk pk b b' sig : Bytes}
    (hk : Spec.ecPublic c short sk = some pk) (h1 : c.verify low pk b sig = some true)
    (h2 : c.verify low pk b' sig = some true) (hr : c.p ≤ beNat (sig.take 32) + c.n) :
    Curve.hash b % c.n = Curve.hash b' % c.n ∨
      (Curve.hash b + Curve.hash b' + 2 * beNat (sig.take 32) * beNat sk) % c.n = 0 := by
  have := h.fact_n
  obtain ⟨r, s, hs, -, h1⟩ := (h.verify_iff hk).1 h1
  obtain ⟨r', s', hs', -, h2⟩ := (h.verify_iff hk).1 h2
  rw [hs] at hs'
  simp only [Option.some.injEq, Prod.mk.injEq] at hs'
  obtain ⟨rfl, rfl⟩ := hs'
  obtain ⟨-, -, -, hs0, hsn, hr', -⟩ := ofSignature_parts hs
  rw [← hr'] at hr ⊢
  have hsz := inv_ne_zero (natCast_ne_zero_of_lt hs0 hsn)
  rcases h.hits_unique hr h1 h2 with hh | hh
  · left
    have := add_right_cancel (mul_left_cancel₀ hsz hh)
    rwa [ZMod.natCast_eq_natCast_iff'] at this
  · right
    rw [← mul_neg] at hh
    have := mul_left_cancel₀ hsz hh
    rw [mod_eq_zero_iff_cast]
    push_cast
    linear_combination this

/-- A signature that is accepted under the public keys of two secrets: these are equal, or one gives the other. -/
theorem Good.two_keys (h : Good c) {low short short' : Bool} {sk sk' pk pk' b sig : Bytes}
    (hk : Spec.ecPublic c short sk = some pk) (hk' : Spec.ecPublic c short' sk' = some pk')
    (h1 : c.verify low pk b sig = some true) (h2 : c.verify low pk' b sig = some true)
    (hr : c.p ≤ beNat (sig.take 32) + c.n) :
    beNat sk = beNat sk' ∨ (2 * Curve.hash b + beNat (sig.take 32) * (beNat sk + beNat sk')) % c.n = 0 := by
  have := h.fact_n
  obtain ⟨r, s, hs, -, h1⟩ := (h.verify_iff hk).1 h1
  obtain ⟨r', s', hs', -, h2⟩ := (h.verify_iff hk').1 h2
  rw [hs] at hs'
  simp only [Option.some.injEq, Prod.mk.injEq] at hs'
  obtain ⟨rfl, rfl⟩ := hs'
  obtain ⟨-, hr0, hrn, hs0, hsn, hr', -⟩ := ofSignature_parts hs
  obtain ⟨d, -, hd, hdn, -⟩ := h.ofSec1_public hk
  obtain ⟨-, -, -, rfl⟩ := ofSecret_iff.1 hd
  obtain ⟨d', -, hd', hdn', -⟩ := h.ofSec1_public hk'
  obtain ⟨-, -, -, rfl⟩ := ofSecret_iff.1 hd'
  rw [← hr'] at hr ⊢
  have hsz := inv_ne_zero (natCast_ne_zero_of_lt hs0 hsn)
  rcases h.hits_unique hr h1 h2 with hh | hh
  · left
    have := mul_left_cancel₀ (natCast_ne_zero_of_lt hr0 hrn) (add_left_cancel (mul_left_cancel₀ hsz hh))
    exact cast_inj hdn hdn' this
  · right
    rw [← mul_neg] at hh
    have := mul_left_cancel₀ hsz hh
    rw [mod_eq_zero_iff_cast]
    push_cast
    linear_combination this

theorem Good.hits_one (h : Good c) (t : Two c) : hits c 1 (t.x1 % c.n) = true := by
  have := h.fact_n
  have h3 := h.n_gt
  have hm := t.m1
  unfold hits
  have : (1 : ZMod c.n).val = 1 := by
    have : Fact (1 < c.n) := ⟨by omega⟩
    exact ZMod.val_one _
  rw [this]
  cases hq : c.mul 1 c.base with
  | none => rw [hq] at hm; cases hm
  | some xy =>
    obtain ⟨x, y⟩ := xy
    rw [hq] at hm
    obtain rfl : x = t.x1 := Option.some.inj hm
    simp

/-- Which half the two signatures are in. -/
theorem Good.choose_low (h : Good c) (s : ZMod c.n) (hs : s ≠ 0) (low : Bool) :
    ∃ u : Nat, 0 < u ∧ u < c.n ∧ ¬ (low = true ∧ c.n / 2 < u) ∧ ((u : ZMod c.n) = s ∨ (u : ZMod c.n) = -s) := by
  have := h.fact_n
  have : NeZero c.n := ⟨h.prime_n.ne_zero⟩
  have h0 : 0 < s.val := Nat.pos_of_ne_zero (by rwa [Ne, ZMod.val_eq_zero])
  have hl := ZMod.val_lt s
  by_cases hc : low = true ∧ c.n / 2 < s.val
  · refine ⟨c.n - s.val, by omega, by omega, by omega, .inr ?_⟩
    rw [Nat.cast_sub hl.le, ZMod.natCast_self, zero_sub, ZMod.natCast_rightInverse]
  · exact ⟨s.val, h0, hl, hc, .inl (ZMod.natCast_rightInverse s)⟩

theorem Good.public_of_val (h : Good c) {d : ZMod c.n} (hd : d ≠ 0) (short : Bool) :
    ∃ pk, Spec.ecPublic c short (beBytes 32 d.val) = some pk ∧ beNat (beBytes 32 d.val) = d.val := by
  have : NeZero c.n := ⟨h.prime_n.ne_zero⟩
  have hl := ZMod.val_lt d
  have hb := beNat_beBytes (hl.trans h.n_lt)
  have hs : c.ofSecret (beBytes 32 d.val) = some d.val := by
    rw [ofSecret_iff, hb]
    exact ⟨beBytes_length .., Nat.pos_of_ne_zero (by rwa [Ne, ZMod.val_eq_zero]), hl, rfl⟩
  obtain ⟨pk, hpk⟩ := h.public_exists hs short
  exact ⟨pk, hpk, hb⟩

/-- For two messages a secret can be chosen that has one signature for both. -/
theorem Good.one_signature (h : Good c) (t : Two c) (low short : Bool) {b b' : Bytes}
    (hne : Curve.hash b % c.n ≠ Curve.hash b' % c.n) (hz : (Curve.hash b + Curve.hash b') % c.n ≠ 0) :
    ∃ sk pk sig, Spec.ecPublic c short sk = some pk ∧ c.verify low pk b sig = some true ∧
      c.verify low pk b' sig = some true := by
  have := h.fact_n
  have : NeZero c.n := ⟨h.prime_n.ne_zero⟩
  have h2 := h.two_ne_zero
  set z : ZMod c.n := (Curve.hash b : ZMod c.n) with hzd
  set z' : ZMod c.n := (Curve.hash b' : ZMod c.n) with hzd'
  have hne' : z - z' ≠ 0 := by
    rw [sub_ne_zero]; intro he; exact hne ((ZMod.natCast_eq_natCast_iff' ..).1 he)
  have hz' : z + z' ≠ 0 := by
    intro he; apply hz; rw [mod_eq_zero_iff_cast, Nat.cast_add]; exact he
  have hrl := Nat.mod_lt t.x1 h.prime_n.pos
  have hr0 : 0 < t.x1 % c.n := Nat.pos_of_ne_zero t.n1
  set r : ℕ := t.x1 % c.n with hrd
  have hrz : (r : ZMod c.n) ≠ 0 := natCast_ne_zero_of_lt hr0 hrl
  set d : ZMod c.n := -((z + z') / (2 * r)) with hdd
  have hd : d ≠ 0 := neg_ne_zero.2 (div_ne_zero hz' (mul_ne_zero h2 hrz))
  obtain ⟨pk, hpk, hb⟩ := h.public_of_val hd short
  obtain ⟨u, hu0, hun, hul, hu⟩ := h.choose_low ((z - z') / 2) (div_ne_zero hne' h2) low
  have hrd' : (r : ZMod c.n) * d = -((z + z') / 2) := by rw [hdd]; field_simp
  have e1 : z + r * d = (z - z') / 2 := by rw [hrd']; field_simp; ring
  have e2 : z' + r * d = -((z - z') / 2) := by rw [hrd']; field_simp; ring
  have hq : (z - z') / 2 ≠ 0 := div_ne_zero hne' h2
  have hsig := h.ofSignature_bytes hr0 hrl hu0 hun
  refine ⟨_, pk, beBytes 32 r ++ beBytes 32 u, hpk, (h.verify_iff hpk).2 ⟨r, u, hsig, hul, ?_⟩,
    (h.verify_iff hpk).2 ⟨r, u, hsig, hul, ?_⟩⟩
  · rw [hb, ZMod.natCast_rightInverse, ← hzd, e1]
    rcases hu with hu | hu
    · rw [hu, inv_mul_cancel₀ hq, h.hits_one t]
    · rw [hu, inv_neg, neg_mul, inv_mul_cancel₀ hq, h.hits_neg, h.hits_one t]
  · rw [hb, ZMod.natCast_rightInverse, ← hzd', e2]
    rcases hu with hu | hu
    · rw [hu, mul_neg, inv_mul_cancel₀ hq, h.hits_neg, h.hits_one t]
    · rw [hu, inv_neg, neg_mul_neg, inv_mul_cancel₀ hq, h.hits_one t]

theorem Good.mul_base_zero (h : Good c) : c.mul 0 c.base = none := by
  have := h.fact_p
  have := h.fact_n
  obtain ⟨G, hG, -⟩ := h.exists_base
  have key : ∀ k, k = 0 → c.mul k c.base = none := by
    intro k hk
    have h0 := h.mul_stands hG (k := k) (by rw [hk]; exact h.prime_n.pos)
    have hz : k • G = 0 := by rw [hk, zero_nsmul]
    rw [hz] at h0
    exact stands_unique h0 (show Stands c none 0 from rfl)
  exact key 0 rfl

/-- The other key belongs to a secret. -/
theorem Good.otherKey_eq (h : Good c) {short : Bool} {sk pk : Bytes} (hk : Spec.ecPublic c short sk = some pk)
    (b sig : Bytes) : Spec.otherKey c pk b sig = Spec.ecPublic c true (beBytes 32
      (-(beNat sk : ZMod c.n) - 2 * Curve.hash b * (beNat (sig.take 32) : ZMod c.n)⁻¹).val) := by
  have := h.fact_p
  have := h.fact_n
  have : NeZero c.n := ⟨h.prime_n.ne_zero⟩
  obtain ⟨d, ⟨x, y⟩, hd, hdn, hq, hpk⟩ := h.ofSec1_public hk
  obtain ⟨-, -, -, rfl⟩ := ofSecret_iff.1 hd
  obtain ⟨G, hG, hnG⟩ := h.exists_base
  set d' : ZMod c.n := -(beNat sk : ZMod c.n) - 2 * Curve.hash b * (beNat (sig.take 32) : ZMod c.n)⁻¹ with hd'
  set w := 2 * Curve.hash b * invMod c.n (beNat (sig.take 32)) % c.n with hw
  have hwl : w < c.n := Nat.mod_lt _ h.prime_n.pos
  have hul : (c.n - w) % c.n < c.n := Nat.mod_lt _ h.prime_n.pos
  have hst := h.mul_stands hG hdn
  rw [hq] at hst
  have hsum := stands_add h.p_gt h.p_lt.le (stands_neg hst) (h.mul_stands hG hul)
  have hmul : -(beNat sk • G) + ((c.n - w) % c.n) • G = d'.val • G := by
    rw [neg_add_eq_iff_eq_add, ← add_nsmul]
    apply nsmul_cast hnG
    rw [ZMod.natCast_mod, Nat.cast_sub hwl.le, ZMod.natCast_self, zero_sub, Nat.cast_add, ZMod.natCast_rightInverse, hd', hw,
      ZMod.natCast_mod]
    push_cast
    rw [cast_invMod h.n_gt h.n_lt.le]
    ring
  rw [hmul] at hsum
  have he := stands_unique hsum (h.mul_stands hG (ZMod.val_lt d'))
  unfold Spec.otherKey
  rw [hpk]
  simp only
  rw [← hw, he]
  have hb := beNat_beBytes ((ZMod.val_lt d').trans h.n_lt)
  unfold Spec.ecPublic
  by_cases h0 : d' = 0
  · have hn : c.ofSecret (beBytes 32 d'.val) = none := by
      unfold Curve.ofSecret
      rw [hb, h0, ZMod.val_zero, if_neg (by simp)]
    rw [hn, h0, ZMod.val_zero]
    rw [h.mul_base_zero]
  · have hn : c.ofSecret (beBytes 32 d'.val) = some d'.val := by
      rw [ofSecret_iff, hb]
      exact ⟨beBytes_length .., Nat.pos_of_ne_zero (by rwa [Ne, ZMod.val_eq_zero]), ZMod.val_lt _, rfl⟩
    rw [hn]
    rfl

theorem Good.otherKey_none (h : Good c) {short : Bool} {sk pk : Bytes} (hk : Spec.ecPublic c short sk = some pk)
    (b sig : Bytes) (h0 : 0 < beNat (sig.take 32)) (hn : beNat (sig.take 32) < c.n) :
    Spec.otherKey c pk b sig = none ↔ (2 * Curve.hash b + beNat (sig.take 32) * beNat sk) % c.n = 0 := by
  have := h.fact_n
  have hr := natCast_ne_zero_of_lt h0 hn
  rw [h.otherKey_eq hk, mod_eq_zero_iff_cast]
  set d' : ZMod c.n := -(beNat sk : ZMod c.n) - 2 * Curve.hash b * (beNat (sig.take 32) : ZMod c.n)⁻¹ with hd'
  have key : ((2 * Curve.hash b + beNat (sig.take 32) * beNat sk : ℕ) : ZMod c.n) = -(beNat (sig.take 32) * d') := by
    rw [hd']
    push_cast
    field_simp
    ring
  rw [key, neg_eq_zero, mul_eq_zero, or_iff_right hr]
  constructor
  · intro hno
    by_contra hne
    obtain ⟨pk', hpk', -⟩ := h.public_of_val hne true
    rw [hno] at hpk'
    cases hpk'
  · intro hz
    unfold Spec.ecPublic Curve.ofSecret
    rw [hz, ZMod.val_zero, beNat_beBytes (by norm_num), if_neg (by simp)]

/-- The signature is accepted under the other key as well, and that key is another point. -/
theorem Good.otherKey_verify (h : Good c) {low short : Bool} {sk pk pk' b sig : Bytes}
    (hk : Spec.ecPublic c short sk = some pk) (hv : c.verify low pk b sig = some true)
    (ho : Spec.otherKey c pk b sig = some pk') :
    c.verify low pk' b sig = some true ∧ c.ofSec1 pk' ≠ c.ofSec1 pk ∧ c.ofSec1 pk' ≠ none := by
  have := h.fact_p
  have := h.fact_n
  have : NeZero c.n := ⟨h.prime_n.ne_zero⟩
  have ho' := ho
  rw [h.otherKey_eq hk] at ho
  set d' : ZMod c.n := -(beNat sk : ZMod c.n) - 2 * Curve.hash b * (beNat (sig.take 32) : ZMod c.n)⁻¹ with hd'
  obtain ⟨r, s, hs, hlow, hh⟩ := (h.verify_iff hk).1 hv
  obtain ⟨-, hr0, hrn, hs0, hsn, hr, -⟩ := ofSignature_parts hs
  have hrz := natCast_ne_zero_of_lt hr0 hrn
  have hb := beNat_beBytes ((ZMod.val_lt d').trans h.n_lt)
  rw [← hr] at hd'
  have hneg : (Curve.hash b : ZMod c.n) + r * d' = -(Curve.hash b + r * beNat sk) := by
    rw [hd']; field_simp; ring
  refine ⟨(h.verify_iff ho).2 ⟨r, s, hs, hlow, ?_⟩, ?_, ?_⟩
  · rw [hb, ZMod.natCast_rightInverse, hneg, mul_neg, h.hits_neg, hh]
  · obtain ⟨d1, q1, hd1, hd1n, hq1, hpk1⟩ := h.ofSec1_public hk
    obtain ⟨d2, q2, hd2, hd2n, hq2, hpk2⟩ := h.ofSec1_public ho
    obtain ⟨-, -, -, rfl⟩ := ofSecret_iff.1 hd1
    obtain ⟨-, -, -, rfl⟩ := ofSecret_iff.1 hd2
    rw [hpk1, hpk2, ← hq1, ← hq2]
    intro he
    obtain ⟨G, hG, hnG⟩ := h.exists_base
    have s1 := h.mul_stands hG hd1n
    have s2 := h.mul_stands hG hd2n
    rw [he] at s2
    rw [hb] at s2
    have hpt : d'.val • G = beNat sk • G := by
      cases hm : c.mul (beNat sk) c.base with
      | none => exact absurd hm (by rw [hq1]; simp)
      | some xy =>
        rw [hm] at s1 s2
        obtain ⟨-, -, _, e1⟩ := s1
        obtain ⟨-, -, _, e2⟩ := s2
        rw [e1, e2]
    have hz : (d'.val + (c.n - beNat sk)) • G = 0 := by
      rw [add_nsmul, hpt, ← add_nsmul, Nat.add_sub_cancel' hd1n.le, hnG]
    have hzero := h.nsmul_zero hG hnG hz
    rw [Nat.cast_add, Nat.cast_sub hd1n.le, ZMod.natCast_self, zero_sub, ZMod.natCast_rightInverse] at hzero
    have hdd : d' = beNat sk := add_neg_eq_zero.1 hzero
    rw [hdd] at hneg
    have h2z : (2 : ZMod c.n) * (Curve.hash b + r * beNat sk) = 0 := by linear_combination hneg
    have hzz : (Curve.hash b + r * beNat sk : ZMod c.n) = 0 := (mul_eq_zero.1 h2z).resolve_left h.two_ne_zero
    rw [hzz, mul_zero] at hh
    unfold hits at hh
    rw [ZMod.val_zero] at hh
    rw [h.mul_base_zero] at hh
    cases hh
  · obtain ⟨d2, q2, -, -, -, hpk2⟩ := h.ofSec1_public ho
    rw [hpk2]; simp

end Verif.Algo
