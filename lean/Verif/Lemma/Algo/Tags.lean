import Verif.Lemma.Algo.Poly1305
import Verif.Lemma.Algo.Ghash
import Verif.Lemma.Algo.EcdsaBytes
import Verif.Spec.HashKey

/-!
# Few hash keys admit two given tags
-/

namespace Verif.Algo

open Polynomial Spec

set_option maxRecDepth 8000

/-! ## Padding and lengths -/

theorem pad16_length (b : Bytes) : (pad16 b).length = 16 * ((b.length + 15) / 16) := by
  unfold pad16
  rw [List.length_append, List.length_replicate]
  omega

theorem pad16_inj {a b : Bytes} (hl : a.length = b.length) (h : pad16 a = pad16 b) : a = b := by
  unfold pad16 at h
  exact (List.append_inj h hl).1

theorem leNat_inj {a b : Bytes} (hl : a.length = b.length) (h : leNat a = leNat b) : a = b := by
  induction a generalizing b with
  | nil => exact (List.eq_nil_of_length_eq_zero hl.symm).symm
  | cons x a ih =>
    cases b with
    | nil => cases hl
    | cons y b =>
      have hx := x.toNat_lt
      have hy := y.toNat_lt
      simp only [leNat] at h
      have h1 : x.toNat = y.toNat := by omega
      rw [UInt8.toNat_inj.1 h1, ih (Nat.succ.inj hl) (by omega)]

theorem leBytes_inj_pow {n x y : Nat} (hx : x < 256 ^ n) (hy : y < 256 ^ n) (h : leBytes n x = leBytes n y) : x = y := by
  have := congrArg leNat h
  rwa [leNat_leBytes, leNat_leBytes, Nat.mod_eq_of_lt hx, Nat.mod_eq_of_lt hy] at this

theorem beNat_eq (b : Bytes) : beNat b = leNat b.reverse := by
  rw [← beNat_reverse, List.reverse_reverse]

theorem beNat_inj {a b : Bytes} (hl : a.length = b.length) (h : beNat a = beNat b) : a = b := by
  rw [beNat_eq, beNat_eq] at h
  exact List.reverse_injective (leNat_inj (by simpa using hl) h)

theorem beNat_lt {b : Bytes} (h : b.length ≤ 16) : beNat b < 2 ^ 128 := by
  rw [beNat_eq]
  refine lt_of_lt_of_le (leNat_lt_pow _) ?_
  rw [List.length_reverse, show (2 : Nat) ^ 128 = 256 ^ 16 by norm_num]
  exact Nat.pow_le_pow_right (by decide) h

theorem beBytes_inj_pow {n x y : Nat} (hx : x < 256 ^ n) (hy : y < 256 ^ n) (h : beBytes n x = beBytes n y) : x = y :=
  leBytes_inj_pow hx hy (List.reverse_injective h)

/-! ## XChaCha20-Poly1305 -/

/-- What Poly1305 is applied to. -/
def chaInput (aad c : Bytes) : Bytes := pad16 aad ++ pad16 c ++ leBytes 8 aad.length ++ leBytes 8 c.length

theorem chaInput_length (aad c : Bytes) : (chaInput aad c).length = 16 * tagBlocks aad.length c.length := by
  unfold chaInput tagBlocks
  simp only [List.length_append, pad16_length, leBytes_length]
  omega

theorem chaInput_inj {aad c aad' c' : Bytes} (h1 : aad.length < 2 ^ 64) (h2 : c.length < 2 ^ 64)
    (h1' : aad'.length < 2 ^ 64) (h2' : c'.length < 2 ^ 64) (h : chaInput aad c = chaInput aad' c') :
    aad = aad' ∧ c = c' := by
  unfold chaInput at h
  have e : (256 : Nat) ^ 8 = 2 ^ 64 := by norm_num
  obtain ⟨h, hc⟩ := List.append_inj' h (by simp)
  obtain ⟨h, ha⟩ := List.append_inj' h (by simp)
  have hc := leBytes_inj_pow (by rw [e]; exact h2) (by rw [e]; exact h2') hc
  have ha := leBytes_inj_pow (by rw [e]; exact h1) (by rw [e]; exact h1') ha
  obtain ⟨h3, h4⟩ := List.append_inj h (by rw [pad16_length, pad16_length, ha])
  exact ⟨pad16_inj ha h3, pad16_inj hc h4⟩

theorem chaTag_few (aad c t aad' c' t' : Bytes) (h1 : aad.length < 2 ^ 64) (h2 : c.length < 2 ^ 64)
    (h1' : aad'.length < 2 ^ 64) (h2' : c'.length < 2 ^ 64) (hne : (aad, c) ≠ (aad', c')) :
    ∃ S : Finset Nat, S.card ≤ 8 * max (tagBlocks aad.length c.length) (tagBlocks aad'.length c'.length) ∧
      ∀ key nonce, chaTag key nonce aad c = t → chaTag key nonce aad' c' = t' →
        polyR (chaBlock key 0 nonce) ∈ S := by
  obtain ⟨S, hS, h⟩ := poly1305_few (chaInput aad c) (chaInput aad' c') t t' (by
    intro h
    obtain ⟨rfl, rfl⟩ := chaInput_inj h1 h2 h1' h2' h
    exact hne rfl)
  refine ⟨S, hS.trans ?_, fun key nonce e e' => ?_⟩
  · rw [chaInput_length, chaInput_length]
    generalize tagBlocks aad.length c.length = x
    generalize tagBlocks aad'.length c'.length = y
    omega
  · have := h _ e e'
    rwa [show polyR ((chaBlock key 0 nonce).take 32) = polyR (chaBlock key 0 nonce) by
      unfold polyR; rw [List.take_take]; rfl] at this

theorem xchachaOpen_few (aad c t aad' c' t' : Bytes) (ht : t.length = 16) (ht' : t'.length = 16)
    (h1 : aad.length < 2 ^ 64) (h2 : c.length < 2 ^ 64) (h1' : aad'.length < 2 ^ 64) (h2' : c'.length < 2 ^ 64)
    (hne : (aad, c) ≠ (aad', c')) :
    ∃ S : Finset Nat, S.card ≤ 8 * max (tagBlocks aad.length c.length) (tagBlocks aad'.length c'.length) ∧
      ∀ key nonce m m', xchachaOpen key nonce aad (c ++ t) = some m →
        xchachaOpen key nonce aad' (c' ++ t') = some m' → xcPlace key nonce ∈ S := by
  obtain ⟨S, hS, h⟩ := chaTag_few aad c t aad' c' t' h1 h2 h1' h2' hne
  refine ⟨S, hS, fun key nonce m m' e e' => ?_⟩
  have tag : ∀ {k n a c t m : Bytes}, t.length = 16 → chaOpen k n a (c ++ t) = some m → chaTag k n a c = t := by
    intro k n a c t m ht h
    unfold chaOpen at h
    simp only [List.length_append, ht, Nat.add_sub_cancel, List.take_left', List.drop_left'] at h
    split at h
    · cases h
    · split at h
      · rename_i he; exact he.symm
      · cases h
  unfold xchachaOpen at e e'
  split at e
  · cases e
  split at e'
  · cases e'
  exact h _ _ (tag ht e) (tag ht' e')

/-! ## AES-256-GCM -/

/-- What GHASH is applied to. -/
def gcmInput (aad c : Bytes) : Bytes :=
  pad16 aad ++ pad16 c ++ beBytes 8 (8 * aad.length) ++ beBytes 8 (8 * c.length)

/-- The first `k` blocks as numbers. -/
def ghNums : Nat → Bytes → List Nat
  | 0, _ => []
  | k + 1, m => beNat (m.take 16) :: ghNums k (m.drop 16)

theorem ghNums_length (k : Nat) (m : Bytes) : (ghNums k m).length = k := by
  induction k generalizing m with
  | zero => rfl
  | succ k ih => simp [ghNums, ih]

theorem ghNums_lt {k : Nat} {m : Bytes} {b : Nat} (h : b ∈ ghNums k m) : b < 2 ^ 128 := by
  induction k generalizing m with
  | zero => simp [ghNums] at h
  | succ k ih =>
    rcases List.mem_cons.1 h with rfl | h
    · exact beNat_lt (by simp)
    · exact ih h

theorem ghNums_append {k : Nat} {a b : Bytes} (ha : a.length = 16 * k) :
    ghNums (k + 1) (a ++ b) = ghNums k a ++ [beNat (b.take 16)] := by
  induction k generalizing a with
  | zero =>
    obtain rfl := List.eq_nil_of_length_eq_zero (by simpa using ha)
    rfl
  | succ k ih =>
    rw [ghNums, List.take_append_of_le_length (by omega), List.drop_append_of_le_length (by omega),
      ih (by rw [List.length_drop]; omega)]
    rfl

theorem ghNums_inj {k : Nat} {a b : Bytes} (ha : a.length = 16 * k) (hb : b.length = 16 * k)
    (h : ghNums k a = ghNums k b) : a = b := by
  induction k generalizing a b with
  | zero =>
    obtain rfl := List.eq_nil_of_length_eq_zero (l := a) (by simpa using ha)
    exact (List.eq_nil_of_length_eq_zero (by simpa using hb)).symm
  | succ k ih =>
    simp only [ghNums, List.cons.injEq] at h
    have h1 := beNat_inj (by simp only [List.length_take]; omega) h.1
    have h2 := ih (by rw [List.length_drop]; omega) (by rw [List.length_drop]; omega) h.2
    rw [← List.take_append_drop 16 a, ← List.take_append_drop 16 b, h1, h2]

/-- The polynomial without constant term whose coefficients from the lowest on are given. -/
noncomputable def gLow : List Nat → GF[X]
  | [] => 0
  | b :: l => X * (C (gfVal b) + gLow l)

theorem gLow_zero (l : List Nat) : (gLow l).eval 0 = 0 := by
  cases l <;> simp [gLow]

theorem gLow_cons_inj {a b : Nat} {l l' : List Nat} (ha : a < 2 ^ 128) (hb : b < 2 ^ 128)
    (h : gLow (a :: l) = gLow (b :: l')) : a = b ∧ gLow l = gLow l' := by
  have hc := mul_left_cancel₀ X_ne_zero h
  have h0 := congrArg (eval 0) hc
  simp only [eval_add, eval_C, gLow_zero, add_zero] at h0
  obtain rfl := gfVal_inj ha hb h0
  exact ⟨rfl, add_left_cancel hc⟩

theorem gLow_inj {l l' : List Nat} (hl : l.length = l'.length) (h1 : ∀ b ∈ l, b < 2 ^ 128)
    (h2 : ∀ b ∈ l', b < 2 ^ 128) (h : gLow l = gLow l') : l = l' := by
  induction l generalizing l' with
  | nil => exact (List.eq_nil_of_length_eq_zero hl.symm).symm
  | cons a l ih =>
    cases l' with
    | nil => cases hl
    | cons b l' =>
      obtain ⟨rfl, h3⟩ := gLow_cons_inj (h1 a (by simp)) (h2 b (by simp)) h
      rw [ih (Nat.succ.inj hl) (fun x hx => h1 x (by simp [hx])) (fun x hx => h2 x (by simp [hx])) h3]

theorem gLow_degree (l : List Nat) : (gLow l).natDegree ≤ l.length := by
  induction l with
  | nil => simp [gLow]
  | cons b l ih =>
    refine (natDegree_mul_le).trans ?_
    rw [natDegree_X, List.length_cons, Nat.add_comm]
    refine Nat.add_le_add_right ((natDegree_add_le _ _).trans ?_) 1
    rw [natDegree_C]
    omega

theorem ghash_lt {h : Nat} (hh : h < 2 ^ 128) (n : Nat) {y : Nat} (hy : y < 2 ^ 128) (m : Bytes) :
    ghash h n y m < 2 ^ 128 := by
  induction n generalizing y m with
  | zero => exact hy
  | succ n ih =>
    unfold ghash
    split
    · exact hy
    · exact ih (gfMul_lt 128 _ (by decide) hh) _

theorem ghash_eval {h : Nat} (hh : h < 2 ^ 128) (k n y : Nat) (m : Bytes) (p : List Nat) (hm : m.length = 16 * k)
    (hn : k ≤ n) (hy : gfVal y = (gLow p).eval (gfVal h)) :
    gfVal (ghash h n y m) = (gLow ((ghNums k m).reverse ++ p)).eval (gfVal h) := by
  induction k generalizing n y m p with
  | zero =>
    obtain rfl := List.eq_nil_of_length_eq_zero (by simpa using hm)
    cases n with
    | zero => simpa [ghash, ghNums] using hy
    | succ n => simpa [ghash, ghNums] using hy
  | succ k ih =>
    cases n with
    | zero => omega
    | succ n =>
      have hne : m ≠ [] := by rintro rfl; simp at hm
      unfold ghash
      rw [if_neg hne, ih n _ _ (beNat (m.take 16) :: p) (by rw [List.length_drop]; omega) (by omega) (by
        rw [gfVal_gfMul _ hh, gfVal_xor, hy]
        simp only [gLow, eval_mul, eval_X, eval_add, eval_C]
        ring)]
      simp [ghNums]

theorem gcmInput_length (aad c : Bytes) : (gcmInput aad c).length = 16 * tagBlocks aad.length c.length := by
  unfold gcmInput tagBlocks
  simp only [List.length_append, pad16_length, beBytes_length]
  omega

theorem gcmInput_nums (aad c : Bytes) : (ghNums (tagBlocks aad.length c.length) (gcmInput aad c)).reverse =
    beNat (beBytes 8 (8 * aad.length) ++ beBytes 8 (8 * c.length)) ::
      (ghNums ((aad.length + 15) / 16 + (c.length + 15) / 16) (pad16 aad ++ pad16 c)).reverse := by
  unfold gcmInput tagBlocks
  rw [List.append_assoc, ghNums_append (by simp only [List.length_append, pad16_length]; omega),
    List.take_of_length_le (by simp)]
  simp

theorem gcmInput_low {aad c aad' c' : Bytes} (h1 : aad.length < 2 ^ 61) (h2 : c.length < 2 ^ 61)
    (h1' : aad'.length < 2 ^ 61) (h2' : c'.length < 2 ^ 61)
    (h : gLow (ghNums (tagBlocks aad.length c.length) (gcmInput aad c)).reverse =
      gLow (ghNums (tagBlocks aad'.length c'.length) (gcmInput aad' c')).reverse) : aad = aad' ∧ c = c' := by
  have e : (256 : Nat) ^ 8 = 2 ^ 64 := by norm_num
  rw [gcmInput_nums, gcmInput_nums] at h
  obtain ⟨h3, h4⟩ := gLow_cons_inj (beNat_lt (by simp)) (beNat_lt (by simp)) h
  obtain ⟨ha, hc⟩ := List.append_inj (beNat_inj (by simp) h3) (by simp)
  have ha := beBytes_inj_pow (by rw [e]; omega) (by rw [e]; omega) ha
  have hc := beBytes_inj_pow (by rw [e]; omega) (by rw [e]; omega) hc
  have ha : aad.length = aad'.length := by omega
  have hc : c.length = c'.length := by omega
  rw [ha, hc] at h4
  have h5 := gLow_inj (by simp [ghNums_length]) (fun b hb => ghNums_lt (List.mem_reverse.1 hb))
    (fun b hb => ghNums_lt (List.mem_reverse.1 hb)) h4
  have h6 := ghNums_inj (by simp only [List.length_append, pad16_length]; rw [ha, hc]; omega)
    (by simp only [List.length_append, pad16_length]; omega) (List.reverse_injective h5)
  obtain ⟨h7, h8⟩ := List.append_inj h6 (by rw [pad16_length, pad16_length, ha])
  exact ⟨pad16_inj ha h7, pad16_inj hc h8⟩

theorem ghash_few (aad c aad' c' : Bytes) (τ : Nat) (h1 : aad.length < 2 ^ 61)
    (h2 : c.length < 2 ^ 61) (h1' : aad'.length < 2 ^ 61) (h2' : c'.length < 2 ^ 61) (hne : (aad, c) ≠ (aad', c')) :
    ∃ S : Finset Nat, S.card ≤ max (tagBlocks aad.length c.length) (tagBlocks aad'.length c'.length) ∧
      ∀ h, h < 2 ^ 128 → ghash h ((gcmInput aad c).length / 16 + 1) 0 (gcmInput aad c) ^^^
        ghash h ((gcmInput aad' c').length / 16 + 1) 0 (gcmInput aad' c') = τ → h ∈ S := by
  classical
  set c₁ := (ghNums (tagBlocks aad.length c.length) (gcmInput aad c)).reverse with hc₁
  set c₂ := (ghNums (tagBlocks aad'.length c'.length) (gcmInput aad' c')).reverse with hc₂
  let f : GF[X] := gLow c₁ + gLow c₂ - C (gfVal τ)
  have hf : f ≠ 0 := by
    intro h
    have h0 := congrArg (eval 0) h
    simp only [f, eval_sub, eval_add, gLow_zero, eval_C, add_zero, zero_sub, eval_zero, neg_eq_zero] at h0
    simp only [f, h0, C_0, sub_zero] at h
    have h : gLow c₁ = gLow c₂ := CharTwo.add_eq_zero.1 h
    obtain ⟨rfl, rfl⟩ := gcmInput_low h1 h2 h1' h2' h
    exact hne rfl
  have hdeg : f.natDegree ≤ max (tagBlocks aad.length c.length) (tagBlocks aad'.length c'.length) := by
    refine (natDegree_sub_le _ _).trans ?_
    rw [natDegree_C]
    refine max_le ((natDegree_add_le _ _).trans ?_) (Nat.zero_le _)
    refine max_le_max ((gLow_degree _).trans ?_) ((gLow_degree _).trans ?_)
    · rw [hc₁, List.length_reverse, ghNums_length]
    · rw [hc₂, List.length_reverse, ghNums_length]
  have inj : Set.InjOn gfVal {h | h < 2 ^ 128} := fun a ha b hb h => gfVal_inj ha hb h
  refine ⟨f.roots.toFinset.image (Function.invFunOn gfVal {h | h < 2 ^ 128}),
    Finset.card_image_le.trans ((Multiset.toFinset_card_le _).trans ((card_roots' _).trans hdeg)), ?_⟩
  intro h hh hx
  refine Finset.mem_image.2 ⟨gfVal h, ?_, inj.leftInvOn_invFunOn hh⟩
  rw [Multiset.mem_toFinset, mem_roots hf]
  have ev : ∀ aad c : Bytes, gfVal (ghash h ((gcmInput aad c).length / 16 + 1) 0 (gcmInput aad c)) =
      (gLow (ghNums (tagBlocks aad.length c.length) (gcmInput aad c)).reverse).eval (gfVal h) := by
    intro aad c
    have := ghash_eval hh (tagBlocks aad.length c.length) ((gcmInput aad c).length / 16 + 1) 0 (gcmInput aad c) []
      (gcmInput_length _ _) (by rw [gcmInput_length]; omega) (by rw [gfVal_zero]; simp [gLow])
    rwa [List.append_nil] at this
  simp only [f, IsRoot.def, eval_sub, eval_add, eval_C, hc₁, hc₂, ← ev, ← hx, gfVal_xor, sub_self]

theorem gcmOpen_few (aad c t aad' c' t' : Bytes) (ht : t.length = 16) (ht' : t'.length = 16)
    (h1 : aad.length < 2 ^ 61) (h2 : c.length < 2 ^ 61) (h1' : aad'.length < 2 ^ 61) (h2' : c'.length < 2 ^ 61)
    (hne : (aad, c) ≠ (aad', c')) :
    ∃ S : Finset Nat, S.card ≤ max (tagBlocks aad.length c.length) (tagBlocks aad'.length c'.length) ∧
      ∀ key nonce m m', gcmOpen key nonce aad (c ++ t) = some m →
        gcmOpen key nonce aad' (c' ++ t') = some m' → gcmPlace key ∈ S := by
  obtain ⟨S, hS, h⟩ := ghash_few aad c aad' c' (beNat t ^^^ beNat t') h1 h2 h1' h2' hne
  refine ⟨S, hS, fun key nonce m m' e e' => ?_⟩
  have tag : ∀ {a c t m : Bytes}, t.length = 16 → gcmOpen key nonce a (c ++ t) = some m →
      key.length = 32 ∧ nonce.length = 12 ∧ gcmTag key nonce a c = t := by
    intro a c t m ht h
    unfold gcmOpen at h
    simp only [List.length_append, ht, Nat.add_sub_cancel, List.take_left', List.drop_left'] at h
    split at h
    · cases h
    · rename_i hc
      split at h
      · rename_i he; exact ⟨by omega, by omega, he.symm⟩
      · cases h
  obtain ⟨hk, hn, g⟩ := tag ht e
  obtain ⟨-, -, g'⟩ := tag ht' e'
  have hp : gcmPlace key < 2 ^ 128 := beNat_lt (by rw [aes256_length hk (by simp)])
  have hE : beNat (aes256 key (nonce ++ [0, 0, 0, 1])) < 2 ^ 128 :=
    beNat_lt (by rw [aes256_length hk (by simp [hn])])
  have val : ∀ {a c t : Bytes}, gcmTag key nonce a c = t → beNat t =
      ghash (gcmPlace key) ((gcmInput a c).length / 16 + 1) 0 (gcmInput a c) ^^^
        beNat (aes256 key (nonce ++ [0, 0, 0, 1])) := by
    intro a c t h
    rw [← h]
    unfold gcmTag beBytes
    rw [beNat_reverse, leNat_leBytes]
    exact Nat.mod_eq_of_lt (by
      rw [show (256 : Nat) ^ 16 = 2 ^ 128 by norm_num]
      exact Nat.xor_lt_two_pow (ghash_lt hp _ (by decide) _) hE)
  refine h _ hp ?_
  rw [val g, val g']
  generalize beNat (aes256 key (nonce ++ [0, 0, 0, 1])) = E
  generalize ghash (gcmPlace key) _ 0 (gcmInput aad c) = A
  generalize ghash (gcmPlace key) _ 0 (gcmInput aad' c') = B
  rw [Nat.xor_comm B E, Nat.xor_assoc, ← Nat.xor_assoc E E B, Nat.xor_self, Nat.zero_xor]

end Verif.Algo
