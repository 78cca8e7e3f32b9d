import Verif.Lemma.Algo.Tags

/-!
# One ciphertext and tag for two keys
-/

namespace Verif.Algo

open Polynomial Spec

set_option maxRecDepth 8000

instance : Module.Finite (ZMod 2) GF := gcmPoly_monic.finite_adjoinRoot

instance : Finite GF := Module.finite_of_finite (ZMod 2)

theorem gf_card : Nat.card GF = 2 ^ 128 := by
  have h := Module.natCard_eq_pow_finrank (K := ZMod 2) (V := GF)
  rw [(AdjoinRoot.powerBasis gcmPoly_monic.ne_zero).finrank, AdjoinRoot.powerBasis_dim, gcmPoly_degree] at h
  rw [h, Nat.card_zmod]

/-- Every element of the field is a block. -/
theorem gfVal_surj (y : GF) : ∃ n, n < 2 ^ 128 ∧ gfVal n = y := by
  have hi : Function.Injective fun i : Fin (2 ^ 128) => gfVal i.1 := fun a b h => Fin.ext (gfVal_inj a.2 b.2 h)
  have hs := (Nat.bijective_iff_injective_and_card _).2 ⟨hi, by rw [gf_card, Nat.card_eq_fintype_card, Fintype.card_fin]⟩
  obtain ⟨n, hn⟩ := hs.2 y
  exact ⟨n.1, n.2, hn⟩

theorem gcmTag_val {key nonce : Bytes} (hk : key.length = 32) (hn : nonce.length = 12) (a c : Bytes) :
    beNat (gcmTag key nonce a c) = ghash (gcmPlace key) ((gcmInput a c).length / 16 + 1) 0 (gcmInput a c) ^^^
        beNat (aes256 key (nonce ++ [0, 0, 0, 1])) := by
  have hp : gcmPlace key < 2 ^ 128 := beNat_lt (by rw [aes256_length hk (by simp)])
  have hE : beNat (aes256 key (nonce ++ [0, 0, 0, 1])) < 2 ^ 128 :=
    beNat_lt (by rw [aes256_length hk (by simp [hn])])
  unfold gcmTag beBytes
  rw [beNat_reverse, leNat_leBytes]
  exact Nat.mod_eq_of_lt (by
    rw [show (256 : Nat) ^ 16 = 2 ^ 128 by norm_num]
    exact Nat.xor_lt_two_pow (ghash_lt hp _ (by decide) _) hE)

theorem pad16_full {b : Bytes} (h : 16 ∣ b.length) : pad16 b = b := by
  obtain ⟨n, hn⟩ := h
  unfold pad16
  rw [show (16 - b.length % 16) % 16 = 0 by omega]
  simp

/-- The tag as an element of the field, with the last block of the ciphertext apart. -/
theorem gcmTag_last (aad c : Bytes) (hc : 16 ∣ c.length) :
    ∃ R : GF[X], ∀ key nonce x : Bytes, key.length = 32 → nonce.length = 12 → x.length = 16 →
      gfVal (beNat (gcmTag key nonce aad (c ++ x))) =
        gfVal (beNat x) * gfVal (gcmPlace key) ^ 2 + R.eval (gfVal (gcmPlace key)) +
          gfVal (beNat (aes256 key (nonce ++ [0, 0, 0, 1]))) := by
  obtain ⟨n, hn⟩ := hc
  refine ⟨X * C (gfVal (beNat (beBytes 8 (8 * aad.length) ++ beBytes 8 (8 * (c.length + 16))))) +
    X * X * gLow (ghNums ((aad.length + 15) / 16 + n) (pad16 aad ++ c)).reverse, fun key nonce x hk hk' hx => ?_⟩
  have hp : gcmPlace key < 2 ^ 128 := beNat_lt (by rw [aes256_length hk (by simp)])
  have hev := ghash_eval hp (tagBlocks aad.length (c ++ x).length) ((gcmInput aad (c ++ x)).length / 16 + 1) 0
    (gcmInput aad (c ++ x)) [] (gcmInput_length _ _) (by rw [gcmInput_length]; omega) (by rw [gfVal_zero]; simp [gLow])
  have hr : (ghNums ((aad.length + 15) / 16 + ((c ++ x).length + 15) / 16) (pad16 aad ++ pad16 (c ++ x))).reverse =
      beNat x :: (ghNums ((aad.length + 15) / 16 + n) (pad16 aad ++ c)).reverse := by
    rw [pad16_full (b := c ++ x) ⟨n + 1, by rw [List.length_append]; omega⟩, ← List.append_assoc,
      show (aad.length + 15) / 16 + ((c ++ x).length + 15) / 16 = (aad.length + 15) / 16 + n + 1 by
        rw [List.length_append]; omega,
      ghNums_append (by rw [List.length_append, pad16_length]; omega), List.take_of_length_le (by omega)]
    simp
  rw [List.append_nil, gcmInput_nums, hr] at hev
  rw [gcmTag_val hk hk', gfVal_xor, hev, List.length_append, hx]
  simp only [gLow, eval_mul, eval_add, eval_X, eval_C]
  ring

/-- Two keys with different hash keys: exactly one last block makes the tags equal. -/
theorem gcmTag_two_keys {key key' nonce nonce' : Bytes} (hk : key.length = 32) (hk' : key'.length = 32)
    (hn : nonce.length = 12) (hn' : nonce'.length = 12) (hne : gcmPlace key ≠ gcmPlace key') (aad c : Bytes)
    (hc : 16 ∣ c.length) :
    ∃ x, x.length = 16 ∧ gcmTag key nonce aad (c ++ x) = gcmTag key' nonce' aad (c ++ x) ∧
      ∀ y, y.length = 16 → gcmTag key nonce aad (c ++ y) = gcmTag key' nonce' aad (c ++ y) → y = x := by
  obtain ⟨R, hR⟩ := gcmTag_last aad c hc
  have hp : gcmPlace key < 2 ^ 128 := beNat_lt (by rw [aes256_length hk (by simp)])
  have hp' : gcmPlace key' < 2 ^ 128 := beNat_lt (by rw [aes256_length hk' (by simp)])
  have hd : gfVal (gcmPlace key) + gfVal (gcmPlace key') ≠ 0 := fun h =>
    hne (gfVal_inj hp hp' (CharTwo.add_eq_zero.1 h))
  set H := gfVal (gcmPlace key)
  set H' := gfVal (gcmPlace key')
  set E := gfVal (beNat (aes256 key (nonce ++ [0, 0, 0, 1])))
  set E' := gfVal (beNat (aes256 key' (nonce' ++ [0, 0, 0, 1])))
  obtain ⟨v, hv, hval⟩ := gfVal_surj ((R.eval H + E + (R.eval H' + E')) / (H + H') ^ 2)
  have hb : beNat (beBytes 16 v) = v := by
    unfold beBytes
    rw [beNat_reverse, leNat_leBytes]
    exact Nat.mod_eq_of_lt (by rw [show (256 : Nat) ^ 16 = 2 ^ 128 by norm_num]; exact hv)
  have hiff : ∀ y, y.length = 16 → (gcmTag key nonce aad (c ++ y) = gcmTag key' nonce' aad (c ++ y) ↔
      gfVal (beNat y) * (H + H') ^ 2 = R.eval H + E + (R.eval H' + E')) := by
    intro y hy
    have h1 := hR key nonce y hk hn hy
    have h2 := hR key' nonce' y hk' hn' hy
    have h3 : gcmTag key nonce aad (c ++ y) = gcmTag key' nonce' aad (c ++ y) ↔
        gfVal (beNat (gcmTag key nonce aad (c ++ y))) = gfVal (beNat (gcmTag key' nonce' aad (c ++ y))) := by
      constructor
      · intro h; rw [h]
      · intro h
        refine beNat_inj (by rw [gcmTag_length, gcmTag_length]) (gfVal_inj ?_ ?_ h) <;>
          exact beNat_lt (by rw [gcmTag_length])
    rw [h3, h1, h2, CharTwo.add_sq]
    generalize gfVal (beNat y) = z
    have e : z * H ^ 2 + R.eval H + E + (z * H' ^ 2 + R.eval H' + E') =
        z * (H ^ 2 + H' ^ 2) + (R.eval H + E + (R.eval H' + E')) := by ring
    constructor
    · intro h
      refine CharTwo.add_eq_zero.1 ?_
      rw [← e]
      exact CharTwo.add_eq_zero.2 h
    · intro h
      refine CharTwo.add_eq_zero.1 ?_
      rw [e]
      exact CharTwo.add_eq_zero.2 h
  refine ⟨beBytes 16 v, by simp, (hiff _ (by simp)).2 ?_, fun y hy h => ?_⟩
  · rw [hb, hval, div_mul_cancel₀ _ (pow_ne_zero 2 hd)]
  · have h := (hiff y hy).1 h
    refine beNat_inj (by rw [hy]; simp) (gfVal_inj (beNat_lt (by omega)) (beNat_lt (by simp)) ?_)
    rw [hb, hval, eq_div_iff (pow_ne_zero 2 hd), h]

end Verif.Algo
