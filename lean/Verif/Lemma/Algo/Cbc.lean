import Verif.Lemma.Algo.Symmetric
import Verif.Spec.Cbc

/-! # AES is invertible and the standard CBC decryption undoes the encryption -/

namespace Verif.Algo

open Spec

theorem byte_forall {p : UInt8 → Prop} [DecidablePred p] (h : (List.range 256).all (fun n => decide (p (UInt8.ofNat n))) = true)
    (b : UInt8) : p b := by
  have := List.all_eq_true.1 h b.toNat (List.mem_range.2 b.toNat_lt)
  rw [UInt8.ofNat_toNat] at this
  exact of_decide_eq_true this

theorem invSub_subByte (b : UInt8) : invSub (subByte b) = b :=
  byte_forall (p := fun b => invSub (subByte b) = b) (by decide +kernel) b

theorem top_bit (b : UInt8) : b &&& 0x80 = 0 ∨ b &&& 0x80 = 0x80 :=
  byte_forall (p := fun b => b &&& 0x80 = 0 ∨ b &&& 0x80 = 0x80) (by decide +kernel) b

theorem xor_left (a b c : UInt8) : a ^^^ (b ^^^ c) = b ^^^ (a ^^^ c) := by
  rw [← UInt8.xor_assoc, UInt8.xor_comm a b, UInt8.xor_assoc]

theorem xor_cancel (a b : UInt8) : a ^^^ (a ^^^ b) = b := by
  rw [← UInt8.xor_assoc, UInt8.xor_self, UInt8.zero_xor]

theorem xor_and (a b m : UInt8) : (a ^^^ b) &&& m = (a &&& m) ^^^ (b &&& m) := by
  apply UInt8.toBitVec_inj.1
  ext i
  simp [Bool.and_xor_distrib_right]

theorem xtime_xor (a b : UInt8) : xtime (a ^^^ b) = xtime a ^^^ xtime b := by
  have h1 : (a ^^^ b) <<< 1 = (a <<< 1) ^^^ (b <<< 1) := UInt8.shiftLeft_xor ..
  unfold xtime
  rw [h1, xor_and]
  rcases top_bit a with ha | ha <;> rcases top_bit b with hb | hb <;> rw [ha, hb] <;>
    simp [UInt8.xor_assoc, UInt8.xor_comm, xor_left]

instance : Std.Associative (α := UInt8) (· ^^^ ·) := ⟨UInt8.xor_assoc⟩
instance : Std.Commutative (α := UInt8) (· ^^^ ·) := ⟨UInt8.xor_comm⟩

theorem mul9_xor (a b : UInt8) : mul9 (a ^^^ b) = mul9 a ^^^ mul9 b := by
  simp only [mul9, xtime_xor]; ac_rfl

theorem mul11_xor (a b : UInt8) : mul11 (a ^^^ b) = mul11 a ^^^ mul11 b := by
  simp only [mul11, xtime_xor]; ac_rfl

theorem mul13_xor (a b : UInt8) : mul13 (a ^^^ b) = mul13 a ^^^ mul13 b := by
  simp only [mul13, xtime_xor]; ac_rfl

theorem mul14_xor (a b : UInt8) : mul14 (a ^^^ b) = mul14 a ^^^ mul14 b := by
  simp only [mul14, xtime_xor]; ac_rfl

theorem coef_a (a : UInt8) : mul14 (xtime a) ^^^ mul11 a ^^^ mul13 a ^^^ mul9 (xtime a) ^^^ mul9 a = a :=
  byte_forall (p := fun a => mul14 (xtime a) ^^^ mul11 a ^^^ mul13 a ^^^ mul9 (xtime a) ^^^ mul9 a = a)
    (by decide +kernel) a

theorem coef_b (a : UInt8) : mul14 (xtime a) ^^^ mul14 a ^^^ mul11 (xtime a) ^^^ mul13 a ^^^ mul9 a = 0 :=
  byte_forall (p := fun a => mul14 (xtime a) ^^^ mul14 a ^^^ mul11 (xtime a) ^^^ mul13 a ^^^ mul9 a = 0)
    (by decide +kernel) a

theorem coef_c (a : UInt8) : mul14 a ^^^ mul11 (xtime a) ^^^ mul11 a ^^^ mul13 (xtime a) ^^^ mul9 a = 0 :=
  byte_forall (p := fun a => mul14 a ^^^ mul11 (xtime a) ^^^ mul11 a ^^^ mul13 (xtime a) ^^^ mul9 a = 0)
    (by decide +kernel) a

theorem coef_d (a : UInt8) : mul14 a ^^^ mul11 a ^^^ mul13 (xtime a) ^^^ mul13 a ^^^ mul9 (xtime a) = 0 :=
  byte_forall (p := fun a => mul14 a ^^^ mul11 a ^^^ mul13 (xtime a) ^^^ mul13 a ^^^ mul9 (xtime a) = 0)
    (by decide +kernel) a

theorem unmix (a b c d : UInt8) {p q r s : UInt8} (hp : p = xtime a ^^^ (xtime b ^^^ b) ^^^ c ^^^ d)
    (hq : q = a ^^^ xtime b ^^^ (xtime c ^^^ c) ^^^ d) (hr : r = a ^^^ b ^^^ xtime c ^^^ (xtime d ^^^ d))
    (hs : s = (xtime a ^^^ a) ^^^ b ^^^ c ^^^ xtime d) :
    mul14 p ^^^ mul11 q ^^^ mul13 r ^^^ mul9 s = a := by
  subst hp hq hr hs
  simp only [mul9_xor, mul11_xor, mul13_xor, mul14_xor]
  calc _ = (mul14 (xtime a) ^^^ mul11 a ^^^ mul13 a ^^^ mul9 (xtime a) ^^^ mul9 a) ^^^
        ((mul14 (xtime b) ^^^ mul14 b ^^^ mul11 (xtime b) ^^^ mul13 b ^^^ mul9 b) ^^^
        ((mul14 c ^^^ mul11 (xtime c) ^^^ mul11 c ^^^ mul13 (xtime c) ^^^ mul9 c) ^^^
        (mul14 d ^^^ mul11 d ^^^ mul13 (xtime d) ^^^ mul13 d ^^^ mul9 (xtime d)))) := by ac_rfl
    _ = a := by rw [coef_a, coef_b, coef_c, coef_d]; simp

theorem rot (p q r s : UInt8) : s ^^^ p ^^^ q ^^^ r = p ^^^ q ^^^ r ^^^ s := by ac_rfl

theorem invMixColumns_mixColumns {n : Nat} {s : Bytes} (h : s.length = 4 * n) : invMixColumns (mixColumns s) = s := by
  induction n generalizing s with
  | zero =>
    have : s = [] := List.eq_nil_of_length_eq_zero h
    subst this; rfl
  | succ n ih =>
    match s, h with
    | a :: b :: c :: d :: s, h =>
      simp only [List.length_cons] at h
      simp only [mixColumns, mixColumn, List.cons_append, List.nil_append, invMixColumns, ih (s := s) (by omega)]
      congr 1
      · exact unmix a b c d rfl rfl rfl rfl
      congr 1
      · exact (rot ..).trans (unmix b c d a (by ac_rfl) (by ac_rfl) (by ac_rfl) (by ac_rfl))
      congr 1
      · exact (rot ..).trans ((rot ..).trans (unmix c d a b (by ac_rfl) (by ac_rfl) (by ac_rfl) (by ac_rfl)))
      congr 1
      · exact (rot ..).trans ((rot ..).trans ((rot ..).trans
          (unmix d a b c (by ac_rfl) (by ac_rfl) (by ac_rfl) (by ac_rfl))))

theorem sixteen {s : Bytes} (h : s.length = 16) : ∃ a b c d e f g i j k l m n o p q,
    s = [a, b, c, d, e, f, g, i, j, k, l, m, n, o, p, q] := by
  match s, h with
  | [a, b, c, d, e, f, g, i, j, k, l, m, n, o, p, q], _ => exact ⟨a, b, c, d, e, f, g, i, j, k, l, m, n, o, p, q, rfl⟩

theorem invShiftRows_shiftRows {s : Bytes} (h : s.length = 16) : invShiftRows (shiftRows s) = s := by
  obtain ⟨a, b, c, d, e, f, g, i, j, k, l, m, n, o, p, q, rfl⟩ := sixteen h
  rfl

theorem unsub {s : Bytes} (h : s.length = 16) : (invShiftRows (shiftRows (s.map subByte))).map invSub = s := by
  rw [invShiftRows_shiftRows (by simpa using h), List.map_map]
  have : invSub ∘ subByte = id := funext invSub_subByte
  rw [this, List.map_id]

/-- The inverse cipher from its last rounds on. -/
def invFrom (ks : List Bytes) (c : Bytes) : Bytes :=
  match ks with
  | [] => []
  | k :: ks => invRounds ks (xorBytes c k)

theorem invFrom_rounds {ks : List Bytes} (hne : ks ≠ []) (hk : ∀ k ∈ ks, k.length = 16) {s : Bytes} (hs : s.length = 16)
    (r : Bytes) (rest : List Bytes) (hr : ∀ k ∈ r :: rest, k.length = 16) :
    invFrom (ks.reverse ++ (r :: rest)) (aesRounds ks s) = invRounds (r :: rest) (shiftRows (s.map subByte)) := by
  induction ks generalizing s r rest with
  | nil => exact absurd rfl hne
  | cons k ks ih =>
    have hkl := hk k (List.mem_cons_self ..)
    cases ks with
    | nil =>
      show invRounds (r :: rest) (xorBytes (xorBytes (shiftRows (s.map subByte)) k) k) = _
      rw [xorBytes_xorBytes (by rw [shiftRows_length, hkl]; exact Nat.le_refl _)]
    | cons k' ks =>
      rw [List.reverse_cons, List.append_assoc]
      show invFrom ((k' :: ks).reverse ++ (k :: r :: rest))
        (aesRounds (k' :: ks) (xorBytes (mixColumns (shiftRows (s.map subByte))) k)) = _
      have hm : (mixColumns (shiftRows (s.map subByte))).length = 16 := mixColumns_length (n := 4) (shiftRows_length _)
      have hx : (xorBytes (mixColumns (shiftRows (s.map subByte))) k).length = 16 := by
        rw [xorBytes_length, hm, hkl]; rfl
      rw [ih (by intro h; cases h) (fun x hx => hk x (List.mem_cons_of_mem _ hx)) hx k (r :: rest)
        (by intro x hx; exact (List.mem_cons.1 hx).elim (fun e => e ▸ hkl) (hr x))]
      show invRounds (r :: rest) (invMixColumns (xorBytes ((invShiftRows (shiftRows (List.map subByte _))).map invSub) k)) = _
      rw [unsub hx, xorBytes_xorBytes (by rw [hm, hkl]; exact Nat.le_refl _), invMixColumns_mixColumns (n := 4) (shiftRows_length _)]

/-- The inverse cipher undoes the cipher. -/
theorem aes256Inv_aes256 {key b : Bytes} (h : key.length = 32) (hb : b.length = 16) :
    aes256Inv key (aes256 key b) = b := by
  have hkeys : ∀ x ∈ roundKeys [1, 2, 4, 8, 16, 32, 64] key, x.length = 16 := fun x hx => roundKeys_length h hx
  have hshape : ∃ k k' ks, roundKeys [1, 2, 4, 8, 16, 32, 64] key = k :: k' :: ks := ⟨_, _, _, rfl⟩
  obtain ⟨k, k', ks, he⟩ := hshape
  have hinv : ∀ c, aes256Inv key c = invFrom ((k' :: ks).reverse ++ [k]) c := by
    intro c
    unfold aes256Inv invFrom
    rw [he, List.reverse_cons]
    rfl
  have hx : (xorBytes b k).length = 16 := by
    rw [xorBytes_length, hb, hkeys k (by rw [he]; simp)]; rfl
  have henc : aes256 key b = aesRounds (k' :: ks) (xorBytes b k) := by
    unfold aes256; rw [he]
  rw [hinv, henc, invFrom_rounds (by intro h; cases h) (fun x hx => hkeys x (by rw [he]; exact List.mem_cons_of_mem _ hx)) hx
    k [] (by intro x hx; rw [List.mem_singleton.1 hx]; exact hkeys k (by rw [he]; simp))]
  show xorBytes ((invShiftRows (shiftRows (List.map subByte _))).map invSub) k = b
  rw [unsub hx, xorBytes_xorBytes (by rw [hb, hkeys k (by rw [he]; simp)]; exact Nat.le_refl _)]

theorem pkcs7_length (m : Bytes) : (pkcs7 m).length = 16 * (m.length / 16 + 1) := by
  simp only [pkcs7, List.length_append, List.length_replicate]; omega

theorem cbcBlocks_length {key : Bytes} (h : key.length = 32) {n : Nat} {prev m : Bytes} (hp : prev.length = 16)
    (hm : m.length = 16 * n) : (cbcBlocks key n prev m).length = 16 * n := by
  induction n generalizing prev m with
  | zero => rfl
  | succ n ih =>
    have hx : (xorBytes (m.take 16) prev).length = 16 := by
      rw [xorBytes_length, List.length_take, hp, hm]; omega
    have hc := aes256_length h hx
    rw [cbcBlocks, List.length_append, hc, ih hc (by rw [List.length_drop, hm]; omega)]; omega

theorem cbcUnchain_cbcBlocks {key : Bytes} (h : key.length = 32) {n : Nat} {prev m : Bytes} (hp : prev.length = 16)
    (hm : m.length = 16 * n) : cbcUnchain key n prev (cbcBlocks key n prev m) = m := by
  induction n generalizing prev m with
  | zero => exact (List.eq_nil_of_length_eq_zero hm).symm
  | succ n ih =>
    have hx : (xorBytes (m.take 16) prev).length = 16 := by
      rw [xorBytes_length, List.length_take, hp, hm]; omega
    have hc := aes256_length h hx
    simp only [cbcBlocks, cbcUnchain]
    have ht : ∀ r, (aes256 key (xorBytes (m.take 16) prev) ++ r).take 16 = aes256 key (xorBytes (m.take 16) prev) := by
      intro r; rw [← List.take_left (l₁ := aes256 key (xorBytes (m.take 16) prev)) (l₂ := r), hc]; simp [hc]
    have hd : ∀ r, (aes256 key (xorBytes (m.take 16) prev) ++ r).drop 16 = r := by
      intro r; exact List.drop_left' hc
    rw [ht, hd, ih hc (by rw [List.length_drop, hm]; omega),
      aes256Inv_aes256 h hx, xorBytes_xorBytes (by rw [List.length_take, hp, hm]; omega), List.take_append_drop]

theorem unpad_pkcs7 (m : Bytes) : unpad (pkcs7 m) = some m := by
  have hp : 1 ≤ 16 - m.length % 16 ∧ 16 - m.length % 16 ≤ 16 := by omega
  unfold pkcs7
  generalize 16 - m.length % 16 = p at hp
  have hv : (UInt8.ofNat p).toNat = p := by
    rw [UInt8.toNat_ofNat']; omega
  have hl : (m ++ List.replicate p (UInt8.ofNat p)).getLast? = some (UInt8.ofNat p) := by
    rw [List.getLast?_append, List.getLast?_replicate, if_neg (by omega)]; rfl
  unfold unpad
  rw [hl]
  simp only [hv, List.length_append, List.length_replicate, Nat.add_sub_cancel, List.drop_left, List.take_left, hp, and_self, if_true]

theorem cbcSeal_length {key nonce : Bytes} (h : key.length = 32) (hn : nonce.length = 16) (m : Bytes) :
    (cbcSeal key nonce m).length = 16 * (m.length / 16 + 1) :=
  cbcBlocks_length h hn (pkcs7_length m)

theorem cbcOpen_cbcSeal {key nonce : Bytes} (h : key.length = 32) (hn : nonce.length = 16) (m : Bytes) :
    cbcOpen key nonce (cbcSeal key nonce m) = some m := by
  unfold cbcOpen
  rw [cbcSeal_length h hn, if_pos (by omega), show 16 * (m.length / 16 + 1) / 16 = m.length / 16 + 1 by omega]
  unfold cbcSeal
  rw [cbcUnchain_cbcBlocks h hn (pkcs7_length m), unpad_pkcs7]

end Verif.Algo
