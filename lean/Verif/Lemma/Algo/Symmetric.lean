import Verif.Model.Algo.Sha256

/-!
# Lengths and inverses of the symmetric algorithms
-/

namespace Verif.Algo

theorem xorBytes_length (a b : Bytes) : (xorBytes a b).length = min a.length b.length := by
  simp [xorBytes]

theorem xorBytes_xorBytes {a b : Bytes} (h : a.length ≤ b.length) : xorBytes (xorBytes a b) b = a := by
  induction a generalizing b with
  | nil => rfl
  | cons x a ih =>
    cases b with
    | nil => simp at h
    | cons y b =>
      simp only [List.length_cons, Nat.add_le_add_iff_right] at h
      show (x ^^^ y ^^^ y) :: xorBytes (xorBytes a b) b = x :: a
      rw [ih h, UInt8.xor_assoc, UInt8.xor_self, UInt8.xor_zero]

@[simp] theorem wordBytes_length (w : UInt32) : (wordBytes w).length = 4 := rfl

@[simp] theorem leBytes_length (n x : Nat) : (leBytes n x).length = n := by
  induction n generalizing x with
  | zero => rfl
  | succ n ih => simp [leBytes, ih]

@[simp] theorem beBytes_length (n x : Nat) : (beBytes n x).length = n := by simp [beBytes]

theorem chaBlock_length (k : Bytes) (c : Nat) (n : Bytes) : (chaBlock k c n).length = 64 := by
  simp [chaBlock]

theorem chaStream_length (k n : Bytes) (i c : Nat) : (chaStream k n i c).length = 64 * i := by
  induction i generalizing c with
  | zero => rfl
  | succ i ih => simp only [chaStream, List.length_append, chaBlock_length, ih]; omega

theorem chacha20_length (k : Bytes) (c : Nat) (n m : Bytes) : (chacha20 k c n m).length = m.length := by
  simp only [chacha20, xorBytes_length, chaStream_length]
  omega

theorem chacha20_chacha20 (k : Bytes) (c : Nat) (n m : Bytes) : chacha20 k c n (chacha20 k c n m) = m := by
  have h := chacha20_length k c n m
  have : chacha20 k c n (chacha20 k c n m) =
      xorBytes (chacha20 k c n m) (chaStream k n ((chacha20 k c n m).length / 64 + 1) c) := rfl
  rw [this, h]
  exact xorBytes_xorBytes (by rw [chaStream_length]; omega)

theorem poly1305_length (k m : Bytes) : (poly1305 k m).length = 16 := leBytes_length ..

theorem chaTag_length (k n a c : Bytes) : (chaTag k n a c).length = 16 := poly1305_length ..

theorem hchacha20_length (k n : Bytes) : (hchacha20 k n).length = 32 := by simp [hchacha20]

/-- A cipher that appends a tag opens exactly what it seals. -/
theorem split_tag {t c tag : Bytes} (ht : tag.length = 16) :
    (¬ c.length < 16 ∧ c.take (c.length - 16) = t ∧ c.drop (c.length - 16) = tag) ↔ c = t ++ tag := by
  constructor
  · rintro ⟨-, rfl, rfl⟩
    exact (List.take_append_drop ..).symm
  · rintro rfl
    rw [List.length_append, ht, Nat.add_sub_cancel]
    exact ⟨by omega, List.take_left, List.drop_left⟩

theorem chaOpen_iff {k n a c m : Bytes} : chaOpen k n a c = some m ↔ chaSeal k n a m = c := by
  have hi := chacha20_chacha20 k 1 n
  constructor
  · intro h
    simp only [chaOpen] at h
    split at h
    · cases h
    · split at h
      · rename_i h1 h2
        obtain rfl := Option.some.inj h
        simp only [chaSeal, hi]
        rw [← h2, List.take_append_drop]
      · cases h
  · rintro rfl
    obtain ⟨h2, h3, h4⟩ := (split_tag (t := chacha20 k 1 n m) (chaTag_length k n a (chacha20 k 1 n m))).2 rfl
    simp only [chaOpen]
    rw [show chaSeal k n a m = chacha20 k 1 n m ++ chaTag k n a (chacha20 k 1 n m) from rfl, if_neg h2, h3, h4,
      if_pos rfl, hi]

theorem xchachaOpen_iff {k n a c m : Bytes} : xchachaOpen k n a c = some m ↔ xchachaSeal k n a m = some c := by
  unfold xchachaOpen xchachaSeal
  split
  · simp
  · rw [chaOpen_iff, Option.some.injEq]

theorem xchachaSeal_length {k n a c m : Bytes} (h : xchachaSeal k n a m = some c) : c.length = m.length + 16 := by
  simp only [xchachaSeal, chaSeal] at h
  split at h
  · cases h
  · obtain rfl := Option.some.inj h
    rw [List.length_append, chacha20_length, chaTag_length]

/-! ## AES -/

theorem shiftRows_length (s : Bytes) : (shiftRows s).length = 16 := rfl

theorem mixColumns_length {n : Nat} {s : Bytes} (h : s.length = 4 * n) : (mixColumns s).length = 4 * n := by
  induction n generalizing s with
  | zero =>
    have : s = [] := List.eq_nil_of_length_eq_zero h
    subst this; rfl
  | succ n ih =>
    match s, h with
    | a :: b :: c :: d :: s, h =>
      simp only [List.length_cons] at h
      simp only [mixColumns, mixColumn, List.length_append, List.length_cons, List.length_nil, ih (s := s) (by omega)]
      omega

theorem nextKey_length {k : Bytes} (r : UInt8) (h : k.length = 32) : (nextKey k r).length = 32 := by
  simp [nextKey, xorBytes_length, h]

theorem roundKeys_length {rs : List UInt8} {k x : Bytes} (h : k.length = 32) (hx : x ∈ roundKeys rs k) :
    x.length = 16 := by
  induction rs generalizing k with
  | nil =>
    simp only [roundKeys, List.mem_singleton] at hx
    subst hx; simp [h]
  | cons r rs ih =>
    simp only [roundKeys, List.mem_cons] at hx
    rcases hx with rfl | rfl | hx
    · simp [h]
    · simp [h]
    · exact ih (nextKey_length r h) hx

theorem aesRounds_length {ks : List Bytes} {s : Bytes} (hk : ∀ k ∈ ks, k.length = 16) (hs : s.length = 16) :
    (aesRounds ks s).length = 16 := by
  induction ks generalizing s with
  | nil => exact hs
  | cons k ks ih =>
    cases ks with
    | nil => simp [aesRounds, xorBytes_length, shiftRows_length, hk k]
    | cons k' ks =>
      refine ih (fun x hx => hk x (List.mem_cons_of_mem _ hx)) ?_
      rw [xorBytes_length, mixColumns_length (n := 4) (shiftRows_length _), hk k (List.mem_cons_self ..)]
      rfl

theorem aes256_length {k b : Bytes} (h : k.length = 32) (hb : b.length = 16) : (aes256 k b).length = 16 := by
  unfold aes256
  split
  · rename_i h1
    simp [roundKeys] at h1
  · rename_i k' ks h1
    have hk : ∀ x ∈ k' :: ks, x.length = 16 := fun x hx => roundKeys_length h (by rw [h1]; exact hx)
    refine aesRounds_length (fun x hx => hk x (List.mem_cons_of_mem _ hx)) ?_
    rw [xorBytes_length, hb, hk _ (List.mem_cons_self ..)]; rfl

theorem ctrStream_length {k n : Bytes} (h : k.length = 32) (hn : n.length = 12) (i c : Nat) :
    (ctrStream k n i c).length = 16 * i := by
  induction i generalizing c with
  | zero => rfl
  | succ i ih =>
    rw [ctrStream, List.length_append, aes256_length h (by simp [hn]), ih]; omega

theorem aesCtr_length {k n : Bytes} (h : k.length = 32) (hn : n.length = 12) (m : Bytes) :
    (aesCtr k n m).length = m.length := by
  simp only [aesCtr, xorBytes_length, ctrStream_length h hn]
  omega

theorem aesCtr_aesCtr {k n : Bytes} (h : k.length = 32) (hn : n.length = 12) (m : Bytes) :
    aesCtr k n (aesCtr k n m) = m := by
  have hl := aesCtr_length h hn m
  have : aesCtr k n (aesCtr k n m) = xorBytes (aesCtr k n m) (ctrStream k n ((aesCtr k n m).length / 16 + 1) 2) := rfl
  rw [this, hl]
  exact xorBytes_xorBytes (by rw [ctrStream_length h hn]; omega)

theorem gcmTag_length (k n a c : Bytes) : (gcmTag k n a c).length = 16 := beBytes_length ..

theorem gcmOpen_iff {k n a c m : Bytes} : gcmOpen k n a c = some m ↔ gcmSeal k n a m = some c := by
  by_cases hk : k.length = 32
  rotate_left
  · simp [gcmOpen, gcmSeal, hk]
  by_cases hn : n.length = 12
  rotate_left
  · simp [gcmOpen, gcmSeal, hn]
  have hi := aesCtr_aesCtr hk hn
  constructor
  · intro h
    simp only [gcmOpen] at h
    split at h
    · cases h
    · split at h
      · rename_i h1 h2
        obtain rfl := Option.some.inj h
        simp only [gcmSeal]
        rw [if_neg (by simp [hk, hn])]
        simp only [hi]
        rw [← h2, List.take_append_drop]
      · cases h
  · intro h
    simp only [gcmSeal] at h
    split at h
    · cases h
    · obtain rfl := Option.some.inj h
      obtain ⟨h2, h3, h4⟩ := (split_tag (gcmTag_length k n a (aesCtr k n m))).2 rfl
      simp only [gcmOpen]
      rw [if_neg (by simp only [hk, hn, ne_eq, not_true_eq_false, false_or]; exact h2), h3, h4, if_pos rfl, hi]

theorem gcmSeal_length {k n a c m : Bytes} (h : gcmSeal k n a m = some c) : c.length = m.length + 16 := by
  simp only [gcmSeal] at h
  split at h
  · cases h
  · rename_i h1
    obtain rfl := Option.some.inj h
    simp only [ne_eq, not_or, Decidable.not_not] at h1
    rw [List.length_append, aesCtr_length h1.1 h1.2, gcmTag_length]

/-! ## SHA-256 -/

theorem sha256_length (m : Bytes) : (sha256 m).length = 32 := by simp [sha256, beWordBytes]

end Verif.Algo
