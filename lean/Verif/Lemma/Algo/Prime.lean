import Verif.Model.Algo.X25519
import Mathlib.NumberTheory.LucasPrimality
import Mathlib.Tactic.NormNum.Prime

/-!
# Certificates of primality

Lucas' criterion with powers that the kernel computes.
-/

namespace Verif.Algo

/-- A power modulo `m`, by the `n` low bits of the exponent. -/
def powMod (m a e : Nat) : Nat → Nat
  | 0 => 1 % m
  | n + 1 =>
    let r := powMod m a (e / 2) n
    if e % 2 = 1 then r * r % m * a % m else r * r % m

theorem powMod_eq (m a : Nat) {e n : Nat} (h : e < 2 ^ n) : powMod m a e n = a ^ e % m := by
  induction n generalizing e with
  | zero =>
    have : e = 0 := by simpa using h
    subst this; simp [powMod]
  | succ n ih =>
    have h2 : e / 2 < 2 ^ n := by
      rw [Nat.pow_succ] at h; omega
    simp only [powMod, ih h2]
    have hsq : a ^ (e / 2) % m * (a ^ (e / 2) % m) % m = a ^ (2 * (e / 2)) % m := by
      rw [← Nat.mul_mod, ← Nat.pow_add, Nat.two_mul]
    split
    · rename_i ho
      rw [hsq, Nat.mod_mul_mod, ← Nat.pow_succ]
      congr 2; omega
    · rename_i ho
      rw [hsq]
      congr 2; omega

/-- A number is prime if some power argument and the primes of its predecessor certify it. -/
theorem prime_of_cert (p a n : Nat) (fs : List Nat) (hp : 1 < p) (hb : p - 1 < 2 ^ n) (hfs : fs.prod = p - 1)
    (hpr : ∀ q ∈ fs, q.Prime) (h1 : powMod p a (p - 1) n = 1)
    (h2 : (fs.all fun q => powMod p a ((p - 1) / q) n != 1) = true) : p.Prime := by
  have hcast : ∀ e, e < 2 ^ n → (powMod p a e n = 1 ↔ ((a : ZMod p) ^ e = 1)) := by
    intro e he
    rw [powMod_eq p a he]
    have : ((a ^ e : ℕ) : ZMod p) = ((1 : ℕ) : ZMod p) ↔ a ^ e % p = 1 % p := ZMod.natCast_eq_natCast_iff' ..
    rw [Nat.mod_eq_of_lt hp] at this
    rw [← this]; push_cast; rfl
  refine lucas_primality p (a : ZMod p) ((hcast _ hb).1 h1) fun q hq hd h => ?_
  rw [← hfs] at hd
  obtain ⟨r, hr, hqr⟩ := (Prime.dvd_prod_iff hq.prime).1 hd
  obtain rfl := (Nat.prime_dvd_prime_iff_eq hq (hpr r hr)).1 hqr
  have h3 := List.all_eq_true.1 h2 q hr
  rw [bne_iff_ne] at h3
  exact h3 ((hcast _ (lt_of_le_of_lt (Nat.div_le_self ..) hb)).2 h)

theorem prime_2773320623 : Nat.Prime 2773320623 := by
  refine prime_of_cert _ 5 32 [2, 2437, 569003] (by decide +kernel) (by decide +kernel) (by decide +kernel) ?_ (by decide +kernel) (by decide +kernel)
  intro q hq
  simp only [List.mem_cons, List.not_mem_nil, or_false] at hq
  rcases hq with rfl | rfl | rfl
  · norm_num
  · norm_num
  · norm_num

theorem prime_72106336199 : Nat.Prime 72106336199 := by
  refine prime_of_cert _ 7 37 [2, 13, 2773320623] (by decide +kernel) (by decide +kernel) (by decide +kernel) ?_ (by decide +kernel) (by decide +kernel)
  intro q hq
  simp only [List.mem_cons, List.not_mem_nil, or_false] at hq
  rcases hq with rfl | rfl | rfl
  · norm_num
  · norm_num
  · exact prime_2773320623

theorem prime_8574133 : Nat.Prime 8574133 := by
  refine prime_of_cert _ 2 24 [2, 2, 3, 7, 103, 991] (by decide +kernel) (by decide +kernel) (by decide +kernel) ?_ (by decide +kernel) (by decide +kernel)
  intro q hq
  simp only [List.mem_cons, List.not_mem_nil, or_false] at hq
  rcases hq with rfl | rfl | rfl | rfl | rfl | rfl
  · norm_num
  · norm_num
  · norm_num
  · norm_num
  · norm_num
  · norm_num

theorem prime_1919519569386763 : Nat.Prime 1919519569386763 := by
  refine prime_of_cert _ 2 51 [2, 3, 7, 19, 47, 47, 127, 8574133] (by decide +kernel) (by decide +kernel) (by decide +kernel) ?_ (by decide +kernel) (by decide +kernel)
  intro q hq
  simp only [List.mem_cons, List.not_mem_nil, or_false] at hq
  rcases hq with rfl | rfl | rfl | rfl | rfl | rfl | rfl | rfl
  · norm_num
  · norm_num
  · norm_num
  · norm_num
  · norm_num
  · norm_num
  · norm_num
  · exact prime_8574133

theorem prime_75445702479781427272750846543864801 : Nat.Prime 75445702479781427272750846543864801 := by
  refine prime_of_cert _ 7 116 [2, 2, 2, 2, 2, 3, 3, 5, 5, 75707, 72106336199, 1919519569386763] (by decide +kernel) (by decide +kernel) (by decide +kernel) ?_ (by decide +kernel) (by decide +kernel)
  intro q hq
  simp only [List.mem_cons, List.not_mem_nil, or_false] at hq
  rcases hq with rfl | rfl | rfl | rfl | rfl | rfl | rfl | rfl | rfl | rfl | rfl | rfl
  · norm_num
  · norm_num
  · norm_num
  · norm_num
  · norm_num
  · norm_num
  · norm_num
  · norm_num
  · norm_num
  · norm_num
  · exact prime_72106336199
  · exact prime_1919519569386763

theorem prime_31757755568855353 : Nat.Prime 31757755568855353 := by
  refine prime_of_cert _ 10 55 [2, 2, 2, 3, 31, 107, 223, 4153, 430751] (by decide +kernel) (by decide +kernel) (by decide +kernel) ?_ (by decide +kernel) (by decide +kernel)
  intro q hq
  simp only [List.mem_cons, List.not_mem_nil, or_false] at hq
  rcases hq with rfl | rfl | rfl | rfl | rfl | rfl | rfl | rfl | rfl
  · norm_num
  · norm_num
  · norm_num
  · norm_num
  · norm_num
  · norm_num
  · norm_num
  · norm_num
  · norm_num

theorem prime_1923133 : Nat.Prime 1923133 := by
  refine prime_of_cert _ 2 21 [2, 2, 3, 43, 3727] (by decide +kernel) (by decide +kernel) (by decide +kernel) ?_ (by decide +kernel) (by decide +kernel)
  intro q hq
  simp only [List.mem_cons, List.not_mem_nil, or_false] at hq
  rcases hq with rfl | rfl | rfl | rfl | rfl
  · norm_num
  · norm_num
  · norm_num
  · norm_num
  · norm_num

theorem prime_74058212732561358302231226437062788676166966415465897661863160754340907 : Nat.Prime 74058212732561358302231226437062788676166966415465897661863160754340907 := by
  refine prime_of_cert _ 2 236 [2, 3, 353, 57467, 132049, 1923133, 31757755568855353, 75445702479781427272750846543864801] (by decide +kernel) (by decide +kernel) (by decide +kernel) ?_ (by decide +kernel) (by decide +kernel)
  intro q hq
  simp only [List.mem_cons, List.not_mem_nil, or_false] at hq
  rcases hq with rfl | rfl | rfl | rfl | rfl | rfl | rfl | rfl
  · norm_num
  · norm_num
  · norm_num
  · norm_num
  · norm_num
  · exact prime_1923133
  · exact prime_31757755568855353
  · exact prime_75445702479781427272750846543864801

theorem prime_p25519 : Nat.Prime p25519 := by
  refine prime_of_cert _ 2 255 [2, 2, 3, 65147, 74058212732561358302231226437062788676166966415465897661863160754340907] (by decide +kernel) (by decide +kernel) (by decide +kernel) ?_ (by decide +kernel) (by decide +kernel)
  intro q hq
  simp only [List.mem_cons, List.not_mem_nil, or_false] at hq
  rcases hq with rfl | rfl | rfl | rfl | rfl
  · norm_num
  · norm_num
  · norm_num
  · norm_num
  · exact prime_74058212732561358302231226437062788676166966415465897661863160754340907

end Verif.Algo
