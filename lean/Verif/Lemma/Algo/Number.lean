import Verif.Lemma.Algo.Float
import Verif.Lemma.Denotes
import Verif.Spec.Number

/-! # Reading and writing of numbers with at most 15 digits -/

namespace Verif.Algo

open Verif.Spec (Digits Decimal digitsVal NumTok IntTok decimalVal)

/-! ## Digits -/

theorem digits_all {ds : Str} : Digits ds ↔ ds ≠ [] ∧ ds.all isDigit = true := by
  unfold Digits
  rw [List.all_eq_true]
  refine and_congr Iff.rfl (forall_congr' fun c => imp_congr Iff.rfl ?_)
  simp [isDigit]

theorem foldl_digits (ds : Str) (n : Nat) :
    ds.foldl (fun a c => a * 10 + (c.toNat - 48)) n = n * 10 ^ ds.length + natOfDigits ds := by
  unfold natOfDigits
  induction ds generalizing n with
  | nil => simp
  | cons c ds ih =>
    rw [List.foldl_cons, ih, List.foldl_cons, ih (0 * 10 + _), List.length_cons, Nat.pow_succ]
    ring

theorem natOfDigits_append' (a b : Str) : natOfDigits (a ++ b) = natOfDigits a * 10 ^ b.length + natOfDigits b := by
  conv_lhs => unfold natOfDigits
  rw [List.foldl_append, foldl_digits]
  rfl

theorem natOfDigits_lt {ds : Str} (h : ds.all isDigit = true) : natOfDigits ds < 10 ^ ds.length := by
  induction ds with
  | nil => simp [natOfDigits]
  | cons c ds ih =>
    simp only [List.all_cons, Bool.and_eq_true] at h
    have h1 := ih h.2
    have h2 : c.toNat - 48 ≤ 9 := by
      have := h.1
      simp only [isDigit, Bool.and_eq_true, decide_eq_true_eq] at this
      omega
    rw [show c :: ds = [c] ++ ds from rfl, natOfDigits_append', List.length_append, List.length_singleton,
      show natOfDigits [c] = c.toNat - 48 from by simp [natOfDigits], Nat.add_comm 1, Nat.pow_succ]
    have h3 : (c.toNat - 48) * 10 ^ ds.length ≤ 9 * 10 ^ ds.length := Nat.mul_le_mul_right _ h2
    omega

theorem natOfDigits_zeros (n : Nat) : natOfDigits (List.replicate n '0') = 0 := by
  induction n with
  | zero => rfl
  | succ n ih =>
    rw [List.replicate_succ', natOfDigits_append, ih]
    rfl

/-- The text does not go on with a digit. -/
def Stops (s : Str) : Prop := ∀ c r, s = c :: r → isDigit c = false

theorem takeU64_digits {ds rest : Str} (n : Nat) (hd : ds.all isDigit = true) (hr : Stops rest)
    (h : n * 10 ^ ds.length + natOfDigits ds < 2 ^ 64) :
    takeU64 n (ds ++ rest) = (n * 10 ^ ds.length + natOfDigits ds, ds.length, rest) := by
  induction ds generalizing n with
  | nil =>
    cases rest with
    | nil => simp [takeU64, natOfDigits]
    | cons c r => simp [takeU64, hr c r rfl, natOfDigits]
  | cons c ds ih =>
    simp only [List.all_cons, Bool.and_eq_true] at hd
    have e : (n * 10 + (c.toNat - 48)) * 10 ^ ds.length + natOfDigits ds =
        n * 10 ^ (c :: ds).length + natOfDigits (c :: ds) := by
      rw [show c :: ds = [c] ++ ds from rfl, natOfDigits_append', List.length_append, List.length_singleton,
        show natOfDigits [c] = c.toNat - 48 from by simp [natOfDigits], Nat.add_comm 1, Nat.pow_succ]
      ring
    have hlt : n * 10 + (c.toNat - 48) < 2 ^ 64 := by
      refine Nat.lt_of_le_of_lt ?_ (e ▸ h)
      exact Nat.le_trans (Nat.le_mul_of_pos_right _ (by positivity)) (Nat.le_add_right _ _)
    have h1 := ih (n * 10 + (c.toNat - 48)) hd.2 (e ▸ h)
    rw [List.cons_append]
    simp only [takeU64]
    rw [if_pos ⟨hd.1, hlt⟩, h1, e]
    rfl

theorem skipDigits_stops {s : Str} (h : Stops s) : skipDigits s = (0, s) := by
  cases s with
  | nil => rfl
  | cons c r => simp [skipDigits, h c r rfl]

theorem readF64_point {int fd ex : Str} (hi : int.all isDigit = true) (hf : fd.all isDigit = true) (hx : Stops ex)
    (h : natOfDigits (int ++ fd) < 2 ^ 64) :
    readF64 (int ++ ('.' :: (fd ++ ex))) = readExp (natOfDigits (int ++ fd)) (-fd.length) ex := by
  rw [natOfDigits_append'] at h ⊢
  have hs : Stops ('.' :: (fd ++ ex)) := by
    intro c r hc
    obtain ⟨rfl, -⟩ := List.cons.inj hc
    rfl
  have hi' : natOfDigits int < 2 ^ 64 := by
    refine Nat.lt_of_le_of_lt ?_ h
    exact Nat.le_trans (Nat.le_mul_of_pos_right _ (by positivity)) (Nat.le_add_right _ _)
  have h1 := takeU64_digits 0 hi hs (by simpa using hi')
  have h2 := takeU64_digits (natOfDigits int) hf hx h
  unfold readF64
  simp only [h1, Nat.zero_mul, Nat.zero_add, skipDigits_stops hs, h2, skipDigits_stops hx]
  congr 1
  omega

theorem readF64_whole {int ex : Str} (hi : int.all isDigit = true) (hx : Stops ex) (hp : ∀ r, ex ≠ '.' :: r)
    (h : natOfDigits int < 2 ^ 64) : readF64 (int ++ ex) = readExp (natOfDigits int) 0 ex := by
  have h1 := takeU64_digits 0 hi hx (by simpa using h)
  unfold readF64
  simp only [h1, Nat.zero_mul, Nat.zero_add, skipDigits_stops hx]
  rfl

theorem clampI32_small {e : Int} (h1 : -2 ^ 31 ≤ e) (h2 : e < 2 ^ 31) : clampI32 e = e := by
  unfold clampI32
  omega

/-- Reading a number: its digits and its exponent. -/
theorem readF64_decimal {t : Str} {s : Nat} {e : Int} (h : Decimal t false s e) (hs : s < 2 ^ 64)
    (hl : t.length < 2 ^ 30) (h1 : -2 ^ 30 ≤ e) (h2 : e ≤ 2 ^ 30) : readF64 t = f64Parts s e := by
  obtain ⟨int, fd, frac, ex, x, rfl, hi, -, hf, hx, rfl, rfl⟩ := h
  rw [digitsVal_eq] at hs ⊢
  obtain ⟨-, hi⟩ := digits_all.1 hi
  simp only [Bool.false_eq_true, if_false, List.nil_append, List.length_append] at hl ⊢
  have hfd : fd.all isDigit = true := by
    rcases hf with ⟨-, rfl⟩ | ⟨h, -⟩
    · rfl
    · exact (digits_all.1 h).2
  have hfl : fd.length < 2 ^ 30 := by
    rcases hf with ⟨-, rfl⟩ | ⟨-, rfl⟩
    · simp
    · simp only [List.length_cons] at hl; omega
  have hex : Stops ex ∧ (∀ r, ex ≠ '.' :: r) ∧ ∀ n : Nat, readExp n (-fd.length) ex = f64Parts n (x - fd.length) := by
    rcases hx with ⟨rfl, rfl⟩ | ⟨c, d, hc, hd, hx⟩
    · exact ⟨fun _ _ h => (by cases h), fun _ h => (by cases h), fun n => by rw [Int.zero_sub]; rfl⟩
    · obtain ⟨hd0, hd⟩ := digits_all.1 hd
      rw [digitsVal_eq] at hx
      have hb : natOfDigits d < 2 ^ 31 := by
        rcases hx with ⟨-, rfl⟩ | ⟨-, rfl⟩ | ⟨-, rfl⟩ <;> omega
      have hcl : ∀ b : Bool, ∀ n : Nat, (if b = true then x = -(natOfDigits d : Int) else x = natOfDigits d) →
          expDigits n (-fd.length) b d = f64Parts n (x - fd.length) := by
        intro b n hxb
        unfold expDigits
        rw [if_pos hb]
        cases b
        · simp only [Bool.false_eq_true, if_false] at hxb ⊢
          rw [clampI32_small (by omega) (by omega)]
          congr 1
          omega
        · simp only [if_true] at hxb ⊢
          rw [clampI32_small (by omega) (by omega)]
          congr 1
          omega
      have hstop : isDigit c = false ∧ c ≠ '.' := by rcases hc with rfl | rfl <;> decide
      refine ⟨?_, ?_, ?_⟩
      · intro a r h
        rcases hx with ⟨rfl, -⟩ | ⟨rfl, -⟩ | ⟨rfl, -⟩ <;>
        · obtain ⟨rfl, -⟩ := List.cons.inj h
          exact hstop.1
      · intro r h
        rcases hx with ⟨rfl, -⟩ | ⟨rfl, -⟩ | ⟨rfl, -⟩ <;> exact hstop.2 (List.cons.inj h).1
      · intro n
        rcases hx with ⟨rfl, hx⟩ | ⟨rfl, hx⟩ | ⟨rfl, hx⟩
        · cases d with
          | nil => exact absurd rfl hd0
          | cons y d =>
            have hy : y ≠ '+' ∧ y ≠ '-' := by
              simp only [List.all_cons, Bool.and_eq_true] at hd
              constructor <;> (rintro rfl; exact absurd hd.1 (by decide))
            rw [← hcl false n (by simpa using hx)]
            rcases hc with rfl | rfl
            · unfold readExp
              split <;> simp_all
            · unfold readExp
              split <;> simp_all
        · rw [← hcl false n (by simpa using hx)]
          rcases hc with rfl | rfl <;> rfl
        · rw [← hcl true n (by simpa using hx)]
          rcases hc with rfl | rfl <;> rfl
  rcases hf with ⟨rfl, rfl⟩ | ⟨-, rfl⟩
  · rw [List.append_nil] at hs ⊢
    rw [List.nil_append, readF64_whole hi hex.1 hex.2.1 hs, ← hex.2.2]
    rfl
  · rw [List.cons_append, readF64_point hi hfd hex.1 hs, hex.2.2]

/-! ## Exact powers of ten -/

theorem pow10_exact {k : Nat} (hk : k ≤ 22) : ∃ p, pow10 k = some p ∧ p.val = 10 ^ k := by
  unfold pow10
  rw [if_pos (by omega)]
  have h5 : 5 ^ k < 2 ^ 53 := Nat.lt_of_le_of_lt (Nat.pow_le_pow_right (by norm_num) hk) (by norm_num)
  obtain ⟨p, h1, h2⟩ := roundQ_exact (a := 10 ^ k) (b := 1) (M := 5 ^ k) (E := k) (by positivity) (by norm_num)
    (by
      push_cast
      rw [zpow_natCast, div_one, ← mul_pow]
      norm_num) h5 (by omega) (by omega)
  exact ⟨p, h1, by rw [h2]; push_cast; simp⟩

theorem F64.num_eq {x : F64} {n : Nat} (h : x.val = n) : x.num = n * x.den := by
  rw [F64.val_eq, div_eq_iff (by have := x.den_pos; positivity)] at h
  exact_mod_cast h

/-- Digits that are an `f64`, times one of the first powers of ten: one rounding. -/
theorem f64Parts_small {s M z : Nat} {e : Int} (hs : 0 < s) (hM : s = M * 2 ^ z) (hM' : M < 2 ^ 53) (hz : z ≤ 970)
    (h1 : -22 ≤ e) (h2 : e ≤ 22) : f64Parts s e = roundQ (s * 10 ^ e.toNat) (10 ^ (-e).toNat) := by
  obtain ⟨f, hf, hfv⟩ := roundQ_exact (a := s) (b := 1) (M := M) (E := z) hs (by norm_num)
    (by rw [hM]; push_cast; rw [zpow_natCast, div_one]) hM' (by omega) (by omega)
  obtain ⟨p, hp, hpv⟩ := pow10_exact (k := e.natAbs) (by omega)
  have hfn : f.num = s * f.den := F64.num_eq (by rw [hfv]; simp)
  have hpn : p.num = 10 ^ e.natAbs * p.den := F64.num_eq (by rw [hpv]; push_cast; rfl)
  unfold f64Parts
  rw [hf, Option.bind_some]
  unfold fromParts
  rw [hp]
  have d1 := f.den_pos
  have d2 := p.den_pos
  by_cases he : 0 ≤ e
  · simp only [if_pos he]
    unfold F64.mul
    have ht : e.toNat = e.natAbs := by omega
    have ht' : (-e).toNat = 0 := by omega
    rw [hfn, hpn, ht, ht', Nat.pow_zero]
    refine roundQ_congr (by positivity) (by positivity) (by norm_num) ?_
    ring
  · simp only [if_neg he]
    unfold F64.div
    have ht : (-e).toNat = e.natAbs := by omega
    have ht' : e.toNat = 0 := by omega
    rw [hfn, hpn, ht, ht', Nat.pow_zero]
    refine roundQ_congr (by positivity) (by positivity) (by positivity) ?_
    ring

/-! ## Printing -/

theorem natDec_first {n : Nat} (h : 0 < n) : (natDec n).head? ≠ some '0' := by
  rcases (decN_spec (n + 1) n (by omega)).2.2.2 with h0 | h0
  · have h1 := natOfDigits_natDec n
    unfold natDec at h1
    rw [h0] at h1
    exact absurd h1 (by simp [natOfDigits]; omega)
  · exact h0

/-- The text has a point or an exponent. -/
def Marked (t : Str) : Prop := ∃ c ∈ t, isDigit c = false

theorem expText_digits (k : Int) : ∃ d, Digits d ∧
    ('e' :: expText k = 'e' :: d ∧ k = digitsVal d 0 ∨ 'e' :: expText k = 'e' :: '-' :: d ∧ k = -(digitsVal d 0 : Int)) := by
  refine ⟨natDec k.natAbs, digits_all.2 ⟨natDec_ne_nil _, natDec_digits _⟩, ?_⟩
  rw [digitsVal_eq, natOfDigits_natDec]
  unfold expText
  split
  · exact .inr ⟨rfl, by omega⟩
  · exact .inl ⟨rfl, by omega⟩

theorem all_take {ds : Str} (n : Nat) (h : ds.all isDigit = true) : (ds.take n).all isDigit = true := by
  rw [List.all_eq_true] at h ⊢
  exact fun c hc => h c (List.mem_of_mem_take hc)

theorem all_drop {ds : Str} (n : Nat) (h : ds.all isDigit = true) : (ds.drop n).all isDigit = true := by
  rw [List.all_eq_true] at h ⊢
  exact fun c hc => h c (List.mem_of_mem_drop hc)

theorem all_zeros (n : Nat) : (List.replicate n '0').all isDigit = true := by
  rw [List.all_eq_true]
  intro c hc
  rw [(List.mem_replicate.1 hc).2]
  rfl

/-- The printed text is a number with the digits and the exponent it was made of; whole numbers of at most 16 digits are
printed with their zeros and one more. -/
theorem formatDec_decimal {n : Nat} (hn : 0 < n) (k : Int) : Marked (formatDec n k) ∧
    ((0 ≤ k ∧ n * 10 ^ k.toNat < 10 ^ 16 ∧ Decimal (formatDec n k) false (n * 10 ^ (k.toNat + 1)) (-1)) ∨
      Decimal (formatDec n k) false n k) := by
  have hd := natDec_digits n
  have hne := natDec_ne_nil n
  have hnd := natOfDigits_natDec n
  have hhd := natDec_first hn
  have hlen : n < 10 ^ (natDec n).length := by
    have := natOfDigits_lt hd
    rwa [hnd] at this
  unfold formatDec
  simp only
  generalize natDec n = ds at *
  have hl : 0 < ds.length := List.length_pos_iff.2 hne
  have htk : ∀ i, 0 < i → (ds.take i).head? ≠ some '0' := by
    intro i hi
    cases ds with
    | nil => exact absurd rfl hne
    | cons c r =>
      obtain ⟨i, rfl⟩ := Nat.exists_eq_succ_of_ne_zero (by omega : i ≠ 0)
      exact hhd
  by_cases h1 : 0 ≤ k ∧ ds.length + k ≤ 16
  · rw [if_pos h1]
    refine ⟨⟨'.', by simp, rfl⟩, .inl ⟨h1.1, ?_, ?_⟩⟩
    · calc n * 10 ^ k.toNat < 10 ^ ds.length * 10 ^ k.toNat := Nat.mul_lt_mul_of_pos_right hlen (by positivity)
        _ = 10 ^ (ds.length + k.toNat) := (Nat.pow_add _ _ _).symm
        _ ≤ 10 ^ 16 := Nat.pow_le_pow_right (by norm_num) (by omega)
    · refine ⟨ds ++ List.replicate k.toNat '0', ['0'], c!".0", [], 0, by simp, ?_, .inr ?_, .inr ⟨digits_all.2 ⟨by simp, rfl⟩, rfl⟩,
        .inl ⟨rfl, rfl⟩, ?_, by simp⟩
      · rw [digits_all]
        exact ⟨by simp [hne], by rw [List.all_append, hd, all_zeros]; rfl⟩
      · cases ds with
        | nil => exact absurd rfl hne
        | cons c r => exact hhd
      · rw [digitsVal_eq, natOfDigits_append', natOfDigits_append', natOfDigits_zeros, hnd, List.length_replicate]
        simp [natOfDigits, Nat.pow_succ, Nat.mul_assoc]
  rw [if_neg h1]
  by_cases h2 : 0 < ds.length + k ∧ ds.length + k ≤ 16
  · rw [if_pos h2]
    have hk : k < 0 := by omega
    refine ⟨⟨'.', by simp, rfl⟩, .inr ⟨ds.take (ds.length + k).toNat, ds.drop (ds.length + k).toNat,
      '.' :: ds.drop (ds.length + k).toNat, [], 0, by simp, ?_, .inr (htk _ (by omega)), .inr ⟨?_, rfl⟩, .inl ⟨rfl, rfl⟩, ?_, ?_⟩⟩
    · rw [digits_all]
      refine ⟨?_, all_take _ hd⟩
      rw [Ne, List.take_eq_nil_iff]
      rintro (h | h)
      · omega
      · exact hne h
    · rw [digits_all]
      refine ⟨?_, all_drop _ hd⟩
      rw [Ne, List.drop_eq_nil_iff]
      omega
    · rw [List.take_append_drop, digitsVal_eq, hnd]
    · rw [List.length_drop]
      omega
  rw [if_neg h2]
  by_cases h3 : -5 < ds.length + k ∧ ds.length + k ≤ 0
  · rw [if_pos h3]
    refine ⟨⟨'.', by simp, rfl⟩, .inr ⟨['0'], List.replicate (-(ds.length + k)).toNat '0' ++ ds,
      '.' :: (List.replicate (-(ds.length + k)).toNat '0' ++ ds), [], 0, by simp, digits_all.2 ⟨by simp, rfl⟩, .inl rfl,
      .inr ⟨?_, rfl⟩, .inl ⟨rfl, rfl⟩, ?_, ?_⟩⟩
    · rw [digits_all]
      exact ⟨by simp [hne], by rw [List.all_append, hd, all_zeros]; rfl⟩
    · rw [digitsVal_eq, natOfDigits_append', natOfDigits_append', natOfDigits_zeros, hnd]
      simp [natOfDigits]
    · rw [List.length_append, List.length_replicate]
      omega
  rw [if_neg h3]
  obtain ⟨d, hdd, hx⟩ := expText_digits (ds.length + k - 1)
  have hx' : ∃ c d', (c = 'e' ∨ c = 'E') ∧ Digits d' ∧
      ('e' :: expText (ds.length + k - 1) = c :: d' ∧ (ds.length + k - 1 : Int) = digitsVal d' 0 ∨
        'e' :: expText (ds.length + k - 1) = c :: '+' :: d' ∧ (ds.length + k - 1 : Int) = digitsVal d' 0 ∨
        'e' :: expText (ds.length + k - 1) = c :: '-' :: d' ∧ (ds.length + k - 1 : Int) = -(digitsVal d' 0 : Int)) := by
    refine ⟨'e', d, .inl rfl, hdd, ?_⟩
    rcases hx with h | h
    · exact .inl h
    · exact .inr (.inr h)
  by_cases h4 : ds.length = 1
  · rw [if_pos h4]
    refine ⟨⟨'e', by simp, rfl⟩, .inr ⟨ds, [], [], 'e' :: expText (ds.length + k - 1), ds.length + k - 1, by simp,
      digits_all.2 ⟨hne, hd⟩, .inr hhd, .inl ⟨rfl, rfl⟩, .inr hx', ?_, ?_⟩⟩
    · rw [List.append_nil, digitsVal_eq, hnd]
    · rw [h4]; simp
  · rw [if_neg h4]
    refine ⟨⟨'e', by simp, rfl⟩, .inr ⟨ds.take 1, ds.drop 1, '.' :: ds.drop 1, 'e' :: expText (ds.length + k - 1),
      ds.length + k - 1, by simp, ?_, .inr (htk 1 (by omega)), .inr ⟨?_, rfl⟩, .inr hx', ?_, ?_⟩⟩
    · rw [digits_all]
      refine ⟨?_, all_take _ hd⟩
      rw [Ne, List.take_eq_nil_iff]
      simp [hne]
    · rw [digits_all]
      refine ⟨?_, all_drop _ hd⟩
      rw [Ne, List.drop_eq_nil_iff]
      omega
    · rw [List.take_append_drop, digitsVal_eq, hnd]
    · rw [List.length_drop]
      omega

/-! ## The printed text is a number -/

theorem Decimal.numTok {t : Str} {neg : Bool} {s : Nat} {e : Int} (h : Decimal t neg s e) : NumTok t := by
  obtain ⟨int, fd, frac, ex, x, rfl, hi, hi', hf, hx, -, -⟩ := h
  refine ⟨if neg = true then ['-'] else [], int, frac, ex, by simp, by cases neg <;> simp, ?_, ?_, ?_⟩
  · rcases hi' with h | h
    · exact .inl h
    · exact .inr ⟨hi, h⟩
  · rcases hf with ⟨h, -⟩ | ⟨h, h'⟩
    · exact .inl h
    · exact .inr ⟨_, h, h'⟩
  · rcases hx with ⟨h, -⟩ | ⟨c, d, hc, hd, hx⟩
    · exact .inl h
    · right
      rcases hx with ⟨h, -⟩ | ⟨h, -⟩ | ⟨h, -⟩
      · exact ⟨c, [], d, hc, .inl rfl, hd, h⟩
      · exact ⟨c, ['+'], d, hc, .inr (.inl rfl), hd, h⟩
      · exact ⟨c, ['-'], d, hc, .inr (.inr rfl), hd, h⟩

theorem Decimal.neg {t : Str} {s : Nat} {e : Int} (h : Decimal t false s e) : Decimal ('-' :: t) true s e := by
  obtain ⟨int, fd, frac, ex, x, rfl, h⟩ := h
  exact ⟨int, fd, frac, ex, x, rfl, h⟩

theorem Decimal.of_neg {t : Str} {s : Nat} {e : Int} (h : Decimal t true s e) : ∃ t', t = '-' :: t' ∧ Decimal t' false s e := by
  obtain ⟨int, fd, frac, ex, x, rfl, h⟩ := h
  exact ⟨_, rfl, int, fd, frac, ex, x, rfl, h⟩

theorem Decimal.head {t : Str} {s : Nat} {e : Int} (h : Decimal t false s e) : ∀ r, t ≠ '-' :: r := by
  obtain ⟨int, fd, frac, ex, x, rfl, hi, -⟩ := h
  intro r hr
  obtain ⟨hne, hi⟩ := digits_all.1 hi
  cases int with
  | nil => exact hne rfl
  | cons c i =>
    obtain ⟨rfl, -⟩ := List.cons.inj hr
    exact absurd hi (by simp [isDigit])

/-- The printed text of every `f64` is a number that is not an integer. -/
theorem shortest_pos {x : F64} (hm : 0 < x.m) {f : Nat} {k k' : Int} {n : Nat} (h : shortest x f k = some (n, k')) : 0 < n := by
  induction f generalizing k with
  | zero => cases h
  | succ f ih =>
    unfold shortest at h
    split at h
    · next d hd =>
      obtain ⟨rfl, rfl⟩ := Prod.mk.inj (Option.some.inj h)
      have h1 := (pickDec_inI hm hd).1
      have h2 : (0 : ℚ) < 2 ^ (x.e - 2) := by positivity
      have h3 : (1 : ℚ) ≤ x.m := by exact_mod_cast hm
      have h4 : (0 : ℚ) < (4 * (x.m : ℚ) - (if x.m = 2 ^ 52 ∧ x.e ≠ -1074 then 1 else 2)) * 2 ^ (x.e - 2) :=
        mul_pos (by split <;> linarith) h2
      rcases Nat.eq_zero_or_pos d with rfl | h0
      · rw [Nat.cast_zero, zero_mul] at h1
        linarith
      · exact h0
    · exact ih h

theorem formatF64_decimal {x : F64} {t : Str} (h : formatF64 x = some t) : Marked t ∧ ∃ s e, Decimal t false s e := by
  unfold formatF64 at h
  split at h
  · obtain rfl := Option.some.inj h
    exact ⟨⟨'.', by simp, rfl⟩, 0, -1, ['0'], ['0'], ['.', '0'], [], 0, rfl, digits_all.2 ⟨by simp, rfl⟩, .inl rfl,
      .inr ⟨digits_all.2 ⟨by simp, rfl⟩, rfl⟩, .inl ⟨rfl, rfl⟩, rfl, rfl⟩
  · next hm =>
    obtain ⟨⟨n, k⟩, h1, rfl⟩ := Option.map_eq_some_iff.1 h
    obtain ⟨h2, h3⟩ := formatDec_decimal (shortest_pos (by omega) h1) k
    refine ⟨h2, ?_⟩
    rcases h3 with ⟨-, -, h3⟩ | h3
    · exact ⟨_, _, h3⟩
    · exact ⟨_, _, h3⟩

theorem f64Text_decimal {t u : Str} (h : f64Text t = some u) :
    (∃ neg s e, Decimal u neg s e) ∧ ¬ IntTok u := by
  have key : ∀ {x : Option F64} {u : Str}, x.bind formatF64 = some u → (∃ s e, Decimal u false s e) ∧ Marked u := by
    intro x u h
    obtain ⟨y, -, h⟩ := Option.bind_eq_some_iff.1 h
    exact ⟨(formatF64_decimal h).2, (formatF64_decimal h).1⟩
  have hmark : ∀ {u : Str}, Marked u → ¬ Spec.AllDigits u := by
    rintro u ⟨c, hc, hd⟩ h
    have := h c hc
    rw [isDigit_iff.2 this] at hd
    cases hd
  unfold f64Text at h
  split at h
  · obtain ⟨v, hv, rfl⟩ := Option.map_eq_some_iff.1 h
    obtain ⟨⟨s, e, h1⟩, h2⟩ := key hv
    refine ⟨⟨true, s, e, Decimal.neg h1⟩, ?_⟩
    rintro (⟨-, h3, -⟩ | ⟨d, h3, h4, -⟩)
    · have := h3 '-' (by simp)
      revert this
      decide
    · obtain ⟨-, rfl⟩ := List.cons.inj h3
      exact hmark h2 h4
  · obtain ⟨⟨s, e, h1⟩, h2⟩ := key h
    refine ⟨⟨false, s, e, h1⟩, ?_⟩
    rintro (⟨-, h3, -⟩ | ⟨d, h3, -⟩)
    · exact hmark h2 h3
    · exact Decimal.head h1 _ h3

/-! ## Numbers that are kept -/

theorem trailing {s : Nat} (hs : 0 < s) : ∃ n j, s = n * 10 ^ j ∧ n % 10 ≠ 0 := by
  induction s using Nat.strongRecOn with
  | _ s ih =>
    by_cases h : s % 10 = 0
    · obtain ⟨n, j, h1, h2⟩ := ih (s / 10) (by omega) (by omega)
      refine ⟨n, j + 1, ?_, h2⟩
      rw [Nat.pow_succ, ← Nat.mul_assoc, ← h1]
      omega
    · exact ⟨s, 0, by simp, h⟩

theorem rat_parts (s : Nat) (e : Int) : ((s * 10 ^ e.toNat : Nat) : ℚ) / ((10 ^ (-e).toNat : Nat) : ℚ) = s * 10 ^ e := by
  rw [zpow_toNat 10 e]
  push_cast
  ring

theorem roundQ_parts_congr {s s' : Nat} {e e' : Int} (hs : 0 < s) (h : (s : ℚ) * 10 ^ e = s' * 10 ^ e') :
    roundQ (s * 10 ^ e.toNat) (10 ^ (-e).toNat) = roundQ (s' * 10 ^ e'.toNat) (10 ^ (-e').toNat) := by
  refine roundQ_congr (by positivity) (by positivity) (by positivity) ?_
  have h1 := rat_parts s e
  have h2 := rat_parts s' e'
  rw [h, ← h2, div_eq_div_iff (by positivity) (by positivity)] at h1
  exact_mod_cast h1

/-- A number with at most 15 digits that is not too large or small: what it is rounded to, and what is printed for it. -/
theorem format_small {n : Nat} {k : Int} (hn : 0 < n) (hn' : n < 10 ^ 15) (h10 : n % 10 ≠ 0) (h1 : -22 ≤ k) (h2 : k ≤ 22) :
    ∃ x, roundQ (n * 10 ^ k.toNat) (10 ^ (-k).toNat) = some x ∧ formatF64 x = some (formatDec n k) := by
  have hnq : (n : ℚ) < 10 ^ (15 : Int) := by exact_mod_cast hn'
  have hn1 : (1 : ℚ) ≤ n := by exact_mod_cast hn
  have hk : (0 : ℚ) < 10 ^ k := by positivity
  have hlt : (n : ℚ) * 10 ^ k < 2 ^ (1023 : Int) := by
    calc (n : ℚ) * 10 ^ k < 10 ^ (15 : Int) * 10 ^ k := mul_lt_mul_of_pos_right hnq hk
      _ ≤ 10 ^ (15 : Int) * 10 ^ (22 : Int) := mul_le_mul_of_nonneg_left (zpow_le_zpow_right₀ (by norm_num) h2) (by positivity)
      _ < 2 ^ (200 : Int) := by norm_num
      _ ≤ 2 ^ (1023 : Int) := zpow_le_zpow_right₀ (by norm_num) (by norm_num)
  obtain ⟨x, hx⟩ := roundQ_some (a := n * 10 ^ k.toNat) (b := 10 ^ (-k).toNat) (by positivity) (by positivity)
    (by rw [rat_parts]; exact hlt)
  have hr := roundQ_spec (by positivity) (by positivity) hx
  rw [rat_parts] at hr
  have hbig : 2 ^ 52 ≤ x.m := by
    rcases hr.big with h | h
    · exfalso
      have hs : (x.m : ℚ) < 2 ^ (53 : Int) := by exact_mod_cast hr.small
      have h3 := hr.hi
      rw [h] at h3
      have h4 : (10 : ℚ) ^ (-22 : Int) ≤ n * 10 ^ k := by
        calc (10 : ℚ) ^ (-22 : Int) ≤ 10 ^ k := zpow_le_zpow_right₀ (by norm_num) h1
          _ ≤ n * 10 ^ k := le_mul_of_one_le_left hk.le hn1
      have h5 : (4 * (x.m : ℚ) + 2) * 2 ^ ((-1074 : Int) - 2) ≤ (4 * 2 ^ (53 : Int) + 2) * 2 ^ ((-1074 : Int) - 2) :=
        mul_le_mul_of_nonneg_right (by linarith) (by positivity)
      have h6 : (4 * 2 ^ (53 : Int) + 2) * (2 : ℚ) ^ ((-1074 : Int) - 2) < 10 ^ (-22 : Int) := by
        calc (4 * 2 ^ (53 : Int) + 2) * (2 : ℚ) ^ ((-1074 : Int) - 2) ≤ (4 * 2 ^ (53 : Int) + 2) * 2 ^ (-150 : Int) :=
              mul_le_mul_of_nonneg_left (zpow_le_zpow_right₀ (by norm_num) (by norm_num)) (by positivity)
          _ < 10 ^ (-22 : Int) := by norm_num
      linarith
    · exact h
  refine ⟨x, hx, ?_⟩
  unfold formatF64
  rw [if_neg (by omega)]
  have h308 := shortest_few hr hbig hn' h10 640 (308 - k).toNat (by omega)
  rw [show k + ((308 - k).toNat : Int) = 308 from by omega] at h308
  rw [h308]
  rfl

theorem natOfDigits_ge {c : Char} {r : Str} (h : isDigit c = true) (h0 : c ≠ '0') : 10 ^ r.length ≤ natOfDigits (c :: r) := by
  rw [show c :: r = [c] ++ r from rfl, natOfDigits_append', show natOfDigits [c] = c.toNat - 48 from by simp [natOfDigits]]
  have h1 : 1 ≤ c.toNat - 48 := by
    have h2 : c.toNat ≠ 48 := fun h2 => h0 (Char.toNat_inj.1 h2)
    simp only [isDigit, Bool.and_eq_true, decide_eq_true_eq] at h
    omega
  exact Nat.le_trans (by simpa using Nat.mul_le_mul_right (10 ^ r.length) h1) (Nat.le_add_right _ _)

theorem natDec_length {n a : Nat} (h : n < 10 ^ a) (ha : 0 < a) : (natDec n).length ≤ a := by
  rcases Nat.eq_zero_or_pos n with rfl | hn
  · exact ha
  have h1 := natDec_first hn
  have h2 := natDec_digits n
  have h3 := natOfDigits_natDec n
  cases hd : natDec n with
  | nil => simp
  | cons c r =>
    rw [hd] at h1 h2 h3
    simp only [List.all_cons, Bool.and_eq_true] at h2
    have h4 := natOfDigits_ge (r := r) h2.1 (fun h => h1 (by rw [h]; rfl))
    rw [h3] at h4
    exact (Nat.pow_lt_pow_iff_right (a := 10) (by norm_num)).1 (Nat.lt_of_le_of_lt h4 h)

theorem formatDec_length {n : Nat} {k : Int} (hn : n < 10 ^ 15) (h1 : -22 ≤ k) (h2 : k ≤ 22) :
    (formatDec n k).length < 2 ^ 30 := by
  have hl := natDec_length hn (by norm_num)
  have he : (expText ((natDec n).length + k - 1)).length ≤ 3 := by
    have := natDec_length (n := ((natDec n).length + k - 1 : Int).natAbs) (a := 2) (by omega) (by norm_num)
    unfold expText
    split
    · simpa using this
    · omega
  unfold formatDec
  simp only
  split
  · simp only [List.length_append, List.length_replicate, List.length_cons, List.length_nil]
    omega
  · split
    · simp only [List.length_append, List.length_take, List.length_drop, List.length_cons]
      omega
    · split
      · simp only [List.length_append, List.length_replicate, List.length_cons, List.length_nil]
        omega
      · split
        · simp only [List.length_append, List.length_cons]
          omega
        · simp only [List.length_append, List.length_take, List.length_drop, List.length_cons]
          omega

theorem read_zero {t : Str} {e : Int} (h : Decimal t false 0 e) (hl : t.length < 2 ^ 30) (h1 : -22 ≤ e) (h2 : e ≤ 22) :
    (readF64 t).bind formatF64 = some c!"0.0" := by
  rw [readF64_decimal h (by norm_num) hl (by omega) (by omega)]
  have key : ∀ b, 0 < b → ∃ x, roundQ 0 b = some x ∧ x.m = 0 := by
    intro b hb
    have hn : nearest (0 * 2 ^ (-lastPlace 0 b).toNat) (b * 2 ^ (lastPlace 0 b).toNat) = 0 := by
      unfold nearest
      rw [Nat.zero_mul, Nat.zero_mod, Nat.zero_div, if_pos (by positivity)]
    have hl : lastPlace 0 b ≤ 971 := by
      unfold lastPlace
      have : (0 : Nat).log2 = 0 := by decide
      rw [this]
      simp only
      split <;> omega
    unfold roundQ
    simp only [hn]
    rw [if_neg (by norm_num : ¬ 0 = 2 ^ 53), if_pos hl]
    exact ⟨_, rfl, rfl⟩
  obtain ⟨f, hf, hfm⟩ := key 1 (by norm_num)
  obtain ⟨p, hp, hpv⟩ := pow10_exact (k := e.natAbs) (by omega)
  have hpn : p.num = 10 ^ e.natAbs * p.den := F64.num_eq (by rw [hpv]; push_cast; rfl)
  have hpp : 0 < p.num := by rw [hpn]; have := p.den_pos; positivity
  have hfn : f.num = 0 := by unfold F64.num; rw [hfm, Nat.zero_mul]
  have d1 := f.den_pos
  have d2 := p.den_pos
  have hz : ∃ x, f64Parts 0 e = some x ∧ x.m = 0 := by
    unfold f64Parts
    rw [hf, Option.bind_some]
    unfold fromParts
    rw [hp]
    simp only
    split
    · unfold F64.mul
      rw [hfn, Nat.zero_mul]
      exact key _ (by positivity)
    · unfold F64.div
      rw [hfn, Nat.zero_mul]
      exact key _ (by positivity)
  obtain ⟨x, hx, hxm⟩ := hz
  rw [hx, Option.bind_some]
  unfold formatF64
  rw [if_pos hxm]

/-- A number of at most 15 digits, as it is printed after it was read. -/
theorem read_small {t : Str} {s : Nat} {e : Int} (h : Decimal t false s e) (hl : t.length < 2 ^ 30) (hs : s < 10 ^ 15)
    (h1 : -22 ≤ e) (h2 : e ≤ 7) (hv : (s : ℚ) * 10 ^ e < 10 ^ 15 ∨ 10 ^ 16 ≤ (s : ℚ) * 10 ^ e) :
    ∃ u s' e', (readF64 t).bind formatF64 = some u ∧ Decimal u false s' e' ∧ (s' : ℚ) * 10 ^ e' = s * 10 ^ e ∧
      (readF64 u).bind formatF64 = some u := by
  rcases Nat.eq_zero_or_pos s with rfl | hs0
  · have hz : Decimal c!"0.0" false 0 (-1) := ⟨['0'], ['0'], ['.', '0'], [], 0, rfl, digits_all.2 ⟨by simp, rfl⟩, .inl rfl,
      .inr ⟨digits_all.2 ⟨by simp, rfl⟩, rfl⟩, .inl ⟨rfl, rfl⟩, rfl, rfl⟩
    exact ⟨c!"0.0", 0, -1, read_zero h hl h1 (by omega), hz, by simp,
      read_zero hz (by norm_num) (by norm_num) (by norm_num)⟩
  obtain ⟨n, j, hnj, h10⟩ := trailing hs0
  have hn0 : 0 < n := Nat.pos_of_ne_zero (by rintro rfl; simp at h10)
  have hj : j < 15 := by
    have h3 : 10 ^ j ≤ s := by rw [hnj]; exact Nat.le_mul_of_pos_left _ hn0
    exact (Nat.pow_lt_pow_iff_right (a := 10) (by norm_num)).1 (Nat.lt_of_le_of_lt h3 hs)
  have hns : n ≤ s := by rw [hnj]; exact Nat.le_mul_of_pos_right _ (by positivity)
  have hval : (n : ℚ) * 10 ^ (e + j) = s * 10 ^ e := by
    rw [hnj, zpow_add₀ (by norm_num), zpow_natCast]
    push_cast
    ring
  have hk1 : -22 ≤ e + (j : Int) := by omega
  have hk2 : e + (j : Int) ≤ 22 := by omega
  generalize e + (j : Int) = k at hval hk1 hk2
  obtain ⟨x, hx, hf⟩ := format_small hn0 (by omega) h10 hk1 hk2
  have hread : ∀ {t' : Str} {s' M z : Nat} {e' : Int}, Decimal t' false s' e' → t'.length < 2 ^ 30 → s' = M * 2 ^ z →
      M < 2 ^ 53 → z ≤ 970 → s' < 2 ^ 64 → -22 ≤ e' → e' ≤ 22 → (s' : ℚ) * 10 ^ e' = s * 10 ^ e →
      (readF64 t').bind formatF64 = some (formatDec n k) := by
    intro t' s' M z e' hd hl' hM hM' hz hs' he1 he2 hv'
    have hp : 0 < s' := by
      rcases Nat.eq_zero_or_pos s' with rfl | h0
      · exfalso
        rw [Nat.cast_zero, zero_mul] at hv'
        have : (0 : ℚ) < s * 10 ^ e := mul_pos (by exact_mod_cast hs0) (by positivity)
        linarith
      · exact h0
    rw [readF64_decimal hd hs' hl' (by omega) (by omega), f64Parts_small hp hM hM' hz he1 he2,
      roundQ_parts_congr hp (hv'.trans hval.symm), hx, Option.bind_some, hf]
  have hfirst := hread h hl (M := s) (z := 0) (by simp) (by omega) (by omega) (by omega) h1 (by omega) rfl
  have hlen := formatDec_length (n := n) (k := k) (by omega) hk1 hk2
  rcases (formatDec_decimal hn0 k).2 with ⟨h0, hlt, hd⟩ | hd
  · have hkq : (10 : ℚ) ^ k = 10 ^ k.toNat := by
      rw [← zpow_natCast, Int.toNat_of_nonneg h0]
    have hsmall : n * 10 ^ k.toNat < 10 ^ 15 := by
      rw [← hval, hkq] at hv
      rcases hv with hv | hv
      · exact_mod_cast hv
      · have : 10 ^ 16 ≤ n * 10 ^ k.toNat := by exact_mod_cast hv
        omega
    have hp : n * 10 ^ (k.toNat + 1) = n * 5 ^ (k.toNat + 1) * 2 ^ (k.toNat + 1) := by
      rw [Nat.mul_assoc, ← Nat.mul_pow]
    have hlt' : n * 10 ^ (k.toNat + 1) < 10 ^ 16 := by
      rw [Nat.pow_succ, ← Nat.mul_assoc]
      omega
    have hM : n * 5 ^ (k.toNat + 1) < 2 ^ 53 := by
      have h3 : n * 5 ^ (k.toNat + 1) * 2 ≤ n * 5 ^ (k.toNat + 1) * 2 ^ (k.toNat + 1) :=
        Nat.mul_le_mul_left _ (by rw [Nat.pow_succ]; exact Nat.le_mul_of_pos_left _ (by positivity))
      omega
    have hv' : ((n * 10 ^ (k.toNat + 1) : Nat) : ℚ) * 10 ^ (-1 : Int) = s * 10 ^ e := by
      rw [← hval, hkq]
      push_cast
      rw [pow_succ, zpow_neg_one]
      field_simp
    exact ⟨_, _, _, hfirst, hd, hv', hread hd hlen hp hM (by omega) (by omega) (by norm_num) (by norm_num) hv'⟩
  · exact ⟨_, _, _, hfirst, hd, hval, hread hd hlen (M := n) (z := 0) (by simp) (by omega) (by omega) (by omega) hk1 hk2 hval⟩

theorem f64Text_pos {t : Str} {s : Nat} {e : Int} (h : Decimal t false s e) : f64Text t = (readF64 t).bind formatF64 := by
  have := Decimal.head h
  unfold f64Text
  split
  · exact absurd rfl (this _)
  · rfl

/-- A number of at most 15 digits that is read and printed keeps its value, and is printed as the same text the next
time. -/
theorem f64Text_small {t : Str} {neg : Bool} {s : Nat} {e : Int} (h : Decimal t neg s e) (hl : t.length < 2 ^ 30)
    (hs : s < 10 ^ 15) (h1 : -22 ≤ e) (h2 : e ≤ 7) (hv : (s : ℚ) * 10 ^ e < 10 ^ 15 ∨ 10 ^ 16 ≤ (s : ℚ) * 10 ^ e) :
    ∃ u s' e', f64Text t = some u ∧ Decimal u neg s' e' ∧ decimalVal neg s' e' = decimalVal neg s e ∧ f64Text u = some u := by
  cases neg with
  | false =>
    obtain ⟨u, s', e', h3, h4, h5, h6⟩ := read_small h hl hs h1 h2 hv
    exact ⟨u, s', e', by rw [f64Text_pos h, h3], h4, by unfold decimalVal; rw [h5], by rw [f64Text_pos h4, h6]⟩
  | true =>
    obtain ⟨t, rfl, hp⟩ := Decimal.of_neg h
    obtain ⟨u, s', e', h3, h4, h5, h6⟩ := read_small hp (Nat.lt_of_succ_lt hl) hs h1 h2 hv
    refine ⟨'-' :: u, s', e', ?_, Decimal.neg h4, by unfold decimalVal; rw [h5], ?_⟩
    · simp only [f64Text, h3, Option.map_some]
    · simp only [f64Text, h6, Option.map_some]

/-! ## A number has one value -/

/-- The exponent. -/
def exOf : Str → Int
  | 'e' :: '-' :: d => -(natOfDigits d : Int)
  | 'E' :: '-' :: d => -(natOfDigits d : Int)
  | 'e' :: '+' :: d => natOfDigits d
  | 'E' :: '+' :: d => natOfDigits d
  | 'e' :: d => natOfDigits d
  | 'E' :: d => natOfDigits d
  | _ => 0

/-- Digits and exponent of a number without sign. -/
def posOf (t : Str) : Nat × Int :=
  match t.dropWhile isDigit with
  | '.' :: r => (natOfDigits (t.takeWhile isDigit ++ r.takeWhile isDigit),
      exOf (r.dropWhile isDigit) - (r.takeWhile isDigit).length)
  | r => (natOfDigits (t.takeWhile isDigit), exOf r)

/-- Sign, digits and exponent of a number. -/
def decOf : Str → Bool × Nat × Int
  | '-' :: t => (true, posOf t)
  | t => (false, posOf t)

theorem span_digits {ds rest : Str} (hd : ds.all isDigit = true) (hr : Stops rest) :
    (ds ++ rest).takeWhile isDigit = ds ∧ (ds ++ rest).dropWhile isDigit = rest := by
  induction ds with
  | nil =>
    cases rest with
    | nil => exact ⟨rfl, rfl⟩
    | cons c r => simp [hr c r rfl]
  | cons c ds ih =>
    simp only [List.all_cons, Bool.and_eq_true] at hd
    simp [hd.1, ih hd.2]

theorem decimal_posOf {t : Str} {s : Nat} {e : Int} (h : Decimal t false s e) : posOf t = (s, e) := by
  obtain ⟨int, fd, frac, ex, x, rfl, hi, -, hf, hx, rfl, rfl⟩ := h
  rw [digitsVal_eq]
  obtain ⟨-, hi⟩ := digits_all.1 hi
  simp only [Bool.false_eq_true, if_false, List.nil_append]
  have hex : Stops ex ∧ (∀ r, ex ≠ '.' :: r) ∧ exOf ex = x := by
    rcases hx with ⟨rfl, rfl⟩ | ⟨c, d, hc, hd, hx⟩
    · exact ⟨fun _ _ h => (by cases h), fun _ h => (by cases h), rfl⟩
    · obtain ⟨hd0, hd⟩ := digits_all.1 hd
      rw [digitsVal_eq] at hx
      have hstop : isDigit c = false ∧ c ≠ '.' := by rcases hc with rfl | rfl <;> decide
      refine ⟨?_, ?_, ?_⟩
      · intro a r h
        rcases hx with ⟨rfl, -⟩ | ⟨rfl, -⟩ | ⟨rfl, -⟩ <;>
        · obtain ⟨rfl, -⟩ := List.cons.inj h
          exact hstop.1
      · intro r h
        rcases hx with ⟨rfl, -⟩ | ⟨rfl, -⟩ | ⟨rfl, -⟩ <;> exact hstop.2 (List.cons.inj h).1
      · rcases hx with ⟨rfl, rfl⟩ | ⟨rfl, rfl⟩ | ⟨rfl, rfl⟩
        · cases d with
          | nil => exact absurd rfl hd0
          | cons y d =>
            have hy : y ≠ '+' ∧ y ≠ '-' := by
              simp only [List.all_cons, Bool.and_eq_true] at hd
              constructor <;> (rintro rfl; exact absurd hd.1 (by decide))
            rcases hc with rfl | rfl
            · unfold exOf
              split <;> simp_all
            · unfold exOf
              split <;> simp_all
        · rcases hc with rfl | rfl <;> rfl
        · rcases hc with rfl | rfl <;> rfl
  rcases hf with ⟨rfl, rfl⟩ | ⟨hfd, rfl⟩
  · obtain ⟨h1, h2⟩ := span_digits hi hex.1
    rw [List.append_nil, List.nil_append]
    unfold posOf
    rw [h1, h2]
    split
    · next r => exact absurd rfl (hex.2.1 _)
    · rw [hex.2.2]
      simp
  · have hs : Stops ('.' :: (fd ++ ex)) := by
      intro c r hc
      obtain ⟨rfl, -⟩ := List.cons.inj hc
      rfl
    obtain ⟨h1, h2⟩ := span_digits hi hs
    obtain ⟨h3, h4⟩ := span_digits (digits_all.1 hfd).2 hex.1
    unfold posOf
    rw [List.cons_append, h1, h2]
    simp only [h3, h4, hex.2.2]

theorem decimal_decOf {t : Str} {neg : Bool} {s : Nat} {e : Int} (h : Decimal t neg s e) : decOf t = (neg, s, e) := by
  cases neg with
  | true =>
    obtain ⟨t, rfl, hp⟩ := Decimal.of_neg h
    simp only [decOf, decimal_posOf hp]
  | false =>
    have := Decimal.head h
    unfold decOf
    split
    · exact absurd rfl (this _)
    · rw [decimal_posOf h]

/-! ## Documents -/

theorem normNum_short {t : Str} (h : Spec.ShortNum t) : ∃ u, normNum f64Text t = some u ∧ normNum f64Text u = some u ∧
    (IntTok t ∧ u = t ∨ ¬ IntTok t ∧ f64Text t = some u ∧ Spec.SameValue t u) := by
  by_cases hi : IntTok t
  · have := normNum_iff.2 (.inl ⟨hi, rfl⟩ : Spec.NumVal f64Text t t)
    exact ⟨t, this, this, .inl ⟨hi, rfl⟩⟩
  · rcases h with h | ⟨neg, s, e, hd, hl, hs, h1, h2, hv⟩
    · exact absurd h hi
    · obtain ⟨u, s', e', h3, h4, h5, h6⟩ := f64Text_small hd hl hs h1 h2 hv
      exact ⟨u, normNum_iff.2 (.inr ⟨hi, h3⟩), normNum_iff.2 (.inr ⟨(f64Text_decimal h3).2, h6⟩),
        .inr ⟨hi, h3, neg, s, e, neg, s', e', hd, h4, h5.symm⟩⟩

open Classical in
/-- The printing of numbers, cut down to those that keep their value. -/
noncomputable def keeping (t : Str) : Option Str :=
  match f64Text t with
  | some u => if Spec.SameValue t u then some u else none
  | none => none

theorem keeping_same {t u : Str} (h : keeping t = some u) : Spec.SameValue t u := by
  unfold keeping at h
  split at h
  · split at h
    · obtain rfl := Option.some.inj h
      assumption
    · cases h
  · cases h

theorem normNum_keeping {t : Str} (h : Spec.ShortNum t) : normNum keeping t = normNum f64Text t := by
  obtain ⟨u, h1, -, h2⟩ := normNum_short h
  rw [h1, normNum_iff]
  rcases h2 with ⟨h2, h3⟩ | ⟨h2, h3, h4⟩
  · exact .inl ⟨h2, h3⟩
  · refine .inr ⟨h2, ?_⟩
    unfold keeping
    rw [h3]
    simp only
    rw [if_pos h4]

theorem short_all : (∀ j, Spec.ShortNums j → ∃ v, normJ f64Text j = some v ∧ normJ keeping j = some v ∧ NumsStable f64Text v) ∧
    (∀ l : List Json, (∀ a ∈ l, Spec.ShortNums a) →
      ∃ v, normL f64Text l = some v ∧ normL keeping l = some v ∧ NumsStableL f64Text v) ∧
    (∀ es : List (Str × Json), (∀ k v, (k, v) ∈ es → Spec.ShortNums v) →
      ∃ v, normM f64Text es = some v ∧ normM keeping es = some v ∧ NumsStableM f64Text v) := by
  refine Json.induct ?_ ?_ ?_ ?_ ?_ ?_ ?_ ?_ ?_ ?_
  · intro _; exact ⟨_, rfl, rfl, trivial⟩
  · intro _ _; exact ⟨_, rfl, rfl, trivial⟩
  · intro t h
    cases h with
    | num h =>
      obtain ⟨u, h1, h2, -⟩ := normNum_short h
      exact ⟨.num u, by simp [normJ, h1], by simp [normJ, normNum_keeping h, h1], h2⟩
  · intro _ _; exact ⟨_, rfl, rfl, trivial⟩
  · intro l ih h
    cases h with
    | arr h =>
      obtain ⟨v, h1, h2, h3⟩ := ih h
      exact ⟨.arr v, by simp [normJ, h1], by simp [normJ, h2], h3⟩
  · intro es ih h
    cases h with
    | obj h =>
      obtain ⟨v, h1, h2, h3⟩ := ih h
      refine ⟨.obj (entriesOf v), by simp [normJ, h1], by simp [normJ, h2], ?_⟩
      simp only [NumsStable]
      exact numsStableM_iff.2 fun p hp => numsStableM_iff.1 h3 p (mem_entriesOf hp)
  · intro _; exact ⟨_, rfl, rfl, trivial⟩
  · intro j l ih1 ih2 h
    obtain ⟨v, h1, h2, h3⟩ := ih1 (h j (by simp))
    obtain ⟨w, h4, h5, h6⟩ := ih2 fun a ha => h a (by simp [ha])
    exact ⟨v :: w, by simp [normL, h1, h4], by simp [normL, h2, h5], h3, h6⟩
  · intro _; exact ⟨_, rfl, rfl, trivial⟩
  · intro k j l ih1 ih2 h
    obtain ⟨v, h1, h2, h3⟩ := ih1 (h k j (by simp))
    obtain ⟨w, h4, h5, h6⟩ := ih2 fun k' a ha => h k' a (by simp [ha])
    exact ⟨(k, v) :: w, by simp [normM, h1, h4], by simp [normM, h2, h5], h3, h6⟩

end Verif.Algo
