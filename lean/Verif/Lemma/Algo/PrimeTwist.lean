import Verif.Lemma.Algo.Prime

/-!
# The odd part of the order of the twist of Curve25519 is prime
-/

namespace Verif.Algo

/-- A quarter of the number of points of the twist. -/
def ellT : Nat := 2 ^ 253 - 55484635554744707071703875581767296995

theorem prime_6418733 : Nat.Prime 6418733 := by
  refine prime_of_cert _ 2 23 [2, 2, 19, 84457] (by decide +kernel) (by decide +kernel) (by decide +kernel) ?_ (by decide +kernel) (by decide +kernel)
  intro q hq
  simp only [List.mem_cons, List.not_mem_nil, or_false] at hq
  rcases hq with rfl | rfl | rfl | rfl
  · norm_num
  · norm_num
  · norm_num
  · norm_num

theorem prime_1110318119 : Nat.Prime 1110318119 := by
  refine prime_of_cert _ 7 31 [2, 7, 13, 487, 12527] (by decide +kernel) (by decide +kernel) (by decide +kernel) ?_ (by decide +kernel) (by decide +kernel)
  intro q hq
  simp only [List.mem_cons, List.not_mem_nil, or_false] at hq
  rcases hq with rfl | rfl | rfl | rfl | rfl
  · norm_num
  · norm_num
  · norm_num
  · norm_num
  · norm_num

theorem prime_2220636239 : Nat.Prime 2220636239 := by
  refine prime_of_cert _ 23 32 [2, 1110318119] (by decide +kernel) (by decide +kernel) (by decide +kernel) ?_ (by decide +kernel) (by decide +kernel)
  intro q hq
  simp only [List.mem_cons, List.not_mem_nil, or_false] at hq
  rcases hq with rfl | rfl
  · norm_num
  · exact prime_1110318119

theorem prime_743104567 : Nat.Prime 743104567 := by
  refine prime_of_cert _ 6 30 [2, 3, 3, 3637, 11351] (by decide +kernel) (by decide +kernel) (by decide +kernel) ?_ (by decide +kernel) (by decide +kernel)
  intro q hq
  simp only [List.mem_cons, List.not_mem_nil, or_false] at hq
  rcases hq with rfl | rfl | rfl | rfl | rfl
  · norm_num
  · norm_num
  · norm_num
  · norm_num
  · norm_num

theorem prime_1013266244677 : Nat.Prime 1013266244677 := by
  refine prime_of_cert _ 2 40 [2, 2, 3, 7, 383, 3911, 8053] (by decide +kernel) (by decide +kernel) (by decide +kernel) ?_ (by decide +kernel) (by decide +kernel)
  intro q hq
  simp only [List.mem_cons, List.not_mem_nil, or_false] at hq
  rcases hq with rfl | rfl | rfl | rfl | rfl | rfl | rfl
  · norm_num
  · norm_num
  · norm_num
  · norm_num
  · norm_num
  · norm_num
  · norm_num

theorem prime_5171003929967 : Nat.Prime 5171003929967 := by
  refine prime_of_cert _ 5 43 [2, 7, 31, 181, 2281, 28859] (by decide +kernel) (by decide +kernel) (by decide +kernel) ?_ (by decide +kernel) (by decide +kernel)
  intro q hq
  simp only [List.mem_cons, List.not_mem_nil, or_false] at hq
  rcases hq with rfl | rfl | rfl | rfl | rfl | rfl
  · norm_num
  · norm_num
  · norm_num
  · norm_num
  · norm_num
  · norm_num

theorem prime_22561162540501040539 : Nat.Prime 22561162540501040539 := by
  refine prime_of_cert _ 3 65 [2, 3, 727169, 5171003929967] (by decide +kernel) (by decide +kernel) (by decide +kernel) ?_ (by decide +kernel) (by decide +kernel)
  intro q hq
  simp only [List.mem_cons, List.not_mem_nil, or_false] at hq
  rcases hq with rfl | rfl | rfl | rfl
  · norm_num
  · norm_num
  · norm_num
  · exact prime_5171003929967

theorem prime_203852586375664218368381551393371968928013 : Nat.Prime 203852586375664218368381551393371968928013 := by
  refine prime_of_cert _ 2 138 [2, 2, 3, 743104567, 1013266244677, 22561162540501040539] (by decide +kernel) (by decide +kernel) (by decide +kernel) ?_ (by decide +kernel) (by decide +kernel)
  intro q hq
  simp only [List.mem_cons, List.not_mem_nil, or_false] at hq
  rcases hq with rfl | rfl | rfl | rfl | rfl | rfl
  · norm_num
  · norm_num
  · norm_num
  · exact prime_743104567
  · exact prime_1013266244677
  · exact prime_22561162540501040539

theorem prime_104719073621178708975837602950775180438320278101 : Nat.Prime 104719073621178708975837602950775180438320278101 := by
  refine prime_of_cert _ 2 157 [2, 2, 5, 5, 11, 467, 203852586375664218368381551393371968928013] (by decide +kernel) (by decide +kernel) (by decide +kernel) ?_ (by decide +kernel) (by decide +kernel)
  intro q hq
  simp only [List.mem_cons, List.not_mem_nil, or_false] at hq
  rcases hq with rfl | rfl | rfl | rfl | rfl | rfl | rfl
  · norm_num
  · norm_num
  · norm_num
  · norm_num
  · norm_num
  · norm_num
  · exact prime_203852586375664218368381551393371968928013

theorem prime_27413359092552162435694767700453926735143482401279781 : Nat.Prime 27413359092552162435694767700453926735143482401279781 := by
  refine prime_of_cert _ 2 175 [2, 2, 3, 5, 4363, 104719073621178708975837602950775180438320278101] (by decide +kernel) (by decide +kernel) (by decide +kernel) ?_ (by decide +kernel) (by decide +kernel)
  intro q hq
  simp only [List.mem_cons, List.not_mem_nil, or_false] at hq
  rcases hq with rfl | rfl | rfl | rfl | rfl | rfl
  · norm_num
  · norm_num
  · norm_num
  · norm_num
  · norm_num
  · exact prime_104719073621178708975837602950775180438320278101

theorem prime_ellT : Nat.Prime ellT := by
  refine prime_of_cert _ 2 253 [2, 2, 79, 117223, 6418733, 2220636239, 27413359092552162435694767700453926735143482401279781] (by decide +kernel) (by decide +kernel) (by decide +kernel) ?_ (by decide +kernel) (by decide +kernel)
  intro q hq
  simp only [List.mem_cons, List.not_mem_nil, or_false] at hq
  rcases hq with rfl | rfl | rfl | rfl | rfl | rfl | rfl
  · norm_num
  · norm_num
  · norm_num
  · norm_num
  · exact prime_6418733
  · exact prime_2220636239
  · exact prime_27413359092552162435694767700453926735143482401279781

end Verif.Algo
