import Verif.Lemma.Algo.Weierstrass
import Verif.Lemma.Algo.PrimeCurves

/-!
# P-256 and secp256k1 are curves with base points of prime order
-/

namespace Verif.Algo

theorem good_p256 : Good p256 where
  prime_p := prime_p256_p
  prime_n := prime_p256_n
  p_lt := by decide
  n_lt := by decide
  p_gt := by decide
  n_gt := by decide
  mod4 := by decide
  disc := by decide +kernel
  gx_lt := by decide
  gy_lt := by decide
  base := by decide +kernel
  order := by decide +kernel

theorem good_k256 : Good k256 where
  prime_p := prime_k256_p
  prime_n := prime_k256_n
  p_lt := by decide
  n_lt := by decide
  p_gt := by decide
  n_gt := by decide
  mod4 := by decide
  disc := by decide +kernel
  gx_lt := by decide
  gy_lt := by decide
  base := by decide +kernel
  order := by decide +kernel

end Verif.Algo
