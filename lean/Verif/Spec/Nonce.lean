import Verif.Model.Algo.Rfc6979

/-! # The nonces of a signature, as the standard has it (RFC 6979, section 3.2) -/

namespace Verif.Spec

open Algo

/-- The key and the value of the generator for the bytes `x` of the secret and `h` of the hash, when `i` values were
rejected. -/
def nonceState (x h : Bytes) : Nat → Bytes × Bytes
  | 0 =>
    let V := List.replicate 32 1
    let K := hmac (List.replicate 32 0) (V ++ [0] ++ x ++ h)
    let V := hmac K V
    let K := hmac K (V ++ [1] ++ x ++ h)
    (K, hmac K V)
  | i + 1 =>
    let (K, V) := nonceState x h i
    let V := hmac K V
    let K := hmac K (V ++ [0])
    (K, hmac K V)

/-- The value after `i` values were rejected, for a secret and the bytes to sign. -/
def nonceValue (c : Curve) (sk b : Bytes) (i : Nat) : Nat :=
  let s := nonceState (beBytes 32 (beNat sk)) (beBytes 32 (beNat (sha256 b) % c.n)) i
  beNat (hmac s.1 s.2)

/-- `k` is the nonce for a secret and the bytes to sign: the first value in range. -/
def IsNonce (c : Curve) (sk b : Bytes) (k : Nat) : Prop :=
  ∃ i, nonceValue c sk b i = k ∧ 0 < k ∧ k < c.n ∧
    ∀ j < i, ¬ (0 < nonceValue c sk b j ∧ nonceValue c sk b j < c.n)

end Verif.Spec
