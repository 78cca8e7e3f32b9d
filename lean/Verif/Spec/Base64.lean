/-!
# Specification: base64url (RFC 4648 section 5) on bit strings

Independent of the model: the text of a byte string is obtained by writing the bytes as bits (most
significant first), adding zero bits up to a multiple of six, and writing each group of six bits as
one character of the alphabet.
-/

namespace Verif.Spec

/-- The alphabet as RFC 4648 prints it (table 2). -/
def alphabet : List Char :=
  ['A','B','C','D','E','F','G','H','I','J','K','L','M','N','O','P','Q','R','S','T','U','V','W','X',
   'Y','Z','a','b','c','d','e','f','g','h','i','j','k','l','m','n','o','p','q','r','s','t','u','v',
   'w','x','y','z','0','1','2','3','4','5','6','7','8','9','-','_']

/-- `n` as `w` bits, most significant first. -/
def bitsOf : Nat → Nat → List Bool
  | 0, _ => []
  | w + 1, n => bitsOf w (n / 2) ++ [n % 2 == 1]

/-- `text` is the unpadded base64url form of `bytes`. -/
def IsBase64Url (bytes : List UInt8) (text : List Char) : Prop :=
  (∀ c ∈ text, c ∈ alphabet) ∧
  ∃ zeros : Nat, zeros < 6 ∧
    text.flatMap (fun c => bitsOf 6 (alphabet.idxOf c))
      = bytes.flatMap (fun b => bitsOf 8 b.toNat) ++ List.replicate zeros false

end Verif.Spec
