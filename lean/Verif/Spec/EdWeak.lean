import Verif.Spec.EdKey

/-! # The public keys for EdDSA of small order -/

namespace Verif.Spec

/-- The numbers that stand in public keys of small order, without the sign: the second coordinates of the points
`(±i, 0)`, `(0, 1)`, `(0, -1)`, reduced or not, and of the four points of order eight. -/
def edWeakNumbers : List Nat :=
  [0, 1, Algo.p25519 - 1, Algo.p25519, Algo.p25519 + 1,
    2707385501144840649318225287225658788936804267575313519463743609750303402022,
    55188659117513257062467267217118295137698188065244968500265048394206261417927]

/-- The public keys of small order: each of these numbers, with either sign. -/
def edWeakKeys : List Bytes :=
  edWeakNumbers.flatMap fun y => [Algo.leBytes 32 y, Algo.leBytes 32 (2 ^ 255 + y)]

end Verif.Spec
