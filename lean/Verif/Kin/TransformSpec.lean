import Verif.Kin.Transform

/-! Specification: what it means for a 4x4 matrix to be a rigid motion. -/

namespace Verif.Kin
open Transform
variable {K : Type} [CommRing K]

/-- A rigid motion: it maps points to points (bottom row `0 0 0 1`) and its rotation block has
orthonormal columns. -/
structure Rigid (A : Transform K) : Prop where
  bottom : A 3 0 = 0 ∧ A 3 1 = 0 ∧ A 3 2 = 0 ∧ A 3 3 = 1
  ortho : ∀ i j : Fin 3,
    ∑ k : Fin 3, A (Fin.castSucc k) (Fin.castSucc i) * A (Fin.castSucc k) (Fin.castSucc j) =
      if i = j then 1 else 0

/-- Squared distance. -/
def sqDist (p q : V3 K) : K := (p 0 - q 0) ^ 2 + (p 1 - q 1) ^ 2 + (p 2 - q 2) ^ 2

end Verif.Kin
