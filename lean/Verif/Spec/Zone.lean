/-
The first Brillouin zone of a lattice.
-/
import Verif.Spec.Convex
import Mathlib.LinearAlgebra.Matrix.Determinant.Basic

namespace Brille.Spec

/-- the point of the lattice spanned by the rows of a matrix with the given integer coordinates -/
def latticePoint (B : Matrix (Fin 3) (Fin 3) ℚ) (i : Fin 3 → ℤ) : Fin 3 → ℚ := fun d => ∑ k, i k * B k d

/-- the square of the distance of two points -/
def distance2 (x y : Fin 3 → ℝ) : ℝ := ∑ d, (x d - y d) ^ 2

/-- the points that are at least as close to the origin as to any of the lattice points with the given coordinates -/
def Nearest (B : Matrix (Fin 3) (Fin 3) ℚ) (S : (Fin 3 → ℤ) → Prop) : Set (Fin 3 → ℝ) :=
  {x | ∀ i, S i → distance2 x 0 ≤ distance2 x (real (latticePoint B i))}

/-- the first Brillouin zone: the points that are at least as close to the origin as to any other lattice point -/
def FirstZone (B : Matrix (Fin 3) (Fin 3) ℚ) : Set (Fin 3 → ℝ) := Nearest B fun _ => True

end Brille.Spec
