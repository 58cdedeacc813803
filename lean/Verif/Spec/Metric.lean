import Mathlib.Algebra.Order.Field.Rat
import Mathlib.Data.Fin.VecNotation

/-! Lengths in a lattice: the scalar product of two vectors given by their components and the metric matrix of
the basis. -/
namespace Brille.Spec

/-- `x · y` for the metric matrix `G` (`G i j` is the scalar product of the basis vectors `i` and `j`) -/
def scalar (G : Fin 3 → Fin 3 → ℚ) (x y : Fin 3 → ℚ) : ℚ :=
  x 0 * (G 0 0 * y 0 + G 0 1 * y 1 + G 0 2 * y 2) + x 1 * (G 1 0 * y 0 + G 1 1 * y 1 + G 1 2 * y 2) +
  x 2 * (G 2 0 * y 0 + G 2 1 * y 1 + G 2 2 * y 2)

/-- the components of an integer vector -/
def ofInts (t : Fin 3 → ℤ) : Fin 3 → ℚ := fun i => t i

end Brille.Spec
