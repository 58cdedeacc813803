/-
What linear interpolation in tetrahedra is meant to do, independently of the code.
-/
import Mathlib.Data.Rat.Defs
import Mathlib.Data.Fin.VecNotation
import Mathlib.Algebra.Order.Ring.Rat
import Mathlib.Algebra.BigOperators.Fin

namespace Brille.Spec

/-- The weights `w` sum to one and place `x` relative to the points `p`. -/
def Places (p : Fin 4 → Fin 3 → ℚ) (w : Fin 4 → ℚ) (x : Fin 3 → ℚ) : Prop :=
  ∑ j, w j = 1 ∧ ∀ d, x d = ∑ j, w j * p j d

/-- `x` is in the tetrahedron with corners `p`: it is a mixture of the corners. -/
def InTet (p : Fin 4 → Fin 3 → ℚ) (x : Fin 3 → ℚ) : Prop := ∃ w, (∀ j, 0 ≤ w j) ∧ Places p w x

/-- Six times the signed volume: the determinant of the edges from the last corner. -/
def vol6 (p : Fin 4 → Fin 3 → ℚ) : ℚ :=
  (p 0 0 - p 3 0) * ((p 1 1 - p 3 1) * (p 2 2 - p 3 2) - (p 1 2 - p 3 2) * (p 2 1 - p 3 1)) +
  (p 0 1 - p 3 1) * ((p 1 2 - p 3 2) * (p 2 0 - p 3 0) - (p 1 0 - p 3 0) * (p 2 2 - p 3 2)) +
  (p 0 2 - p 3 2) * ((p 1 0 - p 3 0) * (p 2 1 - p 3 1) - (p 1 1 - p 3 1) * (p 2 0 - p 3 0))

/-- All corners are at a distance of at most `r` from `c`, as they are for the circumsphere. -/
def InBall (p : Fin 4 → Fin 3 → ℚ) (c : Fin 3 → ℚ) (r : ℚ) : Prop :=
  ∀ j, ∑ d, (p j d - c d) ^ 2 ≤ r ^ 2

/-- A function of the position that is linear up to a constant. -/
def AffineMap (f : (Fin 3 → ℚ) → ℚ) : Prop := ∃ (c : ℚ) (a : Fin 3 → ℚ), ∀ p, f p = c + ∑ d, a d * p d

end Brille.Spec
