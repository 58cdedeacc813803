/-
Operations of a point group acting on reciprocal space.
-/
import Verif.Spec.Zone

namespace Brille.Spec

/-- the point with the given coordinates relative to the reciprocal lattice, whose basis vectors are the rows of the matrix -/
def inBasis (B : Matrix (Fin 3) (Fin 3) ℚ) (h : Fin 3 → ℝ) : Fin 3 → ℝ := fun d => ∑ k, h k * (B k d : ℝ)

/-- an operation, given as a matrix relative to the direct lattice, carries the point `x` of reciprocal space to `y`: it multiplies the
coordinates relative to the reciprocal lattice by its transpose -/
def Carries (B : Matrix (Fin 3) (Fin 3) ℚ) (r : Fin 3 → Fin 3 → ℤ) (x y : Fin 3 → ℝ) : Prop :=
  ∃ h : Fin 3 → ℝ, x = inBasis B h ∧ y = inBasis B fun i => ∑ j, (r j i : ℝ) * h j

/-- a finite group of integer matrices, listed without repetition -/
structure PointGroup (R : List (Fin 3 → Fin 3 → ℤ)) : Prop where
  distinct : R.Nodup
  one : ∃ e ∈ R, Matrix.of e = 1
  mul : ∀ r ∈ R, ∀ s ∈ R, ∃ t ∈ R, Matrix.of t = Matrix.of r * Matrix.of s
  inv : ∀ r ∈ R, ∃ s ∈ R, Matrix.of r * Matrix.of s = 1

end Brille.Spec
