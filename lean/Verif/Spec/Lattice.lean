/-
Specification of a lattice, without reference to the model.

The basis vectors are the columns of a 3×3 matrix of real numbers.
-/
import Mathlib.Analysis.SpecialFunctions.Trigonometric.Inverse
import Mathlib.LinearAlgebra.Matrix.Determinant.Basic
import Mathlib.LinearAlgebra.Matrix.Notation

namespace Brille.Spec

/-- The scalar product of the columns `i` and `j` of two matrices. -/
def columnDot (A B : Fin 3 → Fin 3 → ℝ) (i j : Fin 3) : ℝ := A 0 i * B 0 j + A 1 i * B 1 j + A 2 i * B 2 j

/-- Two sets of basis vectors are dual: `aᵢ · bⱼ = 2π δᵢⱼ`. -/
def DualBases (A B : Fin 3 → Fin 3 → ℝ) : Prop :=
  ∀ i j, columnDot A B i j = if i = j then 2 * Real.pi else 0

/-- The basis vectors have the lengths `len` and enclose the angles `ang` (in radian): `ang i` is between the other two. -/
structure HasParameters (A : Fin 3 → Fin 3 → ℝ) (len ang : Fin 3 → ℝ) : Prop where
  lengths : ∀ i, columnDot A A i i = len i * len i
  angles : ∀ i, columnDot A A (i + 1) (i + 2) = len (i + 1) * len (i + 2) * Real.cos (ang i)

/-- Three vectors with these lengths and angles exist that do not lie in a plane. -/
def CellExists (len ang : Fin 3 → ℝ) : Prop := ∃ A, HasParameters A len ang ∧ Matrix.det (Matrix.of A) ≠ 0

/-- The vector with coordinates `x`. -/
def position (A : Fin 3 → Fin 3 → ℝ) (x : Fin 3 → ℝ) : Fin 3 → ℝ := fun k => A k 0 * x 0 + A k 1 * x 1 + A k 2 * x 2

/-- The scalar product of two vectors. -/
def scalarProduct (x y : Fin 3 → ℝ) : ℝ := x 0 * y 0 + x 1 * y 1 + x 2 * y 2

/-- The vector product of two vectors. -/
def vectorProduct (x y : Fin 3 → ℝ) : Fin 3 → ℝ :=
  ![x 1 * y 2 - x 2 * y 1, x 2 * y 0 - x 0 * y 2, x 0 * y 1 - x 1 * y 0]

/-- The operations map the crystal with basis `A` onto itself as far as lengths are concerned: `x` and `R x` are equally far
from the origin. -/
def HasSymmetry (A : Fin 3 → Fin 3 → ℝ) (ops : List (Fin 3 → Fin 3 → ℤ)) : Prop :=
  ∀ R ∈ ops, ∀ x : Fin 3 → ℝ, let y := fun i => (R i 0 : ℝ) * x 0 + R i 1 * x 1 + R i 2 * x 2
    scalarProduct (position A y) (position A y) = scalarProduct (position A x) (position A x)

end Brille.Spec
