import Mathlib.Data.Rat.Defs

/-
Specification side for crystal motions: points and translations matter modulo the lattice.
-/
namespace Brille.Spec

/-- The two points differ by a lattice vector (an integer triple). -/
def SameModLattice (p q : Fin 3 → ℚ) : Prop := ∀ i, ∃ z : ℤ, p i - q i = (z : ℚ)

/-- The coordinates are in `[0,1)`. -/
def InUnitCell (p : Fin 3 → ℚ) : Prop := ∀ i, 0 ≤ p i ∧ p i < 1

/-- The affine map `p ↦ W p + w`. -/
def affine (W : Fin 3 → Fin 3 → ℤ) (w : Fin 3 → ℚ) (p : Fin 3 → ℚ) : Fin 3 → ℚ :=
  fun i => W i 0 * p 0 + W i 1 * p 1 + W i 2 * p 2 + w i

/-- The determinant of a 3×3 matrix, written out. -/
def det3 (W : Fin 3 → Fin 3 → ℤ) : ℤ :=
  W 0 0 * (W 1 1 * W 2 2 - W 1 2 * W 2 1) - W 0 1 * (W 1 0 * W 2 2 - W 1 2 * W 2 0) +
    W 0 2 * (W 1 0 * W 2 1 - W 1 1 * W 2 0)

end Brille.Spec
