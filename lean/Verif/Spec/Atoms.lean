/-
What it means that an atom of a unit cell sits at a position of the crystal.  Independent of the model, except for the
structure that holds the atoms.
-/
import Verif.Model.Atoms
import Verif.Spec.Motion

namespace Brille.Spec

open Brille.Atoms

/-- Atom number `k` of the unit cell has this type and sits at this position, in some cell of the crystal. -/
def AtomAt (b : Basis) (k : ℕ) (type : ℕ) (x : Fin 3 → ℚ) : Prop :=
  ∃ p, b.positions[k]? = some p ∧ b.types[k]? = some type ∧ SameModLattice x p

/-- A proper unit cell: every atom has a type, and no two atoms of a type sit at the same site. -/
structure ProperCell (b : Basis) : Prop where
  typed : b.types.length = b.positions.length
  distinct : ∀ k l t x, AtomAt b k t x → AtomAt b l t x → k = l

/-- Exact comparison of a vector with zero. -/
def isZero (d : Fin 3 → ℚ) : Bool := decide (d = fun _ => 0)

/-- Exact comparison of two vectors. -/
def isSame (x y : Fin 3 → ℚ) : Bool := decide (x = y)

end Brille.Spec
