import Verif.Model.Matrix
import Mathlib.Algebra.Field.Rat
import Mathlib.Data.Rat.Defs
import Mathlib.Data.Fin.VecNotation

/-
Model of `PrimitiveTransform` (`/repo/src/primitive.hpp`) and of the vector transformations of
`/repo/src/transform.hpp`.  Vector components are exact rationals (`double`) or integers (`int`).
-/
namespace Brille.Prim
open Brille.Mat

/-- `enum class Bravais`, bravais.hpp:54 (`_` is `invalid` here). -/
inductive Bravais | invalid | P | A | B | C | I | F | R
deriving DecidableEq, Repr

abbrev IMat := Fin 3 → Fin 3 → ℤ

/-- A row-major literal of nine integers. -/
def m9 (a b c d e f g h i : ℤ) : IMat := ![![a, b, c], ![d, e, f], ![g, h, i]]

/-- `get_6P`, primitive.hpp:112-123; `none` = throws. -/
def get6P : Bravais → Option IMat
  | .invalid => none
  | .I => some (m9 (-3) 3 3 3 (-3) 3 3 3 (-3))
  | .F => some (m9 0 3 3 3 0 3 3 3 0)
  | .A => some (m9 6 0 0 0 3 (-3) 0 3 3)
  | .B => some (m9 3 0 (-3) 0 6 0 3 0 3)
  | .C => some (m9 3 3 0 (-3) 3 0 0 0 6)
  | .R => some (m9 4 (-2) (-2) 2 2 (-4) 2 2 2)
  | .P => some (m9 6 6 6 6 6 6 6 6 6)

/-- `get_invP`, primitive.hpp:135-146. -/
def getInvP : Bravais → Option IMat
  | .invalid => none
  | .I => some (m9 0 1 1 1 0 1 1 1 0)
  | .F => some (m9 (-1) 1 1 1 (-1) 1 1 1 (-1))
  | .A => some (m9 1 0 0 0 1 1 0 (-1) 1)
  | .B => some (m9 1 0 1 0 1 0 (-1) 0 1)
  | .C => some (m9 1 (-1) 0 1 1 0 0 0 1)
  | .R => some (m9 1 0 1 (-1) 1 1 0 (-1) 1)
  | .P => some (m9 1 0 0 0 1 0 0 0 1)

/-- `get_6Pt`, primitive.hpp:170 and `get_invPt`, :180. -/
def get6Pt (b : Bravais) : Option IMat := (get6P b).map transpose
def getInvPt (b : Bravais) : Option IMat := (getInvP b).map transpose

/-- `does_nothing`, primitive.hpp:195. -/
def doesNothing (b : Bravais) : Bool := decide (b = .P)

/-- `LengthUnit`: real-space or reciprocal-space vectors (enums.hpp). -/
inductive Unit | angstrom | inverseAngstrom
deriving DecidableEq

/-- The lattice a vector is attached to, relative to the lattice passed to the transformation.  For a
`P` lattice the primitive lattice is the lattice itself. -/
inductive OnLattice | standard | primitive | other
deriving DecidableEq

/-- `multiply_matrix_vector(out, transform, a)` with an integer matrix. -/
def applyQ (m : IMat) (v : Fin 3 → ℚ) : Fin 3 → ℚ := mulVec (fun i j => (m i j : ℚ)) v

/-- `transform_to_primitive`, transform.hpp:46-100, for one vector of `double`s.  Returns the
components and the lattice of the result. -/
def toPrimitive (b : Bravais) (on : OnLattice) (u : Unit) (v : Fin 3 → ℚ) :
    Option (OnLattice × (Fin 3 → ℚ)) :=
  if on = .primitive then some (on, v)
  else if on ≠ .standard then none
  else if doesNothing b then some (on, v)
  else match u with
    | .angstrom => (getInvP b).map fun m => (.primitive, applyQ m v)
    | .inverseAngstrom => (get6Pt b).map fun m => (.primitive, fun i => applyQ m v i / 6)

/-- `transform_from_primitive`, transform.hpp:108-158. -/
def fromPrimitive (b : Bravais) (on : OnLattice) (u : Unit) (v : Fin 3 → ℚ) :
    Option (OnLattice × (Fin 3 → ℚ)) :=
  if on = .standard then some (on, v)
  else if on ≠ .primitive then none
  else if doesNothing b then some (on, v)
  else match u with
    | .angstrom => (get6P b).map fun m => (.standard, fun i => applyQ m v i / 6)
    | .inverseAngstrom => (getInvPt b).map fun m => (.standard, applyQ m v)

/-- `transform_to_primitive<int>` for a reciprocal vector on the standard lattice: `S = int`, so
`out /= 6` truncates. -/
def toPrimitiveIntRecip (b : Bravais) (v : Fin 3 → ℤ) : Option (Fin 3 → ℤ) :=
  if doesNothing b then some v
  else (get6Pt b).map fun m => fun i => (mulVec m v i).tdiv 6

end Brille.Prim
