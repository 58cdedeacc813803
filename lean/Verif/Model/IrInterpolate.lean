/-
Interpolating at any point of reciprocal space: move the points into the irreducible Brillouin zone, interpolate there,
turn the results: `ir_interpolate_at`, /repo/src/bz_trellis.hpp 153-197.

Simplifications: the interpolation inside of the irreducible zone is a parameter (`PolyTrellis::interpolate_at` has a model
of its own); it and the rotation treat one point at a time, the code does one step after the other for all points.
Values and vectors have numbers of the same kind.
-/
import Verif.Model.MoveInto
import Verif.Model.Rotate

namespace Brille.IrInterp

open Brille.Move Brille.Prim Brille.Rot

variable {K : Type} [CommRing K]

/-- How one of the two sets of data is laid out and turns: the members of an `Interpolator`, interpolator.hpp 55-66. -/
structure Kind where
  unit : LengthUnit
  like : RotatesLike
  complex : Bool
  layout : Layout

/-- what the rotation of a row needs: the table for phonons, the lattice, the operations, and what earlier rows have left
in the scratch space, for a row at `q` -/
structure Turning (K : Type) where
  e : ℚ → K
  table : Atoms.Gamma
  toXyz : Fin 3 → Fin 3 → K
  fromXyz : Fin 3 → Fin 3 → K
  scratch : (Fin 3 → ℚ) → List K

/-- one row turned, bz_trellis.hpp 189-190; the truth value returned is not used -/
def turnRow (s : Turning K) (ps : List (Fin 3 → Fin 3 → ℤ)) (k : Kind) (p : IrPoint) (x : ℕ → K) : Option (ℕ → K) :=
  (rotateInPlace s.e s.table s.toXyz s.fromXyz k.unit k.like k.complex k.layout ps p.q p.ridx p.invRidx x
    (s.scratch p.q)).map (·.2)

/-- both rows of one point turned, bz_trellis.hpp 189-190 -/
def turnBoth (s : Turning K) (ps : List (Fin 3 → Fin 3 → ℤ)) (values vectors : Kind)
    (r : IrPoint × (ℕ → K) × (ℕ → K)) : Option ((ℕ → K) × (ℕ → K)) :=
  match turnRow s ps values r.1 r.2.1, turnRow s ps vectors r.1 r.2.2 with
  | some a, some b => some (a, b)
  | _, _ => none

/-- `ir_interpolate_at`, bz_trellis.hpp 153-197; `none`: an exception -/
def irInterpolateAt (b : Bravais) (z : Zone) (contains : OnLattice → Pt → Bool) (wedge : Pt → Bool)
    (ps : List (Fin 3 → Fin 3 → ℤ)) (interp : Pt → Option ((ℕ → K) × (ℕ → K))) (s : Turning K) (values vectors : Kind)
    (Qs : List Pt) : Option (List ((ℕ → K) × (ℕ → K))) :=
  match Qs.mapM fun Q => irMoveinto b z contains wedge ps Q with
  | none => none
  | some moved =>
    match moved.mapM fun p => (interp p.1.q).map fun x => (p.1, x) with
    | none => none
    | some rows => rows.mapM (turnBoth s ps values vectors)

/-- `ir_interpolate_at<true>`, bz_trellis.hpp 160-164 and 175-180: the points are taken to be in the irreducible zone; the
operation is the unit operation. -/
def irInterpolateNoMove (ps : List (Fin 3 → Fin 3 → ℤ)) (interp : Pt → Option ((ℕ → K) × (ℕ → K))) (s : Turning K)
    (values vectors : Kind) (Qs : List Pt) : Option (List ((ℕ → K) × (ℕ → K))) :=
  match Qs.mapM fun q => (interp q).map fun x =>
      ((⟨q, Sym.findIndex ps Mot.idMat, Sym.findIndex ps Mot.idMat⟩ : IrPoint), x) with
  | none => none
  | some rows => rows.mapM (turnBoth s ps values vectors)

end Brille.IrInterp
