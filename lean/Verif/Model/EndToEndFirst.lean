/-
Interpolating without rotation: `BrillouinZoneTrellis3::interpolate_at` of /repo/src/bz_trellis.hpp 110-128, which moves the points by
lattice vectors into the first zone only, and the forms that do not move the points at all, bz_trellis.hpp 116-121 and 153-197,
bz_mesh.hpp 97-136 and bz_nest.hpp 92-130, with the flag `do_not_move_points` of /repo/wrap/_common_grid.hpp 292-300 and 428-436.

As in `Brille.EndToEnd` nothing new is modelled here but the way the parts are connected; numbers are exact, and the points are treated
one at a time.
-/
import Verif.Model.EndToEndMesh

namespace Brille.EndToEnd

open Brille.Tetra Brille.IrCheck Brille.IrInterp

/-- what the hybrid grid reports for a point, trellis_poly.hpp 245-255; `none`: an exception or undefined behaviour -/
def trellisLocate (T : TrellisWire.PolyTrellis) (x : Pt) : Option (List (ℕ × ℚ)) :=
  match T.indicesWeights x with
  | .found iw => some iw
  | _ => none

/-- `interpolate_at`, bz_trellis.hpp 110-128: if all points can be moved into the first zone the grid is asked for the moved points, and the
rows are not turned; `none`: an exception -/
def firstInterpolateAt (b : Prim.Bravais) (z : Move.Zone) (inside : Prim.OnLattice → Pt → Bool)
    (interp : Pt → Option ((ℕ → ℚ) × (ℕ → ℚ))) (Qs : List Pt) : Option (List ((ℕ → ℚ) × (ℕ → ℚ))) :=
  match Qs.mapM fun Q => Move.moveinto b z inside .standard Q with
  | none => none
  | some moved => moved.mapM fun p => interp p.1

/-- The Python method `interpolate_at`, wrap/_common_grid.hpp 412-436: with `do_not_move_points` the points are taken as they are. -/
def pyInterpolateAt (B : Fin 3 → Pt) (b : Prim.Bravais) (z : Move.Zone) (inside : Prim.OnLattice → Pt → Bool) (T : TrellisWire.PolyTrellis)
    (c : GridInterp.Numeric ℚ ℚ ℚ) (g : Fill.Grid ℚ ℚ) (doNotMove : Bool) (Qs : List Pt) : Option (List ((ℕ → ℚ) × (ℕ → ℚ))) :=
  if doNotMove then Qs.mapM (gridAt B T c g) else firstInterpolateAt b z inside (gridAt B T c g) Qs

/-- The Python method `ir_interpolate_at`, wrap/_common_grid.hpp 276-300, of any of the three kinds of grid, which `locate` and `kind` tell
apart -/
def pyIrInterpolateAt (kind : GridInterp.Kind) (locate : Pt → Option (List (ℕ × ℚ))) (S : Wedge.Setup) (st : Wedge.St) (b : Prim.Bravais)
    (z : Move.Zone) (inside : Prim.OnLattice → Pt → Bool) (c : GridInterp.Numeric ℚ ℚ ℚ) (g : Fill.Grid ℚ ℚ) (s : Turning ℚ)
    (doNotMove : Bool) (Qs : List Pt) : Option (List ((ℕ → ℚ) × (ℕ → ℚ))) :=
  if doNotMove then
    irInterpolateNoMove (operations S.timeReversal S.R) (locatedAt kind S.B locate c g) s (kindOf g.values false) (kindOf g.vectors false) Qs
  else interpolateWith kind locate S st b z inside c g s Qs

end Brille.EndToEnd
