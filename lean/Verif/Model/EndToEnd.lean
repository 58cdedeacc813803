/-
All steps of interpolating in a grid made for a lattice: `BrillouinZoneTrellis3::ir_interpolate_at` of
/repo/src/bz_trellis.hpp 153-197, with the grid that /repo/src/trellis_poly_parallel.tpp constructs in the irreducible Brillouin
zone, the data that were put into it, and the irreducible zone that /repo/src/bz_wedge.cpp finds.

Nothing new is modelled here but the way the parts are connected: moving the points (`Brille.Move`), locating them in the grid
(`Brille.TrellisWire`), adding up the data (`Brille.GridInterp`), turning the results (`Brille.Rot`).  Numbers are exact, and the
points are treated one at a time.
-/
import Verif.Model.IrInterpolate
import Verif.Model.GridInterp
import Verif.Model.TrellisWire
import Verif.Model.Wedge

namespace Brille.EndToEnd

open Brille.Tetra Brille.IrCheck Brille.IrInterp

/-- what `rotate_in_place` knows of the data, interpolator.hpp 386-426: the members `rotlike_`, `lenunit_` and `_elements`
(55-66) and `branches()` (308-333); `complex`: whether the numbers are complex -/
def kindOf {K : Type} (h : Fill.Held K) (complex : Bool) : Kind :=
  ⟨h.lenunit, h.rotlike, complex, ⟨h.elements.scalars, h.elements.vectors, h.elements.matrices, h.branches⟩⟩

/-- `super_t::interpolate_at(get_xyz(q))` for one point, bz_trellis.hpp 181 and trellis_poly.hpp 274-299: the rows of the two
arrays of results, as long as these have columns; `none`: an exception or undefined behaviour -/
def gridAt (B : Fin 3 → Pt) (T : TrellisWire.PolyTrellis) (c : GridInterp.Numeric ℚ ℚ ℚ) (g : Fill.Grid ℚ ℚ) (q : Pt) :
    Option ((ℕ → ℚ) × (ℕ → ℚ)) :=
  match T.indicesWeights (cartesian B q) with
  | .found iw =>
    match GridInterp.interpolate .trellis c g (fun _ => iw) 1 with
    | .ok vals vecs =>
      some (fun k => if k < g.values.cols then vals.mem k else 0, fun k => if k < g.vectors.cols then vecs.mem k else 0)
    | _ => none
  | _ => none

/-- `isinside_wedge` for the normals that the search has found, bz.hpp 660-685 and 756-763, without tolerance -/
def wedge (S : Wedge.Setup) (st : Wedge.St) (p : Pt) : Bool :=
  Move.insideWedge (fun x => decide (0 ≤ x)) (fun x => decide (x ≤ 0)) st.noMirror
    (fun p => st.normals.map fun n => dot n (cartesian S.B p)) p

/-- `ir_interpolate_at`, bz_trellis.hpp 153-197 -/
def interpolateAt (S : Wedge.Setup) (st : Wedge.St) (b : Prim.Bravais) (z : Move.Zone) (inside : Prim.OnLattice → Pt → Bool)
    (T : TrellisWire.PolyTrellis) (c : GridInterp.Numeric ℚ ℚ ℚ) (g : Fill.Grid ℚ ℚ) (s : Turning ℚ) (Qs : List Pt) :
    Option (List ((ℕ → ℚ) × (ℕ → ℚ))) :=
  irInterpolateAt b z inside (wedge S st) (operations S.timeReversal S.R) (gridAt S.B T c g) s (kindOf g.values false)
    (kindOf g.vectors false) Qs

/-- `get_hkl`, bz_trellis.hpp 69: the vertices of the grid in relative lattice units, where data are wanted -/
def hkl (B : Fin 3 → Pt) (T : TrellisWire.PolyTrellis) : List Pt := T.vertices.map (relative B)

end Brille.EndToEnd
