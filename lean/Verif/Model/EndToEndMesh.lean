/-
All steps of interpolating in a layered tetrahedral mesh and in nested tetrahedra made for a lattice:
`BrillouinZoneMesh3::ir_interpolate_at` of /repo/src/bz_mesh.hpp 97-136 and `BrillouinZoneNest3::ir_interpolate_at` of
/repo/src/bz_nest.hpp 92-130, with the grids that /repo/src/triangulation_layers.hpp and /repo/src/nest.tpp construct in the
irreducible Brillouin zone.

As in `Brille.EndToEnd` nothing new is modelled here but the way the parts are connected; numbers are exact, and the points are treated
one at a time.
-/
import Verif.Model.EndToEnd
import Verif.Model.Mesh
import Verif.Model.Nest

namespace Brille.EndToEnd

open Brille.Tetra Brille.IrCheck Brille.IrInterp

/-- `base_t::interpolate_at(get_xyz(q))` for one point, bz_mesh.hpp 110 with mesh.hpp 134-158, and bz_nest.hpp 105 with nest.hpp 357-379: the
rows of the two arrays of results, as long as these have columns; `locate` is how the grid finds vertices and weights; `none`: an
exception or undefined behaviour -/
def locatedAt (kind : GridInterp.Kind) (B : Fin 3 → Pt) (locate : Pt → Option (List (ℕ × ℚ))) (c : GridInterp.Numeric ℚ ℚ ℚ)
    (g : Fill.Grid ℚ ℚ) (q : Pt) : Option ((ℕ → ℚ) × (ℕ → ℚ)) :=
  match locate (cartesian B q) with
  | none => none
  | some iw =>
    match GridInterp.interpolate kind c g (fun _ => iw) 1 with
    | .ok vals vecs =>
      some (fun k => if k < g.values.cols then vals.mem k else 0,
        fun k => if k < (Fill.rowsCols (GridInterp.vectorShape kind g)).2 then vecs.mem k else 0)
    | _ => none

/-- `ir_interpolate_at`, bz_mesh.hpp 97-136 and bz_nest.hpp 92-130, which are the same but for what `interpolate_at` does -/
def interpolateWith (kind : GridInterp.Kind) (locate : Pt → Option (List (ℕ × ℚ))) (S : Wedge.Setup) (st : Wedge.St) (b : Prim.Bravais)
    (z : Move.Zone) (inside : Prim.OnLattice → Pt → Bool) (c : GridInterp.Numeric ℚ ℚ ℚ) (g : Fill.Grid ℚ ℚ) (s : Turning ℚ)
    (Qs : List Pt) : Option (List ((ℕ → ℚ) × (ℕ → ℚ))) :=
  irInterpolateAt b z inside (wedge S st) (operations S.timeReversal S.R) (locatedAt kind S.B locate c g) s (kindOf g.values false)
    (kindOf g.vectors false) Qs

/-- `BrillouinZoneMesh3::ir_interpolate_at`, bz_mesh.hpp 97-136 -/
noncomputable def interpolateMeshAt (tol : Mesh.Tolerance) (m : Mesh.TetTri) :=
  interpolateWith .trellis (m.locate tol)

/-- `BrillouinZoneNest3::ir_interpolate_at`, bz_nest.hpp 92-130; the root has the branches, and the vertices are numbered -/
def interpolateNestAt (isZero : ℚ → Bool) (near : ℚ → ℚ → Bool) (branches : List Nest.Node) (verts : List Pt) :=
  interpolateWith .nest fun x => some (Nest.indicesWeights isZero near (fun i => verts.getD i 0) branches x)

/-- `get_mesh_hkl`, bz_mesh.hpp 71-73, and `get_hkl`, bz_nest.hpp 64: the vertices in relative lattice units, where data are wanted -/
def hklOf (B : Fin 3 → Pt) (vertices : List Pt) : List Pt := vertices.map (relative B)

end Brille.EndToEnd
