/-
The search for an irreducible zone with the planes that it chooses itself: `wedge_brute_force` of /repo/src/bz_wedge.cpp, as `construct` of
/repo/src/bz.hpp calls it, put together from the choice of the planes (`Model/WedgeSearch.lean`) and what is done with them
(`Model/Wedge.lean`).
-/
import Verif.Model.Wedge
import Verif.Model.WedgeSearch
import Verif.Model.PointGroup

namespace Brille.WedgeWhole

open Brille.Tetra Brille.Faces Brille.IrCheck Brille.Wedge

/-- `half_edges`, polyhedron_faces.hpp 201-213 -/
def halfEdges (P : Poly) : Option (List Pt) :=
  (Faces.edges P.2).map fun es => es.map fun e d => (P.1.getD e.1 0 d + P.1.getD e.2 0 d) / 2

/-- the characteristic points of the first zone, bz_wedge.cpp 64 -/
def special (P : Poly) : Option (List Pt) := (halfEdges P).map fun half => P.2.map (facePoint P.1) ++ P.1 ++ half

/-- the real basis, up to the factor 2π -/
def realBasis (B : Fin 3 → Pt) : Fin 3 → Pt :=
  let d := dot (B 0) (cross (B 1) (B 2))
  ![fun i => cross (B 1) (B 2) i / d, fun i => cross (B 2) (B 0) i / d, fun i => cross (B 0) (B 1) i / d]

/-- what the search knows of an operation: `ps.get`, `ps.order`, `ps.isometry` and `ps.axis`, whose coordinates are relative to the real basis,
pointsymmetry.cpp 272-286 -/
def opOf (B : Fin 3 → Pt) (r : IrCheck.Op) : WedgeSearch.Op ℚ :=
  { turn := rotate B r, order := Sym.rotationOrder r, isometry := Sym.isometryValue r,
    axis := cartesian (realBasis B) fun i => ((PG.axisAndPerpendicular r).getD 0 (fun _ => 0) i : ℚ) }

/-- how `std::sort` leaves the operations, bz_wedge.cpp 67-86, and the groups of equivalent points, 236-244, for both values of the flags: the
order of what compares equal is not determined -/
structure Sorts where
  ops : Bool → List IrCheck.Op → List IrCheck.Op
  groups : Bool → List (List ℕ) → List (List ℕ)

/-- the flags of the attempts, bz.hpp 167-181, with the default values in line 580: `special_2_folds`, `special_mirrors`, `sort_by_length` and
`sort_one_sym` -/
def flags : List (Bool × Bool × Bool × Bool) :=
  [(true, true, true, true), (false, false, true, true), (false, true, true, true), (true, false, true, true), (true, true, false, true),
    (true, false, true, false), (false, false, false, true), (false, false, false, false)]

/-- the planes that an attempt cuts with, bz_wedge.cpp 54-371 -/
def chosen (sorts : Sorts) (S : Setup) (points : List Pt) (f : Bool × Bool × Bool × Bool) : List Pt :=
  (WedgeSearch.search f.1 f.2.1 (sorts.groups f.2.2.2) (realBasis S.B) S.B
    ((sorts.ops f.2.2.1 (Sym.higher (operations S.timeReversal S.R) 1)).map (opOf S.B)) points).normals

/-- `all_axes.unique().size(0) == 1`, bz_wedge.cpp 409-413 -/
def oneAxis (S : Setup) : Bool :=
  decide (((Sym.higher (operations S.timeReversal S.R) 1).map fun r => (PG.axisAndPerpendicular r).getD 0 fun _ => 0).dedup.length = 1)

/-- `construct` from bz.hpp 160 on, with `wedge_search` set, for a lattice that is not triclinic -/
def construct (sorts : Sorts) (S : Setup) : Option Wedge.St :=
  match special S.first with
  | none => none
  | some points => Wedge.construct S false (oneAxis S) (flags.map (chosen sorts S points))

end Brille.WedgeWhole
