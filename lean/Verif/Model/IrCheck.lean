/-
The test of a trial irreducible Brillouin zone: `check_ir_polyhedron` of /repo/src/bz.cpp, and `apply`, `intersection` and
`intersects` of /repo/src/polyhedron_flex.hpp.
Coordinates are exact, in the Cartesian frame of the lattice; where the code works with the coordinates relative to the
reciprocal lattice they are computed from these.
-/
import Verif.Model.Zone
import Verif.Model.Symmetry

namespace Brille.IrCheck

open Brille.Tetra Brille.Faces Brille.Cut Brille.SortFace

/-- an operation of the point group, as a matrix relative to the direct lattice -/
abbrev Op := Fin 3 → Fin 3 → ℤ

/-- a polyhedron: `_vertices` and `_faces` of `Poly`, polyhedron_flex.hpp 17-18 -/
abbrev Poly := List Pt × List Face

/-- the coordinates of a point relative to the reciprocal lattice, the rows of `B`, which are stored in an `LVec` -/
def relative (B : Fin 3 → Pt) (x : Pt) : Pt :=
  let d := dot (B 0) (cross (B 1) (B 2))
  ![dot x (cross (B 1) (B 2)) / d, dot x (cross (B 2) (B 0)) / d, dot x (cross (B 0) (B 1)) / d]

/-- the Cartesian position for coordinates relative to the reciprocal lattice, `LVec::xyz` -/
def cartesian (B : Fin 3 → Pt) (h : Pt) : Pt := fun d => h 0 * B 0 d + h 1 * B 1 d + h 2 * B 2 d

/-- `multiply_matrix_vector` with the transposed matrix, polyhedron_flex.hpp 164-172 and 178 -/
def rotate (B : Fin 3 → Pt) (r : Op) (x : Pt) : Pt :=
  let h := relative B x
  cartesian B fun i => r 0 i * h 0 + r 1 i * h 1 + r 2 i * h 2

/-- `three_point_normal` of a face, without the normalisation: only signs are used -/
def faceNormal (v : List Pt) (face : Face) : Pt :=
  cross (diff (v.getD (face.getD 1 0) 0) (v.getD (face.getD 0 0) 0)) (diff (v.getD (face.getD 2 0) 0) (v.getD (face.getD 0 0) 0))

/-- the plane through the first three corners of a face, one of `planes()`, polyhedron_faces.hpp 152-171, and the points
`sort_convex_polygon_face` passes on, geometry.hpp 844-848 -/
def facePlane (v : List Pt) (face : Face) : Plane :=
  ⟨v.getD (face.getD 0 0) 0, v.getD (face.getD 1 0) 0, v.getD (face.getD 2 0) 0⟩

/-- `std::swap(i_face[1], i_face[2])`, polyhedron_flex.hpp 181 -/
def swap12 (face : Face) : Face := (face.set 1 (face.getD 2 0)).set 2 (face.getD 1 0)

/-- one turn of the loop over the faces in `Poly::apply`, polyhedron_flex.hpp 177-184 -/
def applyFace (B : Fin 3 → Pt) (r : Op) (v rotated : List Pt) (face : Face) : Face :=
  let post := rotate B r (faceNormal v face)
  if dot post (faceNormal rotated face) < 0 then sortFace (facePlane rotated (swap12 face)) (swap12 face) rotated
  else face

/-- `Poly::apply`, polyhedron_flex.hpp 161-188, for vertices in reciprocal space -/
def apply (B : Fin 3 → Pt) (r : Op) (P : Poly) : Poly :=
  let rotated := P.1.map (rotate B r)
  (rotated, P.2.map (applyFace B r P.1 rotated))

/-- `Poly::volume`, polyhedron_flex.hpp 68 -/
def volume (P : Poly) : ℚ := Faces.volume P.2 fun i => P.1.getD i 0

/-- `Poly::intersection`, polyhedron_flex.hpp 212-216 -/
def intersection (P that : Poly) : Option Poly := cut sortFace (that.2.map (facePlane that.1)) P.1 P.2

/-- `Poly::intersects`, polyhedron_flex.hpp 199-211; `near` is the approximate comparison, `none` an exception -/
def intersects (near : ℚ → ℚ → Bool) (P that : Poly) : Option Bool :=
  (intersection P that).map fun overlap => !near (volume overlap / (volume P + volume that)) 0

/-- the loop of `check_ir_polyhedron`, bz.cpp 83-90 -/
def noneIntersects (near : ℚ → ℚ → Bool) (B : Fin 3 → Pt) (ir : Poly) : List Op → Option Bool
  | [] => some true
  | r :: rest =>
    match intersects near ir (apply B r ir) with
    | none => none
    | some true => some false
    | some false => noneIntersects near B ir rest

/-- the operations used: `time_reversal` adds the inversion, bz.cpp 72-73 -/
def operations (timeReversal : Bool) (R : List Op) : List Op := if timeReversal then Sym.addSpaceInversion R else R

/-- `BrillouinZone::check_ir_polyhedron`, bz.cpp 69-94, after the call of `check_if_mirroring_needed` in line 71, which may
have replaced the polyhedron.  `higher` sorts the operations, which makes no difference. -/
def check (near : ℚ → ℚ → Bool) (B : Fin 3 → Pt) (timeReversal : Bool) (R : List Op) (first ir : Poly) : Option Bool :=
  let ps := operations timeReversal R
  let goal := volume first / ps.length
  if !near (volume ir) goal then some false
  else noneIntersects near B ir (Sym.higher ps 1)

/-- the loops of `wedge_triclinic` over normals, bz_wedge.cpp 470-475 and 478-483: whether one was accepted, and the last
`ir_wedge_normals` and `_irreducible` -/
def wedgeLoop (near : ℚ → ℚ → Bool) (B : Fin 3 → Pt) (timeReversal : Bool) (R : List Op) (first : Poly) :
    List Pt → Pt × Poly → Option (Bool × Pt × Poly)
  | [], last => some (false, last)
  | n :: rest, _ =>
    match oneCut sortFace (Zone.planePoints (fun d => -1 * n d) 0) first.1 first.2 with
    | none => none
    | some ir =>
      match check near B timeReversal R first ir with
      | none => none
      | some true => some (true, n, ir)
      | some false => wedgeLoop near B timeReversal R first rest (n, ir)

/-- `BrillouinZone::wedge_triclinic`, bz_wedge.cpp 457-485.  The normals are not normalised. -/
def wedgeTriclinic (near : ℚ → ℚ → Bool) (B : Fin 3 → Pt) (timeReversal : Bool) (R : List Op) (first : Poly) :
    Option (Bool × Pt × Poly) :=
  wedgeLoop near B timeReversal R first
    (first.2.map (faceNormal first.1) ++ [cartesian B ![1, 0, 0], cartesian B ![0, 1, 0], cartesian B ![0, 0, 1], cartesian B ![1, 1, 1]])
    (0, [], [])

end Brille.IrCheck
