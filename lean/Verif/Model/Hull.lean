/-
The constructor of a convex hull from its points, `Poly(vertices)`: the search for bounding planes, for the points in each of them, and
for the polygons, /repo/src/geometry.hpp 340-364, 650-745 and 861-882, with /repo/src/polyhedron_faces.hpp 51-92.  Coordinates are exact,
so the comparisons with a tolerance are equalities.  `three_point_normal` divides by the length of the normal; normals are compared by
their directions instead.
-/
import Verif.Model.SortFace
import Verif.Model.FaceEdit
import Mathlib.Data.Nat.Choose.Basic

namespace Brille.HullOf

open Brille.Tetra Brille.Faces Brille.Cut

/-- two vectors have the same direction: their quotients by their lengths are equal (geometry.hpp 250-252, 690) -/
def sameDirection (m n : Pt) : Bool := decide (cross m n = 0) && decide (0 < dot m n)

/-- `pseudo_colinear` of three points, geometry.hpp 146-181 -/
def colinear (a b c : Pt) : Bool :=
  [(0, 1), (0, 2), (1, 2)].all fun (i, j) => decide ((a i - c i) * (b j - c j) - (a j - c j) * (b i - c i) = 0)

/-- the body of the three loops of `find_convex_hull_planes`, geometry.hpp 662-683 -/
def boundingPlane (points : List Pt) (i j k : Nat) : Option Plane :=
  let at' := fun l => points.getD l 0
  if colinear (at' i) (at' j) (at' k) then none
  else
    let others := (List.range points.length).filter fun r => !(r == i || r == j || r == k)
    let positive := others.all fun r => decide (0 ≤ orient3d (at' i) (at' j) (at' k) (at' r))
    let negative := others.all fun r => decide (orient3d (at' i) (at' j) (at' k) (at' r) ≤ 0)
    if positive != negative then
      some ⟨at' (if positive then i else j), at' (if positive then j else i), at' k⟩
    else none

/-- the three loops, geometry.hpp 661 -/
def boundingPlanes (points : List Pt) : List Plane :=
  let above := fun i => (List.range points.length).filter fun j => decide (i < j)
  (List.range points.length).flatMap fun i => (above i).flatMap fun j => (above j).filterMap fun k => boundingPlane points i j k

/-- `find_convex_hull_planes`, geometry.hpp 648-695; `none`: it throws -/
def hullPlanes (points : List Pt) : Option (List Plane) :=
  if points.length < 4 then none
  else if 2 ^ 32 - 1 < points.length.choose 3 then none
  else some (Approx.unique (fun P Q : Plane => !sameDirection P.normal Q.normal) (boundingPlanes points))

/-- `find_planes_containing_point`, geometry.hpp 726-745 -/
def planesContaining (planes : List Plane) (points : List Pt) : List (List Nat) :=
  points.map fun d => (List.range planes.length).filter fun j => ((planes[j]?).map fun P => decide (P.orient d = 0)).getD false

/-- `orient2d` of (1, 0) and two points of the plane is zero.  The coordinates along the axis `x` and the one across it, `y`, are
multiplied by the lengths of `x` and of `y`, so that the first point is at the length of `x`, the square root of `xx`:
`P * sqrt xx + Q = 0` -/
def flat (xx : ℚ) (b c : ℚ × ℚ) : Bool :=
  let P := b.2 - c.2
  let Q := SortFace.det2 b c
  decide (P * P * xx = Q * Q ∧ P * Q ≤ 0)

/-- `face_has_area`, geometry.hpp 338-364: a sum of absolute values is positive if one of them is.  If the first three points are on a
line, or the first point is the centre, an axis is 0 / 0 in every component and no comparison holds. -/
def faceHasArea (points : List Pt) : Bool :=
  if points.length < 3 then false
  else
    let centre := SortFace.centre points
    let facet := points.map fun p => diff p centre
    let x := facet.getD 0 0
    let z := cross (diff (facet.getD 1 0) (facet.getD 0 0)) (diff (facet.getD 2 0) (facet.getD 1 0))
    if z = 0 ∨ x = 0 then false
    else
      let y := cross z x
      (List.range (facet.length - 2)).any fun i =>
        !flat (dot x x) (dot (facet.getD (i + 1) 0) x, dot (facet.getD (i + 1) 0) y) (dot (facet.getD (i + 2) 0) x, dot (facet.getD (i + 2) 0) y)

/-- `polygon_faces` for the planes, geometry.hpp 861-882; `none`: it throws -/
def polygonFaces (planes : List Plane) (facesPerPoint : List (List Nat)) (points : List Pt) : Option (List Face) :=
  let faces := ListUtil.invertLists facesPerPoint
  if planes.length ≠ faces.length then none
  else some (((planes.zip faces).filter fun (_, face) => faceHasArea (face.map fun i => points.getD i 0)).map
    fun (P, face) => SortFace.sortFace P face points)

/-- the search for faces in `Faces(vertices)`, polyhedron_faces.hpp 56-60, among the different vertices -/
def search (points : List Pt) : Option (List Face) :=
  match hullPlanes points with
  | none => none
  | some planes =>
    let fpv := planesContaining planes points
    if fpv.any fun l => decide (l.length > 2) then polygonFaces planes fpv points else some []

/-- the convex hull `Poly(vertices)`, polyhedron_flex.hpp 22-29, polyhedron_faces.hpp 51-81; `none`: the constructor throws -/
def hull (vertices : List Pt) : Option (List Pt × List Face) :=
  (search (Approx.unique (fun x y => !decide (x = y)) vertices)).map fun proto =>
    FaceEdit.hullOf (fun x y => decide (x = y)) (fun _ => proto) vertices

end Brille.HullOf
