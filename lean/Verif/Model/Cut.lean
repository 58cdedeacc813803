/-
Cutting a polyhedron with planes: `Faces::none_beyond`, `one_cut` and `cut` of /repo/src/polyhedron_faces.hpp and the
functions of /repo/src/geometry.hpp they use.  Points are given in an orthonormal frame with exact coordinates, all
comparisons are exact.  `three_point_normal` is used without its normalisation, which cancels in each use.  The
sorting of the corners of a new face (`sort_convex_polygon_face`, geometry.hpp 745-827) is a parameter.
-/
import Verif.Model.FaceEdit
import Mathlib.Data.Fintype.Basic

namespace Brille.Cut

open Brille.Tetra Brille.Faces Brille.FaceEdit

/-- three points of a plane -/
structure Plane where
  a : Pt
  b : Pt
  c : Pt

/-- the normal of the plane, `three_point_normal` -/
def Plane.normal (P : Plane) : Pt := cross (diff P.b P.a) (diff P.c P.a)

def Plane.orient (P : Plane) (x : Pt) : ℚ := orient3d P.a P.b P.c x

/-- `Faces::face_index`, polyhedron_faces.hpp 344-366: the last face that lies in the plane and has its direction -/
def faceIndex (P : Plane) (v : List Pt) (faces : List Face) : Nat :=
  (List.range faces.length).foldl (fun m i =>
    let face := faces.getD i []
    if (face.all fun x => decide (P.orient (v.getD x 0) = 0)) &&
        decide (dot (cross (diff (v.getD (face.getD 1 0) 0) (v.getD (face.getD 0 0) 0))
          (diff (v.getD (face.getD 2 0) 0) (v.getD (face.getD 0 0) 0))) P.normal > 0)
    then i else m) faces.length

/-- `Faces::none_beyond`, polyhedron_faces.hpp 374-399 -/
def noneBeyond (P : Plane) (v : List Pt) (faces : List Face) : Bool :=
  let m := faceIndex P v faces
  let f := (List.range v.length).filter fun i => !(decide (m < faces.length) && decide (i ∈ faces.getD m []))
  f.all fun i => decide (P.orient (v.getD i 0) < 0)

/-- `point_inside_plane`, geometry.hpp 376-394 -/
def inside (P : Plane) (v : List Pt) : List Bool := v.map fun x => decide (P.orient x ≥ 0)

/-- `keep_to_cut_edge_list`, geometry.hpp 470-497: pairs of faces and the edge, from the vertex removed to the one kept -/
def cutEdges (keep : List Bool) (edges : List (List (Nat × Nat))) : List (Nat × Nat × (Nat × Nat)) :=
  (List.range keep.length).flatMap fun j =>
    if keep.getD j false then []
    else (List.range edges.length).flatMap fun first =>
      (edges.getD first []).flatMap fun edge =>
        if edge.1 = j ∧ keep.getD edge.2 false = true then
          (List.range edges.length).flatMap fun second =>
            if second ≠ first then
              (edges.getD second []).flatMap fun oppo =>
                if oppo.1 = edge.2 ∧ oppo.2 = j then [(first, second, edge)] else []
            else []
        else []

/-- one turn of the loop of `valid_edge_plane_intersections`, geometry.hpp 607-641; `none`: skipped -/
def intersection (P : Plane) (v : List Pt) (edge : Nat × Nat) : Option Pt :=
  let v1 := v.getD edge.1 0
  let v2 := v.getD edge.2 0
  let lineU := diff v2 v1
  let denominator := dot P.normal lineU
  if denominator = 0 then none
  else
    let factor := dot P.normal (diff P.a v1) / denominator
    if factor < 0 then some v1
    else if factor > 1 then some v2
    else some fun d => v1 d + factor * lineU d

/-- `valid_edge_plane_intersections`, geometry.hpp 602-645 -/
def intersections (P : Plane) (v : List Pt) (cut : List (Nat × Nat × (Nat × Nat))) :
    List (Nat × Nat × (Nat × Nat) × Pt) :=
  cut.filterMap fun e => (intersection P v e.2.2).map fun x => (e.1, e.2.1, e.2.2, x)

/-- the variables of the loop of `one_cut` -/
structure St where
  keep : List Bool
  v : List Pt
  f : List Face
  newFace : Face
  count : Nat

/-- one turn of the loop of `one_cut`, polyhedron_faces.hpp 432-469; `none`: an exception -/
def cutStep (st : St) (x : Nat × Nat × (Nat × Nat) × Pt) : Option St :=
  let first := x.1
  let second := x.2.1
  let edge := x.2.2.1
  let index := st.v.findIdx fun p => decide (p = x.2.2.2)
  let keep := if index < st.keep.length then st.keep.set index true else st.keep
  if st.keep.length ≤ index ∧ index < st.v.length then none
  else
    let v := if index = st.v.length then st.v ++ [x.2.2.2] else st.v
    let count := if index = st.v.length then st.count + 1 else st.count
    match ListUtil.addBetweenIfMissing (st.f.getD first []) edge.1 edge.2 index with
    | none => none
    | some (f1, _) =>
      let f := st.f.set first f1
      match ListUtil.addBetweenIfMissing (f.getD second []) edge.2 edge.1 index with
      | none => none
      | some (f2, _) =>
        some { keep, v, f := f.set second f2, newFace := (ListUtil.addIfMissing st.newFace index).1, count }

/-- `remove_middle_colinear_points_from_one_face`, geometry.hpp 947-965.  The product of the two unit vectors is less than
one unless they point in the same direction; with a vector of length zero it is not a number, and the comparison false. -/
def removeMiddle (v : List Pt) (face : Face) : Face :=
  if face.length > 2 then
    face.getD 0 0 :: (List.range' 1 (face.length - 1)).filterMap fun i =>
      let e0 := diff (v.getD (face.getD i 0) 0) (v.getD (face.getD (i - 1) 0) 0)
      let e1 := diff (v.getD (face.getD ((i + 1) % face.length) 0) 0) (v.getD (face.getD i 0) 0)
      if cross e0 e1 ≠ 0 ∨ dot e0 e1 < 0 then some (face.getD i 0) else none
  else []

/-- `remove_middle_colinear_points_from_faces`, geometry.hpp 966-977 -/
def removeMiddles (v : List Pt) (faces : List Face) : List Face :=
  (faces.map (removeMiddle v)).filter fun one => decide (one.length > 2)

/-- the last part of `one_cut`, polyhedron_faces.hpp 486-501 -/
def cleanUp (keep : List Bool) (v : List Pt) (f : List Face) : Option (List Pt × List Face) :=
  let (v, f) := removePoints keep v f
  let f := removeMiddles v f
  let f := f.filter fun face => !decide (((ListUtil.unique face).getD []).length < 3)
  match removeDangling (f.length + 1) f with
  | none => none
  | some f => some (removeFaceless v f)

/-- `Faces::one_cut`, polyhedron_faces.hpp 408-501; `sort` sorts the corners of the new face -/
def oneCut (sort : Plane → Face → List Pt → Face) (P : Plane) (vin : List Pt) (faces : List Face) :
    Option (List Pt × List Face) :=
  if noneBeyond P vin faces then some (vin, [])
  else
    let keep := inside P vin
    if ¬ false ∈ keep then some (vin, faces)
    else if ¬ true ∈ keep then some (vin, [])
    else
      let cut := cutEdges keep (edgesPerFace faces)
      match (intersections P vin cut).foldlM cutStep { keep, v := vin, f := faces, newFace := [], count := 0 } with
      | none => none
      | some st =>
        let f := if st.newFace.length > 2 ∧ faceNotInFaces st.newFace faces = true
          then st.f ++ [sort P st.newFace st.v] else st.f
        if ¬ false ∈ st.keep then some (vin, faces)
        else cleanUp (st.keep ++ List.replicate st.count true) st.v f

/-- `Faces::cut`, polyhedron_faces.hpp 503-519 -/
def cut (sort : Plane → Face → List Pt → Face) (planes : List Plane) (v : List Pt) (faces : List Face) :
    Option (List Pt × List Face) :=
  planes.foldlM (fun r P => oneCut sort P r.1 r.2) (v, faces)

end Brille.Cut
