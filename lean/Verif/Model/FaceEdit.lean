/-
Removing points of a polyhedron and renumbering its faces: /repo/src/geometry.hpp 884-1112, and the constructors of
/repo/src/polyhedron_faces.hpp and polyhedron_flex.hpp which do it.  Points are of any type; where the code compares
points the comparison is a parameter.  Indices of faces are below the number of points (the code has undefined
behaviour otherwise); the models read a default there.
-/
import Verif.Model.Faces
import Verif.Model.Approx
import Mathlib.Data.List.Sort

namespace Brille.FaceEdit

open Brille.Faces

variable {α : Type}

/-- `Array2::extract` of flags, array2.tpp 158-170 -/
def extract (keep : List Bool) (points : List α) : List α := ((points.zip keep).filter (·.2)).map (·.1)

/-- the numbers given to the points that are kept, counting from `count`; the others get `missing`
(geometry.hpp 897-899, 985-987, 1080-1083) -/
def newIndex (missing : Nat) : Nat → List Bool → List Nat
  | _, [] => []
  | count, true :: keep => count :: newIndex missing (count + 1) keep
  | count, false :: keep => missing :: newIndex missing count keep

/-- which points are on a face, geometry.hpp 887-892 and 1077-1078 -/
def onFace (n : Nat) (faces : List Face) : List Bool := (List.range n).map fun i => faces.any fun f => decide (i ∈ f)

/-- `polygon_face_vertex_purge`, geometry.hpp 884-906: the flag, and the two arguments afterwards -/
def purge (points : List α) (faces : List Face) : Bool × List α × List Face :=
  let keep := onFace points.length faces
  let total := keep.count true
  if total < points.length then
    let nim := newIndex total 0 keep
    (true, extract keep points, faces.map fun f => f.map fun v => if nim.getD v total < total then nim.getD v total else v)
  else (false, points, faces)

/-- the loop which turns the representatives into indices of the reduced list, geometry.hpp 930-933.  `index` is
changed in place: the entries before `j` are already new. -/
def renumber : List Bool → Nat → Nat → List Nat → List Nat
  | [], _, _, index => index
  | true :: unique, j, cnt, index => renumber unique (j + 1) (cnt + 1) (index.set j cnt)
  | false :: unique, j, cnt, index => renumber unique (j + 1) cnt (index.set j (index.getD (index.getD j 0) 0))

/-- `remove_duplicate_points_and_update_face_indexing`, geometry.hpp 908-945; `eq` compares two points -/
def removeDuplicates (eq : α → α → Bool) (points : List α) (faces : List Face) : List α × List Face :=
  let areUnique := Approx.isUnique (fun x y => !eq x y) points
  if false ∈ areUnique then
    let index := renumber areUnique 0 0 (Approx.uniqueIdx eq points)
    (extract areUnique points, faces.map fun f => f.map fun v => index.getD v 0)
  else (points, faces)

/-- `remove_points_and_update_face_indexing` with `sort = false`, geometry.hpp 977-1011 -/
def removePoints (keep : List Bool) (points : List α) (faces : List Face) : List α × List Face :=
  if false ∈ keep then
    let map := newIndex points.length 0 keep
    (extract keep points, (faces.map fun f =>
      (f.filter fun x => keep.getD x false).map fun x => map.getD x points.length).filter fun one => !decide (one.length < 3))
  else (points, faces)

/-- how many faces have the vertex, geometry.hpp 1027-1031 -/
def faceCount (source : List Face) (i : Nat) : Nat := source.countP fun f => decide (i ∈ f)

/-- one turn of the loop of `remove_dangling_faces`, geometry.hpp 1021-1047 -/
def dangleStep (source : List Face) : Bool × List Face :=
  if source.length < 1 then (false, source)
  else
    let checked := source.map fun f => f.filter fun x => decide (faceCount source x > 2)
    let valid := checked.filter fun f => decide (f.length > 2)
    (decide (source.length > valid.length), valid)

/-- `remove_dangling_faces`, geometry.hpp 1013-1072; `none`: the loop did not end within `fuel` turns -/
def removeDangling : Nat → List Face → Option (List Face)
  | 0, _ => none
  | fuel + 1, faces => if (dangleStep faces).1 then removeDangling fuel (dangleStep faces).2 else some (dangleStep faces).2

/-- `remove_faceless_points`, geometry.hpp 1074-1095 -/
def removeFaceless (points : List α) (faces : List Face) : List α × List Face :=
  let keep := onFace points.length faces
  if false ∈ keep then
    let map := newIndex points.length 0 keep
    (extract keep points, faces.map fun f => f.map fun i => map.getD i points.length)
  else (points, faces)

/-- `face_not_in_faces`, geometry.hpp 1097-1110 -/
def faceNotInFaces (candidate : Face) (faces : List Face) : Bool :=
  if ListUtil.unorderedListInLists candidate faces then false
  else faces.all fun face => decide (¬ (candidate.countP fun v => decide (v ∈ face)) > 2)

/-- the loop of `finish_convex_hull` over the vertices that are used, polyhedron_flex.hpp 287-290 -/
def hullIndex (n : Nat) (present : List Nat) : List Nat :=
  (present.zipIdx).foldl (fun indexes (x, kept) => indexes.set x kept) (List.replicate n n)

/-- `finish_convex_hull`, polyhedron_flex.hpp 273-299 -/
def finishHull (vertices : List α) (faces : List Face) : List α × List Face :=
  let present := (indexes faces).insertionSort (· ≤ ·)
  if (List.range vertices.length).all fun i => decide (i ∈ present) then (vertices, faces)
  else
    let indexes := hullIndex vertices.length present
    let keep := (List.range vertices.length).map fun i => decide (i ∈ present)
    (extract keep vertices, faces.map fun f => f.map fun x => indexes.getD x vertices.length)

/-- the two constructors of `Faces` which look for faces among the different vertices, polyhedron_faces.hpp 51-103:
`proto` stands for the search (polyhedron_faces.hpp 56-60 and 88-89), which answers with indices into the reduced
list of vertices it is given. -/
def facesOf (eq : α → α → Bool) (proto : List α → List Face) (vertices : List α) : List Face :=
  let uniqueVertices := Approx.unique (fun x y => !eq x y) vertices
  let (purged, left, faces) := purge uniqueVertices (proto uniqueVertices)
  if purged then
    faces.map fun f => f.map fun idx =>
      match left[idx]? with
      | none => vertices.length
      | some p => vertices.findIdx fun q => eq q p
  else faces

/-- the convex hull `Poly(vertices)`, polyhedron_flex.hpp 22-29 -/
def hullOf (eq : α → α → Bool) (proto : List α → List Face) (vertices : List α) : List α × List Face :=
  finishHull vertices (facesOf eq proto vertices)

end Brille.FaceEdit
