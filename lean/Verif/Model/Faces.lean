/-
The faces of polyhedra: /repo/src/polyhedron_faces.hpp, polyhedron_faces.cpp, and the parts of
/repo/src/polyhedron_flex.hpp that only combine them.  A face is the list of the indices of its vertices; the
vertices are given by a function from indices to points in an orthonormal frame with exact coordinates.
-/
import Verif.Model.Tetra
import Verif.Model.ListUtil
import Mathlib.Algebra.BigOperators.Group.List.Basic
import Mathlib.Algebra.Order.Field.Rat

namespace Brille.Faces

open Brille.Tetra

abbrev Face := List Nat

/-- `one`: the face starting `roll` vertices later, polyhedron_faces.cpp 30-31 -/
def rolled (itr : Face) (roll : Nat) : Face :=
  (List.range itr.length).map fun i => itr.getD ((i + roll) % itr.length) 0

/-- the test of one face against another, polyhedron_faces.cpp 27-36 -/
def sameFace (face itr : Face) : Bool :=
  decide (itr.length = face.length) && (List.range itr.length).any fun roll => decide (rolled itr roll = face)

/-- the matching loop, polyhedron_faces.cpp 24-44: each face takes the first partner left -/
def matchAll : List Face → List Face → Bool
  | [], _ => true
  | f :: fs, faces =>
    match faces.findIdx? (sameFace f) with
    | none => false
    | some k => matchAll fs (faces.eraseIdx k)

/-- `Faces::operator==`, polyhedron_faces.hpp 116-117 and .cpp 8-46 -/
def facesEq (a b : List Face) : Bool :=
  decide (a.length = b.length) &&
  decide ((b.map List.length).foldl (· + ·) 0 = (a.map List.length).foldl (· + ·) 0) && matchAll a b

/-- `Faces::permute`, polyhedron_faces.hpp 119-130 -/
def permute (permutation : List Nat) (faces : List Face) : List Face :=
  faces.map fun f => f.map fun i => permutation.getD i 0

/-- `Faces::indexes`, polyhedron_faces.hpp 142-149 -/
def indexes (faces : List Face) : List Nat :=
  faces.foldl (fun all f => f.foldl (fun all x => if x ∈ all then all else all ++ [x]) all) []

/-- the edges of one face, polyhedron_faces.cpp 52-54 -/
def faceEdges (face : Face) : List (Nat × Nat) :=
  (List.range face.length).map fun i => (face.getD i 0, face.getD ((i + 1) % face.length) 0)

/-- `Faces::edges_per_face`, polyhedron_faces.cpp 48-58 -/
def edgesPerFace (faces : List Face) : List (List (Nat × Nat)) := faces.map faceEdges

/-- one turn of the loop of `Faces::edges`: `unseen` is looked up in both directions, polyhedron_faces.cpp 74-83 -/
def addEdge (found : List (Nat × Nat)) (e : Nat × Nat) : List (Nat × Nat) :=
  if e ∉ found ∧ (e.2, e.1) ∉ found then found ++ [e] else found

/-- `Faces::edges`, polyhedron_faces.cpp 60-91.  `none`: the exception, if fewer edges are found than expected, or a
write outside of the array, if more are found.  (The code numbers the vertices anew for the table of pairs
already seen, which makes no difference.) -/
def edges (faces : List Face) : Option (List (Nat × Nat)) :=
  let found := (edgesPerFace faces).flatten.foldl addEdge []
  if found.length + 2 = faces.length + (indexes faces).length then some found else none

/-- one term of `volume`, polyhedron_faces.hpp 265 -/
def volumeTerm (a b c : Pt) : ℚ := dot (cross (diff b a) (diff c a)) a

/-- the sum of a function over the triangles into which the code divides a face, polyhedron_faces.hpp 262-267 and
222-231: `i` from 1 while `i < face.size() - 1`.  An empty face would read beyond its end; in the model it has no
triangles. -/
def fanSum (g : Pt → Pt → Pt → ℚ) (x : Nat → Pt) (face : Face) : ℚ :=
  ((List.range' 1 (face.length - 2)).map fun i =>
    g (x (face.getD 0 0)) (x (face.getD i 0)) (x (face.getD (i + 1) 0))).sum

/-- `Faces::volume`, polyhedron_faces.hpp 254-269 -/
def volume (faces : List Face) (x : Nat → Pt) : ℚ := (faces.map (fanSum volumeTerm x)).sum / 6

/-- one term of component `j` of `centroid`, polyhedron_faces.hpp 227-229 -/
def centroidTerm (j : Fin 3) (a b c : Pt) : ℚ :=
  cross (diff b a) (diff c a) j * ((a j + b j) ^ 2 + (b j + c j) ^ 2 + (c j + a j) ^ 2)

/-- `Faces::centroid`, polyhedron_faces.hpp 215-233 -/
def centroid (faces : List Face) (x : Nat → Pt) : Pt := fun j =>
  (faces.map (fanSum (centroidTerm j) x)).sum / (48 * volume faces x)

/-- `Faces::mirror`, polyhedron_faces.hpp 296 -/
def mirror (faces : List Face) : List Face := ListUtil.reverseEach faces

/-- the vertices of `Poly::mirror`, polyhedron_flex.hpp 145 -/
def mirrorVertices (x : Nat → Pt) : Nat → Pt := fun i j => -1 * x i j

/-- `Faces::combine`, polyhedron_faces.cpp 105-116 -/
def combine (a b : List Face) (offset : Nat) : List Face := a ++ b.map fun f => f.map fun i => i + offset

/-- the vertices of `bounding_box`, polyhedron_flex.hpp 313-322 -/
def boxVertices (mn mx : Pt) (i : Nat) : Pt :=
  ([![mn 0, mn 1, mn 2], ![mn 0, mx 1, mn 2], ![mn 0, mx 1, mx 2], ![mn 0, mn 1, mx 2],
    ![mx 0, mn 1, mn 2], ![mx 0, mx 1, mn 2], ![mx 0, mx 1, mx 2], ![mx 0, mn 1, mx 2]] : List Pt).getD i 0

/-- the faces of `bounding_box`, polyhedron_flex.hpp 324 -/
def boxFaces : List Face := [[3, 0, 4, 7], [3, 2, 1, 0], [0, 1, 5, 4], [3, 7, 6, 2], [7, 4, 5, 6], [2, 6, 5, 1]]

/-- `Faces::contains` for one point and without tolerance, polyhedron_faces.hpp 314-333, with `planes`
(polyhedron_faces.cpp 93-102: the first three vertices of each face) and `point_inside_all_planes`
(geometry.hpp 412-418): the least of the values is not negative. -/
def contains (faces : List Face) (x : Nat → Pt) (p : Pt) : Bool :=
  faces.all fun f => decide (0 ≤ orient3d (x (f.getD 0 0)) (x (f.getD 1 0)) (x (f.getD 2 0)) p)

end Brille.Faces
