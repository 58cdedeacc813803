/-
The tetrahedra used for linear interpolation: `PolyNode` in /repo/src/trellis_node.hpp and `NestLeaf`,
`NestNode` in /repo/src/nest.hpp.

Simplifications: coordinates are exact rational numbers in an orthonormal frame, and the array of vertices is a
function of the index, that is, indices are in range.
-/
import Mathlib.Data.Rat.Defs
import Mathlib.Data.Fin.VecNotation
import Mathlib.Algebra.Order.Ring.Rat
import Mathlib.Data.List.FinRange

namespace Brille.Tetra

abbrev Pt := Fin 3 → ℚ

/-- `cross` of two vectors (array2 and lattice vectors in an orthonormal frame), array_.hpp / utilities.hpp
369-376 -/
def cross (a b : Pt) : Pt := ![a 1 * b 2 - a 2 * b 1, a 2 * b 0 - a 0 * b 2, a 0 * b 1 - a 1 * b 0]

/-- `dot` -/
def dot (a b : Pt) : ℚ := a 0 * b 0 + a 1 * b 1 + a 2 * b 2

/-- difference of two points -/
def diff (a b : Pt) : Pt := fun d => a d - b d

/-- `pseudo_orient3d`, geometry.hpp 120-138, for one plane and one point; also Shewchuk's exact `orient3d`,
which has the same sign convention and, without rounding, the same value. -/
def orient3d (a b c d : Pt) : ℚ := dot (diff a d) (cross (diff b d) (diff c d))

/-- A tetrahedron: the indices of its vertices, its circumsphere and its volume; an entry of the three members
of `PolyNode` (trellis_node.hpp 209-211), or a `NestLeaf` (nest.hpp 62-64). -/
structure Tet where
  vi : Fin 4 → Nat
  centre : Pt
  radius : ℚ
  vol : ℚ

/-- The four quotients of trellis_node.hpp 328-331, and of nest.hpp 82-85, 98-101. -/
def baryW (v : Nat → Pt) (t : Tet) (x : Pt) : Fin 4 → ℚ :=
  let vol6 := t.vol * 6
  ![orient3d x (v (t.vi 1)) (v (t.vi 2)) (v (t.vi 3)) / vol6,
    orient3d (v (t.vi 0)) x (v (t.vi 2)) (v (t.vi 3)) / vol6,
    orient3d (v (t.vi 0)) (v (t.vi 1)) x (v (t.vi 3)) / vol6,
    orient3d (v (t.vi 0)) (v (t.vi 1)) (v (t.vi 2)) x / vol6]

/-- the squared distance from the centre of the circumsphere, trellis_node.hpp 354-360, nest.hpp 117-122 -/
def dist2 (t : Tet) (x : Pt) : ℚ := dot (diff t.centre x) (diff t.centre x)

/-- `d2 < r2 || approx_float::scalar(d2, r2)`, trellis_node.hpp 363, nest.hpp 123; `near` is the approximate
comparison. -/
def inSphere (near : ℚ → ℚ → Bool) (t : Tet) (x : Pt) : Bool :=
  decide (dist2 t x < t.radius * t.radius) || near (dist2 t x) (t.radius * t.radius)

/-- `tetrahedra_might_contain`, trellis_node.hpp 347-364 -/
def mightContain (near : ℚ → ℚ → Bool) (t : Tet) (x : Pt) : ℚ := if inSphere near t x then 0 else -dist2 t x

/-- a weight that counts as negative, trellis_node.hpp 332, nest.hpp 45; `isZero` is the approximate comparison
with zero -/
def negative (isZero : ℚ → Bool) (z : ℚ) : Bool := decide (z < 0) && !isZero z

/-- `*std::min_element` of the four weights, trellis_node.hpp 333 -/
def min4 (w : Fin 4 → ℚ) : ℚ := min (min (w 0) (w 1)) (min (w 2) (w 3))

/-- the end of `tetrahedra_contains`, without the shortcut: trellis_node.hpp 332-334 -/
def worst (isZero : ℚ → Bool) (w : Fin 4 → ℚ) : ℚ :=
  if (List.finRange 4).any (fun j => negative isZero (w j)) then min4 w else 0

/-- `tetrahedra_contains`, trellis_node.hpp 314-335: the value returned; the weights are written unless the
shortcut is taken. -/
def tetContains (isZero : ℚ → Bool) (near : ℚ → ℚ → Bool) (v : Nat → Pt) (t : Tet) (x : Pt)
    (shortcut : Bool) : ℚ :=
  if shortcut && decide (mightContain near t x < 0) then mightContain near t x
  else worst isZero (baryW v t x)

/-- the vertices with a weight that does not count as zero, trellis_node.hpp 285-286 and 300-301 -/
def nonzero (isZero : ℚ → Bool) (t : Tet) (w : Fin 4 → ℚ) : List (Nat × ℚ) :=
  ((List.finRange 4).filter fun j => !isZero (w j)).map fun j => (t.vi j, w j)

/-- The outcome of `PolyNode::indices_weights`: true with the weights, false, or an exception or undefined
behaviour. -/
inductive Outcome
  | found (iw : List (Nat × ℚ))
  | notFound
  | bad
deriving DecidableEq

/-- `std::max_element` keeps the first of equal elements: the tetrahedron with the largest value of `most_neg`,
trellis_node.hpp 294. -/
def bestTet (val : Tet → ℚ) : List Tet → Option Tet
  | [] => none
  | t :: rest => some (rest.foldl (fun b t => if val b < val t then t else b) t)

/-- `PolyNode::indices_weights`, trellis_node.hpp 273-305.  Without tetrahedra the escape reads beyond the
end of the lists. -/
def polyIndicesWeights (isZero : ℚ → Bool) (near : ℚ → ℚ → Bool) (v : Nat → Pt) (tets : List Tet) (x : Pt)
    (shouldContain : Bool) : Outcome :=
  match tets.find? (fun t => decide (0 ≤ tetContains isZero near v t x true)) with
  | some t => .found (nonzero isZero t (baryW v t x))
  | none =>
    if shouldContain then
      match bestTet (fun t => tetContains isZero near v t x true) tets with
      | none => .bad
      | some t =>
        if 0 < tetContains isZero near v t x false then .bad
        else .found (nonzero isZero t (baryW v t x))
    else .notFound

/-- `PolyNode::vertices`, trellis_node.hpp 238-243 -/
def polyVertices (tets : List Tet) : List Nat :=
  (tets.flatMap fun t => (List.finRange 4).map t.vi).foldl (fun out i => if i ∈ out then out else out ++ [i]) []

/-- `PolyNode::volume`, trellis_node.hpp 308-312 -/
def polyVolume (tets : List Tet) : ℚ := (tets.map Tet.vol).foldl (· + ·) 0

end Brille.Tetra
