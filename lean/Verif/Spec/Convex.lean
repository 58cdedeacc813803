/-
Convex polyhedra described by their vertices and faces, and the set of points of a polyhedron.
-/
import Verif.Spec.Polyhedron
import Mathlib.Analysis.Convex.Hull
import Mathlib.Data.Real.Basic

namespace Brille.Spec

/-- the determinant of the vectors from `x` to `a`, `b` and `c`: positive if the three appear counter-clockwise from
beyond their plane when `x` is behind it -/
def side {K : Type} [CommRing K] (a b c x : Fin 3 → K) : K :=
  (a 0 - x 0) * ((b 1 - x 1) * (c 2 - x 2) - (b 2 - x 2) * (c 1 - x 1)) +
  (a 1 - x 1) * ((b 2 - x 2) * (c 0 - x 0) - (b 0 - x 0) * (c 2 - x 2)) +
  (a 2 - x 2) * ((b 0 - x 0) * (c 1 - x 1) - (b 1 - x 1) * (c 0 - x 0))

/-- a point with rational coordinates as a point of space -/
def real (p : Fin 3 → ℚ) : Fin 3 → ℝ := fun d => (p d : ℝ)

/-- the points of a solid with the given corners: their convex hull -/
def Hull (S : (Fin 3 → ℚ) → Prop) : Set (Fin 3 → ℝ) := convexHull ℝ {x | ∃ p, S p ∧ x = real p}

/-- a point is a corner of one of the polygons -/
def IsCorner (polygons : List (List (Fin 3 → ℚ))) (p : Fin 3 → ℚ) : Prop := ∃ f ∈ polygons, p ∈ f

/-- the faces of a convex polyhedron: polygons without repeated corners, each edge run along once in either direction;
every corner is behind every face, and in its plane only if it is a corner of it; there is a corner off each face; the
corners of a face are not all corners of another -/
structure ConvexPolyhedron (faces : List (List (Fin 3 → ℚ))) : Prop where
  simple : ∀ f ∈ faces, f.Nodup ∧ 3 ≤ f.length
  once : (faces.flatMap steps).Nodup
  closed : ∀ a b, (a, b) ∈ faces.flatMap steps → (b, a) ∈ faces.flatMap steps
  behind : ∀ f ∈ faces, ∀ a b c, (a, b) ∈ steps f → (b, c) ∈ steps f → ∀ p, IsCorner faces p →
    0 ≤ side a b c p ∧ (side a b c p = 0 ↔ p ∈ f)
  solid : ∀ f ∈ faces, ∃ p, IsCorner faces p ∧ p ∉ f
  apart : ∀ f ∈ faces, ∀ g ∈ faces, f ≠ g → ∃ p ∈ f, p ∉ g

/-- the polygons described by lists of indices of vertices -/
def polygons (v : List (Fin 3 → ℚ)) (faces : List (List Nat)) : List (List (Fin 3 → ℚ)) :=
  faces.map fun f => f.map fun i => v.getD i 0

/-- a convex polyhedron as a list of vertices, without repetition and all of them corners, and faces that index it -/
structure ConvexSolid (v : List (Fin 3 → ℚ)) (faces : List (List Nat)) : Prop where
  distinct : v.Nodup
  valid : ∀ f ∈ faces, ∀ i ∈ f, i < v.length
  used : ∀ i < v.length, ∃ f ∈ faces, i ∈ f
  convex : ConvexPolyhedron (polygons v faces)

end Brille.Spec
