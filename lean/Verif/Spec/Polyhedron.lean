/-
What it means for two lists of faces to describe the same polyhedron, and what a closed surface is.
-/
import Mathlib.Data.List.Rotate
import Mathlib.Data.List.Perm.Subperm
import Mathlib.Algebra.Order.Field.Rat
import Mathlib.Data.Fin.VecNotation

namespace Brille.Spec

/-- one polygon can be read from another by starting at another vertex -/
def SamePolygon (f g : List Nat) : Prop := ∃ n, g.rotate n = f

/-- the two lists hold the same polygons, in any order, as often in the one as in the other -/
def SameSurface (a b : List (List Nat)) : Prop := ∃ c, c.Perm b ∧ List.Forall₂ SamePolygon a c

/-- the steps from vertex to vertex around a polygon -/
def steps {α : Type} (f : List α) : List (α × α) := f.zip (f.rotate 1)

/-- closed and consistently oriented: each step along an edge is undone by a step of another face -/
def Closed (faces : List (List Nat)) : Prop :=
  ∀ a b, (faces.flatMap steps).count (a, b) = (faces.flatMap steps).count (b, a)

/-- the points lie in a plane -/
def Planar (l : List (Fin 3 → ℚ)) : Prop :=
  ∃ (n : Fin 3 → ℚ) (d : ℚ), n ≠ 0 ∧ ∀ p ∈ l, n 0 * p 0 + n 1 * p 1 + n 2 * p 2 = d

/-- the determinant of three vectors -/
def triple (a b c : Fin 3 → ℚ) : ℚ :=
  a 0 * (b 1 * c 2 - b 2 * c 1) + a 1 * (b 2 * c 0 - b 0 * c 2) + a 2 * (b 0 * c 1 - b 1 * c 0)

end Brille.Spec

namespace Brille.Spec

/-- the points at the corners of the faces -/
def corners {α : Type} (points : List α) (faces : List (List Nat)) : List (List (Option α)) :=
  faces.map fun f => f.map fun i => points[i]?

end Brille.Spec

namespace Brille.Spec

/-- the convex closure: the points reached from given points by taking points between two -/
inductive ConvexClosure (S : (Fin 3 → ℚ) → Prop) : (Fin 3 → ℚ) → Prop
  | given (p) : S p → ConvexClosure S p
  | between (p q : Fin 3 → ℚ) (t : ℚ) : ConvexClosure S p → ConvexClosure S q → 0 ≤ t → t ≤ 1 →
      ConvexClosure S (fun d => p d + t * (q d - p d))

end Brille.Spec
