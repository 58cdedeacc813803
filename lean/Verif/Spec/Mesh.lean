/-
What the tetrahedral mesh relies on, and what it is meant to give.
-/
import Verif.Model.Mesh
import Verif.Spec.TrellisWire
import Mathlib.Analysis.Real.Sqrt

namespace Brille.Spec

open Brille.Mesh
open Brille.IrCheck (Poly)

/-- the distance between two points -/
noncomputable def euclid (a b : Fin 3 → ℝ) : ℝ := Real.sqrt (∑ d, (a d - b d) ^ 2)

/-- What TetGen is relied on for: it triangulates every convex polyhedron, whatever the largest volume allowed, and its spheres go around the
corners of tetrahedra. -/
structure Dependable (G : Mesher) : Prop where
  tets : ∀ (P : Poly) (size : Option ℚ), ConvexSolid P.1 P.2 → P.2 ≠ [] → ∃ T, G.tetrahedralize P size = some T ∧ Triangulates P false T
  sphere : ∀ c, vol6 c ≠ 0 → ∀ j, euclid (real (c j)) (real (G.circumsphere c).1) ≤ (G.circumsphere c).2

/-- Comparisons without tolerance for weights and volumes; distances that are less or equal are seen to be. -/
structure Exact (tol : Tolerance) : Prop where
  zero : ∀ z, tol.isZero z = true ↔ z = 0
  near : ∀ a, tol.near a 0 = true ↔ a = 0
  le : ∀ a b, a ≤ b → tol.le a b = true

/-- A layer triangulates the polyhedron: its points are points of the polyhedron; no two are the same; the corners of its tetrahedra are among
them and in positive order; and every point of the polyhedron is in a tetrahedron. -/
structure Fills (P : Poly) (L : Layer) : Prop where
  inside : ∀ p ∈ L.positions, real p ∈ Hull (· ∈ P.1)
  distinct : L.positions.Nodup
  valid : ∀ t ∈ L.tets, ∀ j, t j < L.positions.length
  positive : ∀ t ∈ L.tets, 0 < vol6 fun j => L.positions.getD (t j) 0
  cover : ∀ x, real x ∈ Hull (· ∈ P.1) → ∃ t ∈ L.tets, InTet (fun j => L.positions.getD (t j) 0) x

/-- The work is distributed: for each layer but the lowest one every tetrahedron is handled once, in whatever order. -/
def Shared (orders : List (List Nat)) (layers : List Layer) : Prop :=
  ∀ k high, layers[k]? = some high → k + 1 < layers.length →
    (orders.getD k []).Nodup ∧ ∀ i, i ∈ orders.getD k [] ↔ i < high.tets.length

/-- Weights for linear interpolation at a point: they belong to different vertices, are positive, sum to one, and place the point. -/
structure Weighs (positions : List (Fin 3 → ℚ)) (vw : List (Nat × ℚ)) (x : Fin 3 → ℚ) : Prop where
  distinct : (vw.map Prod.fst).Nodup
  valid : ∀ p ∈ vw, p.1 < positions.length
  positive : ∀ p ∈ vw, 0 < p.2
  one : (vw.map Prod.snd).sum = 1
  place : ∀ d, (vw.map fun p => p.2 * positions.getD p.1 0 d).sum = x d

end Brille.Spec
