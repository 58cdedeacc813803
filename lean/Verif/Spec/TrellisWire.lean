/-
What the construction of the hybrid grid may rely on, and how its work may be distributed.
-/
import Verif.Model.TrellisWire
import Verif.Spec.Convex
import Verif.Spec.Tetra

namespace Brille.Spec

open Brille.TrellisWire Brille.Tetra
open Brille.IrCheck (Poly)
open Brille.Trellis (NodeType)

/-- What TetGen is relied on for: it keeps the given points, in order, and adds the origin if told so, and possibly further points; all are
different points of the polyhedron; the corners of the tetrahedra are among them, no tetrahedron is flat, and together they cover the
polyhedron. -/
structure Triangulates (P : Poly) (gamma : Bool) (T : Triangulation) : Prop where
  points : ∃ more, T.points = P.1 ++ (if gamma then [0] else []) ++ more
  distinct : T.points.Nodup
  inside : ∀ p ∈ T.points, real p ∈ Hull (· ∈ P.1)
  valid : ∀ t ∈ T.tets, ∀ j, t j < T.points.length
  solid : ∀ t ∈ T.tets, vol6 (T.corners t) ≠ 0
  cover : ∀ x, real x ∈ Hull (· ∈ P.1) → ∃ t ∈ T.tets, InTet (T.corners t) x

/-- TetGen triangulates every convex polyhedron, and its spheres go around the corners of tetrahedra. -/
structure Reliable (G : TetGen) : Prop where
  tets : ∀ (P : Poly) (gamma : Bool), ConvexSolid P.1 P.2 → P.2 ≠ [] → (gamma = true → real 0 ∈ Hull (· ∈ P.1) ∧ 0 ∉ P.1) →
    ∃ T, G.tetrahedralize P gamma = some T ∧ Triangulates P gamma T
  sphere : ∀ c, vol6 c ≠ 0 → InBall c (G.circumsphere c).1 (G.circumsphere c).2

/-- The work is distributed: every node that has to be looked at is given to one thread, once, and every cube and every polyhedron is
handled once in part two; in whatever order. -/
structure Distributed (S : Schedule) (types : List NodeType) : Prop where
  once : S.threads.flatten.Nodup
  all : ∀ i, i ∈ S.threads.flatten ↔ ∃ ty, types[i]? = some ty ∧ ty ≠ .assumedNull
  cubesOnce : S.cubes.Nodup
  cubes : ∀ i, i ∈ S.cubes ↔ types[i]? = some .cube
  polysOnce : S.polys.Nodup
  polys : ∀ i, i ∈ S.polys ↔ types[i]? = some .poly

end Brille.Spec
