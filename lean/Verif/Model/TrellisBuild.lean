/-
The construction of the hybrid grid in a convex polyhedron: /repo/src/trellis_poly_parallel.tpp, with
`maximum_node_circumsphere_radius` and `trellis_node_faces` of /repo/src/trellis_poly.hpp and `circumsphere_radius` of
/repo/src/polyhedron_faces.hpp.
Coordinates are exact and Cartesian, as they are for the grid of a Brillouin zone (bz_trellis.hpp 57-59), and equal means equal.
The cube root of the largest volume is a parameter.
-/
import Verif.Model.Trellis
import Verif.Model.IrCheck

namespace Brille.TrellisBuild

open Brille.Trellis hiding Pt
open Brille.Tetra Brille.Cut Brille.IrCheck Brille.Zone
open Brille.Faces (centroid contains)

/-- the distance of the knots along one axis, trellis_poly_parallel.tpp 86-88; `side` is `std::cbrt(max_volume)` -/
def knotStep (length side : ℚ) : ℚ := length / (⌈length / side⌉ : ℤ)

/-- the loop that makes the knots, trellis_poly_parallel.tpp 93-95, from the last knot made on; `none`: it has not ended after
the number of turns given first -/
def knotLoop (mx step : ℚ) : Nat → ℚ → Option (List ℚ)
  | 0, last => if last < mx then none else some [last]
  | turns + 1, last => if last < mx then (knotLoop mx step turns (last + step)).map (last :: ·) else some [last]

/-- the knots along one axis, trellis_poly_parallel.tpp 83-95 -/
def axisKnots (turns : Nat) (side : ℚ) (v : List Pt) (d : Fin 3) : Option (List ℚ) :=
  knotLoop (largest v d) (knotStep (largest v d - least v d) side) turns (least v d)

/-- the square of `maximum_node_circumsphere_radius`, trellis_poly.hpp 636-642 -/
def nodeRadius2 (t : Grid) : ℚ :=
  let len := fun d : Fin 3 => (t.knots d).getD 1 0 - (t.knots d).getD 0 0
  (len 0 * len 0 + len 1 * len 1 + len 2 * len 2) / 4

/-- the square of the distance of two points -/
def dist2 (a b : Pt) : ℚ := dot (diff a b) (diff a b)

/-- the square of `circumsphere_radius`, polyhedron_faces.hpp 289-293 -/
def polyRadius2 (P : Poly) : ℚ :=
  let c := centroid P.2 fun i => P.1.getD i 0
  (P.1.map fun p => dist2 p c).foldl max (dist2 (P.1.getD 0 0) c)

/-- `√d2 > √a2 + √b2`, the comparison of trellis_poly_parallel.tpp 106, in terms of the squares -/
def farther (d2 a2 b2 : ℚ) : Bool := decide (0 < d2 - a2 - b2 ∧ 4 * a2 * b2 < (d2 - a2 - b2) * (d2 - a2 - b2))

/-- the type given to a node before looking at it, trellis_poly_parallel.tpp 100-108 -/
def assumedNull (P : Poly) (t : Grid) (i : Nat) : Bool :=
  farther (dist2 (t.centres.getD i 0) (centroid P.2 fun i => P.1.getD i 0)) (nodeRadius2 t) (polyRadius2 P)

/-- the polyhedron of a node, trellis_poly_parallel.tpp 222-224 -/
def nodePoly (t : Grid) (i : Nat) : Poly := (t.intersections, t.nodeFaces i)

/-- the type of a node and its part of the polyhedron, trellis_poly_parallel.tpp 221-249, for one that is not assumed to be null.
`none` stands for an exception. -/
def examine (always : Bool) (P : Poly) (t : Grid) (i : Nat) : Option (NodeType × Poly) :=
  (IrCheck.intersection P (nodePoly t i)).map fun part =>
    let node := nodePoly t i
    let whole := decide (volume node = volume part)
    let gamma := contains node.2 (fun i => node.1.getD i 0) 0
    if !always && whole && !gamma then (.cube, part)
    else if part.2.length < 4 ∨ volume part ≤ 0 then (.foundNull, part)
    else (.poly, part)

/-- the final type of a node and its part of the polyhedron, trellis_poly_parallel.tpp 100-108 and 219-249 -/
def classify (always : Bool) (P : Poly) (t : Grid) (i : Nat) : Option (NodeType × Poly) :=
  if assumedNull P t i then some (.assumedNull, ([], [])) else examine always P t i

/-- the knots of the grid, before the nodes have types -/
def knotsOnly (turns : Nat) (side : ℚ) (v : List Pt) : Option Grid := do
  let k0 ← axisKnots turns side v 0
  let k1 ← axisKnots turns side v 1
  let k2 ← axisKnots turns side v 2
  some { knots := mk3 k0 k1 k2, types := [] }

/-- the grid with the types of all its nodes and their parts of the polyhedron, trellis_poly_parallel.tpp 70-117 and 160-285 -/
def build (always : Bool) (turns : Nat) (side : ℚ) (P : Poly) : Option (Grid × List Poly) := do
  let t ← knotsOnly turns side P.1
  let nodes ← (List.range t.nodeCount).mapM (classify always P t)
  some ({ t with types := nodes.map Prod.fst }, nodes.map Prod.snd)

end Brille.TrellisBuild
