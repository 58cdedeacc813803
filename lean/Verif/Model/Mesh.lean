/-
The tetrahedral mesh: `TetTriLayer`, `TetTri`, `triangulate_one_layer` and `triangulate` of /repo/src/triangulation_layers.hpp.
Coordinates are exact.  Distances, which are square roots, are real numbers.  TetGen, that is `tetrahedralize` and `circumsphere`, is a
parameter.  The lists of neighbouring tetrahedra, which nothing uses, are left out.
-/
import Verif.Model.TrellisWire
import Verif.Model.PermutationTable
import Mathlib.Analysis.Real.Sqrt

namespace Brille.Mesh

open Brille.Tetra
open Brille.IrCheck (Poly)
open Brille.TrellisWire (Triangulation)

/-- a layer: `vertex_positions`, `vertices_per_tetrahedron`, `tetrahedra_per_vertex`, `circum_centres` and `circum_radii` of `TetTriLayer`,
triangulation_layers.hpp 43-56; the numbers of vertices and tetrahedra are the lengths of the first two -/
structure Layer where
  positions : List Pt
  tets : List (Fin 4 → Nat)
  perVertex : List (List Nat)
  centres : List Pt
  radii : List ℝ

/-- TetGen: `tetrahedralize` of a polyhedron with the largest volume of a tetrahedron, if there is one, and `circumsphere` -/
structure Mesher where
  tetrahedralize : Poly → Option ℚ → Option Triangulation
  circumsphere : (Fin 4 → Pt) → Pt × ℝ

/-- the approximate comparisons: with zero (of weights), of volumes, and less or equal (of distances) -/
structure Tolerance where
  isZero : ℚ → Bool
  near : ℚ → ℚ → Bool
  le : ℝ → ℝ → Bool

/-- `norm` of the difference of two points -/
noncomputable def distance (a b : Pt) : ℝ := Real.sqrt (dot (diff a b) (diff a b) : ℚ)

/-- the corners of tetrahedron `i` -/
def Layer.corners (L : Layer) (i : Nat) (j : Fin 4) : Pt := L.positions.getD (L.tets.getD i (fun _ => 0) j) 0

/-- `volume`, triangulation_layers.hpp 204-213 -/
def Layer.volume (L : Layer) (i : Nat) : ℚ := orient3d (L.corners i 0) (L.corners i 1) (L.corners i 2) (L.corners i 3) / 6

/-- `get_tetrahedron`, triangulation_layers.hpp 63-69, for a tetrahedron that exists -/
def Layer.tetrahedron (L : Layer) (i : Nat) : Poly :=
  ([L.corners i 0, L.corners i 1, L.corners i 2, L.corners i 3], [[0, 1, 2], [0, 2, 3], [1, 0, 3], [1, 3, 2]])

/-- the loops of triangulation_layers.hpp 102-104 -/
def perVertex (n : Nat) (tets : List (Fin 4 → Nat)) : List (List Nat) :=
  (List.range n).map fun i => (List.range tets.length).flatMap fun j =>
    (List.finRange 4).filterMap fun k => if tets.getD j (fun _ => 0) k = i then some j else none

/-- the constructor of `TetTriLayer`, triangulation_layers.hpp 88-117, with `correct_tetrahedra_vertex_ordering` and
`determine_circumspheres`, 289-312 -/
def layer (G : Mesher) (T : Triangulation) : Layer :=
  let tets := T.correct.tets
  let spheres := tets.map fun t => G.circumsphere (T.corners t)
  { positions := T.points, tets, perVertex := perVertex T.points.length T.tets, centres := spheres.map Prod.fst, radii := spheres.map Prod.snd }

/-- `weights`, triangulation_layers.hpp 265-288 -/
def Layer.weights (L : Layer) (i : Nat) (x : Pt) : Fin 4 → ℚ :=
  baryW (fun k => L.positions.getD k 0) { vi := L.tets.getD i fun _ => 0, centre := 0, radius := 0, vol := L.volume i } x

/-- `unsafe_contains`, triangulation_layers.hpp 261-264 -/
def Layer.contains (tol : Tolerance) (L : Layer) (i : Nat) (x : Pt) : Bool :=
  (List.finRange 4).all fun j => decide (0 < L.weights i x j) || tol.isZero (L.weights i x j)

/-- `unsafe_might_contain`, triangulation_layers.hpp 254-256 -/
noncomputable def Layer.mightContain (tol : Tolerance) (L : Layer) (i : Nat) (x : Pt) : Bool :=
  tol.le (distance x (L.centres.getD i 0)) (L.radii.getD i 0)

/-- `unsafe_locate` in some tetrahedra of a layer, triangulation_layers.hpp 177-189: the tetrahedron, or the number of tetrahedra, and the
vertices with their weights -/
noncomputable def Layer.locate (tol : Tolerance) (L : Layer) (tosearch : List Nat) (x : Pt) : Nat × List (Nat × ℚ) :=
  match tosearch.find? (fun i => L.mightContain tol i x && L.contains tol i x) with
  | some i => (i, nonzero tol.isZero { vi := L.tets.getD i fun _ => 0, centre := 0, radius := 0, vol := L.volume i } (L.weights i x))
  | none => (L.tets.length, [])

/-- `neighbours` of a vertex, triangulation_layers.hpp 190-203; `none`: an exception -/
def Layer.neighbours (L : Layer) (v : Nat) : Option (List Nat) :=
  if L.positions.length ≤ v then none
  else some (((L.perVertex.getD v []).flatMap fun t => (List.finRange 4).map fun j => L.tets.getD t (fun _ => 0) j).foldl
    (fun n u => if u ≠ v ∧ u ∉ n then n ++ [u] else n) [])

/-- `volume_statistics`, triangulation_layers.hpp 214-224: total, smallest and largest volume; `top` and `bottom` are the extreme numbers -/
def Layer.volumeStatistics (L : Layer) (top bottom : ℚ) : ℚ × ℚ × ℚ :=
  (List.range L.tets.length).foldl (fun vs i =>
    let v := L.volume i
    (vs.1 + v, (if v < vs.2.1 then v else vs.2.1), if v > vs.2.2 then v else vs.2.2)) (0, top, bottom)

/-- `collect_keys`, triangulation_layers.hpp 237-252, when the tetrahedra are handled in some order -/
def Layer.collectKeys (L : Layer) (order : List Nat) : List Nat :=
  order.flatMap fun i => PermTable.keysFromIndices L.positions.length ((List.finRange 4).map (L.tets.getD i fun _ => 0))

/-! ### several layers -/

/-- `layers` and `connections` of `TetTri`, triangulation_layers.hpp 367-368 -/
structure TetTri where
  layers : List Layer
  connections : List (List (List Nat))

/-- whether tetrahedron `j` of the lower layer is added to the list of tetrahedron `i` of the higher one, triangulation_layers.hpp 471-485;
`none`: an exception -/
noncomputable def joins (tol : Tolerance) (high low : Layer) (i j : Nat) : Option Bool :=
  if tol.le (distance (low.centres.getD j 0) (high.centres.getD i 0)) (high.radii.getD i 0 + low.radii.getD j 0) then
    if (List.finRange 4).any fun k => high.contains tol i (low.corners j k) then some true
    else IrCheck.intersects tol.near (low.tetrahedron j) (high.tetrahedron i)
  else some false

/-- the list of tetrahedron `i`, triangulation_layers.hpp 460-487 -/
noncomputable def connectOne (tol : Tolerance) (high low : Layer) (i : Nat) : Option (List Nat) :=
  (List.range low.tets.length).foldlM (fun out j => (joins tol high low i j).map fun add => if add then out ++ [j] else out) []

/-- `connect`, triangulation_layers.hpp 447-494: the threads write the lists of different tetrahedra, in the given order; an exception that
leaves the parallel region ends the program -/
noncomputable def connect (tol : Tolerance) (order : List Nat) (high low : Layer) : Option (List (List Nat)) :=
  order.foldlM (fun map i => (connectOne tol high low i).map fun row => map.set i row) (List.replicate high.tets.length [])

/-- `find_connections`, triangulation_layers.hpp 377-381; `orders` has the order for each pair of layers.  Without layers the loop does not
end in time: `none`. -/
noncomputable def findConnections (tol : Tolerance) : List (List Nat) → List Layer → Option (List (List (List Nat)))
  | _, [] => none
  | _, [_] => some []
  | orders, high :: low :: rest => do
    let c ← connect tol (orders.headD []) high low
    let cs ← findConnections tol orders.tail (low :: rest)
    pure (c :: cs)

/-- `triangulate_one_layer`, triangulation_layers.hpp 541-628 -/
def oneLayer (G : Mesher) (P : Poly) (maxCell : ℚ) : Option Layer :=
  (G.tetrahedralize P (if 0 < maxCell then some maxCell else none)).map (layer G)

/-- the layers made by `triangulate`, triangulation_layers.hpp 642-669; `size` is the largest volume in layer `i`, from those of the highest
and of the lowest layer (the logarithms and powers of 659-662) -/
def makeLayers (G : Mesher) (top bottom : ℚ) (size : ℚ → ℚ → Nat → ℚ) (P : Poly) (maxCell : ℚ) (layerCount : Nat) : Option (List Layer) :=
  if layerCount < 2 then (oneLayer G P maxCell).map fun l => [l]
  else do
    let highest ← oneLayer G P (-1)
    if 0 < maxCell then
      let lowest ← oneLayer G P maxCell
      let hi := (highest.volumeStatistics top bottom).2.2
      let lo := (lowest.volumeStatistics top bottom).2.2
      let between ← ((List.range' 2 (layerCount - 2)).reverse).mapM fun i => oneLayer G P (size hi lo i)
      pure (highest :: between ++ [lowest])
    else pure [highest]

/-- `triangulate`, triangulation_layers.hpp 631-671 -/
noncomputable def triangulate (tol : Tolerance) (G : Mesher) (top bottom : ℚ) (size : ℚ → ℚ → Nat → ℚ) (orders : List (List Nat)) (P : Poly)
    (maxCell : ℚ) (layerCount : Nat) : Option TetTri := do
  let layers ← makeLayers G top bottom size P maxCell layerCount
  let connections ← findConnections tol orders layers
  pure { layers, connections }

/-- the loop of `TetTri::locate`, triangulation_layers.hpp 412-415; `none`: a read beyond the end of the list of connections -/
noncomputable def descend (tol : Tolerance) (x : Pt) : List Layer → List (List (List Nat)) → Nat × List (Nat × ℚ) → Option (List (Nat × ℚ))
  | [], _, found => some found.2
  | _ :: _, [], _ => none
  | L :: layers, c :: connections, found =>
    match c[found.1]? with
    | none => none
    | some tosearch => descend tol x layers connections (L.locate tol tosearch x)

/-- `TetTri::locate`, triangulation_layers.hpp 401-417; `none`: an exception, or a read beyond the end of the list of connections -/
noncomputable def TetTri.locate (tol : Tolerance) (m : TetTri) (x : Pt) : Option (List (Nat × ℚ)) :=
  match m.layers with
  | [] => none
  | L :: rest => descend tol x rest m.connections (L.locate tol (List.range L.tets.length) x)

/-- `get_vertex_positions` of the mesh: of the lowest layer, triangulation_layers.hpp 443 -/
def TetTri.positions (m : TetTri) : List Pt := (m.layers.getLast?.map Layer.positions).getD []

/-- the loop over points in `interpolate_at` of the mesh, mesh.hpp 148-156, for one quantity with one number at each vertex: an exception if
nothing is found -/
noncomputable def TetTri.interpolateAt (tol : Tolerance) (m : TetTri) (data : Nat → ℚ) (x : Pt) : Option ℚ :=
  match m.locate tol x with
  | none => none
  | some [] => none
  | some vw => some (vw.foldl (fun s p => s + p.2 * data p.1) 0)

end Brille.Mesh
