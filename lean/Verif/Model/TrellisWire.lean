/-
How the vertices of the hybrid grid get their numbers and the nodes their vertices: the rest of /repo/src/trellis_poly_parallel.tpp, the
container of the nodes in /repo/src/trellis_node.hpp and `LQPolyTet` of /repo/src/triangulation_poly.hpp.
Coordinates are exact and equal means equal, as in the model of the types of the nodes.  TetGen, that is `tetrahedralize` and
`circumsphere`, is a parameter.  The nodes are distributed over the threads, and handled in part two, in an order that is a parameter.
-/
import Verif.Model.TrellisBuild
import Verif.Model.VertexMap

namespace Brille.TrellisWire

open Brille.Trellis hiding Pt
open Brille.Tetra Brille.IrCheck Brille.TrellisBuild Brille.VMap
open Brille.Faces (contains indexes)

/-- the comparison of rows, without tolerance -/
def same (a b : Pt) : Bool := decide (a = b)

/-! ### tetrahedra -/

/-- what TetGen returns: points and the numbers of the corners of tetrahedra, triangulation_poly.hpp 111-125 -/
structure Triangulation where
  points : List Pt
  tets : List (Fin 4 → Nat)

/-- TetGen: `tetrahedralize` of the points and faces of a polyhedron, with or without the origin as an additional point, and `circumsphere` of
four points (centre and radius) -/
structure TetGen where
  tetrahedralize : Poly → Bool → Option Triangulation
  circumsphere : (Fin 4 → Pt) → Pt × ℚ

/-- the corners of a tetrahedron -/
def Triangulation.corners (T : Triangulation) (t : Fin 4 → Nat) (j : Fin 4) : Pt := T.points.getD (t j) 0

/-- `LQPolyTet::volume`, triangulation_poly.hpp 167-169, with `triple_product`, array_functions.hpp 528-530 -/
def Triangulation.volume (T : Triangulation) (t : Fin 4 → Nat) : ℚ :=
  orient3d (T.corners t 0) (T.corners t 1) (T.corners t 2) (T.corners t 3) / 6

/-- `correct_tetrahedra_vertex_ordering`, triangulation_poly.hpp 212-218 -/
def Triangulation.correct (T : Triangulation) : Triangulation :=
  { T with tets := T.tets.map fun t => if T.volume t < 0 then t ∘ Equiv.swap 0 1 else t }

/-- whether the origin has to be added to the points, triangulation_poly.hpp 66-69 and 88 -/
def addsGamma (P : Poly) (addGamma : Bool) : Bool := addGamma && !(P.1.any fun p => same p 0)

/-- the constructor of `LQPolyTet`, triangulation_poly.hpp 31-133 and 158-163, without a largest volume: the number of unexpected
additional points, and the triangulation.  `none` stands for an exception. -/
def lqPolyTet (G : TetGen) (P : Poly) (addGamma : Bool) : Option (Int × Triangulation) :=
  (G.tetrahedralize P (addsGamma P addGamma)).map fun T =>
    ((T.points.length : Int) - P.1.length - (if addsGamma P addGamma then 1 else 0), T.correct)

/-! ### the requests for vertices -/

/-- `i2p`: the vertices of the part of a node that are corners of the node, trellis_poly_parallel.tpp 249-254 -/
def knotsOfPart (all : List Pt) (corners : List Nat) (part : Poly) : StdMap.Map Nat :=
  corners.foldl (fun m idx =>
    if part.1.countP (fun v => same v (all.getD idx 0)) = 1 then StdMap.emplace m (part.1.findIdx fun v => same v (all.getD idx 0)) idx else m) []

/-- the request for the origin, trellis_poly_parallel.tpp 273-280 -/
def gammaRequest (part : Poly) : List (Op Pt) :=
  if contains part.2 (fun i => part.1.getD i 0) 0 && decide (part.1.countP (fun v => same v 0) = 0) then [.add 0 .unknown] else []

/-- the requests for the vertices of a node, trellis_poly_parallel.tpp 234-280 -/
def requests (t : Grid) (i : Nat) (ty : NodeType) (part : Poly) : List (Op Pt) :=
  let corners := indexes (t.nodeFaces i)
  match ty with
  | .cube => corners.map .keep ++ gammaRequest part
  | .poly => part.1.zipIdx.map (fun v =>
      match StdMap.find (knotsOfPart t.intersections corners part) v.2 with
      | some idx => .keep idx
      | none => .add v.1 .crafted) ++ gammaRequest part
  | _ => []

/-- the requests of one thread, trellis_poly_parallel.tpp 222-285, given the numbers of its nodes -/
def tasks (t : Grid) (parts : List Poly) (nodes : List Nat) : List (Nat × Op Pt) :=
  nodes.flatMap fun i => (requests t i (t.types.getD i .null) (parts.getD i ([], []))).map fun op => (i, op)

/-- the vertices and the vertices of the nodes, trellis_poly_parallel.tpp 176-293; one list of nodes for each thread -/
def vertexMaps (t : Grid) (parts : List Poly) (threads : List (List Nat)) : Option (VMS Pt × VIM) := do
  let ws ← (threads.map (tasks t parts)).mapM (work same t.intersections)
  reduce same ws

/-! ### the container of the nodes -/

/-- `CubeNode` or `PolyNode`, trellis_node.hpp 75-82 and 206-211 -/
inductive Node
  | cube (vertices : Fin 8 → Nat)
  | poly (tets : List Tet)

/-- `NodeContainer`, trellis_node.hpp 434-443 -/
structure Container where
  nodes : List (NodeType × Nat)
  cubes : List (Fin 8 → Nat)
  polys : List (List Tet)

/-- one turn of the loop of the constructor, trellis_node.hpp 451-457: the pairs, and the numbers of cubes and polyhedra so far.  The
pair of a node without vertices has the largest number as its second member; here it is zero, and not used. -/
def Container.push (s : List (NodeType × Nat) × Nat × Nat) (ty : NodeType) : List (NodeType × Nat) × Nat × Nat :=
  match ty with
  | .cube => (s.1 ++ [(ty, s.2.1)], s.2.1 + 1, s.2.2)
  | .poly => (s.1 ++ [(ty, s.2.2)], s.2.1, s.2.2 + 1)
  | _ => (s.1 ++ [(ty, 0)], s.2.1, s.2.2)

/-- the constructor from the types, trellis_node.hpp 448-460 -/
def Container.make (types : List NodeType) : Container :=
  let s := types.foldl Container.push ([], 0, 0)
  { nodes := s.1, cubes := List.replicate s.2.1 fun _ => 0, polys := List.replicate s.2.2 [] }

/-- `set` of a cube, trellis_node.hpp 504-509; the assertions are `none` -/
def Container.setCube (c : Container) (i : Nat) (n : Fin 8 → Nat) : Option Container :=
  match c.nodes[i]? with
  | some (.cube, k) => if k < c.cubes.length then some { c with cubes := c.cubes.set k n } else none
  | _ => none

/-- `set` of a polyhedron, trellis_node.hpp 510-515 -/
def Container.setPoly (c : Container) (i : Nat) (n : List Tet) : Option Container :=
  match c.nodes[i]? with
  | some (.poly, k) => if k < c.polys.length then some { c with polys := c.polys.set k n } else none
  | _ => none

/-- the node with a number, `cube_at` and `poly_at`, trellis_node.hpp 537-544 -/
def Container.get (c : Container) (i : Nat) : Option Node :=
  match c.nodes[i]? with
  | some (.cube, k) => c.cubes[k]?.map .cube
  | some (.poly, k) => c.polys[k]?.map .poly
  | _ => none

/-! ### part two -/

/-- the vertices of a cube, trellis_poly_parallel.tpp 353-364 -/
def cubeNode (m : VIM) (kept : Nat) (c : Container) (i : Nat) : Option Container :=
  (decode m kept i).bind fun fvi =>
    if fvi.length < 8 then none
    else c.setCube i fun j => fvi.getD (([1, 2, 6, 5, 3, 0, 4, 7] : List Nat).getD j 0) 0

/-- the state while the points of a triangulation are looked up: all vertices, `local_map` and `added_in_triangulation` -/
structure Lookup where
  vertices : List Pt
  found : List Nat
  added : Int

/-- one point of the triangulation, trellis_poly_parallel.tpp 404-432; `idx` are the numbers of the vertices of the node and `verts` their
positions.  An error that is counted, and thrown in the end, is `none`. -/
def lookup (idx : List Nat) (verts : List Pt) (s : Lookup) (p : Pt) : Option Lookup :=
  let no := verts.countP fun v => same v p
  if 1 < no then none
  else if 0 < no then (idx[verts.findIdx fun v => same v p]?).map fun k => { s with found := s.found ++ [k] }
  else
    let punt := s.vertices.countP fun v => same v p
    if punt < 1 ∧ 0 < s.added then
      some { vertices := s.vertices ++ [p], found := s.found ++ [s.vertices.length], added := s.added - 1 }
    else if punt < 1 then none
    else some { s with found := s.found ++ [s.vertices.findIdx fun v => same v p] }

/-- one tetrahedron, trellis_poly_parallel.tpp 435-449 -/
def tetOf (G : TetGen) (T : Triangulation) (found : List Nat) (t : Fin 4 → Nat) : Tet :=
  let s := G.circumsphere (T.corners t)
  { vi := fun j => found.getD (t j) 0, centre := s.1, radius := s.2, vol := T.volume t }

/-- the tetrahedra of a polyhedron, trellis_poly_parallel.tpp 373-454.  The second attempt with the convex hull, after a triangulation with
fewer than four points, is not modelled: it is `none`. -/
def polyNode (G : TetGen) (m : VIM) (kept : Nat) (parts : List Poly) (s : Container × List Pt) (i : Nat) : Option (Container × List Pt) := do
  let idx ← decode m kept i
  let verts ← idx.mapM fun k => s.2[k]?
  let part ← parts[i]?
  let (extra, T) ← lqPolyTet G part (contains part.2 (fun i => part.1.getD i 0) 0)
  if T.points.length < 4 then none
  let l ← T.points.foldlM (lookup idx verts) { vertices := s.2, found := [], added := if 0 < extra then extra else 0 }
  if T.tets = [] then none
  let c ← s.1.setPoly i (T.tets.map (tetOf G T l.found))
  some (c, l.vertices)

/-! ### everything -/

/-- the members of `PolyTrellis` that are used here, trellis_poly.hpp 124-130 -/
structure PolyTrellis where
  grid : Grid
  vertices : List Pt
  nodes : Container
  boundary : List Faces.Face

/-- the order in which things happen: the nodes of each thread in part one, and the orders of cubes and of polyhedra in part two -/
structure Schedule where
  threads : List (List Nat)
  cubes : List Nat
  polys : List Nat

/-- `construct`, trellis_poly_parallel.tpp 70-149 -/
def construct (G : TetGen) (always : Bool) (turns : Nat) (side : ℚ) (S : Schedule) (P : Poly) : Option PolyTrellis := do
  let (t, parts) ← build always turns side P
  let r ← vertexMaps t parts S.threads
  let (s, answers) ← r.1.run same (P.1.map fun v => .add v .unknown)
  let final ← s.consolidate
  let kept := s.preserve.length
  let cubes ← S.cubes.foldlM (cubeNode r.2 kept) (Container.make t.types)
  let (nodes, vertices) ← S.polys.foldlM (polyNode G r.2 kept parts) (cubes, final.pristine)
  some { grid := t, vertices := vertices, nodes := nodes,
         boundary := P.2.map fun face => face.map fun k => finalIndex kept (answers.getD k (.pristine, 0)) }

/-- `indices_weights`, trellis_poly.hpp 245-255 and trellis_node.hpp 584-614, without tolerances -/
def PolyTrellis.indicesWeights (T : PolyTrellis) (x : Pt) : Outcome :=
  let v := fun i => T.vertices.getD i 0
  match T.nodes.get (T.grid.nodeIndex (fun a b => decide (a = b)) x) with
  | some (.cube vi) =>
    match cubeIndicesWeights (fun w => decide (1 < w)) (fun w => decide (0 < w)) vi v x true with
    | some iw => .found iw
    | none => .notFound
  | some (.poly tets) => polyIndicesWeights (fun w => decide (w = 0)) (fun a b => decide (a = b)) v tets x true
  | none => .bad

/-! ### two threads that add a vertex in part two -/

/-- the steps of adding a vertex, trellis_poly_parallel.tpp 423-425: its number is the present number of vertices, `cat` copies the present
vertices together with it, and the copy is assigned -/
inductive AddStep | number | copy | assign
  deriving DecidableEq

/-- what a thread knows while it adds a vertex -/
structure Adder where
  point : Pt
  number : Nat
  copy : List Pt

/-- one step of one of the threads, none of which is protected by a lock -/
def addStep (s : List Pt × (Fin 2 → Adder)) (e : Fin 2 × AddStep) : List Pt × (Fin 2 → Adder) :=
  let a := s.2 e.1
  match e.2 with
  | .number => (s.1, Function.update s.2 e.1 { a with number := s.1.length })
  | .copy => (s.1, Function.update s.2 e.1 { a with copy := s.1 ++ [a.point] })
  | .assign => (a.copy, s.2)

/-- what the two threads do in an order of their steps -/
def addBoth (vertices : List Pt) (p q : Pt) (order : List (Fin 2 × AddStep)) : List Pt × (Fin 2 → Adder) :=
  order.foldl addStep (vertices, fun i => { point := if i = 0 then p else q, number := 0, copy := [] })

end Brille.TrellisWire
