/-
The tree of nested tetrahedra, /repo/src/nest.hpp and /repo/src/nest.tpp.

Simplifications: as in `Model/Tetra`; a `std::deque` or `std::vector` is a list.
-/
import Verif.Model.Tetra
import Verif.Model.PermutationTable

namespace Brille.Nest

open Brille.Tetra

/-- `NestNode`, nest.hpp 136-139, for a node that is not the root: its boundary and its branches.  The root has
no boundary and is given by the list of its branches. -/
inductive Node
  | mk (boundary : Tet) (branches : List Node)

/-- nest.hpp 154 -/
def Node.boundary : Node → Tet
  | .mk b _ => b

/-- nest.hpp 156 -/
def Node.branches : Node → List Node
  | .mk _ br => br

/-- `NestLeaf::weights`, nest.hpp 78-88 -/
def leafWeights (near : ℚ → ℚ → Bool) (v : Nat → Pt) (t : Tet) (x : Pt) : Fin 4 → ℚ :=
  if inSphere near t x then baryW v t x else fun _ => -1

/-- `none_negative`, nest.hpp 44-48 -/
def noneNegative (isZero : ℚ → Bool) (w : Fin 4 → ℚ) : Bool :=
  (List.finRange 4).all fun j => !negative isZero (w j)

/-- `NestLeaf::contains`, nest.hpp 89-107 -/
def leafContains (isZero : ℚ → Bool) (near : ℚ → ℚ → Bool) (v : Nat → Pt) (t : Tet) (x : Pt) : Bool :=
  if inSphere near t x then noneNegative isZero (baryW v t x) else false

mutual
/-- the number of nodes in a tree -/
def Node.size : Node → Nat
  | .mk _ br => 1 + sizes br

/-- … and in a list of trees -/
def sizes : List Node → Nat
  | [] => 0
  | n :: ns => n.size + sizes ns
end

/-- The search through the nodes in the order of the queue `work`, nest.hpp 177-195: the accepted leaves, which
give the solutions in this order.  `fuel` bounds the number of turns. -/
def search (accept : Tet → Bool) : Nat → List Node → List Tet
  | 0, _ => []
  | _ + 1, [] => []
  | fuel + 1, .mk b br :: rest =>
    if accept b then
      if br.isEmpty then b :: search accept fuel rest else search accept fuel (rest ++ br)
    else search accept fuel rest

/-- The last solution with positive weights only, or else the first, nest.hpp 199-206. -/
def bestSolution (positive : Tet → Bool) : List Tet → Option Tet
  | [] => none
  | t :: rest => some ((t :: rest).foldl (fun best t => if positive t then t else best) t)

/-- `max_at`, nest.hpp 213-219 -/
def maxAt (isZero : ℚ → Bool) (w : Fin 4 → ℚ) : Fin 4 :=
  (List.finRange 4).foldl (fun m j => if !isZero (w j) && decide (w m < w j) then j else m) 0

/-- assignment to one weight -/
def putW (w : Fin 4 → ℚ) (k : Fin 4) (y : ℚ) : Fin 4 → ℚ := fun j => if j = k then y else w j

/-- one turn of the loop over the weights, nest.hpp 210-222 -/
def mergeStep (isZero : ℚ → Bool) (w : Fin 4 → ℚ) (i : Fin 4) : Fin 4 → ℚ :=
  if isZero (w i) then putW w (maxAt isZero w) (w (maxAt isZero w) + w i) else w

/-- the loop, nest.hpp 208-223 -/
def merge (isZero : ℚ → Bool) (w : Fin 4 → ℚ) : Fin 4 → ℚ := (List.finRange 4).foldl (mergeStep isZero) w

/-- `NestNode::indices_weights` of the root with these branches, nest.hpp 164-228 -/
def indicesWeights (isZero : ℚ → Bool) (near : ℚ → ℚ → Bool) (v : Nat → Pt) (branches : List Node) (x : Pt) :
    List (Nat × ℚ) :=
  let accept := fun t => noneNegative isZero (leafWeights near v t x)
  let positive := fun t => (List.finRange 4).all fun j => decide (0 < leafWeights near v t x j)
  match bestSolution positive (search accept (sizes branches) branches) with
  | none => []
  | some t => nonzero isZero t (merge isZero (leafWeights near v t x))

mutual
/-- `NestNode::tetrahedra`, nest.hpp 230-235 -/
def Node.tetrahedra : Node → List (Fin 4 → Nat)
  | .mk b [] => [b.vi]
  | .mk _ (c :: cs) => allTetrahedra (c :: cs)

/-- … of all branches of the root -/
def allTetrahedra : List Node → List (Fin 4 → Nat)
  | [] => []
  | n :: ns => n.tetrahedra ++ allTetrahedra ns
end

mutual
/-- `NestNode::collect_keys`, nest.hpp 246-258 (a list in place of a `std::set`) -/
def Node.collectKeys (nv : Nat) : Node → List Nat
  | .mk b [] => PermTable.keysFromIndices nv ((List.finRange 4).map b.vi)
  | .mk _ (c :: cs) => collectAll nv (c :: cs)

/-- … of the root with these branches -/
def collectAll (nv : Nat) : List Node → List Nat
  | [] => []
  | n :: ns => n.collectKeys nv ++ collectAll nv ns
end

/-! ### construction, nest.tpp -/

/-- What `SimpleTet` (triangulation_simple.hpp, tetgen) makes of the tetrahedron with the given corners and a
limit for the volume: vertices, and tetrahedra whose indices refer to these vertices.  Not modelled further. -/
abbrev Triangulator := List Pt → ℚ → List Pt × List Tet

/-- One vertex of a triangulation: its index in the list of all vertices, to which it is added if it is new;
nest.tpp 65-83.  `same` is the approximate comparison with zero of the norm of the difference.  `none`: the
exception thrown for more than one match.  Simplification: `vertices_` has exactly `nVerts` rows; the spare rows
and `resize` are left out. -/
def addVertex (same : Pt → Pt → Bool) (verts : List Pt) (p : Pt) : Option (List Pt × Nat) :=
  match (List.range verts.length).filter fun i => (verts[i]?.map fun q => same q p).getD false with
  | [] => some (verts ++ [p], verts.length)
  | [i] => some (verts, i)
  | _ => none

/-- all vertices of a triangulation, with `map`: nest.tpp 62-84 -/
def addVertices (same : Pt → Pt → Bool) : List Pt → List Pt → Option (List Pt × List Nat)
  | verts, [] => some (verts, [])
  | verts, p :: ps =>
    match addVertex same verts p with
    | none => none
    | some (verts, i) =>
      match addVertices same verts ps with
      | none => none
      | some (verts, is) => some (verts, i :: is)

/-- `single[j] = map[tvi.val(i,j)]`, nest.tpp 89-92; an index beyond the end reads another value (0 here). -/
def remap (map : List Nat) (t : Tet) : Tet := { t with vi := fun j => map.getD (t.vi j) 0 }

/-- the loop over the tetrahedra of a triangulation, nest.tpp 87-100 and 38-50; `grow` makes the node -/
def build (grow : Tet → List Pt → Option (Node × List Pt)) : List Tet → List Pt → Option (List Node × List Pt)
  | [], verts => some ([], verts)
  | t :: ts, verts =>
    match grow t verts with
    | none => none
    | some (n, verts) =>
      match build grow ts verts with
      | none => none
      | some (ns, verts) => some (n :: ns, verts)

/-- The body of `Nest::subdivide`, nest.tpp 54-101: triangulate the tetrahedron, add the vertices that are
new, and make a branch, by `grow`, of each part. -/
def split (same : Pt → Pt → Bool) (tri : Triangulator) (limit : ℚ)
    (grow : Tet → List Pt → Option (Node × List Pt)) (b : Tet) (verts : List Pt) : Option (Node × List Pt) :=
  match addVertices same verts (tri ((List.finRange 4).map fun j => verts.getD (b.vi j) 0) limit).1 with
  | none => none
  | some (verts', map) =>
    match build grow ((tri ((List.finRange 4).map fun j => verts.getD (b.vi j) 0) limit).2.map (remap map)) verts' with
    | none => none
    | some (ns, verts'') => some (.mk b ns, verts'')

/-- `Nest::subdivide` of a leaf with `left = maxBr - nBr`, nest.tpp 54-101.  `limit left` is the volume limit
given to the triangulation (line 60); a part is divided again when it is too large and levels are left (lines
95-96). -/
def subdivide (same : Pt → Pt → Bool) (tri : Triangulator) (limit : Nat → ℚ) (maxVolume : ℚ) :
    Nat → Tet → List Pt → Option (Node × List Pt)
  | 0 => split same tri (limit 0) fun t verts => some (.mk t [], verts)
  | left + 1 => split same tri (limit (left + 1)) fun t verts =>
    if maxVolume < t.vol then subdivide same tri limit maxVolume left t verts
    else some (.mk t [], verts)

/-- `Nest::construct`, nest.tpp 20-52, from the triangulation of the polyhedron: the branches of the root and
the vertices. -/
def construct (same : Pt → Pt → Bool) (tri : Triangulator) (limit : Nat → ℚ) (maxVolume : ℚ)
    (maxBranchings : Nat) (root : List Pt × List Tet) : Option (List Node × List Pt) :=
  build (fun t verts =>
    match maxBranchings with
    | 0 => some (.mk t [], verts)
    | m + 1 => if maxVolume < t.vol then subdivide same tri limit maxVolume m t verts
      else some (.mk t [], verts)) root.2 root.1

end Brille.Nest
