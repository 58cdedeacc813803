/-
Model of the Cartesian grid of the hybrid trellis: /repo/src/trellis_poly.hpp (bin search, node
numbering, neighbours, intersections) and CubeNode of /repo/src/trellis_node.hpp.

Coordinates are rationals (the code: double).  `ind_t` is a natural number; the grid sizes are assumed
to be far below 2^31, so that the only wrap-around of the code, a negative step from subscript 0, is a
value that no bounds check accepts.  It is modelled by computing subscripts in the integers.
-/
import Mathlib.Data.Rat.Defs
import Mathlib.Data.List.Basic
import Mathlib.Data.List.FinRange
import Mathlib.Algebra.Order.Ring.Rat
import Mathlib.Algebra.Order.Group.Abs

namespace Brille.Trellis

/-- `find_bin`, trellis_poly.hpp 66-73. -/
def findBin (edges : List ℚ) (x : ℚ) : Nat :=
  let d := edges.findIdx (fun b => decide (x < b))
  let d := match edges with
    | [] => d
    | front :: _ => if edges.length - 1 < d ∧ x < front then 0 else d
  if 0 < d then d - 1 else d

/-- `on_boundary`, trellis_poly.hpp 74-82.  `near` is `brille::approx_float::scalar`. -/
def onBoundary (near : ℚ → ℚ → Bool) (edges : List ℚ) (x : ℚ) (i : Nat) : Int :=
  if i + 2 < edges.length ∧ near (edges.getD (i + 1) 0) x then 1
  else if 0 < i ∧ near (edges.getD i 0) x then -1
  else 0

/-- `NodeType` as declared at enums.hpp 43 and used by trellis_node.hpp 506-549. -/
inductive NodeType | assumedNull | foundNull | null | cube | poly
  deriving DecidableEq, Repr

/-- The data of a `PolyTrellis` used here: the knots along the three axes (trellis_poly.hpp 127
`knots_`) and the type of every node (trellis_poly.hpp 126 `nodes_`, by linear index). -/
structure Grid where
  /-- the coordinates of the trellis intersections along each axis -/
  knots : Fin 3 → List ℚ
  /-- the node types, by linear index -/
  types : List NodeType

/-- `PolyTrellis::size`, trellis_poly.hpp 350-354 (for axes with at least one knot). -/
def Grid.size (t : Grid) (d : Fin 3) : Nat := (t.knots d).length - 1

/-- `PolyTrellis::node_count`, trellis_poly.hpp 344-348. -/
def Grid.nodeCount (t : Grid) : Nat :=
  (List.finRange 3).foldl (fun c i => c * ((t.knots i).length - 1)) 1

/-- `PolyTrellis::span`, trellis_poly.hpp 356-360: `s[0]=1`, `s[i] = sz[i-1]*s[i-1]`. -/
def Grid.span (t : Grid) : Fin 3 → Nat
  | 0 => 1
  | 1 => t.size 0 * 1
  | 2 => t.size 1 * (t.size 0 * 1)

/-- `sub2idx(sub, sp)`, trellis_poly.hpp 557-562. -/
def sub2idxSpan (sub sp : Fin 3 → Nat) : Nat :=
  (List.finRange 3).foldl (fun idx dim => idx + sp dim * sub dim) 0

/-- `sub2idx(sub)`, trellis_poly.hpp 551-553. -/
def Grid.sub2idx (t : Grid) (sub : Fin 3 → Nat) : Nat := sub2idxSpan sub t.span

/-- `idx2sub(idx, sp)`, trellis_poly.hpp 563-571: from the last dimension down. -/
def idx2subSpan (idx : Nat) (sp : Fin 3 → Nat) : Fin 3 → Nat :=
  let s2 := idx / sp 2
  let rem := idx - s2 * sp 2
  let s1 := rem / sp 1
  let rem := rem - s1 * sp 1
  let s0 := rem / sp 0
  fun d => if d = 0 then s0 else if d = 1 then s1 else s2

/-- `idx2sub(idx)`, trellis_poly.hpp 554-556. -/
def Grid.idx2sub (t : Grid) (idx : Nat) : Fin 3 → Nat := idx2subSpan idx t.span

/-- `NodeContainer::is_null`, trellis_node.hpp 524-527, of a type. -/
def NodeType.isNull : NodeType → Bool
  | .null | .assumedNull | .foundNull => true
  | _ => false

/-- `nodes_.is_null(idx)`, trellis_node.hpp 524-527.  Reading past the end of the node list is
undefined; the model answers `true` there, and no theorem relies on it. -/
def Grid.isNull (t : Grid) (idx : Nat) : Bool :=
  match t.types[idx]? with
  | some ty => ty.isNull
  | none => true

/-- `subscript_ok`, trellis_poly.hpp 544-550, on integer subscripts (negative = wrapped). -/
def Grid.subscriptOk (t : Grid) (sub : Fin 3 → Int) : Bool :=
  (List.finRange 3).all (fun d => decide (0 ≤ sub d ∧ sub d < t.size d))

/-- `subscript_ok_and_not_null`, trellis_poly.hpp 541-543. -/
def Grid.okNotNull (t : Grid) (sub : Fin 3 → Int) : Bool :=
  t.subscriptOk sub && !t.isNull (t.sub2idx (fun d => (sub d).toNat))

/-- `newsub = sub; newsub[i] += close[i]`, e.g. trellis_poly.hpp 400-401. -/
def bump (sub close : Fin 3 → Int) (i : Fin 3) : Fin 3 → Int :=
  fun d => if d = i then sub d + close i else sub d

/-- The subscripts tried by `node_subscript`, in order, trellis_poly.hpp 398-424: one step
(lines 398-403), two steps, where the loops over `i` and `j` do not exclude `i == j` (lines 405-418),
and all three steps (lines 420-424). -/
def candidates (sub close : Fin 3 → Int) : List (Fin 3 → Int) :=
  let axes := List.finRange 3
  let numClose := axes.countP (fun i => decide (close i ≠ 0))
  let one := (axes.filter (fun i => decide (close i ≠ 0))).map (fun i => bump sub close i)
  let two := (axes.filter (fun i => decide (close i ≠ 0))).flatMap (fun i =>
    (axes.filter (fun j => decide (close j ≠ 0))).map (fun j => bump (bump sub close i) close j))
  let three := [fun d => sub d + close d]
  (if 0 < numClose then one else []) ++ (if 1 < numClose then two else []) ++
    (if 2 < numClose then three else [])

/-- `node_subscript`, trellis_poly.hpp 382-434; `x` is the position in the frame of the knots.  The
first acceptable candidate is taken, else the subscript found first is returned as it is. -/
def Grid.nodeSubscript (near : ℚ → ℚ → Bool) (t : Grid) (x : Fin 3 → ℚ) : Fin 3 → Int :=
  let sub : Fin 3 → Int := fun d => (findBin (t.knots d) (x d) : Int)
  if t.okNotNull sub then sub
  else
    let close : Fin 3 → Int := fun d => onBoundary near (t.knots d) (x d) (findBin (t.knots d) (x d))
    match (candidates sub close).find? t.okNotNull with
    | some s => s
    | none => sub

/-- `node_index`, trellis_poly.hpp 436. -/
def Grid.nodeIndex (near : ℚ → ℚ → Bool) (t : Grid) (x : Fin 3 → ℚ) : Nat :=
  t.sub2idx (fun d => (t.nodeSubscript near x d).toNat)

/-- A subscript from its three components. -/
def mk3 {β : Type} (a b c : β) : Fin 3 → β := fun d => if d = 0 then a else if d = 1 then b else c

/-- `node_neighbours`, trellis_poly.hpp 480-494. -/
def Grid.nodeNeighbours (t : Grid) (idx : Nat) : List Nat :=
  let sub := t.idx2sub idx
  (List.range 3).flatMap fun i => if 0 < sub 0 + i ∧ sub 0 + i < t.size 0 + 1 then
    (List.range 3).flatMap fun j => if 0 < sub 1 + j ∧ sub 1 + j < t.size 1 + 1 then
      (List.range 3).flatMap fun k => if 0 < sub 2 + k ∧ sub 2 + k < t.size 2 + 1 then
        if ¬ (1 = i ∧ 1 = j ∧ 1 = k) then
          let nIdx := t.sub2idx (mk3 (sub 0 + i - 1) (sub 1 + j - 1) (sub 2 + k - 1))
          if !t.isNull nIdx then [nIdx] else []
        else []
      else []
    else []
  else []

/-- The centres along one axis, trellis_poly.hpp 605-606. -/
def axisCentres (knots : List ℚ) : List ℚ :=
  (List.range (knots.length - 1)).map (fun j => (knots.getD j 0 + knots.getD (j + 1) 0) / 2)

/-- `trellis_centres`, trellis_poly.hpp 603-611. -/
def Grid.centres (t : Grid) : List (Fin 3 → ℚ) :=
  (axisCentres (t.knots 2)).flatMap fun z => (axisCentres (t.knots 1)).flatMap fun y =>
    (axisCentres (t.knots 0)).map fun x => mk3 x y z

/-- `trellis_intersections`, trellis_poly.hpp 617-622. -/
def Grid.intersections (t : Grid) : List (Fin 3 → ℚ) :=
  (t.knots 2).flatMap fun z => (t.knots 1).flatMap fun y => (t.knots 0).map fun x => mk3 x y z

/-- `trellis_intersections_span`, trellis_poly.hpp 623-626. -/
def Grid.intersectionsSpan (t : Grid) : Fin 3 → Nat :=
  mk3 1 (t.knots 0).length ((t.knots 0).length * (t.knots 1).length)

/-- `trellis_local_cube_indices`, trellis_poly.hpp 627-635. -/
def localCubeIndices : List (Fin 3 → Nat) :=
  [mk3 0 0 0, mk3 1 0 0, mk3 1 1 0, mk3 0 1 0, mk3 1 0 1, mk3 0 0 1, mk3 0 1 1, mk3 1 1 1]

/-- `trellis_node_faces`, trellis_poly.hpp 643-663. -/
def Grid.nodeFaces (t : Grid) (index : Nat) : List (List Nat) :=
  let ijk := t.idx2sub index
  let ks := t.intersectionsSpan
  let i0 := sub2idxSpan ijk ks
  let i1 := i0 + ks 1
  let i2 := i0 + ks 1 + ks 2
  let i3 := i0 + ks 2
  let i4 := i0 + ks 0
  let i5 := i0 + ks 0 + ks 1
  let i6 := i0 + ks 0 + ks 1 + ks 2
  let i7 := i0 + ks 0 + ks 2
  [[i3,i0,i4,i7], [i3,i2,i1,i0], [i0,i1,i5,i4], [i3,i7,i6,i2], [i7,i4,i5,i6], [i2,i6,i5,i1]]

/-! ### CubeNode -/

/-- A point in three dimensions. -/
abbrev Pt := Fin 3 → ℚ

/-- `(abs(a - b)).prod(1)` for one row, as used in trellis_node.hpp 137-138. -/
def absProd (a b : Pt) : ℚ := (List.finRange 3).foldl (fun p d => p * |a d - b d|) 1

/-- The normalised partial volumes `w`, trellis_node.hpp 136-138.  `corner i` is the position of
`vertex_indices[i]`. -/
def cubeW (corner : Fin 8 → Pt) (x : Pt) (i : Fin 8) : ℚ :=
  absProd x (corner i) / absProd (corner 0) (corner 7)

/-- `CubeNode::indices_weights`, trellis_node.hpp 130-148.  `gtOne w` is `w > 1` and `gtZero w` is
`w > 0` as decided by the approximate comparison of `Array::any` and `Array::is` (lines 141-142);
`none` is the return value false. -/
def cubeIndicesWeights (gtOne gtZero : ℚ → Bool) (vertexIndices : Fin 8 → Nat) (vertices : Nat → Pt)
    (x : Pt) (shouldContain : Bool) : Option (List (Nat × ℚ)) :=
  let w := cubeW (fun i => vertices (vertexIndices i)) x
  if (List.finRange 8).any (fun i => gtOne (w i)) && !shouldContain then none
  else some (((List.finRange 8).filter (fun i => gtZero (w i))).map
    (fun i => (vertexIndices (7 - i), w i)))

end Brille.Trellis
