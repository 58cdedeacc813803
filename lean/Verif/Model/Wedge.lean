/-
The search for an irreducible Brillouin zone: `construct` of /repo/src/bz.hpp from line 158 on, `check_if_mirroring_needed`,
`get_ir_polyhedron_wedge_normals` of /repo/src/bz.cpp and `wedge_brute_force` of /repo/src/bz_wedge.cpp.
Coordinates are exact and Cartesian.  Normals are not normalised; only their directions matter.  The choice of the normals to cut with
from the special points of the zone, bz_wedge.cpp 52-374, is a parameter: the theorems hold for every choice.  The convex hull of points
is a parameter too.
-/
import Verif.Model.IrCheck

namespace Brille.Wedge

open Brille.Tetra Brille.Faces Brille.Cut Brille.SortFace Brille.IrCheck

/-- what the search is given: the approximate comparison with the tolerances of the zone and the one with the default tolerances, the
reciprocal basis, `time_reversal`, the point group of the lattice, the first zone `_first`, and the constructor of a convex hull, where
`none` is an exception -/
structure Setup where
  near : ℚ → ℚ → Bool
  nearDefault : ℚ → ℚ → Bool
  B : Fin 3 → Pt
  timeReversal : Bool
  R : List Op
  first : Poly
  hull : List Pt → Option Poly

/-- the members that the search changes: `_irreducible`, `ir_wedge_normals` and `no_ir_mirroring` -/
structure St where
  ir : Poly
  normals : List Pt
  noMirror : Bool
deriving DecidableEq

/-- `has_inversion`, bz.hpp 110 -/
def hasInversion (S : Setup) : Bool := S.timeReversal || decide (Sym.inversion ∈ S.R)

/-- the operations and the volume an irreducible zone should have, bz.hpp 220-223, bz.cpp 72-75 -/
def goal (S : Setup) : ℚ := volume S.first / (operations S.timeReversal S.R).length

/-- `Poly::mirror`, polyhedron_flex.hpp 145 -/
def mirror (P : Poly) : Poly := (P.1.map fun x d => -1 * x d, Faces.mirror P.2)

/-- the vertices of `Poly::combine`, polyhedron_flex.hpp 99-142; its faces are not used here -/
def combineVertices (P that : Poly) : List Pt :=
  (FaceEdit.removeDuplicates (fun x y => decide (x = y)) (P.1 ++ that.1) (combine P.2 that.2 P.1.length)).1

/-- the loop of `check_if_mirroring_needed`, bz.hpp 236-250: the hulls with the right volume -/
def mirrored (S : Setup) (ir : Poly) : List Op → Option (List Poly)
  | [] => some []
  | r :: rest =>
    match S.hull (combineVertices ir (apply S.B r (mirror ir))), mirrored S ir rest with
    | some c, some valid => some (if S.near (volume c) (goal S) then c :: valid else valid)
    | _, _ => none

/-- `check_if_mirroring_needed`, bz.hpp 217-262 -/
def checkMirroring (S : Setup) (st : St) : Option St :=
  if hasInversion S then some { st with noMirror := true }
  else
    let found := volume st.ir
    if S.near (goal S) (2 * found) then
      match mirrored S st.ir (operations S.timeReversal S.R) with
      | none => none
      | some (c :: _) => some { st with ir := c, noMirror := S.near (goal S) (goal S) }
      | some [] => some { st with noMirror := S.near (goal S) found }
    else some { st with noMirror := S.near (goal S) found }

/-- `check_ir_polyhedron`, bz.cpp 69-94 -/
def checkIr (S : Setup) (st : St) : Option (Bool × St) :=
  match checkMirroring S st with
  | none => none
  | some st => (check S.near S.B S.timeReversal S.R S.first st.ir).map fun ok => (ok, st)

/-- one of the `face_points`, polyhedron_faces.hpp 174-186 -/
def facePoint (v : List Pt) (face : Face) : Pt := fun d => (face.map fun i => v.getD i 0 d).sum / face.length

/-- the loop over the faces of the first zone, bz.cpp 27-35, for pairs of a normal and a point; `none`: the exception in line 32 -/
def offSurface (first : Poly) : List Face → List (Pt × Pt) → Option (List (Pt × Pt))
  | [], left => some left
  | face :: rest, left =>
    let notBz := left.filter fun x => decide (dot (faceNormal first.1 face) (diff x.2 (facePoint first.1 face)) ≠ 0)
    if notBz.isEmpty then none else offSurface first rest notBz

/-- two normals add up to zero, bz.cpp 45, for unit vectors -/
def opposite (a b : Pt) : Bool := decide (cross a b = 0 ∧ dot a b < 0)

/-- the inner loop, bz.cpp 44-49, over the `j` listed: the flags `no_inverse` and `keep` -/
def pairWith (n : List Pt) (i : Nat) : List Nat → List Bool × List Bool → List Bool × List Bool
  | [], flags => flags
  | j :: rest, flags =>
    if flags.1.getD j false && opposite (n.getD i 0) (n.getD j 0) then
      ((flags.1.set i false).set j false, flags.2.set j false)
    else pairWith n i rest flags

/-- the loops, bz.cpp 42-49 -/
def pairs (n : List Pt) : List Bool × List Bool :=
  (List.range (n.length - 1)).foldl (fun flags i =>
    if flags.1.getD i false then pairWith n i ((List.range n.length).drop (i + 1)) flags else flags)
    (List.replicate n.length true, List.replicate n.length true)

/-- `get_ir_polyhedron_wedge_normals`, bz.cpp 22-56 -/
def wedgeNormals (first ir : Poly) : Option (List Pt) :=
  (offSurface first first.2 (ir.2.map fun f => (faceNormal ir.1 f, facePoint ir.1 f))).map fun left =>
    let n := left.map (·.1)
    let n := if n.length % 2 = 0 ∧ (pairs n).1.count true = 0 then FaceEdit.extract (pairs n).2 n else n
    n.map fun x d => - x d

/-- the loops over planes through the origin which may halve the polyhedron, bz_wedge.cpp 417-430 and 436-447: the part and the normal -/
def split (S : Setup) (ir : Poly) : List Pt → Option (Option (Poly × Pt))
  | [] => some none
  | n :: rest =>
    match oneCut sortFace (Zone.planePoints n 0) ir.1 ir.2 with
    | none => none
    | some part => if S.near (volume part) (goal S) then some (some (part, n)) else split S ir rest

/-- the cross products `bz_n.cross(i, j)` for `i < j`, bz_wedge.cpp 436-438 -/
def crosses : List Pt → List Pt
  | [] => []
  | n :: rest => rest.map (cross n) ++ crosses rest

/-- the part of `wedge_brute_force` that divides the polyhedron once more, bz_wedge.cpp 405-450; `oneAxis` is `cnt == 1` -/
def divide (S : Setup) (oneAxis : Bool) (st : St) : Option St :=
  let irVolume := volume st.ir
  if (decide (irVolume > goal S) && oneAxis) || S.nearDefault irVolume (2 * goal S) then
    match wedgeNormals S.first st.ir with
    | none => none
    | some wg =>
      let bzN := S.first.2.map (faceNormal S.first.1)
      match split S st.ir bzN with
      | none => none
      | some part =>
        let (st, wg) := match part with
          | some (part, n) => ({ st with ir := part, normals := wg ++ [fun d => - n d] }, wg ++ [fun d => - n d])
          | none => (st, wg)
        if S.near (volume st.ir) irVolume then
          match split S st.ir (crosses bzN) with
          | none => none
          | some (some (part, n)) => some { st with ir := part, normals := wg ++ [fun d => - n d] }
          | some none => some st
        else some st
  else some st

/-- `wedge_brute_force`, bz_wedge.cpp 44-455, where the search for normals to cut with has found `cutting` -/
def bruteForce (S : Setup) (oneAxis : Bool) (cutting : List Pt) (st : St) : Option (Bool × St) :=
  let ir := if cutting.isEmpty then some st.ir
    else cut sortFace (cutting.map fun n => Zone.planePoints (fun d => -1 * n d) 0) S.first.1 S.first.2
  match ir with
  | none => none
  | some ir =>
    match checkIr S { st with ir := ir } with
    | none => none
    | some (ok, st) =>
      match (if ok then (wedgeNormals S.first st.ir).map fun n => { st with normals := n } else some st) with
      | none => none
      | some st =>
        match (if decide (Sym.inversion ∈ operations S.timeReversal S.R) then divide S oneAxis st else some st) with
        | none => none
        | some st => checkIr S st

/-- the attempts, bz.hpp 167-181: the first that succeeds ends the search -/
def attempts (S : Setup) (oneAxis : Bool) : List (List Pt) → St → Option (Bool × St)
  | [], st => some (false, st)
  | cutting :: rest, st =>
    match bruteForce S oneAxis cutting st with
    | none => none
    | some (true, st) => some (true, st)
    | some (false, st) => attempts S oneAxis rest st

/-- `construct` from bz.hpp 160 on, with `wedge_search` set: `none` is an exception, also the one thrown when the search fails.
`triclinic` is `_outer.is_triclinic()`; `choices` are the normals found in each of the attempts. -/
def construct (S : Setup) (triclinic oneAxis : Bool) (choices : List (List Pt)) : Option St :=
  let st : St := { ir := S.first, normals := [], noMirror := true }
  if triclinic then
    if !hasInversion S then some st
    else
      match wedgeTriclinic S.near S.B S.timeReversal S.R S.first with
      | some (true, n, ir) => some { ir := ir, normals := [n], noMirror := true }
      | _ => none
  else
    match attempts S oneAxis choices st with
    | some (true, st) => some st
    | _ => none

end Brille.Wedge
