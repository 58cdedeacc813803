import Verif.Model.PointGroup
import Verif.Model.MatrixMem
/-
The transformation to the standard setting of a point group: /repo/src/pointgroup.cpp 195-246, 346-364, 565-603.

Simplification: how the axes are chosen for the Laue classes other than the first (pointgroup.cpp 366-531) is a
parameter; the theorems hold for every choice.
-/
namespace Brille.PG
open Brille.Mat Brille.MatMem

/-- the comparisons of one rotation with those found so far, pointgroup.cpp 233-237: `j` runs below the number of
rotations, not of those found; `data(j)` behind the last one is a null pointer (pointsymmetry.cpp 105-107), which
`equal_matrix` reads: `none`. -/
def isUnique (R : Fin 3 → Fin 3 → ℤ) (found : List (Fin 3 → Fin 3 → ℤ)) : ℕ → ℕ → Option Bool
  | _, 0 => some true
  | j, left + 1 =>
    match found[j]? with
    | none => none
    | some F => if decide (R = F) then some false else isUnique R found (j + 1) left

/-- the outer loop, pointgroup.cpp 231-239 -/
def pointsymLoop (n : ℕ) : List (Fin 3 → Fin 3 → ℤ) → List (Fin 3 → Fin 3 → ℤ) → Option (List (Fin 3 → Fin 3 → ℤ))
  | [], found => some found
  | R :: l, found =>
    match isUnique R found 0 n with
    | none => none
    | some u => pointsymLoop n l (if u then found ++ [R] else found)

/-- `ptg_get_pointsymmetry`, pointgroup.cpp 224-241; the first rotation is read in any case -/
def ptgPointsymmetry : List (Fin 3 → Fin 3 → ℤ) → Option (List (Fin 3 → Fin 3 → ℤ))
  | [] => none
  | R :: l => pointsymLoop (l.length + 1) l [R]

/-- `set_transformation_matrix`, pointgroup.cpp 597-603: `tmat[i+3*j]` is component `i` of axis `j`.  `none`: an
index outside of the table of axes. -/
def setTransformation (axes : Fin 3 → ℤ) : Option (Fin 3 → Fin 3 → ℤ) :=
  if ∀ j, 0 ≤ axes j then
    some fun j i => (if axes j < 73 then 1 else -1) * (rotAxes.getD (axes j % 73).toNat fun _ => 0) i
  else none

/-- `get_axes`, pointgroup.cpp 346-364: the axes and whether the class is known; `other` for the classes after the
first -/
def getAxes (other : Laue → List (Fin 3 → Fin 3 → ℤ) → Fin 3 → ℤ) (laue : Laue) (ops : List (Fin 3 → Fin 3 → ℤ)) :
    (Fin 3 → ℤ) × Bool :=
  match laue with
  | .l_1 => (![0, 1, 2], true)
  | .none => (fun _ => 0, false)
  | l => (other l ops, true)

/-- How `ptg_get_transformation_matrix` ends. -/
inductive Transformed
  | undefined
  | threw
  | found (number : ℕ) (matrix : Fin 3 → Fin 3 → ℤ)

/-- `ptg_get_transformation_matrix`, pointgroup.cpp 195-213 -/
def ptgTransformation (other : Laue → List (Fin 3 → Fin 3 → ℤ) → Fin 3 → ℤ) (rots : List (Fin 3 → Fin 3 → ℤ)) :
    Transformed :=
  match ptgPointsymmetry rots with
  | none => .undefined
  | some ops =>
    let number := pointgroupNumber ops
    match pointgroup number with
    | none => .threw
    | some pg =>
      if number > 0 then
        let axes := getAxes other pg.laue ops
        if axes.2 = false then .threw
        else
          match setTransformation axes.1 with
          | none => .undefined
          | some t => .found number t
      else .found number fun _ _ => 0

/-- the memory of `get_orthogonal_axis`, pointgroup.cpp 574-576: the rotation at 0, `rot` at 9, `sum_rot` at 18 -/
def orthogonalFrame (R : Fin 3 → Fin 3 → ℤ) : Mem ℤ := fun x =>
  if h : x < 9 then R ⟨x / 3, by omega⟩ ⟨x % 3, by omega⟩
  else if x = 9 ∨ x = 13 ∨ x = 17 then 1 else 0

/-- the loop, pointgroup.cpp 577-580 -/
def orthogonalSum (R : Fin 3 → Fin 3 → ℤ) (order : ℕ) : Mem ℤ :=
  loop order (fun _ h => zipArrays (· + ·) (multiplyArrays h 9 0 9 3 3 3) 18 9 18 9) (orthogonalFrame R)

/-- `get_orthogonal_axis`, pointgroup.cpp 572-586: the indices found -/
def orthogonalAxes (R : Fin 3 → Fin 3 → ℤ) (order : ℕ) : List ℕ :=
  let S := matAt' (orthogonalSum R order) 18
  (List.range 73).filter fun i => decide (∀ k, mulVec S (rotAxes.getD i fun _ => 0) k = 0)
where
  /-- the three by three matrix at an address -/
  matAt' (h : Mem ℤ) (p : ℕ) : Fin 3 → Fin 3 → ℤ := fun i j => h (p + (i.val * 3 + j.val))

end Brille.PG
