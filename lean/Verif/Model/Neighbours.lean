/-
Relative neighbour offsets: /repo/src/neighbours.cpp.  The rows are written one after the other into a vector of a
size fixed beforehand; the model lists the rows in the order in which they are written, and that their number is
the size of the vector is a theorem.
-/
import Mathlib.Data.List.Basic
import Mathlib.Data.Int.Basic

namespace Brille.Neighbours

/-- `all_from_extent`, neighbours.cpp 25-30 -/
def allFromExtent (extent : ℤ) : List ℤ :=
  (List.range (extent + 1 - -extent).toNat).map fun n : Nat => -extent + n

/-- the size of the vector, neighbours.cpp 34-36 (for at least one value; with none the subtraction would wrap) -/
def size (extent : ℤ) : Nat :=
  (allFromExtent extent).length * (allFromExtent extent).length * (allFromExtent extent).length - 1

/-- `make_relative_neighbour_indices`, neighbours.cpp 32-40 -/
def offsets (extent : ℤ) : List (ℤ × ℤ × ℤ) :=
  ((allFromExtent extent).flatMap fun i => (allFromExtent extent).flatMap fun j =>
    (allFromExtent extent).map fun k => (i, j, k)).filter fun (i, j, k) => i ≠ 0 || j ≠ 0 || k ≠ 0

/-- the row of zeros with component `e` set, neighbours.cpp 47-49 -/
def onAxis (e : Nat) (j : ℤ) : ℤ × ℤ × ℤ :=
  (if e = 0 then j else 0, if e = 1 then j else 0, if e = 2 then j else 0)

/-- the row of zeros with components `e0` and then `e1` set, neighbours.cpp 53 -/
def onPlane (e0 e1 : Nat) (k j : ℤ) : ℤ × ℤ × ℤ :=
  (if e1 = 0 then j else if e0 = 0 then k else 0, if e1 = 1 then j else if e0 = 1 then k else 0,
    if e1 = 2 then j else if e0 = 2 then k else 0)

/-- `make_relative_neighbour_indices_prime`, neighbours.cpp 42-59: the axes, the planes, everything else -/
def offsetsPrime (extent : ℤ) : List (ℤ × ℤ × ℤ) :=
  ((List.range 3).flatMap fun e => ((allFromExtent extent).filter fun j => j ≠ 0).map (onAxis e)) ++
  ((List.range 2).flatMap fun e0 => (List.range' (e0 + 1) (3 - (e0 + 1))).flatMap fun e1 =>
    (((allFromExtent extent).flatMap fun k => (allFromExtent extent).map fun j => (k, j)).filter
      fun (k, j) => k ≠ 0 && j ≠ 0).map fun (k, j) => onPlane e0 e1 k j) ++
  ((allFromExtent extent).flatMap fun i => (allFromExtent extent).flatMap fun j =>
    (allFromExtent extent).map fun k => (i, j, k)).filter fun (i, j, k) => i ≠ 0 && j ≠ 0 && k ≠ 0

/-- `make_relative_neighbour_indices4`, neighbours.cpp 61-67 -/
def offsets4 (extent : ℤ) : List (ℤ × ℤ × ℤ × ℤ) :=
  ((allFromExtent extent).flatMap fun i => (allFromExtent extent).flatMap fun j =>
    (allFromExtent extent).flatMap fun k => (allFromExtent extent).map fun l => (i, j, k, l)).filter
      fun (i, j, k, l) => i ≠ 0 || j ≠ 0 || k ≠ 0 || l ≠ 0

end Brille.Neighbours
