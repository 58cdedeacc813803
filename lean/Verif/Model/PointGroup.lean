/-
Point groups: `/repo/src/pointgroup.cpp`, `/repo/src/pointgroup.hpp`.
-/
import Verif.Model.Symmetry

namespace Brille.PG
open Brille.Mat

/-- pointgroup.hpp 92 -/
inductive Holohedry where
  | none | triclinic | monoclinic | orthogonal | tetragonal | trigonal | hexagonal | cubic
  deriving DecidableEq

/-- pointgroup.hpp 114 -/
inductive Laue where
  | none | l_1 | l_2m | l_mmm | l_4m | l_4mmm | l_3 | l_3m | l_6m | l_6mmm | l_m3 | l_m3m
  deriving DecidableEq

/-- `PointgroupType`, pointgroup.cpp 73-79 -/
structure Data where
  table : List Nat
  symbol : String
  schoenflies : String
  holohedry : Holohedry
  laue : Laue

/-- `pointgroup_data`, pointgroup.cpp 81-116: how many of the operations are -6, -4, -3, -2, -1, 1, 2, 3, 4, 6 -/
def data : List Data := [
  ⟨[0, 0, 0, 0, 0, 0, 0, 0, 0, 0], "", "", .none, .none⟩,
  ⟨[0, 0, 0, 0, 0, 1, 0, 0, 0, 0], "1", "C1", .triclinic, .l_1⟩,
  ⟨[0, 0, 0, 0, 1, 1, 0, 0, 0, 0], "-1", "Ci", .triclinic, .l_1⟩,
  ⟨[0, 0, 0, 0, 0, 1, 1, 0, 0, 0], "2", "C2", .monoclinic, .l_2m⟩,
  ⟨[0, 0, 0, 1, 0, 1, 0, 0, 0, 0], "m", "Cs", .monoclinic, .l_2m⟩,
  ⟨[0, 0, 0, 1, 1, 1, 1, 0, 0, 0], "2/m", "C2h", .monoclinic, .l_2m⟩,
  ⟨[0, 0, 0, 0, 0, 1, 3, 0, 0, 0], "222", "D2", .orthogonal, .l_mmm⟩,
  ⟨[0, 0, 0, 2, 0, 1, 1, 0, 0, 0], "mm2", "C2v", .orthogonal, .l_mmm⟩,
  ⟨[0, 0, 0, 3, 1, 1, 3, 0, 0, 0], "mmm", "D2h", .orthogonal, .l_mmm⟩,
  ⟨[0, 0, 0, 0, 0, 1, 1, 0, 2, 0], "4", "C4", .tetragonal, .l_4m⟩,
  ⟨[0, 2, 0, 0, 0, 1, 1, 0, 0, 0], "-4", "S4", .tetragonal, .l_4m⟩,
  ⟨[0, 2, 0, 1, 1, 1, 1, 0, 2, 0], "4/m", "C4h", .tetragonal, .l_4m⟩,
  ⟨[0, 0, 0, 0, 0, 1, 5, 0, 2, 0], "422", "D4", .tetragonal, .l_4mmm⟩,
  ⟨[0, 0, 0, 4, 0, 1, 1, 0, 2, 0], "4mm", "C4v", .tetragonal, .l_4mmm⟩,
  ⟨[0, 2, 0, 2, 0, 1, 3, 0, 0, 0], "-42m", "D2d", .tetragonal, .l_4mmm⟩,
  ⟨[0, 2, 0, 5, 1, 1, 5, 0, 2, 0], "4/mmm", "D4h", .tetragonal, .l_4mmm⟩,
  ⟨[0, 0, 0, 0, 0, 1, 0, 2, 0, 0], "3", "C3", .trigonal, .l_3⟩,
  ⟨[0, 0, 2, 0, 1, 1, 0, 2, 0, 0], "-3", "C3i", .trigonal, .l_3⟩,
  ⟨[0, 0, 0, 0, 0, 1, 3, 2, 0, 0], "32", "D3 ", .trigonal, .l_3m⟩,
  ⟨[0, 0, 0, 3, 0, 1, 0, 2, 0, 0], "3m", "C3v", .trigonal, .l_3m⟩,
  ⟨[0, 0, 2, 3, 1, 1, 3, 2, 0, 0], "-3m", "D3d", .trigonal, .l_3m⟩,
  ⟨[0, 0, 0, 0, 0, 1, 1, 2, 0, 2], "6", "C6", .hexagonal, .l_6m⟩,
  ⟨[2, 0, 0, 1, 0, 1, 0, 2, 0, 0], "-6", "C3h", .hexagonal, .l_6m⟩,
  ⟨[2, 0, 2, 1, 1, 1, 1, 2, 0, 2], "6/m", "C6h", .hexagonal, .l_6m⟩,
  ⟨[0, 0, 0, 0, 0, 1, 7, 2, 0, 2], "622", "D6", .hexagonal, .l_6mmm⟩,
  ⟨[0, 0, 0, 6, 0, 1, 1, 2, 0, 2], "6mm", "C6v", .hexagonal, .l_6mmm⟩,
  ⟨[2, 0, 0, 4, 0, 1, 3, 2, 0, 0], "-6m2", "D3h", .hexagonal, .l_6mmm⟩,
  ⟨[2, 0, 2, 7, 1, 1, 7, 2, 0, 2], "6/mmm", "D6h", .hexagonal, .l_6mmm⟩,
  ⟨[0, 0, 0, 0, 0, 1, 3, 8, 0, 0], "23", "T", .cubic, .l_m3⟩,
  ⟨[0, 0, 8, 3, 1, 1, 3, 8, 0, 0], "m-3", "Th", .cubic, .l_m3⟩,
  ⟨[0, 0, 0, 0, 0, 1, 9, 8, 6, 0], "432", "O", .cubic, .l_m3m⟩,
  ⟨[0, 6, 0, 6, 0, 1, 3, 8, 0, 0], "-43m", "Td", .cubic, .l_m3m⟩,
  ⟨[0, 6, 8, 9, 1, 1, 9, 8, 6, 0], "m-3m", "Oh", .cubic, .l_m3m⟩]

/-- `Pointgroup(int)` with `setup`, pointgroup.cpp 218-225; `none` is the exception. -/
def pointgroup (n : Int) : Option Data := if n < 0 ∨ n ≥ 33 then none else data[n.toNat]?

/-- `table[rot_type]++` -/
def bump (table : List Nat) (k : Fin 10) : List Nat := table.set k.1 (table.getD k.1 0 + 1)

/-- the loop of `get_pointgroup_class_table`, pointgroup.cpp 287-295; `none` is the return value 0. -/
def classLoop : List (Fin 3 → Fin 3 → ℤ) → List Nat → Option (List Nat)
  | [], table => some table
  | R :: l, table =>
    match Sym.isometryType R with
    | none => none
    | some k => classLoop l (bump table k)

/-- `get_pointgroup_class_table`, pointgroup.cpp 285-296 -/
def classTable (ops : List (Fin 3 → Fin 3 → ℤ)) : Option (List Nat) := classLoop ops (List.replicate 10 0)

/-- the inner loop of `get_pointgroup_number`, pointgroup.cpp 256-257: the number of equal entries -/
def agree (a b : List Nat) : Nat := ((List.range 10).filter fun j => decide (a.getD j 0 = b.getD j 0)).length

/-- the outer loop, pointgroup.cpp 254-259: from the row `i` on -/
def numberLoop (table : List Nat) : Nat → List Data → Nat
  | _, [] => 0
  | i, d :: l => if 10 = agree d.table table then i else numberLoop table (i + 1) l

/-- `get_pointgroup_number`, pointgroup.cpp 248-262 -/
def pointgroupNumber (ops : List (Fin 3 → Fin 3 → ℤ)) : Nat :=
  match classTable ops with
  | none => 0
  | some table => numberLoop table 1 data.tail

/-- The loop of `get_unique_rotations`, pointgroup.cpp 620-631, with the unique rotations themselves in place of
their positions.  The variable `i_is_not_unique` keeps its value only if there is nothing to compare with, which
is never the case. -/
def uniqueLoop : List (Fin 3 → Fin 3 → ℤ) → List (Fin 3 → Fin 3 → ℤ) → List (Fin 3 → Fin 3 → ℤ)
  | [], unique => unique
  | R :: l, unique => uniqueLoop l (if unique.any fun u => decide (u = R) then unique else unique ++ [R])

/-- `get_unique_rotations`, pointgroup.cpp 605-641; `none`: the first element of an empty vector is read. -/
def uniqueRotations (rots : List (Fin 3 → Fin 3 → ℤ)) (timeReversal : Bool) : Option (List (Fin 3 → Fin 3 → ℤ)) :=
  let tmp := if timeReversal then rots ++ rots.map (mulArrays Sym.inversion) else rots
  match tmp with
  | [] => none
  | R :: l => some (uniqueLoop l [R])

/-- `rot_axes`, pointgroup.cpp 162-178 -/
def rotAxes : List (Fin 3 → ℤ) := [
  ![1, 0, 0], ![0, 1, 0], ![0, 0, 1], ![0, 1, 1], ![1, 0, 1], ![1, 1, 0], ![0, 1, -1], ![-1, 0, 1],
  ![1, -1, 0], ![1, 1, 1], ![-1, 1, 1], ![1, -1, 1], ![1, 1, -1], ![0, 1, 2], ![2, 0, 1], ![1, 2, 0],
  ![0, 2, 1], ![1, 0, 2], ![2, 1, 0], ![0, -1, 2], ![2, 0, -1], ![-1, 2, 0], ![0, -2, 1], ![1, 0, -2],
  ![-2, 1, 0], ![2, 1, 1], ![1, 2, 1], ![1, 1, 2], ![2, -1, -1], ![-1, 2, -1], ![-1, -1, 2], ![2, 1, -1],
  ![-1, 2, 1], ![1, -1, 2], ![2, -1, 1], ![1, 2, -1], ![-1, 1, 2], ![3, 1, 2], ![2, 3, 1], ![1, 2, 3],
  ![3, 2, 1], ![1, 3, 2], ![2, 1, 3], ![3, -1, 2], ![2, 3, -1], ![-1, 2, 3], ![3, -2, 1], ![1, 3, -2],
  ![-2, 1, 3], ![3, -1, -2], ![-2, 3, -1], ![-1, -2, 3], ![3, -2, -1], ![-1, 3, -2], ![-2, -1, 3], ![3, 1, -2],
  ![-2, 3, 1], ![1, -2, 3], ![3, 2, -1], ![-1, 3, 2], ![2, -1, 3], ![1, 1, 3], ![-1, 1, 3], ![1, -1, 3],
  ![-1, -1, 3], ![1, 3, 1], ![-1, 3, 1], ![1, 3, -1], ![-1, 3, -1], ![3, 1, 1], ![3, 1, -1], ![3, -1, 1],
  ![3, -1, -1]]

/-- `get_rotation_axis`, pointgroup.cpp 533-552, for a proper rotation; `none` is -1. -/
def rotationAxis (R : Fin 3 → Fin 3 → ℤ) : Option Nat :=
  if decide (R = Mot.idMat) then none
  else rotAxes.findIdx? fun u => decide (∀ i, mulVec R u i = u i)

/-- the dot product in `orthogonal_to_axis`, pointgroup.cpp 558-559 -/
def idot (u v : Fin 3 → ℤ) : ℤ := u 0 * v 0 + u 1 * v 1 + u 2 * v 2

/-- `orthogonal_to_axis`, pointgroup.cpp 555-563: the axes with vanishing product -/
def orthogonal (u : Fin 3 → ℤ) : List (Fin 3 → ℤ) := rotAxes.filter fun v => decide (idot v u = 0)

/-- `for (i…) if (norm[i] < norm[idx]) idx = i;`, pointgroup.cpp 678: position in `norm` of its first least entry, if
that is below the entry at `idx` -/
def argMin (norm : List ℤ) (idx : Nat) : Nat :=
  (List.range norm.length).foldl (fun idx i => if norm.getD i 0 < norm.getD idx 0 then i else idx) idx

/-- `get_proper_rotation`, pointgroup.cpp 588-595 -/
def properRotation (R : Fin 3 → Fin 3 → ℤ) : Fin 3 → Fin 3 → ℤ :=
  if determinant R = -1 then mulArrays Sym.inversion R else R

/-- `rotation_axis_and_perpendicular_vectors`, pointgroup.cpp 664-684 -/
def axisAndPerpendicular (R : Fin 3 → Fin 3 → ℤ) : List (Fin 3 → ℤ) :=
  match rotationAxis (properRotation R) with
  | none => [fun _ => 0, fun _ => 0, fun _ => 0]
  | some a =>
    let u := rotAxes.getD a fun _ => 0
    let ortho := orthogonal u
    let norm := ortho.map fun v => idot v v
    let i1 := argMin norm 0
    let norm' := norm.set i1 100
    let i2 := argMin norm' i1
    [u, ortho.getD i1 fun _ => 0, ortho.getD i2 fun _ => 0]

end Brille.PG
