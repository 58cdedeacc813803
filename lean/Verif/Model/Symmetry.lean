/-
Lists of symmetry operations: `Symmetry` (/repo/src/symmetry.cpp), whose operations are motions, and
`PointSymmetry` (/repo/src/pointsymmetry.cpp), whose operations are integer matrices.  Their member functions
`has`, `generate` and `generators` have the same text up to the kind of operation and the way in which the order
of an operation is found; they are modelled once, for any kind.
-/
import Verif.Model.Motion
import Mathlib.Data.Fin.VecNotation
import Mathlib.Data.List.Sort

namespace Brille.Sym

/-- A kind of operation: product, identity, comparison, and what `order(i)` returns. -/
structure Ops (α : Type) where
  mul : α → α → α
  e : α
  beq : α → α → Bool
  order : α → Nat

variable {α : Type} (o : Ops α)

/-- `has`, symmetry.cpp 90-93: `m == om` for some held `m`; pointsymmetry.cpp 257-260. -/
def has (M : List α) (om : α) : Bool := M.any fun m => o.beq m om

/-- `if (!gen.has(y)) gen.add(y);`, symmetry.cpp 141, pointsymmetry.cpp 313 -/
def addMissing (gen : List α) (y : α) : List α := if has o gen y then gen else gen ++ [y]

/-- The loop over the operations that are in `gen` when it starts, symmetry.cpp 137-142, pointsymmetry.cpp
308-314. -/
def mulAll (x : α) (gen : List α) : List α := gen.foldl (fun g h => addMissing o g (o.mul x h)) gen

/-- The loop over the powers of one generator, symmetry.cpp 132-143, pointsymmetry.cpp 303-315: `count` turns,
from the power `x`. -/
def powers (g : α) : Nat → α → List α → List α
  | 0, _, gen => gen
  | count + 1, x, gen => powers g count (o.mul g x) (mulAll o (o.mul g x) gen)

/-- One turn of the loop over the generators. -/
def extend (gen : List α) (g : α) : List α := powers o g (o.order g) o.e gen

/-- `generate`, symmetry.cpp 126-146, pointsymmetry.cpp 297-318 -/
def generate (gens : List α) : List α := gens.foldl (extend o) [o.e]

/-- The first loop of `generators`, symmetry.cpp 149-153, pointsymmetry.cpp 321-328: `lA` and `lB`.  One turn of
`fuel` per turn of the `while`; `generators_fuel` below proves that the number of operations suffices. -/
def collect : Nat → List α → List α → List α × List α
  | _, [], lB => ([], lB)
  | 0, lA, lB => (lA, lB)
  | fuel + 1, a :: lA, lB =>
    collect fuel ((a :: lA).filter fun m => !has o (generate o (lB ++ [a])) m) (lB ++ [a])

/-- The second loop of `generators`, symmetry.cpp 156-162, pointsymmetry.cpp 332-338, from the position `i`.
Each turn either erases an entry or goes on to the next, so `fuel` = the number of entries suffices. -/
def prune : Nat → Nat → List α → List α
  | 0, _, lB => lB
  | fuel + 1, i, lB =>
    match lB[i]? with
    | none => lB
    | some b =>
      if has o (generate o (lB.eraseIdx i)) b then prune fuel i (lB.eraseIdx i) else prune fuel (i + 1) lB

/-- `generators`, symmetry.cpp 147-166, pointsymmetry.cpp 319-341 -/
def generators (M : List α) : List α :=
  let lB := (collect o M.length M []).2
  prune o lB.length 0 lB

/-- `operator==`, symmetry.cpp 168-175 -/
def sameSet (a b : List α) : Bool := decide (a.length = b.length) && a.all fun m => has o b m

/-- the loop of `Symmetry::order`, symmetry.cpp 112: `ord` and the power `t` after `++ord` -/
def orderLoop (mul : α → α → α) (beq : α → α → Bool) (e g : α) : Nat → α → Nat → Nat
  | 0, _, ord => ord
  | fuel + 1, t, ord => if beq t e then ord else orderLoop mul beq e g fuel (mul g t) (ord + 1)

/-- `Symmetry::order`, symmetry.cpp 106-120: at most 10. -/
def order10 (mul : α → α → α) (beq : α → α → Bool) (e g : α) : Nat := orderLoop mul beq e g 9 g 1

/-- The operations of `Symmetry`. -/
def motionOps : Ops Mot.Motion where
  mul := Mot.mul
  e := Mot.ofTranslation fun _ => 0
  beq := Mot.beq
  order := order10 Mot.mul Mot.beq (Mot.ofTranslation fun _ => 0)

/-- `approx_float::matrix` for integers, pointsymmetry.cpp 258. -/
def matBeq (a b : Fin 3 → Fin 3 → ℤ) : Bool :=
  Approx.array .int .int ((List.finRange 3).flatMap fun i => (List.finRange 3).map fun j =>
    ((a i j : ℚ), (b i j : ℚ))) 0 0 1

/-- `isometry_type`, pointgroup.cpp 313-334: by trace and determinant; `none` is the error value -1.  The second
`switch` is entered for any determinant other than -1. -/
def isometryType (R : Fin 3 → Fin 3 → ℤ) : Option (Fin 10) :=
  let tr := Mat.trace R
  if Mat.determinant R = -1 then
    if tr = -2 then some 0 else if tr = -1 then some 1 else if tr = 0 then some 2 else if tr = 1 then some 3
    else if tr = -3 then some 4 else none
  else
    if tr = 3 then some 5 else if tr = -1 then some 6 else if tr = 0 then some 7 else if tr = 1 then some 8
    else if tr = 2 then some 9 else none

/-- `isometry_value`, pointgroup.cpp 335-339 -/
def isometryValue (R : Fin 3 → Fin 3 → ℤ) : ℤ :=
  match isometryType R with
  | some i => (![-6, -4, -3, -2, -1, 1, 2, 3, 4, 6] : Fin 10 → ℤ) i
  | none => 0

/-- `rotation_order`, pointgroup.cpp 340-344 -/
def rotationOrder (R : Fin 3 → Fin 3 → ℤ) : Nat :=
  match isometryType R with
  | some i => (![6, 4, 3, 2, 1, 1, 2, 3, 4, 6] : Fin 10 → Nat) i
  | none => 0

/-- The operations of `PointSymmetry`. -/
def pointOps : Ops (Fin 3 → Fin 3 → ℤ) where
  mul := Mat.mulArrays
  e := Mot.idMat
  beq := matBeq
  order := rotationOrder

/-! ### further members of `PointSymmetry` -/

/-- `get_inverse_index`, pointsymmetry.cpp 131-142: the first `j` with `R[j] R[i]` equal to the identity; `none`:
the exception.  An `i` out of range is returned as it is. -/
def getInverseIndex (R : List (Fin 3 → Fin 3 → ℤ)) (i : Nat) : Option Nat :=
  match R[i]? with
  | none => some i
  | some r => R.findIdx? fun q => matBeq Mot.idMat (Mat.mulArrays q r)

/-- `get_inverse`, pointsymmetry.cpp 119-130 -/
def getInverse (R : List (Fin 3 → Fin 3 → ℤ)) (i : Nat) : Option (Fin 3 → Fin 3 → ℤ) :=
  match R[i]? with
  | none => some Mot.idMat
  | some r => R.find? fun q => matBeq Mot.idMat (Mat.mulArrays q r)

/-- `find_index`, pointsymmetry.cpp 143-147: the size if there is none -/
def findIndex (R : List (Fin 3 → Fin 3 → ℤ)) (a : Fin 3 → Fin 3 → ℤ) : Nat :=
  R.findIdx fun r => matBeq a r

/-- `get_proper`, pointsymmetry.cpp 111-118, for an index in range -/
def getProper (r : Fin 3 → Fin 3 → ℤ) : Fin 3 → Fin 3 → ℤ :=
  if isometryValue r < 0 then fun i j => r i j * -1 else r

/-- `has_space_inversion`, pointsymmetry.cpp 242-246 -/
def hasSpaceInversion (R : List (Fin 3 → Fin 3 → ℤ)) : Bool := R.any fun r => decide (-1 = isometryValue r)

/-- the matrix `{-1,0,0, 0,-1,0, 0,0,-1}` -/
def inversion : Fin 3 → Fin 3 → ℤ := fun i j => if i = j then -1 else 0

/-- `add_space_inversion`, pointsymmetry.cpp 248-255 -/
def addSpaceInversion (R : List (Fin 3 → Fin 3 → ℤ)) : List (Fin 3 → Fin 3 → ℤ) :=
  if hasSpaceInversion R then R else generate pointOps (generators pointOps R ++ [inversion])

/-- `higher`, pointsymmetry.cpp 385-394, before sorting -/
def higher (R : List (Fin 3 → Fin 3 → ℤ)) (minOrder : ℤ) : List (Fin 3 → Fin 3 → ℤ) :=
  R.filter fun r => decide (minOrder < (rotationOrder r : ℤ))

/-- The comparison that `sort(mode)` hands to `std::sort`, pointsymmetry.cpp 173-188. -/
def sortLess (mode : ℤ) (a b : Fin 3 → Fin 3 → ℤ) : Bool :=
  if mode = -2 then decide (isometryValue a > isometryValue b)
  else if mode = -1 then decide (rotationOrder a > rotationOrder b)
  else if mode = 2 then decide (isometryValue a < isometryValue b)
  else decide (rotationOrder a < rotationOrder b)

/-- The contract of `std::sort`: `R'` holds the entries of `R` and no entry is less than one before it. -/
def StdSorted (less : α → α → Bool) (R R' : List α) : Prop :=
  R'.Perm R ∧ R'.Pairwise fun a b => less b a = false

/-! `permute`, pointsymmetry.cpp 189-224 -/

/-- The check of the argument, lines 191-203: sorted, it has to be part of `0, 1, …, size-1`, and as long. -/
def permuteOk (n : Nat) (p : List Nat) : Bool :=
  (p.insertionSort (· ≤ ·)).isSublist (List.range n) && decide (p.length = n)

/-- `for (i) s[p[i]] = i`, line 205, from the sorted `s` -/
def inversePerm (p : List Nat) : List Nat :=
  (List.range p.length).foldl (fun s i => s.set (p.getD i 0) i) (p.insertionSort (· ≤ ·))

/-- The swapping, lines 207-214: position `i`, `s` and the operations.  Each turn either goes on to the next
position or puts one entry of `s` in its place, hence the bound on the turns. -/
def swapping : Nat → Nat → List Nat → List α → List Nat × List α
  | 0, _, s, R => (s, R)
  | fuel + 1, i, s, R =>
    if i < R.length then
      if s.getD i 0 = i then swapping fuel (i + 1) s R
      else
        let k := s.getD i 0
        match R[i]?, R[k]? with
        | some a, some b => swapping fuel i ((s.set i (s.getD k 0)).set k k) ((R.set i b).set k a)
        | _, _ => (s, R)
    else (s, R)

/-- `permute`; `none`: one of the exceptions. -/
def permute (p : List Nat) (R : List α) : Option (List α) :=
  if permuteOk R.length p then
    let (s, R') := swapping (2 * R.length) 0 (inversePerm p) R
    if decide (s.Pairwise (· ≤ ·)) then some R' else none
  else none

end Brille.Sym
