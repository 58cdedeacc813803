/-
Model of the Munkres assignment solver, /repo/src/munkres.hpp.

Costs are taken from an exact linearly ordered additive group instead of floating point numbers, and
`std::numeric_limits<T>::max()` in step six is a value above all costs (`none`).  The matrices are indexed by
row and column instead of `r*N+c`.
-/
import Mathlib.Data.List.FinRange
import Mathlib.Algebra.Order.Group.Defs
import Mathlib.Algebra.Order.Group.Abs
import Mathlib.Algebra.BigOperators.Fin

namespace Brille.Munkres

/-- `enum marker`, munkres.hpp 30-34. -/
inductive Mark
  | normal
  | stared
  | primed
  deriving DecidableEq

/-- The data members of `class Munkres`, munkres.hpp 42-50; `stored` is `stored_row`, `stored_col`. -/
structure State (N : Nat) (K : Type) where
  cost : Fin N → Fin N → K
  mask : Fin N → Fin N → Mark
  step : Nat
  rowcover : Fin N → Bool
  colcover : Fin N → Bool
  stored : Option (Fin N × Fin N)

variable {N : Nat} {K : Type}

/-- assignment to one matrix element (the `mask[r*N+c] = …` of munkres.hpp) -/
def put {α : Type} (f : Fin N → Fin N → α) (r c : Fin N) (x : α) : Fin N → Fin N → α :=
  fun i j => if i = r ∧ j = c then x else f i j

/-- assignment to one vector element (the `rowcover[r] = …` of munkres.hpp) -/
def put1 {α : Type} (f : Fin N → α) (r : Fin N) (x : α) : Fin N → α := fun i => if i = r then x else f i

/-- the order of the double loops `for r … for c …`, e.g. munkres.hpp 192-193 -/
def cells (N : Nat) : List (Fin N × Fin N) :=
  (List.finRange N).flatMap fun r => (List.finRange N).map fun c => (r, c)

/-- `reset`, munkres.hpp 67-82. -/
def reset (cost : Fin N → Fin N → K) : State N K :=
  { cost := cost, mask := fun _ _ => .normal, step := 1, rowcover := fun _ => false,
    colcover := fun _ => false, stored := none }

section
variable [AddCommGroup K] [LinearOrder K]

/-- `find_a_zero`, munkres.hpp 154-165. -/
def findZero (s : State N K) : Option (Fin N × Fin N) :=
  (cells N).find? fun p => decide (s.cost p.1 p.2 = 0 ∧ s.rowcover p.1 = false ∧ s.colcover p.2 = false)

/-- `get_col_of_star_in_row`, munkres.hpp 166-175. -/
def starCol (s : State N K) (r : Fin N) : Option (Fin N) :=
  (List.finRange N).find? fun c => decide (s.mask r c = .stared)

/-- the smallest element of a row, munkres.hpp 181-182 -/
def rowMin (f : Fin N → K) : K :=
  match List.finRange N with
  | [] => 0
  | c0 :: cs => cs.foldl (fun m c => if f c < m then f c else m) (f c0)

/-- `step_one`, munkres.hpp 176-187. -/
def stepOne (s : State N K) : State N K :=
  { s with cost := fun r c => s.cost r c - rowMin (s.cost r), step := 2 }

/-- the body of the double loop of `step_two`, munkres.hpp 194-198 -/
def starCell (s : State N K) (p : Fin N × Fin N) : State N K :=
  if s.cost p.1 p.2 = 0 ∧ s.rowcover p.1 = false ∧ s.colcover p.2 = false then
    { s with mask := put s.mask p.1 p.2 .stared, rowcover := put1 s.rowcover p.1 true,
             colcover := put1 s.colcover p.2 true }
  else s

/-- `step_two`, munkres.hpp 188-206. -/
def stepTwo (s : State N K) : State N K :=
  { (cells N).foldl starCell s with rowcover := fun _ => false, colcover := fun _ => false, step := 3 }

/-- `step_three`, munkres.hpp 207-218. -/
def stepThree (s : State N K) : State N K :=
  let colcover := fun c =>
    if (List.finRange N).any (fun r => decide (s.mask r c = .stared)) then true else s.colcover c
  let count := ((List.finRange N).filter fun c => colcover c).length
  { s with colcover := colcover, step := if N ≤ count then 7 else 4 }

/-- One turn of the loop of `step_four`, munkres.hpp 228-249; `step` stays 4 while the loop goes on. -/
def stepFour (s : State N K) : State N K :=
  match findZero s with
  | none => { s with step := 6 }
  | some (r, c) =>
    let s := { s with mask := put s.mask r c .primed }
    match starCol s r with
    | some c' => { s with rowcover := put1 s.rowcover r true, colcover := put1 s.colcover c' false }
    | none => { s with step := 5, stored := some (r, c) }

/-- The loop of `step_five` that collects the path, munkres.hpp 267-277, from the point where a starred zero
is looked for in column `c`; every turn of the model is one search along a column and one along a row.
The path is listed in the order of collection (the code keeps it reversed).  `none`: out of turns. -/
def path (s : State N K) : Nat → Fin N → Option (List (Fin N × Fin N))
  | 0, _ => none
  | fuel + 1, c =>
    match (List.finRange N).find? fun r => decide (s.mask r c = .stared) with
    | none => some []
    | some r =>
      match (List.finRange N).find? fun c' => decide (s.mask r c' = .primed) with
      | none => some [(r, c)]
      | some c' => (path s fuel c').map fun p => (r, c) :: (r, c') :: p

/-- the change of one cell of the path, munkres.hpp 281-285 -/
def flip (mask : Fin N → Fin N → Mark) (p : Fin N × Fin N) : Fin N → Fin N → Mark :=
  let mask := if mask p.1 p.2 = .stared then put mask p.1 p.2 .normal else mask
  if mask p.1 p.2 = .primed then put mask p.1 p.2 .stared else mask

/-- `step_five`, munkres.hpp 251-297.  The order of the cells in the path is the reverse of the order of
collection (`push_front`). -/
def stepFive (s : State N K) : Option (State N K) :=
  match s.stored with
  | none => none
  | some (r, c) =>
    match path s (N + 1) c with
    | none => none
    | some p =>
      let mask := ((r, c) :: p).reverse.foldl flip s.mask
      let mask := fun i j => if mask i j = .primed then .normal else mask i j
      some { s with mask := mask, rowcover := fun _ => false, colcover := fun _ => false, step := 3 }

/-- the body of the first double loop of `step_six`, munkres.hpp 305 -/
def smaller (s : State N K) (m : Option K) (p : Fin N × Fin N) : Option K :=
  if s.rowcover p.1 = false ∧ s.colcover p.2 = false then
    match m with
    | none => some (s.cost p.1 p.2)
    | some x => if s.cost p.1 p.2 < x then some (s.cost p.1 p.2) else some x
  else m

/-- the smallest uncovered element, munkres.hpp 302-305; `none` is `numeric_limits<T>::max()` -/
def smallestUncovered (s : State N K) : Option K := (cells N).foldl (smaller s) none

/-- `step_six`, munkres.hpp 298-312; `none`: arithmetic with `numeric_limits<T>::max()`, not modelled. -/
def stepSix (s : State N K) : Option (State N K) :=
  match smallestUncovered s with
  | none => none
  | some x =>
    some { s with
      cost := fun r c =>
        let y := if s.rowcover r = true then s.cost r c + x else s.cost r c
        if s.colcover c = false then y - x else y
      step := 4 }

/-- One turn of the loop of `run_assignment`, munkres.hpp 98-107 (for step four: one turn of its inner
loop). -/
def next (s : State N K) : Option (State N K) :=
  match s.step with
  | 1 => some (stepOne s)
  | 2 => some (stepTwo s)
  | 3 => some (stepThree s)
  | 4 => some (stepFour s)
  | 5 => stepFive s
  | 6 => stepSix s
  | _ => some s

/-- Some turns of the loop of `run_assignment`, munkres.hpp 96-109. -/
def turns : Nat → State N K → Option (State N K)
  | 0, s => some s
  | k + 1, s => (next s).bind (turns k)

/-- the assignment written by `get_assignment` for one row, munkres.hpp 124-127 (the last star of the row) -/
def outOf (s : State N K) (r : Fin N) : Option (Fin N) :=
  (List.finRange N).foldl (fun o c => if s.mask r c = .stared then some c else o) none

/-- The construction of a `Munkres` object followed by `get_assignment`, munkres.hpp 59-68, 89-131, with at
most `k` turns of the loop.  `none`: not done after `k` turns; `some none`: `false` is returned;
`some (some out)`: `true` is returned with `out`. -/
def solve (cost : Fin N → Fin N → K) (k : Nat) : Option (Option (Fin N → Option (Fin N))) :=
  if ((cells N).map fun p => |cost p.1 p.2|).sum ≤ 0 then some none
  else
    match turns k (reset cost) with
    | none => none
    | some s => if s.step = 7 then some (some (outOf s)) else none

end

end Brille.Munkres
