/-
The stable matching solver, /repo/src/smp.hpp.
-/
import Mathlib.Order.Defs.LinearOrder
import Mathlib.Data.List.FinRange

namespace Brille.Smp

variable {n : Nat} {P : Type} [LinearOrder P]

/-- assignment to one entry of an array -/
def put {α : Type} (f : Fin n → α) (k : Fin n) (x : α) : Fin n → α := fun j => if j = k then x else f j

/-- one turn of the search for the smallest entry: smp.hpp 68-71 (and 80-83) -/
def lessStep (tmp : Fin n → P) (best : Fin n) (k : Fin n) : Fin n := if tmp k < tmp best then k else best

/-- the first smallest entry, smp.hpp 66-71 (and 78-83): `min` is always the entry at the index kept -/
def argmin [NeZero n] (tmp : Fin n → P) : Fin n := (List.finRange n).foldl (lessStep tmp) 0

/-- `m` choices in increasing order; a chosen entry is replaced by the largest value of its type, here `big`:
smp.hpp 65-73 (and 77-85) -/
def picks [NeZero n] (big : P) : Nat → (Fin n → P) → List (Fin n)
  | 0, _ => []
  | m + 1, tmp => argmin tmp :: picks big m (put tmp (argmin tmp) big)

/-- the columns in the order in which row `i` prefers them, smp.hpp 64-73 -/
def rpref [NeZero n] (big : P) (prefs : Fin n → Fin n → P) (i : Fin n) : List (Fin n) := picks big n (prefs i)

/-- the rows in the order in which column `i` prefers them, smp.hpp 76-85 -/
def corder [NeZero n] (big : P) (prefs : Fin n → Fin n → P) (i : Fin n) : List (Fin n) :=
  picks big n (fun j => prefs j i)

/-- the place of row `j` in the order of column `i`, smp.hpp 88-89.  If `j` has no place the code keeps an
old or uninitialised value: `none`. -/
def cpref [NeZero n] (big : P) (prefs : Fin n → Fin n → P) (i j : Fin n) : Option Nat :=
  (corder big prefs i).findIdx? (fun x => x == j)

/-- the variables of the matching loop, smp.hpp 109-122 -/
structure State (n : Nat) where
  rmatched : Fin n → Bool
  cmatched : Fin n → Bool
  rproposed : Fin n → Nat
  rsol : Fin n → Fin n
  csol : Fin n → Fin n
  nsel : Nat

/-- smp.hpp 113-119 -/
def init [NeZero n] : State n :=
  { rmatched := fun _ => false, cmatched := fun _ => false, rproposed := fun _ => 0, rsol := fun _ => 0
    csol := fun _ => 0, nsel := 0 }

/-- the turn of the loop for row `i`, smp.hpp 128-161.  `none`: an exception (131), or an uninitialised value is
compared (137; note that the row index `i` is used there in place of the column index `thisc`). -/
def rowStep [NeZero n] (big : P) (prefs : Fin n → Fin n → P) (s : State n) (i : Fin n) : Option (State n) :=
  if s.rmatched i then some s
  else match (rpref big prefs i)[s.rproposed i]? with
    | none => none
    | some thisc =>
      if s.cmatched thisc then
        match cpref big prefs i i, cpref big prefs i (s.csol thisc) with
        | some a, some b =>
          if a < b then
            some { s with
              rmatched := put (put s.rmatched (s.csol thisc) false) i true
              rsol := put (put s.rsol (s.csol thisc) 0) i thisc
              rproposed := put s.rproposed (s.csol thisc) (s.rproposed (s.csol thisc) + 1)
              csol := put s.csol thisc i }
          else some { s with rproposed := put s.rproposed i (s.rproposed i + 1) }
        | _, _ => none
      else some { s with
        rsol := put s.rsol i thisc
        csol := put s.csol thisc i
        rmatched := put s.rmatched i true
        cmatched := put s.cmatched thisc true
        nsel := s.nsel + 1 }

/-- one pass over the rows, smp.hpp 128-162 -/
def sweep [NeZero n] (big : P) (prefs : Fin n → Fin n → P) (s : State n) : List (Fin n) → Option (State n)
  | [] => some s
  | i :: rest => (rowStep big prefs s i).bind fun s => sweep big prefs s rest

/-- the loop with at most `left` more passes, smp.hpp 125-163 -/
def loop [NeZero n] (big : P) (prefs : Fin n → Fin n → P) : Nat → State n → Option (State n)
  | 0, s => some s
  | left + 1, s =>
    if s.nsel < n then (sweep big prefs s (List.finRange n)).bind (loop big prefs left) else some s

/-- `smp`, smp.hpp 53-179: the row and the column solution.  `big` is the largest value of the type of the
preferences.  Printing is left out. -/
def smp [NeZero n] (big : P) (prefs : Fin n → Fin n → P) : Option ((Fin n → Fin n) × (Fin n → Fin n)) :=
  (loop big prefs (n * n * n) init).map fun s => (s.rsol, s.csol)

end Brille.Smp
