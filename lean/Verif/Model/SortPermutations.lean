/-
Model of `DualInterpolator::sort` and `determine_permutation_ij`, /repo/src/interpolatordual.hpp
398-435, run by any number of OpenMP threads.

The assignment solver applied to the cost matrix of the data stored for `i` and `j`
(`jv_permutation_fill(cost_matrix(i,j), row, col)`, line 428) is a parameter `solve i j = (row, col)`: it
reads only `values_` and `vectors_`, which `sort` does not change.  One atomic step of a thread is
shorter than a statement of the C++ wherever the shared table is touched: an `overwrite` is split in its
look-up part and its writing part, and the mutex is explicit.
-/
import Verif.Model.PermutationTable

namespace Brille.SortPerm
open Brille.PermTable

/-- The selection of the keys of one triangle, interpolatordual.hpp 406-410: `i = key/no`, kept if
`i*(no+1) < key`, with `j = key - i*no`. -/
def triOf (no key : Nat) : Option (Nat × Nat) :=
  let i := key / no
  if i * (no + 1) < key then some (i, key - i * no) else none

/-- `tri_ij`, interpolatordual.hpp 401-410; the keys come in increasing order (`std::set`).  Dividing by
`no = 0` is undefined behaviour (`none`). -/
def triPairs (no : Nat) (keys : List Nat) : Option (List (Nat × Nat)) :=
  if no = 0 ∧ keys ≠ [] then none else some (keys.filterMap (triOf no))

/-- Where a thread is inside `determine_permutation_ij`, interpolatordual.hpp 425-435. -/
inductive PC
  /-- between two iterations of the loop 416-419 -/
  | idle
  /-- after line 428: the two permutations are in local variables -/
  | solved (i j : Nat) (row col : List Nat)
  /-- after line 429: the mutex is held -/
  | locked (i j : Nat) (row col : List Nat)
  /-- inside line 430, after `find_permutation` (permutation_table.hpp 180) -/
  | found1 (i j : Nat) (row col : List Nat) (contains : Bool) (idx : Nat)
  /-- after line 430 -/
  | wrote1 (i j : Nat) (col : List Nat)
  /-- inside line 431, after `find_permutation` -/
  | found2 (i j : Nat) (col : List Nat) (contains : Bool) (idx : Nat)
  /-- after line 431, before `unlock` -/
  | wrote2
deriving DecidableEq

/-- One worker thread: the iterations it still has to do (interpolatordual.hpp 415-419) and where it
is. -/
structure Thread where
  todo : List (Nat × Nat)
  pc : PC

/-- Shared state of interpolatordual.hpp 413-419: the table and the mutex, with the threads. -/
structure State (T : Nat) where
  table : Table
  owner : Option (Fin T)
  threads : Fin T → Thread

/-- replace the state of one thread (bookkeeping of the model of interpolatordual.hpp 415-419) -/
def setThread {T : Nat} (f : Fin T → Thread) (k : Fin T) (t : Thread) : Fin T → Thread :=
  fun j => if j = k then t else f j

/-- The writing part of `overwrite`, permutation_table.hpp 181-182: store the permutation if it is new,
then change the mapped value. -/
def writePart (t : Table) (i j : Nat) (v : List Nat) (contains : Bool) (idx : Nat) : Table :=
  { t with
    permutations := if contains then t.permutations else t.permutations ++ [v]
    ijmap := mapSet t.ijmap (ij2key t i j) (idx + offset) }

/-- The look-up part of `overwrite`, permutation_table.hpp 177-180; `none` is the exception. -/
def findPart (t : Table) (i j : Nat) (v : List Nat) : Option (Bool × Nat) :=
  match t.ijmap (ij2key t i j) with
  | none => none
  | some _ => some (findPermutation t.permutations v)

/-- One atomic step of thread `k`.  `none`: an exception left the parallel region (the program is
terminated).  A thread that has to wait for the mutex, or has finished, does not change the state. -/
def step {T : Nat} (solve : Nat → Nat → List Nat × List Nat) (s : State T) (k : Fin T) :
    Option (State T) :=
  let th := s.threads k
  match th.pc with
  | .idle =>
    match th.todo with
    | [] => some s
    | (i, j) :: r =>
      some { s with threads := setThread s.threads k ⟨r, .solved i j (solve i j).1 (solve i j).2⟩ }
  | .solved i j row col =>
    match s.owner with
    | some _ => some s
    | none => some { s with
        owner := some k
        threads := setThread s.threads k ⟨th.todo, .locked i j row col⟩ }
  | .locked i j row col =>
    match findPart s.table i j row with
    | none => none
    | some (c, idx) =>
      some { s with threads := setThread s.threads k ⟨th.todo, .found1 i j row col c idx⟩ }
  | .found1 i j row col c idx =>
    some { s with
      table := writePart s.table i j row c idx
      threads := setThread s.threads k ⟨th.todo, .wrote1 i j col⟩ }
  | .wrote1 i j col =>
    match findPart s.table j i col with
    | none => none
    | some (c, idx) =>
      some { s with threads := setThread s.threads k ⟨th.todo, .found2 i j col c idx⟩ }
  | .found2 i j col c idx =>
    some { s with
      table := writePart s.table j i col c idx
      threads := setThread s.threads k ⟨th.todo, .wrote2⟩ }
  | .wrote2 =>
    some { s with
      owner := none
      threads := setThread s.threads k ⟨th.todo, .idle⟩ }

/-- Run the threads in the order given by a schedule, interpolatordual.hpp 415-419. -/
def run {T : Nat} (solve : Nat → Nat → List Nat × List Nat) (s : State T) :
    List (Fin T) → Option (State T)
  | [] => some s
  | k :: ks => match step solve s k with
    | none => none
    | some s' => run solve s' ks

/-- The state at the start of the parallel region, interpolatordual.hpp 413-415, with the iterations
distributed over the threads in an arbitrary way. -/
def start {T : Nat} (t : Table) (work : Fin T → List (Nat × Nat)) : State T :=
  { table := t, owner := none, threads := fun k => ⟨work k, .idle⟩ }

/-- All iterations are done, interpolatordual.hpp 420. -/
def Finished {T : Nat} (s : State T) : Prop := ∀ k, s.threads k = ⟨[], .idle⟩

end Brille.SortPerm
