/-
Model of the serial and the threaded `interpolate_at` of /repo/src/trellis_poly.hpp 274-351 and
/repo/src/nest.hpp 358-411, and of /repo/src/thread_exception.h.

What one point does is reduced to its outcome: `indices_weights` or the evaluation throws, the point is
not found, or a list of accumulations (see `Brille.Interp.dualAdds`) into the rows of the two output
arrays.  One atomic step of a thread is at most one accumulation into the shared output.  The capture
of an exception is one step, since it runs under the mutex of `ThreadException`.  OpenMP's
`schedule(dynamic)` is a shared counter; `reduction(+:missing)` is one private counter per thread, summed
at the end.
-/
import Verif.Model.Interpolate
import Mathlib.Algebra.BigOperators.Fin

namespace Brille.ParInterp

/-- What happens for one point, trellis_poly.hpp 334-340. -/
inductive Outcome (K : Type)
  | threw (what : String)
  | missing
  | adds (l : List (Bool × Nat × K))

/-- The outcome of a point, trellis_poly.hpp 335-340: `locate` is `indices_weights` (an exception or a
possibly empty list of index-weight pairs).  `none` is undefined behaviour. -/
def pointOutcome {K : Type} [Mul K] [One K] (locate : Nat → Except String (List (Nat × K)))
    (values vectors : Interp.Data K) (phase : Nat → (Nat → K) → (Nat → K) → K) (t : PermTable.Table)
    (i : Nat) : Option (Outcome K) :=
  match locate i with
  | .error w => some (.threw w)
  | .ok [] => some .missing
  | .ok (x :: xs) => (Interp.dualAdds values vectors phase t (x :: xs)).map .adds

/-- The two output arrays, trellis_poly.hpp 318-326: array (`false` values, `true` vectors), row,
element.  They start as zeros (`new T[_num]()`, array.hpp 362). -/
abbrev Out (K : Type) := Bool → Nat → Nat → K

/-- The zero-initialised output, trellis_poly.hpp 281-282. -/
def zeroOut {K : Type} [Zero K] : Out K := fun _ _ _ => 0

/-- One accumulation into row `i`, interpolator_at.tpp 113/123. -/
def addOut {K : Type} [Add K] (o : Out K) (i : Nat) (x : Bool × Nat × K) : Out K :=
  fun a r k => if a = x.1 ∧ r = i ∧ k = x.2.1 then o a r k + x.2.2 else o a r k

/-- What `interpolate_at` may throw. -/
inductive Fault
  /-- trellis_poly.hpp 291-295 (the text names the point) -/
  | notFound (i : Nat)
  /-- an exception of a point (serial: left as it is) or `ThreadException::rethrow` -/
  | exception (what : String)
  /-- trellis_poly.hpp 345-349: the number of points not found -/
  | failedToFind (count : Nat)

/-- The loop of the serial version, trellis_poly.hpp 288-297. -/
def serialLoop {K : Type} [Add K] (pt : Nat → Outcome K) : List Nat → Out K → Except Fault (Out K)
  | [], o => .ok o
  | i :: is, o =>
    match pt i with
    | .threw w => .error (.exception w)
    | .missing => .error (.notFound i)
    | .adds l => serialLoop pt is (l.foldl (fun o x => addOut o i x) o)

/-- Serial `interpolate_at`, trellis_poly.hpp 274-299, after the checks of line 277. -/
def serial {K : Type} [Add K] [Zero K] (pt : Nat → Outcome K) (n : Nat) : Except Fault (Out K) :=
  serialLoop pt (List.range n) zeroOut

/-- The loop of the serial version of `Nest`, nest.hpp 374-378: a point that was not found is handed to
`DualInterpolator::interpolate_at` all the same, which reads element 0 of an empty list
(interpolatordual.hpp 378): undefined behaviour (`none`). -/
def serialNestLoop {K : Type} [Add K] (pt : Nat → Outcome K) :
    List Nat → Out K → Option (Except Fault (Out K))
  | [], o => some (.ok o)
  | i :: is, o =>
    match pt i with
    | .threw w => some (.error (.exception w))
    | .missing => none
    | .adds l => serialNestLoop pt is (l.foldl (fun o x => addOut o i x) o)

/-- `class ThreadException`, thread_exception.h 7-10; an exception is its text. -/
structure ThreadEx where
  count : Nat
  ptr : Option String

/-- `ThreadException::capture`, thread_exception.h 25-43 (only `std::exception`s have a text; others are
not modelled). -/
def capture (e : ThreadEx) (w : String) : ThreadEx :=
  { count := e.count + 1
    ptr := some (if e.count ≠ 0 then (match e.ptr with | some p => p | none => "") ++ "\n" ++ w else w) }

/-- `ThreadException::rethrow`, thread_exception.h 12-24; `none`: nothing is thrown. -/
def rethrow (e : ThreadEx) : Option String :=
  if e.count > 1 then
    some (toString e.count ++ " exceptions occurred:\n" ++ (match e.ptr with | some p => p | none => ""))
  else e.ptr

/-- Where a thread is in the loop body, trellis_poly.hpp 331-343. -/
inductive Cur (K : Type)
  | free
  | at (i : Nat)
  | adding (i : Nat) (l : List (Bool × Nat × K))

/-- A thread with its private copy of `missing`, trellis_poly.hpp 330. -/
structure Thread (K : Type) where
  cur : Cur K
  missing : Nat

/-- The shared state of trellis_poly.hpp 318-343: the next iteration to hand out, the output arrays, the
collected exceptions, the threads. -/
structure State (T : Nat) (K : Type) where
  next : Nat
  out : Out K
  ex : ThreadEx
  threads : Fin T → Thread K

/-- replace the state of one thread (bookkeeping of the model of trellis_poly.hpp 330-343) -/
def setThread {T : Nat} {K : Type} (f : Fin T → Thread K) (k : Fin T) (t : Thread K) : Fin T → Thread K :=
  fun j => if j = k then t else f j

/-- One atomic step of thread `k` in trellis_poly.hpp 330-343: get an iteration, evaluate a point (and on
failure count it), or do one accumulation. -/
def step {T : Nat} {K : Type} [Add K] (pt : Nat → Outcome K) (n : Nat) (s : State T K) (k : Fin T) :
    State T K :=
  let th := s.threads k
  match th.cur with
  | .free =>
    if s.next < n then
      { s with next := s.next + 1, threads := setThread s.threads k ⟨.at s.next, th.missing⟩ }
    else s
  | .at i =>
    match pt i with
    | .threw w =>
      { s with ex := capture s.ex w, threads := setThread s.threads k ⟨.free, th.missing⟩ }
    | .missing => { s with threads := setThread s.threads k ⟨.free, th.missing + 1⟩ }
    | .adds l => { s with threads := setThread s.threads k ⟨.adding i l, th.missing⟩ }
  | .adding _ [] => { s with threads := setThread s.threads k ⟨.free, th.missing⟩ }
  | .adding i (x :: l) =>
    { s with out := addOut s.out i x, threads := setThread s.threads k ⟨.adding i l, th.missing⟩ }

/-- Run the threads in the order given by a schedule, trellis_poly.hpp 330-343. -/
def run {T : Nat} {K : Type} [Add K] (pt : Nat → Outcome K) (n : Nat) (s : State T K) :
    List (Fin T) → State T K
  | [] => s
  | k :: ks => run pt n (step pt n s k) ks

/-- The start of the parallel region, trellis_poly.hpp 318-330. -/
def start (T : Nat) (K : Type) [Zero K] : State T K :=
  { next := 0, out := zeroOut, ex := ⟨0, none⟩, threads := fun _ => ⟨.free, 0⟩ }

/-- The parallel region has ended, trellis_poly.hpp 343: all iterations handed out, all threads free. -/
def Finished {T : Nat} {K : Type} (n : Nat) (s : State T K) : Prop :=
  n ≤ s.next ∧ ∀ k, (s.threads k).cur = .free

/-- After the parallel region, trellis_poly.hpp 344-350. -/
def finish {T : Nat} {K : Type} (s : State T K) : Except Fault (Out K) :=
  match rethrow s.ex with
  | some w => .error (.exception w)
  | none =>
    let missing := ∑ k, (s.threads k).missing
    if missing ≠ 0 then .error (.failedToFind missing) else .ok s.out

end Brille.ParInterp
