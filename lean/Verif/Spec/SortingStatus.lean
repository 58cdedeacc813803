/-
Specification: a sorting status is four independent flags and a visit counter.
-/
namespace Brille.Spec

structure Status where
  sorted : Bool
  locked : Bool
  queued : Bool
  claimed : Bool
  visits : Nat
deriving DecidableEq, Repr

/-- user operations -/
inductive StatusOp
  | setSorted (b : Bool)
  | setLocked (b : Bool)
  | setQueued (b : Bool)
  | setClaimed (b : Bool)
  | addVisit
  | addVisitMax (max : Nat)

/-- the largest visit count that fits into 28 bits -/
def maxVisits : Nat := 2 ^ 28 - 1

/-- Effect of an operation; `none` when it must throw (the counter is full). -/
def Status.step (s : Status) : StatusOp → Option Status
  | .setSorted b => some { s with sorted := b }
  | .setLocked b => some { s with locked := b }
  | .setQueued b => some { s with queued := b }
  | .setClaimed b => some { s with claimed := b }
  | .addVisit => if s.visits < maxVisits then some { s with visits := s.visits + 1 } else none
  | .addVisitMax m =>
    if s.visits < m then
      (if s.visits < maxVisits then some { s with visits := s.visits + 1 } else none)
    else some { s with locked := true }

def Status.run (s : Status) : List StatusOp → Option Status
  | [] => some s
  | o :: os => (s.step o).bind (·.run os)

end Brille.Spec
