/-
Model of the in-place permutation helpers of /repo/src/permutation.hpp.

The two iterables of length `n` are functions on `Fin n`.  The entries of the index iterable are
`Fin n` because any other entry makes the C++ read out of bounds.
-/
import Mathlib.Data.Fintype.Basic
import Mathlib.Data.List.FinRange

namespace Brille.ApplyPerm

variable {n : Nat} {α : Type}

/-- `x[i] = v` on an iterable; every assignment in /repo/src/permutation.hpp 762-815 goes through it. -/
def put (x : Fin n → β) (i : Fin n) (v : β) : Fin n → β := fun j => if j = i then v else x j

/-- The two iterables that permutation.hpp 762-782 modifies.  An object is `none` while it is in the
moved-from state left behind by `std::move`. -/
structure State (n : Nat) (α : Type) where
  /-- the object iterable (permutation.hpp 763 `objects`) -/
  objects : Fin n → Option α
  /-- the permutation iterable (permutation.hpp 763 `indices`) -/
  indices : Fin n → Fin n

/-- The `while (i != indices[current])` loop, permutation.hpp 772-777.  The first argument bounds the
number of iterations; `none` means that the bound was too small. -/
def cycle (i : Fin n) : Nat → Fin n → State n α → Option (State n α × Fin n)
  | 0, _, _ => none
  | fuel + 1, current, s =>
    if i = s.indices current then some (s, current)
    else
      let next := s.indices current
      -- objects[current] = std::move(objects[next])
      let objs := put (put s.objects current (s.objects next)) next none
      cycle i fuel next { objects := objs, indices := put s.indices current current }

/-- One iteration of the `for` loop, permutation.hpp 767-781. -/
def applyAt (s : State n α) (i : Fin n) : Option (State n α) :=
  if i = s.indices i then some s
  else
    -- Obj obji{std::move(objects[i])}
    let obji := s.objects i
    match cycle i (n + 1) i { s with objects := put s.objects i none } with
    | none => none
    | some (s, current) =>
      some { objects := put s.objects current obji, indices := put s.indices current current }

/-- `apply_permutation`, permutation.hpp 762-782. -/
def applyPermutation (objects : Fin n → α) (indices : Fin n → Fin n) : Option (State n α) :=
  (List.finRange n).foldlM applyAt { objects := fun i => some (objects i), indices := indices }

/-- The two iterables of `apply_inverse_permutation`, permutation.hpp 799-815.  Here an object that
was moved from keeps its old value (it is always overwritten before the next read). -/
structure IState (n : Nat) (α : Type) where
  /-- the object iterable (permutation.hpp 800 `objects`) -/
  objects : Fin n → α
  /-- the inverse permutation iterable (permutation.hpp 800 `indices`) -/
  indices : Fin n → Fin n

/-- The `while (i != indices[i])` loop, permutation.hpp 804-814.  Line 812 assigns the *index*
`pop_idx` to `objects[i]` where the object `pop_obj` was meant, so an index must convert to an object:
`ofIdx`.  `pop_obj` (line 807) is never read. -/
def inverseWhile (ofIdx : Fin n → α) (i : Fin n) : Nat → IState n α → Option (IState n α)
  | 0, _ => none
  | fuel + 1, s =>
    if i = s.indices i then some s
    else
      let popIdx := s.indices (s.indices i)
      let target := s.indices i
      let objs := put s.objects target (s.objects i)
      let idxs := put s.indices target target
      inverseWhile ofIdx i fuel { objects := put objs i (ofIdx popIdx), indices := put idxs i popIdx }

/-- `apply_inverse_permutation`, permutation.hpp 799-815. -/
def applyInversePermutation (ofIdx : Fin n → α) (objects : Fin n → α) (indices : Fin n → Fin n) :
    Option (IState n α) :=
  (List.finRange n).foldlM (fun s i => inverseWhile ofIdx i (n + 1) s)
    { objects := objects, indices := indices }

end Brille.ApplyPerm
