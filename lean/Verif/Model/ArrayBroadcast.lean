import Verif.Model.ArrayFun
/-
Operators with two arrays: in place (/repo/src/array2.tpp) and with a new array as the result
(/repo/src/array_functions.hpp).  Simplifications as in `Verif/Model/ArrayFun.lean`.
-/
namespace Brille.ArrFun
open Brille.Subscript

variable {T R S : Type}

/-- `broadcastItr`, array2.hpp:100-102, and the loop over it: its extents and the subscripts visited.  `fuel` bounds the
number of turns. -/
def broadcastOver (fuel : Nat) (a : A2 T) (b : A2 R) : M (List Nat × M (List (List Nat × List Nat × List Nat))) :=
  match mkBroadcast [a.n0, a.n1] [b.n0, b.n1] with
  | none => .error .threw
  | some l => .ok (bshape l, orUb (bvisits [a.n0, a.n1] [b.n0, b.n1] fuel))

/-- `operator+=`, `-=`, `*=` and `/=` with an array, array2.tpp:1317-1343; `free` is the mutability flag and `shared` says
that the other array lies in the memory of this one, so that it sees what has been changed.  Simplification: both have
the same type of elements. -/
def A2.arrayOp (fuel : Nat) (a : A2 T) (free shared : Bool) (b : A2 T) (op : T → T → T) : M (A2 T) :=
  if !free then .error .threw
  else do
    let it ← broadcastOver fuel a b
    if it.1 ≠ [a.n0, a.n1] then .error .threw
    else do
      let l ← it.2
      l.foldlM (fun o x => do
        let v ← o.read x.2.1
        let w ← (if shared then { b with data := o.data } else b).read x.2.2
        o.write x.2.1 (op v w)) a

/-- `operator+`, `-`, `*` and `/` of two arrays, array_functions.hpp:41-53: the new array is row ordered. -/
def A2.binary [Inhabited S] (fuel : Nat) (a : A2 T) (b : A2 R) (op : T → R → S) : M (A2 S) := do
  let it ← broadcastOver fuel a b
  let n0 := it.1.getD 0 0
  let n1 := it.1.getD 1 0
  let l ← it.2
  l.foldlM (fun o x => do
    let v ← a.read x.2.1
    let w ← b.read x.2.2
    o.write x.1 (op v w)) (fresh n0 n1 n1 1 default)

end Brille.ArrFun
