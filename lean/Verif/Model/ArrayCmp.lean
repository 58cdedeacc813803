import Verif.Model.ArrayFun
import Verif.Model.Approx
/-
Comparisons of an `Array2` with a value, `le_ge` included, and with another array element by element
(/repo/src/array2.tpp).  Simplifications as in `Verif/Model/ArrayFun.lean`.
-/
namespace Brille.ArrFun
open Brille.Approx

variable {T R : Type}

/-- The `Comparer<T,T>` of two values of the same type with tolerances `Ttol` and `tol`, comparisons.hpp:63-66;
the exception of the constructor is `threw`. -/
def comparer (N : Num) (c : Cmp) (Ttol : ℚ) (tol : ℤ) : M (ℚ → ℚ → Bool) :=
  match comparerScalar N N (tols N N Ttol Ttol tol) c with
  | some f => .ok f
  | none => .error .threw

/-- The last lines of `all(cmp, val, Ttol, tol)`, array2.tpp:668-671. -/
def A2.allOne (a : A2 ℚ) (N : Num) (c : Cmp) (val Ttol : ℚ) (tol : ℤ) : M Bool := do
  let op ← comparer N c Ttol tol
  a.all fun v => op v val

/-- `all(cmp, val, Ttol, tol)`, array2.tpp:664-672: for `le_ge` two calls without the tolerances, whose defaults are
`T(0)` and 1 (array2.hpp:444). -/
def A2.allCmp (a : A2 ℚ) (N : Num) (c : Cmp) (val Ttol : ℚ) (tol : ℤ) : M Bool :=
  if c = .le_ge then do
    if ← a.allOne N .le val 0 1 then return true
    a.allOne N .ge val 0 1
  else a.allOne N c val Ttol tol

/-- The loop of `is(cmp, Array2)` for arrays of the same extents, array2.tpp:739-744: the result has the strides of
this array. -/
def A2.isSame (a : A2 T) (b : A2 R) (op : T → R → Bool) : M (A2 Bool) := do
  let l ← subscripts a.n0 a.n1
  l.foldlM (fun out x => do
    let v ← a.read x
    let w ← b.read x
    out.write x (op v w)) (fresh a.n0 a.n1 a.t0 a.t1 true)

/-- `is(cmp, Array2)`, array2.tpp:724-753.  Simplification: the call for a view of one row goes directly to the loop,
as that row and the other array have the same extents (the first test leaves no other number of rows than one). -/
def A2.isArray (a : A2 T) (b : A2 R) (op : T → R → Bool) : M (A2 Bool) :=
  if !broadcastable a b then .error .threw
  else if a.n0 = b.n0 ∧ a.n1 = b.n1 then a.isSame b op
  else if a.n1 ≠ b.n1 then .error .threw
  else (List.range a.n0).foldlM (fun out i => do
    let v ← a.view i
    let w ← v.isSame b op
    out.setRow i w) (fresh a.n0 a.n1 a.t0 a.t1 true)

/-- `is(Array2)`, array2.tpp:937-941; `op` is the comparison for equality. -/
def A2.same (a : A2 T) (b : A2 R) (op : T → R → Bool) : M Bool := do
  let o ← a.isArray b op
  o.all (· == true)

end Brille.ArrFun
