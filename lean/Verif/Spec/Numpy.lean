import Verif.Model.Numpy
/-
What numpy says about its arrays: the element with a subscript lies at the address of the first element
plus the sum of subscripts times strides; and the place of a subscript in row order.
-/
namespace Brille.Spec
open Brille.Numpy

/-- The address of an element of a numpy array. -/
def numpyAddress (p : Py) (x : List Nat) : Int :=
  p.ptr + (List.zipWith (fun (i : Nat) (s : Int) => (i : Int) * s) x p.strides).sum

/-- The distance in elements from the first element of an array with these strides to its last one. -/
def reach : List Nat → List Nat → Nat
  | n :: ns, t :: ts => (n - 1) * t + reach ns ts
  | _, _ => 0

/-- How many subscripts come before `x` in row order. -/
def rowIndex : List Nat → List Nat → Nat
  | _ :: ns, x :: xs => x * ns.prod + rowIndex ns xs
  | _, _ => 0

end Brille.Spec
