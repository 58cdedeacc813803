/-
Model of the cost of pairing the modes of two points, and of the assignment found from it:
/repo/src/interpolator_cost.tpp (`Interpolator::add_cost`), /repo/src/interpolator.hpp 242-300
(`set_cost_info`), the cost functions of /repo/src/utilities.tpp and
/repo/src/interpolatordual.hpp 384-396 (`cost_matrix`) and 425-435 (`determine_permutation_ij`).

Floating point numbers are real or complex numbers.  `none` is an exception or undefined behaviour.
-/
import Mathlib.Analysis.RCLike.Basic
import Mathlib.Analysis.SpecialFunctions.Trigonometric.Inverse
import Verif.Model.Interpolate
import Verif.Model.Lapjv

namespace Brille.ModeCost
open Brille.Interp (antiphase)

/-- an accumulation `s += f(i)` over `i = 0 … n-1`, as in utilities.tpp 385-388 -/
noncomputable def sumLoop {S : Type} [AddMonoid S] (n : Nat) (f : Nat → S) : S :=
  (List.range n).foldl (fun s i => s + f i) 0

section
variable {T : Type} [RCLike T]

/-- the scalar cost function, interpolator.hpp 246-250, with `magnitude`, utilities.tpp 427-430: the
absolute value of a real number and the root of `z·conj(z)` of a complex one -/
noncomputable def scalarFun (n : Nat) (a b : Nat → T) : ℝ := sumLoop n fun z => ‖a z - b z‖

/-- `vector_distance`, utilities.tpp 383-400 (both overloads: `d*d` and `real(d*conj(d))`) -/
noncomputable def vectorDistance (n : Nat) (a b : Nat → T) : ℝ :=
  Real.sqrt (sumLoop n fun i => RCLike.re ((a i - b i) * (starRingEnd T) (a i - b i)))

/-- the end of the three functions for angles, utilities.tpp 259-278, 295-315, 358-379: the cosine from the
product and the lengths, with the special cases for vanishing vectors; the exception if the cosine
exceeds 1.  Simplification: a cosine which exceeds 1 by less than the tolerance is not set back to 1. -/
noncomputable def angleOf (ab na nb : ℝ) : Option ℝ :=
  let c : ℝ := if na ≠ 0 ∧ nb ≠ 0 then ab / (na * nb) else if na ≠ 0 ∨ nb ≠ 0 then 0 else 1
  if 1 < |c| then none else some (Real.arccos c)

/-- What depends on the overload for real and for complex numbers, utilities.tpp 249-400, 529-590.
`inplaceAntiphase` is what the function leaves in the buffer given to it; `none`: it leaves the buffer as
it was. -/
structure Scalars (T : Type) where
  product : Nat → (Nat → T) → (Nat → T) → ℝ
  vectorAngle : Nat → (Nat → T) → (Nat → T) → Option ℝ
  hermitianAngle : Nat → (Nat → T) → (Nat → T) → Option ℝ
  inplaceAntiphase : Nat → (Nat → T) → (Nat → T) → Option (Nat → T)

end

/-- `vector_product` for real numbers, utilities.tpp 402-406 -/
noncomputable def realProduct (n : Nat) (a b : Nat → ℝ) : ℝ := sumLoop n fun i => a i * b i

/-- `vector_angle` for real numbers, utilities.tpp 249-278 -/
noncomputable def realAngle (n : Nat) (a b : Nat → ℝ) : Option ℝ :=
  angleOf (sumLoop n fun i => a i * b i) (Real.sqrt (sumLoop n fun i => a i * a i))
    (Real.sqrt (sumLoop n fun i => b i * b i))

/-- The overloads for real numbers, utilities.tpp 249-278, 354-356, 402-406 and 531, where
`inplace_antiphase` has an empty body. -/
noncomputable def reals : Scalars ℝ where
  product := realProduct
  vectorAngle := realAngle
  hermitianAngle := realAngle
  inplaceAntiphase := fun _ _ _ => none

/-- `hermitian_product` for complex numbers, utilities.tpp 339-350: two sums.  Simplification: the OpenMP
reduction adds exact numbers, so that its order does not matter. -/
noncomputable def hermitianProduct (n : Nat) (a b : Nat → ℂ) : ℂ :=
  ⟨sumLoop n fun i => ((starRingEnd ℂ) (a i) * b i).re, sumLoop n fun i => ((starRingEnd ℂ) (a i) * b i).im⟩

/-- `vector_product` for complex numbers, utilities.tpp 415-418: the square of the modulus -/
noncomputable def complexProduct (n : Nat) (a b : Nat → ℂ) : ℝ :=
  (hermitianProduct n a b * (starRingEnd ℂ) (hermitianProduct n a b)).re

/-- `euclidean_angle`, utilities.tpp 285-316 -/
noncomputable def euclideanAngle (n : Nat) (a b : Nat → ℂ) : Option ℝ :=
  angleOf (sumLoop n fun i => (a i).re * (b i).re + (a i).im * (b i).im)
    (Real.sqrt (sumLoop n fun i => (a i).re * (a i).re + (a i).im * (a i).im))
    (Real.sqrt (sumLoop n fun i => (b i).re * (b i).re + (b i).im * (b i).im))

/-- `hermitian_angle` for complex numbers, utilities.tpp 357-380 -/
noncomputable def hermitianAngle (n : Nat) (a b : Nat → ℂ) : Option ℝ :=
  angleOf (Real.sqrt (complexProduct n a b)) (Real.sqrt (hermitianProduct n a a).re)
    (Real.sqrt (hermitianProduct n b b).re)

/-- The overloads for complex numbers, utilities.tpp 280-316, 357-380, 415-418, 586-592. -/
noncomputable def complexes : Scalars ℂ where
  product := complexProduct
  vectorAngle := euclideanAngle
  hermitianAngle := hermitianAngle
  inplaceAntiphase := fun n a b => some fun i => antiphase n a b * b i

section
variable {T : Type} [RCLike T]

/-- The vector cost function of `set_cost_info`, interpolator.hpp 252-299. -/
noncomputable def vectorFun (s : Scalars T) (vcf : Int) (n : Nat) (a b : Nat → T) : Option ℝ :=
  if vcf = 1 then some (vectorDistance n a b)
  else if vcf = 2 then some (1 - s.product n a b)
  else if vcf = 3 then s.vectorAngle n a b
  else if vcf = 4 then s.hermitianAngle n a b
  else (s.hermitianAngle n a b).map fun t => Real.sin t * Real.sin t

/-- What `add_cost` reads of an `Interpolator`, interpolator.hpp 92-100: the flattened data, the numbers
of scalar, vector and matrix elements per mode, the number of modes, the weights and the vector cost
function. -/
structure Data (T : Type) where
  row : Nat → Nat → T
  scalars : Nat
  vectors : Nat
  matrices : Nat
  branches : Nat
  mult : ℝ × ℝ × ℝ
  vcf : Int

/-- `branch_span()`, interpolator.hpp 500 and 607-609 -/
def Data.span (d : Data T) : Nat := d.scalars + d.vectors + d.matrices

/-- the cost of one pair of modes, interpolator_cost.tpp 31-38 and 46-53; `a` and `b` are the pointers to
the first elements of the modes.  `none`: the exception of the cost function. -/
noncomputable def pairCost (s : Scalars T) (d : Data T) (a b : Nat → T) : Option ℝ :=
  let sc : ℝ := if d.scalars ≠ 0 then scalarFun d.scalars a b else 0
  let v : Option ℝ :=
    if d.vectors ≠ 0 then
      vectorFun s d.vcf d.vectors (fun k => a (d.scalars + k)) (fun k => b (d.scalars + k))
    else some 0
  let m : ℝ :=
    if d.matrices ≠ 0 then
      sumLoop (d.matrices / 9) fun m =>
        vectorDistance (3 * 3) (fun k => a (d.scalars + d.vectors + 9 * m + k))
          (fun k => b (d.scalars + d.vectors + 9 * m + k))
    else 0
  v.map fun v => d.mult.1 * sc + d.mult.2.1 * v + d.mult.2.2 * m

/-- the second mode of a pair as it enters the cost, interpolator_cost.tpp 26-30 and 45: as it is stored, or
what `inplace_antiphase` leaves in the buffer.  `none`: the buffer, fresh from `new T[s_]`, is not
written, and reading it is undefined behaviour. -/
noncomputable def second (s : Scalars T) (d : Data T) (phase : Bool) (a b : Nat → T) : Option (Nat → T) :=
  if phase then
    if d.span = 0 then some b else s.inplaceAntiphase d.span a b
  else some b

/-- `cost[k] += x`, interpolator_cost.tpp 38 and 53; outside of the vector undefined behaviour -/
def addTo (cost : List ℝ) (k : Nat) (x : ℝ) : Option (List ℝ) :=
  (cost[k]?).map fun y => cost.set k (y + x)

/-- one turn of the two loops, interpolator_cost.tpp 29-39 and 44-54 -/
noncomputable def addPair (s : Scalars T) (d : Data T) (phase : Bool) (i0 i1 : Nat) (cost : List ℝ)
    (ij : Nat × Nat) : Option (List ℝ) :=
  let a := fun k => d.row i0 (ij.1 * d.span + k)
  let b := fun k => d.row i1 (ij.2 * d.span + k)
  (second s d phase a b).bind fun b => (pairCost s d a b).bind fun x =>
    addTo cost (ij.1 * d.branches + ij.2) x

/-- the pairs `(i, j)` in the order of the two loops, interpolator_cost.tpp 27-29 and 42-44 -/
def pairs (n : Nat) : List (Nat × Nat) := (List.range n).flatMap fun i => (List.range n).map fun j => (i, j)

/-- `Interpolator::add_cost(i0, i1, cost, arbitrary_phase_allowed)`, interpolator_cost.tpp 18-58. -/
noncomputable def addCost (s : Scalars T) (d : Data T) (i0 i1 : Nat) (cost : List ℝ) (phase : Bool) :
    Option (List ℝ) :=
  (pairs d.branches).foldlM (addPair s d phase i0 i1) cost

end

section
variable {T R : Type} [RCLike T] [RCLike R]

/-- `DualInterpolator::cost_matrix(i0, i1)`, interpolatordual.hpp 384-396; for one point, the multiples of
`Nbr + 1` are the diagonal. -/
noncomputable def costMatrix (st : Scalars T) (sr : Scalars R) (values : Data T) (vectors : Data R)
    (i0 i1 : Nat) : Option (List ℝ) :=
  let n := values.branches
  let cost := List.replicate (n * n) (0 : ℝ)
  if i0 = i1 then
    some (((List.range (n * n)).filter fun j => j % (n + 1) = 0).foldl (fun c j => c.set j (-1)) cost)
  else
    (addCost st values i0 i1 cost false).bind fun cost => addCost sr vectors i0 i1 cost true

/-- The permutations which `determine_permutation_ij(i, j)` stores for `(i, j)` and `(j, i)`,
interpolatordual.hpp 425-435; `fuel` as in `Lapjv.lapjv`. -/
noncomputable def determine (st : Scalars T) (sr : Scalars R) (values : Data T) (vectors : Data R)
    (i j fuel : Nat) : Option (List Nat × List Nat) :=
  (costMatrix st sr values vectors i j).bind fun cost =>
    Lapjv.jvFill (n := values.branches) (fun a b => cost.getD (a.val * values.branches + b.val) 0) fuel

end

end Brille.ModeCost
