/-
Model of the linear combination of stored data: /repo/src/interpolator_at.tpp (the overload with
index-weight pairs, 90-127, which is the one that is called; the overload with two separate lists,
18-49, runs the same loops), /repo/src/utilities.tpp 528-577 (`antiphase`) and
/repo/src/interpolatordual.hpp 149-155, 357-382.

Numbers are exact elements of a commutative ring `K` (`ℂ` where the phase matters).
-/
import Mathlib.Algebra.BigOperators.Group.List.Basic
import Mathlib.Algebra.Ring.Defs
import Mathlib.Analysis.SpecialFunctions.Complex.Arg
import Verif.Model.PermutationTable

namespace Brille.Interp

/-- What `interpolate_at_mix` reads of an `Interpolator`, interpolator.hpp 92-100: the flattened data
`data_.ptr(i)[k]`, the number of branches `b_` and the elements per branch `s_`
(interpolator_at.tpp 102). -/
structure Data (K : Type) where
  branches : Nat
  span : Nat
  row : Nat → Nat → K

/-- `ox[k] += x`, interpolator_at.tpp 113 and 123. -/
def addAt {K : Type} [Add K] (o : Nat → K) (k : Nat) (x : K) : Nat → K :=
  fun j => if j = k then o j + x else o j

/-- The innermost loop over `s`, interpolator_at.tpp 113 and 123: the list of the executed
`ox[k] += x` as pairs `(k, x)`. -/
def spanAdds {K : Type} [Mul K] (d : Data K) (w eith : K) (dx : Nat → K) (b p : Nat) : List (Nat × K) :=
  (List.range d.span).map fun s => (b * d.span + s, w * eith * dx (p * d.span + s))

/-- One turn of the loop over the branches, interpolator_at.tpp 111-113 and 122-123.  `phase` is
`brille::utils::antiphase` when an arbitrary phase is allowed and the constant one otherwise.
`perms[i][b]` outside its vector is undefined behaviour (`none`), as is a permutation entry that
leaves the row. -/
def branchAddsAt {K : Type} [Mul K] (d : Data K) (phase : Nat → (Nat → K) → (Nat → K) → K)
    (perm : List Nat) (w : K) (d0 dx : Nat → K) (b : Nat) : Option (List (Nat × K)) :=
  match perm[b]? with
  | none => none
  | some p =>
    if p < d.branches then
      some (spanAdds d w (phase d.span (fun k => d0 (b * d.span + k)) (fun k => dx (p * d.span + k)))
        dx b p)
    else none

/-- The loop over the branches `b`, interpolator_at.tpp 109-114 and 120-124. -/
def branchAdds {K : Type} [Mul K] (d : Data K) (phase : Nat → (Nat → K) → (Nat → K) → K) (perm : List Nat)
    (w : K) (d0 dx : Nat → K) : Option (List (Nat × K)) :=
  ((List.range d.branches).mapM (branchAddsAt d phase perm w d0 dx)).map List.flatten

/-- The loop over the vertices, interpolator_at.tpp 106-115 and 117-125: `perms[i]` and `idx_wgt[i]`
are visited together; a missing `perms[i]` is undefined behaviour (`none`). -/
def vertexAdds {K : Type} [Mul K] (d : Data K) (phase : Nat → (Nat → K) → (Nat → K) → K) (d0 : Nat → K) :
    List (List Nat) → List (Nat × K) → Option (List (Nat × K))
  | _, [] => some []
  | [], _ :: _ => none
  | p :: ps, iw :: iws =>
    match branchAdds d phase p iw.2 d0 (d.row iw.1), vertexAdds d phase d0 ps iws with
    | some a, some r => some (a ++ r)
    | _, _ => none

/-- All accumulations of `interpolate_at_mix`, interpolator_at.tpp 90-127, in program order.
`none` is the exception for an empty list of vertices or undefined behaviour. -/
def mixAdds {K : Type} [Mul K] (d : Data K) (phase : Nat → (Nat → K) → (Nat → K) → K)
    (perms : List (List Nat)) (iw : List (Nat × K)) : Option (List (Nat × K)) :=
  match iw with
  | [] => none
  | (i0, _) :: _ => vertexAdds d phase (d.row i0) perms iw

/-- Run a list of accumulations on an output row (interpolator_at.tpp 103: `ox = out.ptr(to)`). -/
def runAdds {K : Type} [Add K] (o : Nat → K) : List (Nat × K) → (Nat → K)
  | [] => o
  | (k, x) :: r => runAdds (addAt o k x) r

/-- `interpolate_at_mix`, interpolator_at.tpp 90-127: the new content of output row `to`. -/
def mix {K : Type} [Mul K] [Add K] (d : Data K) (phase : Nat → (Nat → K) → (Nat → K) → K)
    (perms : List (List Nat)) (iw : List (Nat × K)) (o : Nat → K) : Option (Nat → K) :=
  (mixAdds d phase perms iw).map (runAdds o)

/-- `antiphase(n, a, b)` for a real type, utilities.tpp 529; also the factor of the branch without
arbitrary phase, interpolator_at.tpp 123. -/
def noPhase {K : Type} [One K] (_ : Nat) (_ _ : Nat → K) : K := 1

/-- `antiphase(n, a, b)` for complex numbers, utilities.tpp 567-577.  The two accumulated real
numbers are the real and imaginary parts of `z = Σ conj(a) b`; `polar(1, -atan2(im, re))` is
`exp(-i arg z)`. -/
noncomputable def antiphase (n : Nat) (a b : Nat → ℂ) : ℂ :=
  let real_dot := (List.range n).foldl (fun s i => s + ((a i).re * (b i).re + (a i).im * (b i).im)) 0
  let imag_dot := (List.range n).foldl (fun s i => s + ((a i).re * (b i).im - (a i).im * (b i).re)) 0
  Complex.exp (-(Complex.arg ⟨real_dot, imag_dot⟩) * Complex.I)

/-- `get_permutations(iw)`, interpolatordual.hpp 373-382 with `get_permutation` 357-362: the stored
permutation of (first vertex, vertex) for every vertex; `iw[0]` of an empty list is undefined
behaviour. -/
def getPermutations {K : Type} (t : PermTable.Table) (iw : List (Nat × K)) : Option (List (List Nat)) :=
  match iw with
  | [] => none
  | (pvt, _) :: _ => iw.mapM fun x => PermTable.safeGet t pvt x.1

/-- The accumulations of `DualInterpolator::interpolate_at`, interpolatordual.hpp 149-155: those of the
values (tagged `false`, without phase) followed by those of the vectors (tagged `true`).  Both arrays
have elements in one ring. -/
def dualAdds {K : Type} [Mul K] [One K] (values vectors : Data K)
    (phase : Nat → (Nat → K) → (Nat → K) → K) (t : PermTable.Table) (iw : List (Nat × K)) :
    Option (List (Bool × Nat × K)) :=
  match getPermutations t iw with
  | none => none
  | some perms =>
    match mixAdds values noPhase perms iw, mixAdds vectors phase perms iw with
    | some a, some b => some (a.map (fun x => (false, x)) ++ b.map (fun x => (true, x)))
    | _, _ => none

end Brille.Interp
