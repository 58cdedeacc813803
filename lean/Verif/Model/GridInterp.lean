/-
Model of interpolating the data of a grid, with the memory of all arrays: /repo/src/trellis_poly.hpp 256-299,
/repo/src/nest.hpp 347-379, /repo/src/mesh.hpp 119-189, /repo/src/interpolatordual.hpp 149-155 and
/repo/src/interpolator_at.tpp 90-127.

Where the grid locates a point is a parameter (see `Brille.Trellis`, `Brille.Nest`, `Brille.Tetra`).  The
threaded versions run the same loop body in any order (see `Brille.ParInterp`).  `Interpolator` memory is the
contiguous array of `Brille.Fill.Held`.
-/
import Verif.Model.Fill
import Verif.Model.Interpolate

namespace Brille.GridInterp
open Brille.Fill

/-- The memory of an output array: its number of elements and their values. -/
structure Buf (K : Type) where
  size : Nat
  val : Nat → K

/-- `Array<T> vals(shape)`, array.hpp 355-364: `new T[_num]()`, zeros. -/
def zeros {K : Type} [Zero K] (shape : List Nat) : Buf K := ⟨shape.prod, fun _ => 0⟩

/-- reading `data_.ptr(i)[k]`, interpolator_at.tpp 108 and 119; outside of the memory undefined behaviour -/
def read {K : Type} (h : Held K) (k : Nat) : Option K := if k < h.rows * h.cols then some (h.mem k) else none

/-- `ox[k] += x`, interpolator_at.tpp 113 and 123; outside of the memory undefined behaviour -/
def Buf.add {K : Type} [Add K] (o : Buf K) (k : Nat) (x : K) : Option (Buf K) :=
  if k < o.size then some { o with val := fun j => if j = k then o.val j + x else o.val j } else none

section
variable {K : Type} [Semiring K]

/-- the innermost loop, interpolator_at.tpp 113 and 123: `src` and `dst` are `dx+p*s_` and `ox+b*s_` -/
def spanInto (h : Held K) (w eith : K) (src dst : Nat) (o : Buf K) : Option (Buf K) :=
  (List.range h.elements.span).foldlM
    (fun o s => (read h (src + s)).bind fun x => o.add (dst + s) (w * eith * x)) o

/-- the factor of a mode, interpolator_at.tpp 112: `antiphase` reads `s_` elements from both pointers; without
an arbitrary phase there is no factor -/
def factor (h : Held K) (phase : Option (Nat → (Nat → K) → (Nat → K) → K)) (a b : Nat) : Option K :=
  match phase with
  | none => some 1
  | some f =>
    if h.elements.span = 0 ∨ (a + h.elements.span ≤ h.rows * h.cols ∧ b + h.elements.span ≤ h.rows * h.cols) then
      some (f h.elements.span (fun k => h.mem (a + k)) (fun k => h.mem (b + k)))
    else none

/-- the loop over the modes, interpolator_at.tpp 109-114 and 120-124; `ox` is where `out.ptr(to)` points -/
def branchInto (h : Held K) (phase : Option (Nat → (Nat → K) → (Nat → K) → K)) (perm : List Nat) (w : K)
    (i0 i ox : Nat) (o : Buf K) : Option (Buf K) :=
  (List.range h.branches).foldlM
    (fun o b => (perm[b]?).bind fun p =>
      (factor h phase (i0 * h.cols + b * h.elements.span) (i * h.cols + p * h.elements.span)).bind fun e =>
        spanInto h w e (i * h.cols + p * h.elements.span) (ox + b * h.elements.span) o) o

/-- the loop over the vertices, interpolator_at.tpp 106-115 and 117-125 -/
def vertexInto (h : Held K) (phase : Option (Nat → (Nat → K) → (Nat → K) → K)) (i0 ox : Nat) :
    List (List Nat) → List (Nat × K) → Buf K → Option (Buf K)
  | _, [], o => some o
  | [], _ :: _, _ => none
  | p :: ps, iw :: iws, o => (branchInto h phase p iw.2 i0 iw.1 ox o).bind (vertexInto h phase i0 ox ps iws)

/-- `interpolate_at_mix`, interpolator_at.tpp 90-127; `none`: the exception for no vertices, or undefined
behaviour.  `cols` is the row length of the output, array2.tpp `ptr`. -/
def mixInto (h : Held K) (phase : Option (Nat → (Nat → K) → (Nat → K) → K)) (perms : List (List Nat))
    (iw : List (Nat × K)) (cols row : Nat) (o : Buf K) : Option (Buf K) :=
  match iw with
  | [] => none
  | (i0, _) :: _ => vertexInto h phase i0 (row * cols) perms iw o

end

section
variable {W T R : Type} [Semiring T] [Semiring R]

/-- How the numbers of the two arrays are treated: conversions of the weights (`double`), and
`brille::utils::antiphase` for the vectors. -/
structure Numeric (W T R : Type) where
  weightT : W → T
  weightR : W → R
  phase : Nat → (Nat → R) → (Nat → R) → R

/-- `DualInterpolator::interpolate_at`, interpolatordual.hpp 149-155 -/
def dualInto (c : Numeric W T R) (g : Grid T R) (iw : List (Nat × W)) (cv cw i : Nat) (o : Buf T × Buf R) :
    Option (Buf T × Buf R) :=
  (Interp.getPermutations g.table iw).bind fun perms =>
    (mixInto g.values none perms (iw.map fun x => (x.1, c.weightT x.2)) cv i o.1).bind fun v =>
      (mixInto g.vectors (some c.phase) perms (iw.map fun x => (x.1, c.weightR x.2)) cw i o.2).map fun w => (v, w)

/-- How a call ends. -/
inductive Ended (T R : Type)
  | ok (vals : Nd T) (vecs : Nd R)
  | threw
  | ub

/-- The kinds of grids that differ in what they do. -/
inductive Kind
  /-- trellis_poly.hpp 274-299, mesh.hpp 134-158 -/
  | trellis
  /-- nest.hpp 357-379: the shape of the values is used for both arrays (361), and a point that is not found
  is not noticed (375-376) -/
  | nest
  deriving DecidableEq

/-- `valsh[0] = x.size(0)`, trellis_poly.hpp 280 -/
def withRows (n : Nat) : List Nat → List Nat
  | [] => []
  | _ :: r => n :: r

/-- the loop over the points, trellis_poly.hpp 288-297, nest.hpp 373-377 -/
def points (kind : Kind) (c : Numeric W T R) (g : Grid T R) (locate : Nat → List (Nat × W)) (cv cw : Nat) :
    List Nat → Buf T × Buf R → Except Fault (Buf T × Buf R)
  | [], o => .ok o
  | i :: is, o =>
    match locate i, kind with
    | [], .trellis => .error .threw
    | iw, _ =>
      match dualInto c g iw cv cw i o with
      | none => .error .ub
      | some o => points kind c g locate cv cw is o

/-- the shape of the output for the vectors, trellis_poly.hpp 279 and nest.hpp 361 -/
def vectorShape (kind : Kind) (g : Grid T R) : List Nat :=
  match kind with
  | .trellis => g.vectors.shape
  | .nest => g.values.shape

/-- `interpolate_at(x)` for `n` points, trellis_poly.hpp 274-299, nest.hpp 357-379, mesh.hpp 134-158, with the
first check of `check_before_interpolating` (the others are about `x`). -/
def interpolate (kind : Kind) (c : Numeric W T R) (g : Grid T R) (locate : Nat → List (Nat × W)) (n : Nat) :
    Ended T R :=
  if g.values.rows = 0 then .threw
  else if g.values.shape = [] ∨ vectorShape kind g = [] then .ub
  else
    let valsh := withRows n g.values.shape
    let vecsh := withRows n (vectorShape kind g)
    match points kind c g locate (rowsCols valsh).2 (rowsCols vecsh).2 (List.range n) (zeros valsh, zeros vecsh) with
    | .ok (v, w) => .ok ⟨valsh, v.val⟩ ⟨vecsh, w.val⟩
    | .error .threw => .threw
    | .error .ub => .ub

end

end Brille.GridInterp
