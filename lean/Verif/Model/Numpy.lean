import Verif.Model.ArrayFun
/-
Conversions between numpy arrays and brille arrays (/repo/wrap/_array.hpp) and between `Array` and
`Array2` (/repo/src/array.hpp:248-259, array2.hpp:221-242).

Both kinds of array describe places in one memory, so only addresses (in bytes) are modelled: sharing
an element means having the same address.  32-bit arithmetic of `ind_t` and the 64-bit conversion in
the division by `sizeof` are kept.  Lifetimes (the capsule and the reference counter) are left out.
-/
namespace Brille.Numpy
open Brille.Subscript Brille.Arr Brille.ArrFun

/-- A numpy array as pybind11 describes it: `pybind11::buffer_info`; `item` is `sizeof(T)`, strides are
in bytes. -/
structure Py where
  item : Nat
  ptr : Int
  shape : List Nat
  strides : List Int
  readonly : Bool
deriving DecidableEq, Repr

/-- An `Array` or `Array2` object, array.hpp:48-58, with the address of its data in bytes. -/
structure Bn where
  item : Nat
  base : Int
  num : Nat
  shift : Nat
  shape : List Nat
  stride : List Nat
  free : Bool
deriving DecidableEq, Repr

/-- Conversion to `ind_t`, types.hpp:36. -/
def u32 (n : Nat) : Nat := n % 2 ^ 32

/-- Conversion from `ssize_t` to `size_t`. -/
def u64 (z : Int) : Nat := (z % 2 ^ 64).toNat

/-- The address of an element: `_data + s2l_d(x)`, array.hpp:70 and 345-347, `sub2lin` of
subscript.hpp:602-607; the wrapping of each step gives the same as wrapping at the end. -/
def Bn.addr (b : Bn) (x : List Nat) : Int :=
  b.base + b.item * (u32 ((List.zipWith (· * ·) x b.stride).sum + b.shift) : Nat)

/-- `size_from_shape`, array.hpp:349-357. -/
def sizeFromShape (s : List Nat) : Nat := if s = [] then 0 else u32 s.prod

/-- `init_check`, array.hpp:381-399 and array2.hpp:345-355. -/
def Bn.check (b : Bn) : M Bn :=
  if b.shape.length ≠ b.stride.length then .error .threw
  else if b.num < u32 (b.shift + sizeFromShape b.shape) then .error .threw
  else .ok b

/-- `static_cast<ind_t>(info.strides[i]/sizeof(T))`, _array.hpp:101 and 147: the signed stride is
converted to `size_t` for the division. -/
def elementStride (item : Nat) (s : Int) : Nat := u32 (u64 s / item)

/-- The allocated size, _array.hpp:98-103: `num` of the number of elements and of the extents and strides. -/
def allocated (num : Nat) (shape stride : List Nat) : Nat :=
  (shape.zip stride).foldl (fun num p => if num < u32 (p.1 * p.2) then u32 (p.1 * p.2) else num) num

/-- `py2a`, _array.hpp:90-136. -/
def py2a (p : Py) : M Bn :=
  let shape := p.shape.map u32
  let stride := p.strides.map (elementStride p.item)
  (Bn.mk p.item p.ptr (allocated (u32 p.shape.prod) shape stride) 0 shape stride (!p.readonly)).check

/-- `py2a2`, _array.hpp:137-153. -/
def py2a2 (p : Py) : M Bn := if p.shape.length ≠ 2 then .error .threw else py2a p

/-- `cstride`, array.hpp:92-96 and array2.hpp:92-96. -/
def Bn.cstride (b : Bn) : List Int := b.stride.map fun s => (u32 (s * b.item) : Nat)

/-- `a2py`, _array.hpp:29-88; `none` is a new array allocated by Python.  The array constructor of
pybind11 marks arrays with an owner as writable. -/
def a2py (b : Bn) : Option Py :=
  if b.num = 0 then none else some ⟨b.item, b.base, b.shape, b.cstride, false⟩

/-- The buffer protocol, _array.hpp:165-168 and 191-197; the last argument of `buffer_info` is its
`readonly` flag. -/
def buffer (b : Bn) : Py := ⟨b.item, b.base, b.shape, b.cstride, b.free⟩

/-! ### Between `Array` and `Array2` -/

/-- An `Array` object with its memory, as for `A2`. -/
structure Nd (T : Type) where
  shape : List Nat
  stride : List Nat
  shift : Nat
  data : List T
deriving DecidableEq, Repr

variable {T : Type}

/-- `operator[](shape_t)`, array.hpp:331. -/
def Nd.read (b : Nd T) (x : List Nat) : M T := do
  let l ← orUb (sub2lin x b.stride)
  orUb b.data[l + b.shift]?

/-- `Array(const Array2&, shape)`, array.hpp:249-259. -/
def ofA2 [Inhabited T] (a : A2 T) (shape : List Nat) : M (Nd T) := do
  let c ← a.rowOrderedCopy
  if c.data.length < c.shift + (if shape = [] then 0 else shape.prod) then .error .threw
  else .ok ⟨shape, rowStride shape, c.shift, c.data⟩

/-- `is_row_ordered`, array.hpp:107-112. -/
def rowOrdered : List Nat → Bool
  | a :: b :: l => decide (b ≤ a) && rowOrdered (b :: l)
  | _ => true

/-- `contiguous_row_ordered_copy`, array.tpp:1068-1076: `is_contiguous` of a row-ordered array compares
its strides with the row strides (array.hpp:113-120). -/
def Nd.rowOrderedCopy [Inhabited T] (b : Nd T) : M (Nd T) :=
  if rowOrdered b.stride = true ∧ b.stride = rowStride b.shape then .ok b
  else do
    let l ← orUb (subs b.shape)
    let d ← orUb (copyLoop (rowStride b.shape) b.stride b.shift b.data l
      (List.replicate b.shape.prod default))
    return ⟨b.shape, rowStride b.shape, 0, d⟩

/-- `Array2(const Array&)`, array2.hpp:222-242. -/
def toA2 [Inhabited T] (b : Nd T) : M (A2 T) :=
  match b.shape with
  | [] => .ok ⟨0, 1, 1, 1, 0, []⟩
  | n :: ns => do
    let c ← b.rowOrderedCopy
    return ⟨n, ns.prod, if ns = [] then 1 else ns.prod, 1, c.shift, c.data⟩

end Brille.Numpy
