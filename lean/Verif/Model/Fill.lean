/-
Model of filling a grid with data: /repo/wrap/_interpolator.hpp (`fill_check`), /repo/wrap/_common_grid.hpp
26-42 and 127-144 (`fill`), /repo/src/interpolator.hpp 94-103, 152-210, 308-333, 443-499, 538-585, 607-609,
/repo/src/interpolatordual.hpp 74-120, 188-221 and /repo/src/array2.hpp 222-242.

`ind_t` is a 32-bit unsigned integer: numbers that are computed in it are reduced modulo `2^32`.
-/
import Verif.Model.PermutationTable
import Verif.Model.Rotate

namespace Brille.Fill
open Rot (LengthUnit RotatesLike)

/-- How a call can end badly: an exception (the text is left out), or undefined behaviour. -/
inductive Fault | threw | ub
  deriving DecidableEq

/-- a number of type `ind_t` (`unsigned`), e.g. interpolator.hpp 85 -/
def ind (x : Nat) : Nat := x % 2 ^ 32

/-- `static_cast<ind_t>(int)`, _interpolator.hpp 28 -/
def indOfInt (x : Int) : Nat := (x % 2 ^ 32).toNat

/-- An N-dimensional array in contiguous row order: what `contiguous_row_ordered_copy` makes of any array
(array2.hpp 234). -/
structure Nd (T : Type) where
  shape : List Nat
  mem : Nat → T

/-- A one-dimensional numpy array of integers: `len` numbers which are `stride` places apart in the memory
that starts at the pointer of the buffer. -/
structure PyInts where
  len : Nat
  stride : Nat
  buffer : Nat → Int

/-- the `i`-th number of the array -/
def PyInts.value (v : PyInts) (i : Nat) : Int := v.buffer (i * v.stride)

/-- `intel[i]` for `int* intel = (int*) bi.ptr`, _interpolator.hpp 26-28: the stride is not used -/
def PyInts.raw (v : PyInts) (i : Nat) : Int := v.buffer i

/-- the conversion of the argument by `py::array_t<int, py::array::c_style>`, _common_grid.hpp 28-29 -/
def PyInts.contiguous (v : PyInts) : PyInts := ⟨v.len, 1, v.value⟩

/-- the numbers of scalar, vector and matrix elements per mode, interpolator.hpp 96 -/
structure Elements where
  scalars : Nat
  vectors : Nat
  matrices : Nat
  deriving DecidableEq

/-- `branch_span`, interpolator.hpp 607-609 -/
def Elements.span (e : Elements) : Nat := ind (e.scalars + e.vectors + e.matrices)

/-- What an `Interpolator` holds, interpolator.hpp 94-99: `data_` with `rows` rows of `cols` numbers one after
the other, and the description.  Left out: cost weights and functions (see `Brille.ModeCost`). -/
structure Held (T : Type) where
  rows : Nat
  cols : Nat
  mem : Nat → T
  shape : List Nat
  elements : Elements
  rotlike : RotatesLike
  lenunit : LengthUnit

/-- `branches()`, interpolator.hpp 308-333 -/
def branches (shape : List Nat) (e : Elements) : Nat :=
  match shape with
  | [] => 1
  | [_] => 1
  | [_, x] => if 0 < e.span then x / e.span else x
  | _ :: b :: _ :: _ => b

/-- `branches()` of the object -/
def Held.branches {T : Type} (h : Held T) : Nat := Fill.branches h.shape h.elements

/-- `check_elements`, interpolator.hpp 538-585; the remainder by zero of line 551 is undefined behaviour -/
def checkElements (shape : List Nat) (e : Elements) : Except Fault Elements :=
  match shape with
  | [] => .ok e
  | [_] =>
    if e.span = 0 then .ok { e with scalars := 1 } else if 1 < e.span then .error .threw else .ok e
  | [_, x] =>
    if e.span = 0 then
      if x = 0 then .error .ub else .ok { e with scalars := x }
    else if x % e.span ≠ 0 then .error .threw else .ok e
  | [_, _, y] =>
    if e.span = 0 then .ok { e with scalars := y } else if y ≠ e.span then .error .threw else .ok e
  | [_, _, v, t] =>
    if t ≠ 3 then .error .threw
    else if e.span = 0 then .ok { e with vectors := ind (v * 3) }
    else if ind (v * 3) ≠ e.span then .error .threw else .ok e
  | [_, _, m, t, u] =>
    if t ≠ 3 ∨ u ≠ 3 then .error .threw
    else if e.span = 0 then .ok { e with matrices := ind (m * 9) }
    else if ind (m * 9) ≠ e.span then .error .threw else .ok e
  | _ => .error .threw

/-- the numbers of rows and columns of `Array2(const Array&)`, array2.hpp 222-232 -/
def rowsCols (shape : List Nat) : Nat × Nat :=
  match shape with
  | [] => (0, 1)
  | n :: r => (n, r.prod)

/-- The constructor `Interpolator(Array<T>&, el, rl, lu[, csf, cvf, wg])`, interpolator.hpp 173-196. -/
def make {T : Type} (a : Nd T) (e : Elements) (rl : RotatesLike) (lu : LengthUnit) : Except Fault (Held T) :=
  match checkElements a.shape e with
  | .error f => .error f
  | .ok e => .ok ⟨(rowsCols a.shape).1, (rowsCols a.shape).2, a.mem, a.shape, e, rl, lu⟩

/-- the element specification, _interpolator.hpp 23-28 and 67-72; `get` is how a number is read -/
def readElements (len : Nat) (get : Nat → Int) : Elements :=
  let at' (i : Nat) : Nat := if i < len then indOfInt (get i) else 0
  ⟨at' 0, at' 1, at' 2⟩

/-- _interpolator.hpp 30-35 and 74-79 -/
def readRotatesLike (len : Nat) (get : Nat → Int) : Except Fault RotatesLike :=
  if len > 3 then
    if get 3 = 2 then .ok .gamma else if get 3 = 1 then .ok .pseudovector
    else if get 3 = 0 then .ok .vector else .error .threw
  else .ok .vector

/-- _interpolator.hpp 37-45 and 81-89 -/
def readLengthUnit (len : Nat) (get : Nat → Int) : Except Fault LengthUnit :=
  if len > 4 then
    if get 4 = 4 then .ok .reciprocalLattice else if get 4 = 3 then .ok .realLattice
    else if get 4 = 2 then .ok .inverseAngstrom else if get 4 = 1 then .ok .angstrom
    else if get 4 = 0 then .ok .none else .error .threw
  else .ok .realLattice

/-- the common part of the two `fill_check`, _interpolator.hpp 23-49 and 66-105 -/
def checked {T : Type} (a : Nd T) (len : Nat) (get : Nat → Int) : Except Fault (Held T) :=
  match readRotatesLike len get with
  | .error f => .error f
  | .ok rl =>
    match readLengthUnit len get with
    | .error f => .error f
    | .ok lu => make a (readElements len get) rl lu

/-- `fill_check(array, elements, count)`, _interpolator.hpp 12-50.  `data.size(0)` of an array without
dimensions is undefined behaviour; for a wrong number of points (lines 17-21) a message is composed, but
nothing is done with it. -/
def fillCheck {T : Type} (a : Nd T) (el : PyInts) (_count : Nat) : Except Fault (Held T) :=
  if a.shape = [] then .error .ub else checked a el.len el.raw

/-- `fill_check(array, elements, weights, count)`, _interpolator.hpp 52-106: one-dimensional data become
two-dimensional (lines 65-68).  Left out: the weights and cost functions. -/
def fillCheckCost {T : Type} (a : Nd T) (el : PyInts) (_count : Nat) : Except Fault (Held T) :=
  match a.shape with
  | [] => .error .ub
  | [n] => checked ⟨[n, 1], a.mem⟩ el.len el.raw
  | _ => checked a el.len el.raw

/-- A grid: the number of its vertices (`vertex_count()`) and its `DualInterpolator`,
interpolatordual.hpp 74-77. -/
structure Grid (T R : Type) where
  vertices : Nat
  values : Held T
  vectors : Held R
  table : PermTable.Table

/-- `Interpolator()`, interpolator.hpp 124-128 -/
def emptyHeld (T : Type) [Zero T] : Held T := ⟨0, 0, fun _ => 0, [], ⟨0, 0, 0⟩, .vector, .realLattice⟩

/-- a new grid with `n` vertices and the keys of its pairs, trellis.tpp 292 with interpolatordual.hpp 87 and
213-215 -/
def newGrid {T R : Type} [Zero T] [Zero R] (n : Nat) (keys : List Nat) : Grid T R :=
  ⟨n, emptyHeld T, emptyHeld R, PermTable.mkKeys n (emptyHeld T).branches keys⟩

/-- `setup_fake`, interpolator.hpp 206-210; `new T[_num]()` sets the numbers to zero (array2.hpp 330) -/
def setupFake {T : Type} [Zero T] (h : Held T) (sz br : Nat) : Held T :=
  { h with rows := sz, cols := br, mem := fun _ => 0, shape := [sz, br], elements := ⟨1, 0, 0⟩ }

/-- `update_permutation_table`, interpolatordual.hpp 218-221 -/
def updateTable {T R : Type} (g : Grid T R) : Except Fault (Grid T R) :=
  match PermTable.refresh g.table g.values.rows g.values.branches with
  | none => .error .ub
  | some (t, _) => .ok { g with table := t }

/-- `DualInterpolator::replace_data(val, vec)`, interpolatordual.hpp 189-195 -/
def replaceData {T R : Type} (g : Grid T R) (val : Held T) (vec : Held R) : Except Fault (Grid T R) :=
  if vec.rows ≠ val.rows ∨ vec.branches ≠ val.branches then .error .threw
  else updateTable { g with values := val, vectors := vec }

/-- The calls that change the data of a grid. -/
inductive Op (T R : Type)
  /-- `fill` without cost information, _common_grid.hpp 26-42 -/
  | fill (vals : Nd T) (valel : PyInts) (vecs : Nd R) (vecel : PyInts)
  /-- `fill` with cost information, _common_grid.hpp 127-144 -/
  | fillCost (vals : Nd T) (valel : PyInts) (vecs : Nd R) (vecel : PyInts)
  /-- `replace_value_data(array, elements, rl, lu)`, interpolatordual.hpp 197-201 -/
  | replaceValues (vals : Nd T) (el : Elements) (rl : RotatesLike) (lu : LengthUnit)
  /-- `replace_vector_data(array, elements, rl, lu)`, interpolatordual.hpp 203-207 -/
  | replaceVectors (vecs : Nd R) (el : Elements) (rl : RotatesLike) (lu : LengthUnit)
  /-- sorting stores a permutation for a pair of points, interpolatordual.hpp 425-435 -/
  | store (i j : Nat) (p : List Nat)

/-- `Interpolator::replace_data(array, elements, rl, lu)`, interpolator.hpp 475-494: the object and how the
call ends.  The data, the shape and the two enumerations are replaced before anything is checked. -/
def Held.replace {T : Type} (h : Held T) (a : Nd T) (e : Elements) (rl : RotatesLike) (lu : LengthUnit) :
    Held T × Option Fault :=
  let h1 : Held T := { h with
    rows := (rowsCols a.shape).1, cols := (rowsCols a.shape).2, mem := a.mem, shape := a.shape,
    rotlike := rl, lenunit := lu }
  if e.vectors % 3 ≠ 0 then (h1, some .threw)
  else if e.matrices % 9 ≠ 0 then (h1, some .threw)
  else
    match checkElements a.shape e with
    | .ok e => ({ h1 with elements := e }, none)
    | .error f => ({ h1 with elements := e }, some f)

/-- end a call: the new state, or the state the call leaves behind and how it ended -/
def ended {T R : Type} (left : Grid T R) : Except Fault (Grid T R) → Grid T R × Option Fault
  | .ok g => (g, none)
  | .error f => (left, some f)

/-- One call: the state it leaves and how it ends (`none`: normally). -/
def step {T R : Type} [Zero T] [Zero R] (g : Grid T R) : Op T R → Grid T R × Option Fault
  | .fill vals valel vecs vecel =>
    match fillCheck vals valel.contiguous g.vertices with
    | .error f => (g, some f)
    | .ok val =>
      match fillCheck vecs vecel.contiguous g.vertices with
      | .error f => (g, some f)
      | .ok vec => ended g (replaceData g val vec)
  | .fillCost vals valel vecs vecel =>
    match fillCheckCost vals valel g.vertices with
    | .error f => (g, some f)
    | .ok val =>
      match fillCheckCost vecs vecel g.vertices with
      | .error f => (g, some f)
      | .ok vec => ended g (replaceData g val vec)
  | .replaceValues vals e rl lu =>
    match g.values.replace vals e rl lu with
    | (h, some f) => ({ g with values := h }, some f)
    | (h, none) =>
      let g1 : Grid T R := { g with values := h }
      let g2 : Grid T R :=
        if g1.values.rows ≠ g1.vectors.rows ∨ g1.values.branches ≠ g1.vectors.branches then
          { g1 with vectors := setupFake g1.vectors g1.values.rows g1.values.branches }
        else g1
      ended g2 (updateTable g2)
  | .replaceVectors vecs e rl lu =>
    match g.vectors.replace vecs e rl lu with
    | (h, some f) => ({ g with vectors := h }, some f)
    | (h, none) =>
      let g1 : Grid T R := { g with vectors := h }
      let g2 : Grid T R :=
        if g1.values.rows ≠ g1.vectors.rows ∨ g1.values.branches ≠ g1.vectors.branches then
          { g1 with values := setupFake g1.values g1.vectors.rows g1.vectors.branches }
        else g1
      ended g2 (updateTable g2)
  | .store i j p =>
    match PermTable.overwrite g.table i j p with
    | none => (g, some .threw)
    | some (t, _) => ({ g with table := t }, none)

/-- a history of calls; an exception is caught by the caller, who goes on with what the call left -/
def run {T R : Type} [Zero T] [Zero R] (g : Grid T R) (ops : List (Op T R)) : Grid T R :=
  ops.foldl (fun g o => (step g o).1) g

end Brille.Fill
