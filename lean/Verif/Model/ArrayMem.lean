import Verif.Model.Subscript
import Mathlib.Data.Finset.Card
import Mathlib.Data.Finset.Range
import Mathlib.Logic.Function.Basic
/-
Memory model of `brille::Array` and `brille::Array2`: array objects are handles (pointer, length,
shift, ownership flag, shared reference counter, mutability flag, shape, strides) on heap blocks.
`Array2` is the two-dimensional special case; its operations are the same statements with
`std::array<ind_t,2>` in place of `std::vector<ind_t>` except for `_decouple`/`is_contiguous` and
`view(i,i)`, which are selected by `Kind`.

Simplifications: 32-bit index overflow is not modelled; the element type is one fixed type `T` whose
default value stands for `T()`, so the converting copy/assignment (`Array<R>` to `Array<T>`) are
modelled with `R = T` values; the reference counter is counted exactly (no weak pointers, no threads).
-/
namespace Brille.Arr
open Brille.Subscript

/-- Which class is modelled: `Array` (array.hpp) or `Array2` (array2.hpp). -/
inductive Kind | nd | two
deriving DecidableEq, Repr

/-- The data members of an array object, array.hpp:56-65 and array2.hpp:48-57.  A pointer is the number
of the allocation it points to (`none` is `nullptr`); `ref` identifies the control block of the
`std::shared_ptr` (`none` is an empty one). -/
structure Handle where
  data : Option Nat
  num : Nat
  shift : Nat
  own : Bool
  ref : Option Nat
  mutable : Bool
  shape : List Nat
  stride : List Nat
deriving DecidableEq, Repr

/-- The program state: live heap blocks, live array objects, and the next unused names.  `ext` records
which blocks were handed in by the caller (never to be deleted by an array); it does not influence
any operation. -/
structure Store (T : Type) where
  block : Nat → Option (List T)
  nBlock : Nat
  ext : Nat → Bool
  arr : Nat → Option Handle
  nArr : Nat
  nRef : Nat

/-- No memory, no arrays. -/
def Store.empty (T : Type) : Store T := ⟨fun _ => none, 0, fun _ => false, fun _ => none, 0, 0⟩

/-- What can go wrong without an exception: an access outside a block, an access to a deleted block,
deleting a block twice, or (not the library's fault) using an array object that does not exist. -/
inductive Err | oob | freed | doubleFree | dead
deriving DecidableEq, Repr

/-- Outcome of a call: normal return, an exception (the state is what a handler finds), or undefined
behaviour. -/
inductive Res (T : Type)
  | ok (s : Store T)
  | threw (s : Store T)
  | ub (e : Err)

/-- `shared_ptr::use_count`: the number of array objects holding the control block. -/
def useCount {T} (s : Store T) (r : Option Nat) : Nat :=
  if r = none then 0
  else ((Finset.range s.nArr).filter fun i => (s.arr i).any fun h => h.ref == r).card

/-- `size_from_shape`, array.hpp:349-356 (an empty shape has no elements) and array2.hpp:319-321. -/
def sizeOf : List Nat → Nat
  | [] => 0
  | s => s.foldr (· * ·) 1

/-- The column-ordered loop of `calculate_stride`, array.hpp:402-403, 1 followed by the running
products of the extents. -/
def colStride (acc : Nat) : List Nat → List Nat
  | [] => []
  | s :: t => acc :: colStride (acc * s) t

/-- `calculate_stride`, array.hpp:400-408 and array2.hpp:356-363: column ordered if the first stride is
smaller than the last one, row ordered otherwise.  Reading `front()` of no strides is undefined. -/
def calcStride (stride sh : List Nat) : Option (List Nat) :=
  match stride.head?, stride.getLast? with
  | some a, some b => some (if a < b then colStride 1 sh else rowStride sh)
  | _, _ => none

/-- `is_contiguous` of `Array2`, array2.hpp:109-115. -/
def isContiguous2 (shape stride : List Nat) : Bool :=
  match shape, stride with
  | [n0, n1], [t0, t1] =>
    let e0 := if t1 ≤ t0 then n1 else 1
    let e1 := if t0 ≤ t1 then n0 else 1
    (n0 < 2 || e0 == t0) && (n1 < 2 || e1 == t1)
  | _, _ => false

/-- `for (auto x: SubIt(shape))`: the subscripts visited; `none` if the loop runs away or the iterator
throws. -/
def subs (shape : List Nat) : Option (List (List Nat)) :=
  (mkShape shape).visits (shape.foldr (· * ·) 1)

/-- `s2l_d`, array.hpp:345-347 and array2.hpp:313-316. -/
def Handle.addr (h : Handle) (x : List Nat) : Option Nat := (sub2lin x h.stride).map (· + h.shift)

/-- `nd[sub2lin(x,nst)] = old[sub2lin(x,ost)+shift]` for the subscripts of a list, in order
(array.hpp:421, array2.hpp:379, array.tpp:363); `none` when an access leaves its block. -/
def copyLoop {T} (nst ost : List Nat) (shift : Nat) (old : List T) :
    List (List Nat) → List T → Option (List T)
  | [], new => some new
  | x :: l, new =>
    match sub2lin x nst, sub2lin x ost with
    | some a, some b =>
      match old[b + shift]? with
      | some v => if a < new.length then copyLoop nst ost shift old l (new.set a v) else none
      | none => none
    | _, _ => none

/-- The copy made by `_decouple`: the contents and strides of the new array. array.hpp:414-428
(`Kind.nd`: the strides are kept) and array2.hpp:369-387 (`Kind.two`: the strides are recalculated when
the data are not simply duplicated). -/
def decoupleBuf {T} [Inhabited T] (k : Kind) (h : Handle) (old : List T) :
    Option (List T × List Nat) :=
  let nnum := sizeOf h.shape
  match k with
  | .nd =>
    if nnum = h.num then (if h.num ≤ old.length then some (old.take h.num, h.stride) else none)
    else (subs h.shape).bind fun l =>
      (copyLoop h.stride h.stride h.shift old l (List.replicate nnum default)).map (·, h.stride)
  | .two =>
    if isContiguous2 h.shape h.stride ∧ nnum = h.num then
      (if h.num ≤ old.length then some (old.take h.num, h.stride) else none)
    else (calcStride h.stride h.shape).bind fun st => (subs h.shape).bind fun l =>
      (copyLoop st h.stride h.shift old l (List.replicate nnum default)).map (·, st)

/-- `init_check`, array.hpp:381-399 and array2.hpp:344-354. -/
def initCheck (h : Handle) : Bool :=
  h.shape.length == h.stride.length && decide (h.shift + sizeOf h.shape ≤ h.num)

/-- A new array object comes into existence. -/
def Store.push {T} (s : Store T) (h : Handle) : Store T :=
  { s with arr := Function.update s.arr s.nArr (some h), nArr := s.nArr + 1 }

/-- `new T[n]` filled with the given contents. -/
def Store.alloc {T} (s : Store T) (b : List T) : Store T :=
  { s with block := Function.update s.block s.nBlock (some b), nBlock := s.nBlock + 1 }

/-- `std::make_shared<char>()`. -/
def Store.newRef {T} (s : Store T) : Store T := { s with nRef := s.nRef + 1 }

/-- Replace the members of array object `i`. -/
def Store.put {T} (s : Store T) (i : Nat) (h : Handle) : Store T :=
  { s with arr := Function.update s.arr i (some h) }

/-- `delete[] p`, where `p` may be null. -/
def Store.delete {T} (s : Store T) (p : Option Nat) : Option (Store T) :=
  match p with
  | none => some s
  | some p => if (s.block p).isNone then none else some { s with block := Function.update s.block p none }

/-- Contents of the block behind an array object; a null pointer has nothing to read. -/
def contents {T} (s : Store T) (h : Handle) : Option (List T) :=
  match h.data with
  | none => some []
  | some p => s.block p

/-- `construct()` / `construct(init)`, array.hpp:358-372 and array2.hpp:323-337, with freshly computed
`num`, for the given shape and strides.  In the constructors `_ref` is empty when nothing is allocated
(`old = none`); in the converting assignment it keeps its previous value. -/
def construct {T} [Inhabited T] (s : Store T) (shape stride : List Nat) (fill : List T)
    (old : Option Nat) : Store T × Handle :=
  if sizeOf shape > 0 then
    ((s.alloc fill).newRef, ⟨some s.nBlock, sizeOf shape, 0, true, some s.nRef, true, shape, stride⟩)
  else (s, ⟨none, sizeOf shape, 0, false, old, true, shape, stride⟩)

/-- The view constructor followed by `init_check`: used by all `view`s. -/
def mkView {T} (s : Store T) (h : Handle) (shift : Nat) (shape : List Nat) : Res T :=
  let v : Handle := { h with shift := shift, shape := shape, mutable := false }
  if initCheck v then .ok (s.push v) else .threw s

/-- The loop of `view(const shape_t&)`, array.tpp:49-56 and array2.tpp:50-57: an offset is applied
along each axis where it is smaller than the extent. -/
def offsetView : List Nat → List Nat → List Nat → Option (List Nat × Nat)
  | [], _, _ => some ([], 0)
  | n :: ns, v :: vs, t :: ts => (offsetView ns vs ts).map fun r =>
      if v < n then ((n - v) :: r.1, v * t + r.2) else (n :: r.1, r.2)
  | _, _, _ => none

/-- Outcome of the part of `resize` which builds the new block, array.tpp:330-363 and
array2.tpp:328-361. -/
inductive Resized (T : Type)
  | refuse -- mixed growing and shrinking: thrown before anything is allocated
  | shifted (nd : List T) -- thrown after the new block was allocated
  | done (nd : List T) (st : List Nat)
  | ub

/-- The copying step of `resize`, array.tpp:361-363 and array2.tpp:359-361: nothing is copied from a
null pointer. -/
def resizeCopy {T} (nt stride inside : List Nat) (old : Option (List T)) (nd : List T) : Resized T :=
  match old with
  | none => .done nd nt
  | some b =>
    match (subs inside).bind fun l => copyLoop nt stride 0 b l nd with
    | some nd' => .done nd' nt
    | none => .ub

/-- Lines 330-363 of array.tpp (328-361 of array2.tpp) as a function of the old contents. -/
def resizeBuf {T} [Inhabited T] (h : Handle) (ns : List Nat) (init : T) (old : Option (List T)) :
    Resized T :=
  let shrink := (List.zipWith (fun a b => decide (a ≤ b)) ns h.shape).all id
  let grow := !shrink && (List.zipWith (fun a b => decide (b ≤ a)) ns h.shape).all id
  if !shrink && !grow then .refuse
  else
    let nd := List.replicate (sizeOf ns) (if grow then init else default)
    let inside := if shrink then ns else h.shape
    match calcStride h.stride ns with
    | none => .ub
    | some nt =>
      if 0 < h.shift then .shifted nd
      else resizeCopy nt h.stride inside old nd

/-- `resize`, array.tpp:330-380 and array2.tpp:328-373. -/
def resize {T} [Inhabited T] (s : Store T) (i : Nat) (h : Handle) (ns : List Nat) (init : T) : Res T :=
  if ns.length ≠ h.shape.length then .ub .oob
  else
    match h.data, (h.data.bind s.block) with
    | some _, none => .ub .freed
    | _, old =>
      match resizeBuf h ns init old with
      | .refuse => .threw s
      | .shifted nd => .threw (s.alloc nd)
      | .ub => .ub .oob
      | .done nd nt =>
        let s1 := s.alloc nd
        match (if h.own ∧ useCount s h.ref = 1 then s1.delete h.data else some s1) with
        | none => .ub .doubleFree
        | some s2 => .ok (s2.newRef.put i
            { h with data := some s.nBlock, num := sizeOf ns, own := true, ref := some s2.nRef,
                     shape := ns, stride := nt, mutable := true })

/-- `y = x; y[dim] += n`. -/
def bump (dim n : Nat) (x : List Nat) : List Nat := x.modify dim (· + n)

/-- `(*this)[y] = extra[x]`: one assignment through array objects `i` and `j`. -/
def assignElt {T} (s : Store T) (i : Nat) (y : List Nat) (j : Nat) (x : List Nat) :
    Except Err (Store T) :=
  match s.arr i, s.arr j with
  | some hi, some hj =>
    match hi.data, hj.data, hi.addr y, hj.addr x with
    | some p, some q, some a, some b =>
      match s.block p, s.block q with
      | some bp, some bq =>
        match bq[b]? with
        | some v =>
          if a < bp.length then .ok { s with block := Function.update s.block p (some (bp.set a v)) }
          else .error .oob
        | none => .error .oob
      | _, _ => .error .freed
    | _, _, _, _ => .error .oob
  | _, _ => .error .dead

/-- The loop of `append` over the subscripts of `extra`, array.tpp:411-417. -/
def appendLoop {T} (i j dim n : Nat) : List (List Nat) → Store T → Except Err (Store T)
  | [], s => .ok s
  | x :: l, s =>
    match assignElt s i (bump dim n x) j x with
    | .ok s' => appendLoop i j dim n l s'
    | .error e => .error e

/-- The calls a program can make on array objects; array objects are named by the order of their
creation. -/
inductive Op (T : Type)
  | new (shape : List Nat) (fill : T)                   -- Array(shape, init)
  | newStrided (shape stride : List Nat) (fill : T)     -- Array(shape, stride, init)
  | fromStd (d : List T)                                -- Array::from_std(vector)
  | wrap (b : List T) (shape stride : List Nat) (m : Bool) -- non-owning array on external memory
  | copy (i : Nat)                                      -- Array(const Array&)
  | assign (i j : Nat)                                  -- operator=(const Array&)
  | destroy (i : Nat)                                   -- ~Array
  | view (i : Nat)                                      -- view()
  | viewAt (i a : Nat)                                  -- view(a)
  | viewRange (i a b : Nat)                             -- view(a, b)
  | viewFrom (i : Nat) (v : List Nat)                   -- view(const shape_t&)
  | decouple (i : Nat)                                  -- decouple()
  | resize (i : Nat) (ns : List Nat) (init : T)         -- resize(shape, init)
  | append (i dim j : Nat)                              -- append(dim, extra)
  | write (i : Nat) (x : List Nat) (v : T)              -- operator[](shape_t) = v
  | setMutable (i : Nat) (b : Bool)                     -- make_mutable / make_immutable
  | convert (j : Nat)                                   -- Array<T>(const Array<R>&)
  | convertAssign (i j : Nat)                           -- operator=(const Array<R>&)

/-- The element-by-element copy of the converting constructor and assignment, array.hpp:293-317 and
array2.hpp:276-296, from array object `j` into new row-ordered memory. -/
def convertBuf {T} [Inhabited T] (h : Handle) (old : List T) : Option (List T) :=
  (subs h.shape).bind fun l =>
    copyLoop (rowStride h.shape) h.stride h.shift old l (List.replicate (sizeOf h.shape) default)

/-- One call. -/
def step {T} [Inhabited T] (k : Kind) (s : Store T) : Op T → Res T
  | .new shape v =>       -- array.hpp:196-203, array2.hpp:180-187
    let c := construct s shape (rowStride shape) (List.replicate (sizeOf shape) v) none
    if initCheck c.2 then .ok (c.1.push c.2) else .threw c.1
  | .newStrided shape stride v => -- array.hpp:214-221, array2.hpp:196-202
    let c := construct s shape stride (List.replicate (sizeOf shape) v) none
    if initCheck c.2 then .ok (c.1.push c.2) else .threw c.1
  | .fromStd d =>         -- array.hpp:223-229; `new T[0]` is a block too
    .ok (((s.alloc d).newRef).push ⟨some s.nBlock, d.length, 0, true, some s.nRef, true, [d.length], [1]⟩)
  | .wrap b shape stride m => -- array.hpp:147-155, array2.hpp:133-140, `own` false
    let h : Handle := ⟨some s.nBlock, b.length, 0, false, some s.nRef, m, shape, stride⟩
    let s1 := { (s.alloc b).newRef with ext := Function.update s.ext s.nBlock true }
    if initCheck h then .ok (s1.push h) else .threw s1
  | .copy i =>            -- array.hpp:258-263, array2.hpp:244-247
    match s.arr i with
    | some h => .ok (s.push h)
    | none => .ub .dead
  | .assign i j =>        -- array.hpp:267-289, array2.hpp:251-273
    match s.arr i, s.arr j with
    | some h, some o =>
      if i = j then .ok s
      else
        let s1 := s.put i { o with own := o.own }
        -- the local `old_ref` is itself one reference
        if h.own ∧ useCount s1 h.ref + 1 = 1 then
          match s1.delete h.data with
          | some s2 => .ok s2
          | none => .ub .doubleFree
        else .ok s1
    | _, _ => .ub .dead
  | .destroy i =>         -- array.hpp:264-266, array2.hpp:248-250
    match s.arr i with
    | some h =>
      match (if h.own ∧ useCount s h.ref = 1 then s.delete h.data else some s) with
      | some s1 => .ok { s1 with arr := Function.update s1.arr i none }
      | none => .ub .doubleFree
    | none => .ub .dead
  | .view i =>            -- array.tpp:19-22, array2.tpp:19-21
    match s.arr i with
    | some h => mkView s h h.shift h.shape
    | none => .ub .dead
  | .viewAt i a =>        -- array.tpp:24-33, array2.tpp:23-31
    match s.arr i with
    | some h =>
      match h.shape, h.stride with
      | n :: ns, t :: _ => if a < n then mkView s h (h.shift + a * t) (1 :: ns) else .threw s
      | _, _ => .ub .oob
    | none => .ub .dead
  | .viewRange i a b =>   -- array.tpp:35-45, array2.tpp:33-47
    match s.arr i with
    | some h =>
      match h.shape, h.stride with
      | n :: ns, t :: _ =>
        if a < b ∧ a < n ∧ b ≤ n then mkView s h (h.shift + a * t) ((b - a) :: ns)
        else if k = .two ∧ a = b then
          let c := construct s (0 :: ns) (rowStride (0 :: ns)) [] none
          if initCheck c.2 then .ok (c.1.push c.2) else .threw c.1
        else .threw s
      | _, _ => .ub .oob
    | none => .ub .dead
  | .viewFrom i v =>      -- array.tpp:47-58, array2.tpp:49-58
    match s.arr i with
    | some h =>
      match offsetView h.shape v h.stride with
      | some (sh, o) => mkView s h (h.shift + o) sh
      | none => .ub .oob
    | none => .ub .dead
  | .decouple i =>        -- array.hpp:322-325, 414-428; array2.hpp:301-304, 369-387
    match s.arr i with
    | some h =>
      if h.own = false ∨ h.mutable = false ∨ useCount s h.ref > 1 then
        match contents s h with
        | none => .ub .freed
        | some old =>
          match decoupleBuf k h old with
          | none => .ub .oob
          | some (nd, st) =>
            let n : Handle := ⟨some s.nBlock, sizeOf h.shape, 0, true, some s.nRef, true, h.shape, st⟩
            if initCheck n then .ok ((s.alloc nd).newRef.push n) else .threw (s.alloc nd)
      else .ok (s.push h)
    | none => .ub .dead
  | .resize i ns v =>
    match s.arr i with
    | some h => resize s i h ns v
    | none => .ub .dead
  | .append i dim j =>    -- array.tpp:396-420, array2.tpp:388-415
    match s.arr i, s.arr j with
    | some h, some e =>
      if i = j ∨ e.shape.length ≠ h.shape.length ∨ h.shape.length ≤ dim then .ub .oob
      else if e.shape.eraseIdx dim ≠ h.shape.eraseIdx dim then .threw s
      else
        match resize s i h (bump dim (h.shape.getD dim 0) e.shape) default with
        | .ok s1 =>
          match subs e.shape with
          | none => .ub .oob
          | some l =>
            match appendLoop i j dim (h.shape.getD dim 0) l s1 with
            | .ok s2 => .ok s2
            | .error e => .ub e
        | r => r
    | _, _ => .ub .dead
  | .write i x v =>       -- array.hpp:331, array2.hpp:310 followed by an assignment
    match s.arr i with
    | some h =>
      match h.data, h.addr x with
      | some p, some a =>
        match s.block p with
        | some b =>
          if a < b.length then .ok { s with block := Function.update s.block p (some (b.set a v)) }
          else .ub .oob
        | none => .ub .freed
      | _, _ => .ub .oob
    | none => .ub .dead
  | .setMutable i b =>    -- array.hpp:320-321, array2.hpp:299-300
    match s.arr i with
    | some h => .ok (s.put i { h with mutable := b })
    | none => .ub .dead
  | .convert j =>         -- array.hpp:294-302, array2.hpp:277-284
    match s.arr j with
    | some o =>
      match contents s o with
      | none => .ub .freed
      | some old =>
        match convertBuf o old with
        | none => .ub .oob
        | some nd =>
          let c := construct s o.shape (rowStride o.shape) nd none
          .ok (c.1.push c.2)
    | none => .ub .dead
  | .convertAssign i j => -- array.hpp:303-317, array2.hpp:285-295: the old memory is never released
    match s.arr i, s.arr j with
    | some h, some o =>
      match contents s o with
      | none => .ub .freed
      | some old =>
        match convertBuf o old with
        | none => .ub .oob
        | some nd =>
          let c := construct s o.shape (rowStride o.shape) nd h.ref
          .ok (c.1.put i c.2)
    | _, _ => .ub .dead

/-- A program: calls made one after the other; an exception is caught and the program goes on. -/
def run {T} [Inhabited T] (k : Kind) : List (Op T) → Store T → Res T
  | [], s => .ok s
  | o :: l, s =>
    match step k s o with
    | .ok s' => run k l s'
    | .threw s' => run k l s'
    | .ub e => .ub e

end Brille.Arr
