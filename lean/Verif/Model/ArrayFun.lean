import Verif.Model.ArrayMem
/-
The functions of `brille::Array2` which look at or rearrange elements: searches, comparisons,
reductions, element-by-element functions, selection, assignment and permutation of rows
(/repo/src/array2.tpp), and the conversions between `Array2`, `Array` and numpy arrays
(/repo/src/array.hpp, array2.hpp, /repo/wrap/_array.hpp).

Simplifications: an array is its extents, strides, shift and the contents of its memory block (how
blocks are shared and released is the subject of `Verif/Model/ArrayMem.lean`); index arithmetic has
no 32-bit overflow except where said; a comparison is a Boolean function of two elements or two rows.
Assertions are not checked (release build).
-/
namespace Brille.ArrFun
open Brille.Subscript Brille.Arr

/-- Why a call does not return: an exception, an access outside of the memory block (or a loop that
runs away). -/
inductive Stop | threw | ub
deriving DecidableEq, Repr

/-- The result of a call. -/
abbrev M := Except Stop

/-- An `Array2` object with its memory: array2.hpp:48-58. -/
structure A2 (T : Type) where
  n0 : Nat
  n1 : Nat
  t0 : Nat
  t1 : Nat
  shift : Nat
  data : List T
deriving DecidableEq, Repr

variable {T U R : Type}

/-- An access that may leave the block. -/
def orUb {α : Type} : Option α → M α
  | some v => .ok v
  | none => .error .ub

/-- `numel`, array2.hpp:83-85. -/
def A2.numel (a : A2 T) : Nat := a.n0 * a.n1

/-- `s2l_d`, array2.hpp:317-320. -/
def A2.addr (a : A2 T) (x : List Nat) : M Nat := orUb ((sub2lin x [a.t0, a.t1]).map (· + a.shift))

/-- `operator[](shape_t)` as a value, array2.hpp:309. -/
def A2.read (a : A2 T) (x : List Nat) : M T := do
  let k ← a.addr x
  orUb a.data[k]?

/-- `operator[](shape_t) = v`, array2.hpp:308. -/
def A2.write (a : A2 T) (x : List Nat) (v : T) : M (A2 T) := do
  let k ← a.addr x
  if k < a.data.length then .ok { a with data := a.data.set k v } else .error .ub

/-- `operator[](ind_t)` as a value, array2.hpp:306 with `l2l_d`, 311-313. -/
def A2.lin (a : A2 T) (k : Nat) : M T := orUb a.data[k + a.shift]?

/-- `operator[](ind_t) = v`, array2.hpp:305. -/
def A2.writeLin (a : A2 T) (k : Nat) (v : T) : M (A2 T) :=
  if k + a.shift < a.data.length then .ok { a with data := a.data.set (k + a.shift) v }
  else .error .ub

/-- `Array2(shape, stride, init)`, array2.hpp:195-200. -/
def fresh (n0 n1 t0 t1 : Nat) (v : T) : A2 T := ⟨n0, n1, t0, t1, 0, List.replicate (n0 * n1) v⟩

/-- The subscripts of `for (auto x: SubIt2(shape))`. -/
def subscripts (n0 n1 : Nat) : M (List (List Nat)) := orUb (subs [n0, n1])

/-- `calculate_stride`, array2.hpp:356-364. -/
def A2.calc (a : A2 T) (n0 n1 : Nat) : Nat × Nat := if a.t0 < a.t1 then (1, n0) else (n1, 1)

/-! ### Searches in linear order, array2.tpp:416-495, 664-702 -/

/-- `(n > 0 && n < nml) ? n : nml`, array2.tpp:419. -/
def A2.limit (a : A2 T) (n : Nat) : Nat := if 0 < n ∧ n < a.numel then n else a.numel

/-- The loop of `all`, array2.tpp:420. -/
def allLoop (a : A2 T) (p : T → Bool) : List Nat → M Bool
  | [] => .ok true
  | k :: l => do
    let v ← a.lin k
    if !p v then .ok false else allLoop a p l

/-- `all(n)`, `all(val, n)` and `all(cmp, val)`, array2.tpp:416-422, 430-436, 664-672 (the last without
`le_ge`). -/
def A2.all (a : A2 T) (p : T → Bool) (n : Nat := 0) : M Bool := allLoop a p (List.range (a.limit n))

/-- The loop of `any`, array2.tpp:427. -/
def anyLoop (a : A2 T) (p : T → Bool) : List Nat → M Bool
  | [] => .ok false
  | k :: l => do
    let v ← a.lin k
    if p v then .ok true else anyLoop a p l

/-- `any(n)` and `any(val, n)`, array2.tpp:423-429, 437-443. -/
def A2.any (a : A2 T) (p : T → Bool) (n : Nat := 0) : M Bool := anyLoop a p (List.range (a.limit n))

/-- `count`, array2.tpp:445-462, 693-702. -/
def A2.count (a : A2 T) (p : T → Bool) (n : Nat := 0) : M Nat :=
  (List.range (a.limit n)).foldlM (fun c k => do
    let v ← a.lin k
    return if p v then c + 1 else c) 0

/-- The loop of `first` and `last`: the first hit in a list of positions. -/
def hitLoop (a : A2 T) (p : T → Bool) (no : Nat) : List Nat → M Nat
  | [] => .ok no
  | k :: l => do
    let v ← a.lin k
    if p v then .ok k else hitLoop a p no l

/-- `first`, array2.tpp:464-479, 677-684. -/
def A2.first (a : A2 T) (p : T → Bool) (n : Nat := 0) : M Nat :=
  hitLoop a p (a.limit n) (List.range (a.limit n))

/-- `last`, array2.tpp:480-495, 685-692. -/
def A2.last (a : A2 T) (p : T → Bool) (n : Nat := 0) : M Nat :=
  hitLoop a p (a.limit n) (List.range (a.limit n)).reverse

/-- `any(cmp, val)`, array2.tpp:673-676. -/
def A2.anyCmp (a : A2 T) (p : T → Bool) : M Bool := do
  let k ← a.first p
  return decide (k < a.numel)

/-- `is(cmp, val)`, array2.tpp:703-712. -/
def A2.is (a : A2 T) (p : T → Bool) : M (A2 Bool) :=
  (List.range a.numel).foldlM (fun out k => do
    let v ← a.lin k
    out.writeLin k (p v)) (fresh a.n0 a.n1 a.t0 a.t1 true)

/-- `find(cmp, val)`, array2.tpp:714-722. -/
def A2.find (a : A2 T) (p : T → Bool) : M (List Nat) := do
  let this ← a.is p
  (List.range a.numel).foldlM (fun out k => do
    let b ← this.lin k
    return if b then out ++ [k] else out) []

/-! ### Element by element -/

/-- The loop `for (auto x: subItr()) out[x] = f(a[x])` with a new array of the given strides. -/
def A2.mapTo [Inhabited U] (a : A2 T) (t0 t1 : Nat) (f : T → U) : M (A2 U) := do
  let l ← subscripts a.n0 a.n1
  l.foldlM (fun out x => do
    let v ← a.read x
    out.write x (f v)) (fresh a.n0 a.n1 t0 t1 default)

/-- `round`, `floor`, `ceil`, array2.tpp:497-509, and `operator-`, 1010-1016: the strides are those of
the array. -/
def A2.mapSame [Inhabited U] (a : A2 T) (f : T → U) : M (A2 U) := a.mapTo a.t0 a.t1 f

/-- `abs`, array2.tpp:1248-1253: new strides of the same order. -/
def A2.abs [Inhabited T] (a : A2 T) (f : T → T) : M (A2 T) :=
  a.mapTo (a.calc a.n0 a.n1).1 (a.calc a.n0 a.n1).2 f

/-- `operator^`, array2.tpp:1304-1309: row ordered. -/
def A2.pow [Inhabited T] (a : A2 T) (f : T → T) : M (A2 T) := a.mapTo a.n1 1 f

/-- `is_contiguous`, array2.hpp:109-115. -/
def A2.contiguous (a : A2 T) : Bool := isContiguous2 [a.n0, a.n1] [a.t0, a.t1]

/-- `contiguous_copy`, array2.tpp:1232-1238. -/
def A2.contiguousCopy [Inhabited T] (a : A2 T) : M (A2 T) :=
  if a.contiguous then .ok a else a.mapTo (a.calc a.n0 a.n1).1 (a.calc a.n0 a.n1).2 id

/-- `contiguous_row_ordered_copy`, array2.tpp:1240-1246. -/
def A2.rowOrderedCopy [Inhabited T] (a : A2 T) : M (A2 T) :=
  if a.t1 ≤ a.t0 ∧ a.contiguous = true then .ok a
  else a.mapTo (a.calc a.n0 a.n1).1 (a.calc a.n0 a.n1).2 id

/-- The in-place operators with a scalar, array2.tpp:1255-1271; `free` is the mutability flag. -/
def A2.scalarOp (a : A2 T) (free : Bool) (f : T → T) : M (A2 T) :=
  if !free then .error .threw
  else do
    let l ← subscripts a.n0 a.n1
    l.foldlM (fun o x => do
      let v ← o.read x
      o.write x (f v)) a

/-! ### Reductions, array2.tpp:511-608 -/

/-- `sum(dim)`, `prod(dim)`, `min(dim)` and `max(dim)`: the strides of the result keep the order of the
array.  (`max` also replaces zero strides by one, lines 580-581, which only matters for arrays
without columns.) -/
def A2.reduce [Inhabited T] (a : A2 T) (dim : Nat) (f : T → T → T) (z : T) : M (A2 T) := do
  let o0 := if dim = 0 then 1 else a.n0
  let o1 := if dim = 0 then a.n1 else 1
  let n := if dim = 0 then a.n0 else a.n1
  let l ← subscripts o0 o1
  l.foldlM (fun out x => do
    let v ← (List.range n).foldlM (fun tmp i => do
      let v ← a.read (x.set dim i)
      return f tmp v) z
    out.write x v) (fresh o0 o1 (a.calc o0 o1).1 (a.calc o0 o1).2 default)

/-- `sum()` and `prod()`, array2.tpp:596-608. -/
def A2.total (a : A2 T) (f : T → T → T) (z : T) : M T := do
  let l ← subscripts a.n0 a.n1
  l.foldlM (fun out x => do
    let v ← a.read x
    return f out v) z

/-- `to_std`, array2.tpp:1110-1115. -/
def A2.toStd (a : A2 T) : M (List T) := do
  let l ← subscripts a.n0 a.n1
  l.mapM a.read

/-! ### Rows -/

/-- The `n1` values found from `ptr(i)` in steps of the second stride, array2.tpp:1172-1175. -/
def A2.row (a : A2 T) (i : Nat) : M (List T) :=
  (List.range a.n1).mapM fun j => orUb a.data[i * a.t0 + a.shift + j * a.t1]?

/-- `view(i)`, array2.tpp:23-31, with `init_check`, array2.hpp:344-354. -/
def A2.view (a : A2 T) (i : Nat) : M (A2 T) :=
  if i < a.n0 then
    if a.shift + i * a.t0 + a.n1 ≤ a.data.length then
      .ok { a with n0 := 1, shift := a.shift + i * a.t0 }
    else .error .threw
  else .error .threw

/-- The test made by all functions which compare with an array of rows, for example
array2.tpp:773-780: either all rows or a single one. -/
def broadcastable (a : A2 T) (b : A2 R) : Bool :=
  (b.n0 == 1 || a.n0 == b.n0) && (b.n1 == 1 || a.n1 == b.n1)

/-- `row_is(cmp, rows)`, array2.tpp:769-812, as the list of its values. -/
def A2.rowIs (a : A2 T) (b : A2 R) (op : List T → List R → Bool) : M (List Bool) :=
  if !broadcastable a b then .error .threw
  else if a.n0 = b.n0 ∧ a.n1 = b.n1 then
    (List.range a.n0).mapM fun i => do
      let x ← a.row i
      let y ← b.row i
      return op x y
  else if a.n1 ≠ b.n1 then .error .threw
  else
    (List.range a.n0).mapM fun i => do
      let x ← a.row i
      let y ← b.row 0
      return op x y

/-- Whether row `i` passes in `first`, `last`, `count` and `find` with an array of rows,
array2.tpp:828-838: directly, or through a view of the row (`row_is(...).all()`). -/
def A2.rowPasses (a : A2 T) (b : A2 R) (op : List T → List R → Bool) (i : Nat) : M Bool :=
  if a.n0 = b.n0 ∧ a.n1 = b.n1 then do
    let x ← a.row i
    let y ← b.row i
    return op x y
  else do
    let v ← a.view i
    let l ← v.rowIs b op
    return l.all id

/-- The tests at the start of `first`, `last`, `count` and `find` with an array of rows,
array2.tpp:819-836. -/
def A2.guard (a : A2 T) (b : A2 R) : M Unit :=
  if !broadcastable a b then .error .threw
  else if ¬(a.n0 = b.n0 ∧ a.n1 = b.n1) ∧ a.n1 ≠ b.n1 then .error .threw
  else .ok ()

/-- The loop of `first` and `last` over rows. -/
def rowHit (a : A2 T) (b : A2 R) (op : List T → List R → Bool) : List Nat → M Nat
  | [] => .ok a.n0
  | i :: l => do
    if ← a.rowPasses b op i then return i else rowHit a b op l

/-- `first(cmp, rows)`, array2.tpp:815-840. -/
def A2.firstRow (a : A2 T) (b : A2 R) (op : List T → List R → Bool) : M Nat := do
  a.guard b
  rowHit a b op (List.range a.n0)

/-- `last(cmp, rows)`, array2.tpp:841-866. -/
def A2.lastRow (a : A2 T) (b : A2 R) (op : List T → List R → Bool) : M Nat := do
  a.guard b
  rowHit a b op (List.range a.n0).reverse

/-- `count(cmp, rows)`, array2.tpp:867-893. -/
def A2.countRows (a : A2 T) (b : A2 R) (op : List T → List R → Bool) : M Nat := do
  a.guard b
  (List.range a.n0).foldlM (fun c i => do
    return if ← a.rowPasses b op i then c + 1 else c) 0

/-- `find(cmp, rows)`, array2.tpp:894-920. -/
def A2.findRows (a : A2 T) (b : A2 R) (op : List T → List R → Bool) : M (List Nat) := do
  a.guard b
  (List.range a.n0).foldlM (fun out i => do
    return if ← a.rowPasses b op i then out ++ [i] else out) []

/-- `dot(i, j)`, array2.tpp:991-1003. -/
def A2.dot [Mul T] [Add T] [OfNat T 0] (a : A2 T) (i j : Nat) : M T := do
  let x ← a.row i
  let y ← a.row j
  return (List.zipWith (· * ·) x y).foldl (· + ·) 0

/-! ### Selecting and assigning rows, array2.tpp:60-243 -/

/-- `set(i, Array2)`, array2.tpp:172-204. -/
def A2.setRow (a : A2 T) (i : Nat) (b : A2 T) : M (A2 T) :=
  if a.n1 ≠ b.n1 then .error .threw
  else do
    let l ← subscripts 1 b.n1
    l.foldlM (fun o x => do
      let v ← b.read x
      o.write (x.set 0 i) v) a

/-- `set(i, vector)` and `set(i, array)`, array2.tpp:207-236. -/
def A2.setVec (a : A2 T) (i : Nat) (v : List T) : M (A2 T) :=
  if a.numel ≠ a.n0 * v.length then .error .threw
  else do
    let l ← subscripts 1 a.n1
    (l.zipIdx).foldlM (fun o x => do
      let w ← orUb v[x.2]?
      o.write (x.1.set 0 i) w) a

/-- `extract(vector)` and `extract(array)` of indices, array2.tpp:82-111. -/
def A2.extract [Inhabited T] (a : A2 T) (idx : List Int) : M (A2 T) :=
  if idx.all fun x => decide (0 ≤ x) && decide (x.toNat < a.n0) then
    (idx.zipIdx).foldlM (fun out x => do
      let v ← a.view x.1.toNat
      out.setRow x.2 v) (fresh idx.length a.n1 a.n1 1 default)
  else .error .threw

/-- `extract(vector<bool>)`, array2.tpp:156-169. -/
def A2.extractMask [Inhabited T] (a : A2 T) (mask : List Bool) : M (A2 T) :=
  if a.n0 < mask.length then .error .threw
  else do
    let r ← (List.range (min mask.length a.n0)).foldlM (fun s j => do
      if mask.getD j false then
        let v ← a.view j
        let out ← s.1.setRow s.2 v
        return (out, s.2 + 1)
      else return s) (fresh (mask.count true) a.n1 a.n1 1 default, 0)
    return r.1

/-- `extract(Array2<bool>)`, array2.tpp:141-154. -/
def A2.extractTable [Inhabited T] (a : A2 T) (mask : A2 Bool) : M (A2 T) :=
  if a.n0 < mask.n0 then .error .threw
  else do
    let c ← mask.count id
    let r ← (List.range (min mask.n0 a.n0)).foldlM (fun s j => do
      if ← mask.lin j then
        let v ← a.view j
        let out ← s.1.setRow s.2 v
        return (out, s.2 + 1)
      else return s) (fresh c a.n1 a.n1 1 default, 0)
    return r.1

/-- The copying part of `unique`, array2.tpp:980-989: the rows flagged by `is_unique`, with the strides
of the array. -/
def A2.uniqueCopy [Inhabited T] (a : A2 T) (flags : List Bool) : M (A2 T) := do
  let r ← (List.range a.n0).foldlM (fun s j => do
    if flags.getD j false then
      let v ← a.view j
      let out ← s.1.setRow s.2 v
      return (out, s.2 + 1)
    else return s) (fresh (flags.count true) a.n1 a.t0 a.t1 default, 0)
  return r.1

/-- `reshape`, array2.tpp:303-313: the number of elements is not checked. -/
def A2.reshape (a : A2 T) (m0 m1 : Nat) : M (A2 T) :=
  if a.contiguous then
    .ok { a with n0 := m0, n1 := m1, t0 := (a.calc m0 m1).1, t1 := (a.calc m0 m1).2 }
  else .error .threw

/-! ### Permuting rows, array2.tpp:1018-1107 -/

/-- Exchange the contents of two memory positions, array2.tpp:1094-1097. -/
def A2.exchange (a : A2 T) (x y : List Nat) : M (A2 T) := do
  let u ← a.read x
  let v ← a.read y
  let b ← a.write x v
  b.write y u

/-- `swap(a, b)`, array2.tpp:1081-1098: the loop over the subscripts with first entry `a`. -/
def A2.swap (a : A2 T) (i j : Nat) : M (A2 T) := do
  let it ← orUb (mkFixed [a.n0, a.n1] [i, a.n1])
  let l ← orUb (it.visits a.n1)
  l.foldlM (fun o x => o.exchange x (x.set 0 j)) a

/-- `swap(i, a, b)`, array2.tpp:1100-1107. -/
def A2.swapCells (a : A2 T) (i j k : Nat) : M (A2 T) := a.exchange [i, j] [i, k]

/-- The inverse permutation, array2.tpp:1026: `s` starts as the sorted vector. -/
def invert (p : List Nat) (s : List Nat) : M (List Nat) :=
  (p.zipIdx).foldlM (fun s x => if x.1 < s.length then .ok (s.set x.1 x.2) else .error .ub) s

/-- The swaps of `permute`, array2.tpp:1028-1035; `fuel` bounds the number of turns. -/
def permuteLoop : Nat → Nat → List Nat → A2 T → M (A2 T)
  | 0, _, _, _ => .error .ub
  | fuel + 1, i, s, a =>
    if i < a.n0 then do
      let k ← orUb s[i]?
      if k ≠ i then
        let b ← a.swap i k
        let m ← orUb s[k]?
        permuteLoop fuel i ((s.set i m).set k k) b
      else permuteLoop fuel (i + 1) s a
    else .ok a

/-- `permute`, array2.tpp:1018-1037.  The sorting of the copy only gives `s` its length. -/
def A2.permute (a : A2 T) (p : List Nat) : M (A2 T) := do
  let s ← invert p (p.mergeSort (· ≤ ·))
  permuteLoop (2 * a.n0 + 1) 0 s a

/-- `is_permutation`, array2.tpp:1039-1059; `same` compares rows of this array, `op` rows of the other
one with rows of this one. -/
def A2.isPermutation (a : A2 T) (b : A2 R) (same : List T → List T → Bool)
    (op : List R → List T → Bool) : M Bool :=
  if b.n0 ≠ a.n0 ∨ b.n1 ≠ a.n1 then .ok false
  else go (List.range a.n0)
where
  /-- The loop over the rows. -/
  go : List Nat → M Bool
    | [] => .ok true
    | i :: l => do
      let x ← a.view i
      let c ← a.countRows x same
      let d ← b.countRows x op
      if c ≠ d then return false else go l

/-- The lambda `not_present`, array2.tpp:1064-1072: `find_first_of` with "differs" as the comparison. -/
def notPresent (a b : List Nat) : M Nat :=
  match a with
  | [] => .error .threw
  | x :: _ =>
    if b = [] then .ok x
    else match a.find? fun x => b.any fun y => x != y with
      | some x => .ok x
      | none => .error .threw

/-- `permutation_vector`, array2.tpp:1061-1080. -/
def A2.permutationVector (a : A2 T) (b : A2 R) (op : List R → List T → Bool) : M (List Nat) :=
  (List.range a.n0).foldlM (fun perm i => do
    let v ← a.view i
    let others ← b.findRows v op
    let k ← notPresent others perm
    return perm ++ [k]) []

end Brille.ArrFun
