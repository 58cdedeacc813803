/-
Model of `/repo/src/subscript.hpp`: the subscript iterators `SubIt`/`SubIt2`, the broadcasting
iterators `BroadcastIt`/`BroadcastIt2` and the index conversions `lin2sub`/`sub2lin`.

Simplifications: unsigned integers are `ℕ` (no wrap-around); the parallel vectors `_shape`, `_inpt`,
`_sub`, `_fixed` which the class keeps at equal length are one list of records.  `SubIt2` has
the same text as `SubIt` with `n = 2` and is covered by lists of length two.
-/
namespace Brille.Subscript

/-- One dimension of a `SubIt`: subscript.hpp:78-81 (`_shape[i]`, `_inpt[i]`, `_sub[i]`, `_fixed[i]`). -/
structure Axis where
  shape : Nat
  inpt : Nat
  sub : Nat
  fixed : Bool
deriving DecidableEq, Repr

/-- The iterator object: subscript.hpp:75-82. -/
structure SubIt where
  axes : List Axis
  first : Nat
deriving DecidableEq, Repr

/-- `SubIt::find_first`, subscript.hpp:91-97.  The index of the first axis that is not fixed; the
exception thrown when there is none is `none`. -/
def findFirst : List Axis → Option Nat
  | [] => none
  | a :: t => if a.fixed then (findFirst t).map (· + 1) else some 0

/-- `explicit SubIt(const holder&)`, subscript.hpp:102-109: no axis is fixed, `_first` is 0. -/
def mkShape (shape : List Nat) : SubIt :=
  ⟨shape.map fun s => ⟨s, 0, 0, false⟩, 0⟩

/-- `is_fixed` for unsigned integers, subscript.hpp:34-38. -/
def isFixed (i n : Nat) : Bool := decide (i < n)

/-- The axes filled in by `SubIt(const holder&, const holder&)`, subscript.hpp:115-119.  The
assertion on equal lengths (line 113) becomes pairing up the two lists. -/
def fixedAxes (shape inpt : List Nat) : List Axis :=
  List.zipWith (fun s i => ⟨s, i, if isFixed i s then i else 0, isFixed i s⟩) shape inpt

/-- `SubIt(const holder&, const holder&)`, subscript.hpp:110-121; `none` when `find_first` throws. -/
def mkFixed (shape inpt : List Nat) : Option SubIt :=
  (findFirst (fixedAxes shape inpt)).map fun f => ⟨fixedAxes shape inpt, f⟩

/-- The loop of `SubIt::operator++`, subscript.hpp:154-161, `for (size_t dim=n; dim-->0; )`.
The loop runs from the last axis to the first, so the recursion handles the tail of the list before
the axis at position `dim`; the Boolean is `true` while the loop has not hit `break`. -/
def incLoop (first : Nat) : Nat → List Axis → List Axis × Bool
  | _, [] => ([], true)
  | dim, a :: t =>
    let (t', go) := incLoop first (dim + 1) t
    if !go then (a :: t', false)
    else if a.fixed then (a :: t', true)
    else if decide (dim > first) && a.sub + 1 == a.shape then ({ a with sub := 0 } :: t', true)
    else ({ a with sub := a.sub + 1 } :: t', false)

/-- `SubIt::operator++`, subscript.hpp:152-163. -/
def SubIt.next (it : SubIt) : SubIt := { it with axes := (incLoop it.first 0 it.axes).1 }

/-- `*it`, subscript.hpp:172: the current subscript. -/
def SubIt.deref (it : SubIt) : List Nat := it.axes.map (·.sub)

/-- `SubIt::operator==`, subscript.hpp:164-170: equal dimensionality and equal subscripts. -/
def SubIt.eq (a b : SubIt) : Bool := a.deref == b.deref

/-- `SubIt::begin`, subscript.hpp:176-182 (the returned object's constructor recomputes `_first`). -/
def SubIt.begin (it : SubIt) : Option SubIt :=
  let axes := it.axes.map fun a => { a with sub := if a.fixed then a.inpt else 0 }
  (findFirst axes).map fun f => ⟨axes, f⟩

/-- Set the subscript of axis `k` to its extent: `val[_first] = _shape[_first]`, subscript.hpp:187. -/
def setEnd : Nat → List Axis → List Axis
  | _, [] => []
  | 0, a :: t => { a with sub := a.shape } :: t
  | k + 1, a :: t => a :: setEnd k t

/-- `SubIt::end`, subscript.hpp:183-189. -/
def SubIt.end (it : SubIt) : Option SubIt :=
  let axes := setEnd it.first (it.axes.map fun a => { a with sub := if a.fixed then a.sub else 0 })
  (findFirst axes).map fun f => ⟨axes, f⟩

/-- The range-based `for` loop over a `SubIt`: starting from `x`, visit `*x` and advance until `x`
equals `stop`.  The loop is given `fuel` steps; `none` means it has not finished by then. -/
def loopFrom (stop : SubIt) : Nat → SubIt → Option (List (List Nat))
  | 0, x => if x.eq stop then some [] else none
  | fuel + 1, x =>
    if x.eq stop then some []
    else (loopFrom stop fuel x.next).map (x.deref :: ·)

/-- `for (auto x : it) visit(x)`: the list of visited subscripts. -/
def SubIt.visits (it : SubIt) (fuel : Nat) : Option (List (List Nat)) :=
  match it.begin, it.end with
  | some b, some e => loopFrom e fuel b
  | _, _ => none

/-! ### Broadcasting -/

/-- One dimension of a `BroadcastIt`: subscript.hpp:336-341. -/
structure BAxis where
  s0 : Nat
  s1 : Nat
  sO : Nat
  i0 : Nat
  i1 : Nat
  iO : Nat
deriving DecidableEq, Repr

/-- `BroadcastIt(const holder&, const holder&)`, subscript.hpp:344-360; a mismatch throws (`none`),
and unequal ranks violate the assertion (`none`). -/
def mkBroadcast : List Nat → List Nat → Option (List BAxis)
  | [], [] => some []
  | a :: as, b :: bs =>
    if a != b && a != 1 && b != 1 then none
    else (mkBroadcast as bs).map (⟨a, b, if a < b then b else a, 0, 0, 0⟩ :: ·)
  | _, _ => none

/-- `BroadcastIt::operator++`, subscript.hpp:380-393, same loop order as `incLoop`. -/
def bincLoop : Nat → List BAxis → List BAxis × Bool
  | _, [] => ([], true)
  | dim, a :: t =>
    let (t', go) := bincLoop (dim + 1) t
    if !go then (a :: t', false)
    else if decide (dim > 0) && a.iO + 1 == a.sO then
      ({ a with i0 := 0, i1 := 0, iO := 0 } :: t', true)
    else ({ a with iO := a.iO + 1,
                   i0 := if a.s0 > 1 then a.iO + 1 else a.i0,
                   i1 := if a.s1 > 1 then a.iO + 1 else a.i1 } :: t', false)

/-- `BroadcastIt::begin`, subscript.hpp:405-410. -/
def bbegin (l : List BAxis) : List BAxis := l.map fun a => { a with i0 := 0, i1 := 0, iO := 0 }

/-- `BroadcastIt::end`, subscript.hpp:411-418.  `sO[0] = _shapeO[0]` is undefined behaviour for a
zero-dimensional iterator (`none`). -/
def bend (l : List BAxis) : Option (List BAxis) :=
  match bbegin l with
  | [] => none
  | a :: t => some ({ a with iO := a.sO, i0 := if a.s0 > 1 then a.sO else 0,
                             i1 := if a.s1 > 1 then a.sO else 0 } :: t)

/-- `BroadcastIt::shape`, subscript.hpp:372. -/
def bshape (l : List BAxis) : List Nat := l.map (·.sO)

/-- `BroadcastIt::size`, subscript.hpp:374-378. -/
def bsize (l : List BAxis) : Nat := (bshape l).foldl (· * ·) 1

/-- `*it`, subscript.hpp:404, 420-422: (outer, first, second) subscripts. -/
def btriple (l : List BAxis) : List Nat × List Nat × List Nat :=
  (l.map (·.iO), l.map (·.i0), l.map (·.i1))

/-- The range-based `for` loop over a `BroadcastIt` (comparison of outer subscripts only,
subscript.hpp:394-401). -/
def bloopFrom (stop : List BAxis) : Nat → List BAxis →
    Option (List (List Nat × List Nat × List Nat))
  | 0, x => if x.map (·.iO) == stop.map (·.iO) then some [] else none
  | fuel + 1, x =>
    if x.map (·.iO) == stop.map (·.iO) then some []
    else (bloopFrom stop fuel (bincLoop 0 x).1).map (btriple x :: ·)

/-- `for (auto [o,a,b] : BroadcastIt(sa, sb)) visit(o,a,b)`; `none` when construction throws, or the
loop has not finished within `fuel` steps. -/
def bvisits (sa sb : List Nat) (fuel : Nat) : Option (List (List Nat × List Nat × List Nat)) :=
  match mkBroadcast sa sb with
  | none => none
  | some l =>
    match bend l with
    | none => none
    | some e => bloopFrom e fuel (bbegin l)

/-! ### Linear indices -/

/-- `sub2lin(vector, vector)`, subscript.hpp:602-607; reading `str[i]` beyond its end is `none`. -/
def sub2lin : List Nat → List Nat → Option Nat
  | [], _ => some 0
  | _ :: _, [] => none
  | s :: ss, t :: ts => (sub2lin ss ts).map (s * t + ·)

/-- `sub2lin(array<2>, array<2>)`, subscript.hpp:616-619. -/
def sub2lin2 (s : Nat × Nat) (str : Nat × Nat) : Nat := s.1 * str.1 + s.2 * str.2

/-- The row-ordered loop of `lin2sub(vector)`, subscript.hpp:554-557. -/
def lin2subRow : Nat → List Nat → List Nat
  | _, [] => []
  | l, t :: ts => (l / t) :: lin2subRow (l - l / t * t) ts

/-- The column-ordered loop of `lin2sub(vector)`, subscript.hpp:549-552, `for (I i=ndim-1; i--; )`:
the body runs for `i = ndim-2, …, 0`, so the last entry keeps its initial 0 and `l` is not reduced
by it.  The argument is the reversed stride list without its last entry; the result is reversed. -/
def lin2subColRev : Nat → List Nat → List Nat
  | _, [] => []
  | l, t :: ts => (l / t) :: lin2subColRev (l - l / t * t) ts

/-- `lin2sub(I, vector)`, subscript.hpp:541-560. (Division by a zero stride, undefined behaviour in
C++, is excluded by hypothesis wherever the function is used in a theorem.) -/
def lin2sub (l : Nat) (stride : List Nat) : List Nat :=
  match stride with
  | [] => []
  | [_] => [l]
  | t0 :: rest =>
    if (t0 :: rest).getLast (by simp) > t0 then
      (lin2subColRev l ((t0 :: rest).reverse.drop 1)).reverse ++ [0]
    else lin2subRow l (t0 :: rest)

/-- `lin2sub(I, array<2>)`, subscript.hpp:569-580. -/
def lin2sub2 (l : Nat) (str : Nat × Nat) : Nat × Nat :=
  if str.2 > str.1 then
    let s1 := l / str.2
    ((l - s1 * str.2) / str.1, s1)
  else
    let s0 := l / str.1
    (s0, (l - s0 * str.1) / str.2)

/-- `calculate_stride` / `set_stride` for row ordered arrays, array.hpp:373-380 and 400-408: the last
stride is one and each stride is the next one times the next extent. -/
def rowStride : List Nat → List Nat
  | [] => []
  | _ :: t => t.foldr (· * ·) 1 :: rowStride t

end Brille.Subscript
