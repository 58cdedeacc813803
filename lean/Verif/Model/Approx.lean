import Mathlib.Algebra.Order.Field.Rat
import Mathlib.Algebra.Order.AbsoluteValue.Basic
import Mathlib.Data.Rat.Defs

/-
Model of `/repo/src/approx_float.hpp` and of `Comparer` in `/repo/src/comparisons.hpp`.

Simplification: a value of any of the C++ number types is an exact rational number; the arithmetic in
the comparisons does not round or overflow.  What depends on the type -- the machine epsilon, the
smallest normal number, the value of `T(5)/T(1000000000000000)` and which overload is chosen -- is
kept.
-/
namespace Brille.Approx

/-- The number types the templates are instantiated with. -/
inductive Num | int | float | double
deriving DecidableEq, Repr

/-- `std::numeric_limits<T>::epsilon()` (0 for integer types). -/
def Num.eps : Num → ℚ
  | .int => 0
  | .float => 1 / 2 ^ 23
  | .double => 1 / 2 ^ 52

/-- `std::numeric_limits<T>::min()`: the smallest normal number, or the lowest `int`. -/
def Num.min : Num → ℚ
  | .int => -2 ^ 31
  | .float => 1 / 2 ^ 126
  | .double => 1 / 2 ^ 1022

/-- `T(5)/T(1000000000000000)`, approx_float.hpp:88-89 (integer division gives 0). -/
def Num.five : Num → ℚ
  | .int => 0
  | .float | .double => 5 / 1000000000000000

def Num.isInt : Num → Bool
  | .int => true
  | _ => false

/-- `TOL_MULT`, approx_float.hpp:55 (the non-Windows value). -/
def tolMult : ℚ := 10000

/-- The tuple returned by `tols`; its first member is always true for these types (they are mutually
convertible) and is left out. -/
structure Tols where
  useT : Bool
  Trel : ℚ
  Rrel : ℚ
  Tabs : ℚ
  Rabs : ℚ

/-- The relative tolerance: approx_float.hpp:80,92,94. -/
def relTol (T : Num) (user : ℚ) (tol : ℤ) : ℚ :=
  let rel := T.eps * (tol * tolMult)
  if user > rel then user else rel

/-- The absolute tolerance: approx_float.hpp:88,96. -/
def absTol (T : Num) (user : ℚ) : ℚ := if user > T.five then user else T.five

/-- `tols<T,R>(Ttol, Rtol, tol)`, approx_float.hpp:79-100. -/
def tols (T R : Num) (Ttol Rtol : ℚ) (tol : ℤ) : Tols :=
  { useT := decide (T.eps > 0), Trel := relTol T Ttol tol, Rrel := relTol R Rtol tol,
    Tabs := absTol T Ttol, Rabs := absTol R Rtol }

/-- `x <= abs + rel*|a+b| || x < min` with `x = |a-b|`, approx_float.hpp:153-185. -/
def within (tiny rel abs a b : ℚ) : Bool :=
  decide (|a - b| ≤ abs + rel * |a + b|) || decide (|a - b| < tiny)

/-- `_scalar`, approx_float.hpp:148-188 (five overloads selected on the types). -/
def scalar_ (T R : Num) (t : Tols) (a b : ℚ) : Bool :=
  if T.isInt && R.isInt then decide (a = b)
  else if T.isInt then within R.min t.Rrel t.Rabs a b
  else if R.isInt then within T.min t.Trel t.Tabs a b
  else if T = R then within T.min t.Trel t.Tabs a b
  else if t.useT then within T.min t.Trel t.Tabs a b
  else within R.min t.Rrel t.Rabs a b

/-- `approx_float::scalar`, approx_float.hpp:203-207. -/
def scalar (T R : Num) (a b Ttol Rtol : ℚ) (tol : ℤ) : Bool := scalar_ T R (tols T R Ttol Rtol tol) a b

/-- `_array`, approx_float.hpp:221-243, over the paired elements (`answer &= …` for each). -/
def array_ (T R : Num) (t : Tols) (ab : List (ℚ × ℚ)) : Bool :=
  if t.useT then ab.foldl (fun ans p => ans && within T.min t.Trel t.Tabs p.1 p.2) true
  else ab.foldl (fun ans p => ans && within R.min t.Rrel t.Rabs p.1 p.2) true

/-- `approx_float::array`, `matrix`, `vector`, approx_float.hpp:259-304: the first `N*M`, `N*N` or `N`
elements. -/
def array (T R : Num) (ab : List (ℚ × ℚ)) (Ttol Rtol : ℚ) (tol : ℤ) : Bool :=
  array_ T R (tols T R Ttol Rtol tol) ab

/-- `approx_float::equal` on two `std::vector`s, approx_float.hpp:365-369. -/
def equalVec (T R : Num) (a b : List ℚ) (Ttol Rtol : ℚ) (tol : ℤ) : Bool :=
  decide (b.length = a.length) && array T R (a.zip b) Ttol Rtol tol

/-- `enum class cmp`, comparisons.hpp:32-42. -/
inductive Cmp | lt | gt | le | ge | eq | nle | nge | neq | le_ge
deriving DecidableEq, Repr

/-- The scalar comparison chosen by the `Comparer` constructor, comparisons.hpp:67-115.
`none` = the constructor throws "Unhandled comparison". -/
def comparerScalar (T R : Num) (t : Tols) : Cmp → Option (ℚ → ℚ → Bool)
  | .lt => some fun a b => !scalar_ T R t a b && decide (a < b)
  | .gt => some fun a b => !scalar_ T R t a b && decide (a > b)
  | .le => some fun a b => scalar_ T R t a b || decide (a < b)
  | .ge => some fun a b => scalar_ T R t a b || decide (a > b)
  | .eq => some fun a b => scalar_ T R t a b
  | .nle => some fun a b => !scalar_ T R t a b && decide (a > b)
  | .nge => some fun a b => !scalar_ T R t a b && decide (a < b)
  | .neq => some fun a b => !scalar_ T R t a b
  | .le_ge => none

/-- The vector comparison, comparisons.hpp:116-143: the three negated comparisons are true as soon
as one element is, the others as long as every element is. -/
def comparerVector (T R : Num) (t : Tols) (op : Cmp) : Option (List (ℚ × ℚ) → Bool) :=
  (comparerScalar T R t op).map fun f =>
    match op with
    | .neq | .nge | .nle => fun l => l.any fun p => f p.1 p.2
    | _ => fun l => l.all fun p => f p.1 p.2

/-
The element-wise reductions of `Array`/`Array2` (array.tpp:422-501, 695-758; array2.tpp:416-500,
664-720).  Simplification: the array is the list of its elements in linear-index order.
-/

/-- Element-wise loop bound `count = (n > 0 && n < numel) ? n : numel`. -/
def bound (data : List α) (n : Nat) : Nat := if n > 0 ∧ n < data.length then n else data.length

/-- The index loop `for (i=0; i<no; ++i) if (test(data[i])) return i; return no;`. -/
def firstLoop (test : α → Bool) : List α → Nat → Nat → Nat
  | [], _, no => no
  | x :: xs, i, no => if test x then i else firstLoop test xs (i + 1) no

/-- `first(n)`, `first(val,n)`, `first(cmp,val)`. -/
def first (test : α → Bool) (data : List α) (n : Nat) : Nat :=
  firstLoop test (data.take (bound data n)) 0 (bound data n)

/-- The index loop `for (i=no; i--;) if (test(data[i])) return i; return no;`: `todo` holds the
elements not yet visited, last first. -/
def lastLoop (test : α → Bool) : List α → Nat → Nat
  | [], no => no
  | x :: xs, no => if test x then xs.length else lastLoop test xs no

/-- `last(n)`, `last(val,n)`, `last(cmp,val)`. -/
def last (test : α → Bool) (data : List α) (n : Nat) : Nat :=
  lastLoop test (data.take (bound data n)).reverse (bound data n)

/-- `count(…)`. -/
def count (test : α → Bool) (data : List α) (n : Nat) : Nat :=
  (data.take (bound data n)).foldl (fun c x => if test x then c + 1 else c) 0

/-- `all(…)`: return false at the first failing element. -/
def all (test : α → Bool) (data : List α) (n : Nat) : Bool :=
  let rec go : List α → Bool
    | [] => true
    | x :: xs => if !test x then false else go xs
  go (data.take (bound data n))

/-- `any(n)`, `any(val,n)`: return true at the first passing element. -/
def any (test : α → Bool) (data : List α) (n : Nat) : Bool :=
  let rec go : List α → Bool
    | [] => false
    | x :: xs => if test x then true else go xs
  go (data.take (bound data n))

/-- `any(cmp,val)`: `first(cmp,val) < numel()`. -/
def anyCmp (test : α → Bool) (data : List α) : Bool := decide (first test data 0 < data.length)

/-- `find(cmp,val)`: array.tpp:750-758. -/
def find (test : α → Bool) (data : List α) : List Nat :=
  let this_is := data.map test
  (List.range data.length).foldl (fun out k => if this_is.getD k false then out ++ [k] else out) []

/-- `is_unique`, array.tpp:804-822: `neq` is the vector comparison of two rows. -/
def isUnique (neq : β → β → Bool) (rows : List β) : List Bool :=
  (List.range rows.length).map fun i =>
    match rows[i]? with
    | none => true
    | some x => (rows.take i).all fun y => neq x y

/-- `unique_idx`, array.tpp:823-842. -/
def uniqueIdx (eq : β → β → Bool) (rows : List β) : List Nat :=
  let rec go : List β → List β → List Nat → List Nat
    | _, [], out => out
    | seen, x :: xs, out =>
      let idx := (((List.range seen.length).zip seen).find? fun (j, y) =>
        decide (out[j]? = some j) && eq x y).map (·.1)
      go (seen ++ [x]) xs (out ++ [idx.getD seen.length])
  go [] rows []

/-- `unique`, array.tpp:843-853: the rows flagged by `is_unique`, in order. -/
def unique (neq : β → β → Bool) (rows : List β) : List β :=
  ((rows.zip (isUnique neq rows)).filter (·.2)).map (·.1)

end Brille.Approx
