/-
Model of the Jonker-Volgenant solver, `lapjv` of /repo/src/lapjv.hpp with `find_umins_plain`, and of
`jv_permutation_fill` of /repo/src/permutation.hpp.

Costs are elements of an exact ordered field instead of floating point numbers; the AVX2 versions of
`find_umins` (lapjv.hpp 99-264) are not modelled.  `std::numeric_limits<cost>::max()` is a value above all
costs (`none`).  The index -1 is `none`.  The list `free` is split into the part still to be read
(`free[k…]`) and the part already rewritten (`free[0…numfree-1]`); since an entry is rewritten only after
it has been read, the two never overlap.
-/
import Mathlib.Data.List.FinRange
import Mathlib.Algebra.Field.Defs
import Mathlib.Order.Defs.LinearOrder
import Mathlib.Algebra.BigOperators.Fin

namespace Brille.Lapjv

variable {n : Nat} {K : Type}

/-- assignment to one array element, as in `v[j] = …` (lapjv.hpp 322) -/
def put {α : Type} (f : Fin n → α) (i : Fin n) (x : α) : Fin n → α := fun k => if k = i then x else f k

section
variable [NeZero n] [Field K] [LinearOrder K]

/-- `cost_epsilon`, lapjv.hpp 305-307. -/
def epsilon (c : Fin n → Fin n → K) : K := (∑ i, ∑ j, c i j) / (10000 * (n : K))

/-! ### column reduction -/

/-- The state of the column reduction, lapjv.hpp 309-331. -/
structure Red (n : Nat) (K : Type) where
  v : Fin n → K
  nmatch : Fin n → Nat
  rowsol : Fin n → Option (Fin n)
  colsol : Fin n → Option (Fin n)

/-- the least cost of a column and its first row, lapjv.hpp 313-321 -/
def colMin (c : Fin n → Fin n → K) (j : Fin n) : K × Fin n :=
  (List.finRange n).tail.foldl (fun m i => if c i j < m.1 then (c i j, i) else m) (c 0 j, 0)

/-- one turn of the loop over columns, lapjv.hpp 311-331 -/
def columnStep (c : Fin n → Fin n → K) (s : Red n K) (j : Fin n) : Red n K :=
  let m := colMin c j
  let v := put s.v j m.1
  let nmatch := put s.nmatch m.2 (s.nmatch m.2 + 1)
  if nmatch m.2 = 1 then
    { v := v, nmatch := nmatch, rowsol := put s.rowsol m.2 (some j), colsol := put s.colsol j (some m.2) }
  else { v := v, nmatch := nmatch, rowsol := s.rowsol, colsol := put s.colsol j none }

/-- The column reduction, lapjv.hpp 309-331; the columns are taken from the last to the first.  What the
arrays hold before is not used. -/
def columnReduction (c : Fin n → Fin n → K) : Red n K :=
  (List.finRange n).reverse.foldl (columnStep c)
    { v := fun _ => 0, nmatch := fun _ => 0, rowsol := fun _ => none, colsol := fun _ => none }

/-! ### reduction transfer -/

/-- the body of the inner loop of the reduction transfer, lapjv.hpp 346-350 -/
def transferMin (c : Fin n → Fin n → K) (eps : K) (v : Fin n → K) (i j1 : Fin n) (m : Option K)
    (j : Fin n) : Option K :=
  if j ≠ j1 then
    match m with
    | none => some (c i j - v j)
    | some x => if c i j - v j < x + eps then some (c i j - v j) else some x
  else m

/-- The reduction transfer, lapjv.hpp 336-354: the new `v` and the list of free rows.  `none`: use of an
undefined entry or arithmetic with `max()`. -/
def transfer (c : Fin n → Fin n → K) (eps : K) (s : Red n K) :
    List (Fin n) → (Fin n → K) → List (Fin n) → Option ((Fin n → K) × List (Fin n))
  | [], v, free => some (v, free)
  | i :: is, v, free =>
    if s.nmatch i = 0 then transfer c eps s is v (free ++ [i])
    else if s.nmatch i = 1 then
      match s.rowsol i with
      | none => none
      | some j1 =>
        match (List.finRange n).foldl (transferMin c eps v i j1) none with
        | none => none
        | some x => transfer c eps s is (put v j1 (v j1 - x)) free
    else transfer c eps s is v free

/-! ### augmenting row reduction -/

/-- the result of `find_umins_plain`: `umin`, `usubmin`, `j1`, `j2`, lapjv.hpp 93 -/
structure Umins (n : Nat) (K : Type) where
  umin : K
  usubmin : Option K
  j1 : Fin n
  j2 : Option (Fin n)

/-- `h < usubmin`, lapjv.hpp 86, where `none` is `max()` -/
def below (h : K) : Option K → Bool
  | none => true
  | some x => decide (h < x)

/-- the body of the loop of `find_umins_plain`, lapjv.hpp 84-97 -/
def uminsStep (c : Fin n → Fin n → K) (v : Fin n → K) (i : Fin n) (s : Umins n K) (j : Fin n) : Umins n K :=
  let h := c i j - v j
  if below h s.usubmin then
    if s.umin ≤ h then { s with usubmin := some h, j2 := some j }
    else { umin := h, usubmin := some s.umin, j1 := j, j2 := some s.j1 }
  else s

/-- `find_umins_plain`, lapjv.hpp 74-100. -/
def umins (c : Fin n → Fin n → K) (v : Fin n → K) (i : Fin n) : Umins n K :=
  (List.finRange n).tail.foldl (uminsStep c v i) { umin := c i 0 - v 0, usubmin := none, j1 := 0, j2 := none }

/-- The state of the augmenting row reduction, lapjv.hpp 359-403: `todo` is `free[k…prevnumfree-1]`, `kept`
is `free[0…numfree-1]`. -/
structure Arr (n : Nat) (K : Type) where
  v : Fin n → K
  rowsol : Fin n → Option (Fin n)
  colsol : Fin n → Option (Fin n)
  todo : List (Fin n)
  kept : List (Fin n)

/-- The assignment at the end of a turn, lapjv.hpp 388-402. -/
def arrAssign (s : Arr n K) (v : Fin n → K) (rest : List (Fin n)) (i j : Fin n) (lowers : Bool) : Arr n K :=
  let s' : Arr n K :=
    { v := v, rowsol := put s.rowsol i (some j), colsol := put s.colsol j (some i), todo := rest,
      kept := s.kept }
  match s.colsol j with
  | none => s'
  | some i0 => if lowers then { s' with todo := i0 :: rest } else { s' with kept := s.kept ++ [i0] }

/-- One turn of the loop of the augmenting row reduction, lapjv.hpp 366-403. -/
def arrStep (c : Fin n → Fin n → K) (eps : K) (s : Arr n K) : Option (Arr n K) :=
  match s.todo with
  | [] => some s
  | i :: rest =>
    let m := umins c s.v i
    match m.usubmin with
    | none => none
    | some usubmin =>
      let vnew := s.v m.j1 - (usubmin + eps - m.umin)
      if vnew < s.v m.j1 then some (arrAssign s (put s.v m.j1 vnew) rest i m.j1 true)
      else
        match s.colsol m.j1 with
        | none => some (arrAssign s s.v rest i m.j1 false)
        | some _ =>
          match m.j2 with
          | none => none
          | some j2 => some (arrAssign s s.v rest i j2 false)

/-- The loop of the augmenting row reduction, lapjv.hpp 366, with at most `fuel` turns. -/
def arrLoop (c : Fin n → Fin n → K) (eps : K) : Nat → Arr n K → Option (Arr n K)
  | 0, _ => none
  | fuel + 1, s =>
    match s.todo with
    | [] => some s
    | _ :: _ => (arrStep c eps s).bind (arrLoop c eps fuel)

/-! ### augmentation -/

/-- The state of the search for a shortest path, lapjv.hpp 420-436.  `ready` is `last + 1`. -/
structure Dij (n : Nat) (K : Type) where
  d : Fin n → K
  pred : Fin n → Fin n
  collist : Nat → Fin n
  low : Nat
  up : Nat
  ready : Nat
  min : K

/-- `collist[k] = collist[up]; collist[up] = j` with `j = collist[k]`, lapjv.hpp 451-452, 488-489 -/
def swap (l : Nat → Fin n) (k up : Nat) : Nat → Fin n :=
  fun x => if x = up then l k else if x = k then l up else l x

/-- the start of the search, lapjv.hpp 421-436 -/
def dijStart (c : Fin n → Fin n → K) (v : Fin n → K) (freerow : Fin n) : Dij n K :=
  { d := fun j => c freerow j - v j, pred := fun _ => freerow, collist := fun k => Fin.ofNat n k,
    low := 0, up := 0, ready := 0, min := 0 }

/-- the body of the loop that collects the columns at the new minimum, lapjv.hpp 443-454 -/
def minStep (s : Dij n K) (k : Nat) : Dij n K :=
  let h := s.d (s.collist k)
  if h ≤ s.min then
    let s := if h < s.min then { s with up := s.low, min := h } else s
    { s with collist := swap s.collist k s.up, up := s.up + 1 }
  else s

/-- a new minimum, lapjv.hpp 439-455; `none`: read beyond the end of `collist` -/
def newMinimum (s : Dij n K) : Option (Dij n K) :=
  if s.up < n then
    let s' := { s with ready := s.low, min := s.d (s.collist s.up), up := s.up + 1 }
    some ((List.range' (s.up + 1) (n - (s.up + 1))).foldl minStep s')
  else none

/-- an unassigned column at the minimum, lapjv.hpp 457-465 -/
def unassignedAt (colsol : Fin n → Option (Fin n)) (s : Dij n K) : Option (Fin n) :=
  ((List.range' s.low (s.up - s.low)).find? fun k => (colsol (s.collist k)).isNone).map s.collist

/-- the loop that updates the distances, lapjv.hpp 475-494; the second component is the end of the path if
it is found -/
def relax (c : Fin n → Fin n → K) (v : Fin n → K) (colsol : Fin n → Option (Fin n)) (i : Fin n) (h : K) :
    List Nat → Dij n K → Dij n K × Option (Fin n)
  | [], s => (s, none)
  | k :: ks, s =>
    let j := s.collist k
    let v2 := c i j - v j - h
    if v2 < s.d j then
      let s := { s with pred := put s.pred j i }
      if v2 = s.min then
        match colsol j with
        | none => (s, some j)
        | some _ =>
          relax c v colsol i h ks
            { s with collist := swap s.collist k s.up, up := s.up + 1, d := put s.d j v2 }
      else relax c v colsol i h ks { s with d := put s.d j v2 }
    else relax c v colsol i h ks s

/-- the scan of the next column, lapjv.hpp 467-494; `none`: index -1 -/
def scan (c : Fin n → Fin n → K) (v : Fin n → K) (colsol : Fin n → Option (Fin n)) (s : Dij n K) :
    Option (Dij n K × Option (Fin n)) :=
  let j1 := s.collist s.low
  match colsol j1 with
  | none => none
  | some i =>
    let s := { s with low := s.low + 1 }
    some (relax c v colsol i (c i j1 - v j1 - s.min) (List.range' s.up (n - s.up)) s)

/-- one turn of the search, lapjv.hpp 437-495 -/
def dijStep (c : Fin n → Fin n → K) (v : Fin n → K) (colsol : Fin n → Option (Fin n)) (s : Dij n K) :
    Option (Dij n K × Option (Fin n)) :=
  if s.up = s.low then
    match newMinimum s with
    | none => none
    | some s =>
      match unassignedAt colsol s with
      | some j => some (s, some j)
      | none => scan c v colsol s
  else scan c v colsol s

/-- the search, lapjv.hpp 437-495, with at most `fuel` turns -/
def search (c : Fin n → Fin n → K) (v : Fin n → K) (colsol : Fin n → Option (Fin n)) :
    Nat → Dij n K → Option (Dij n K × Fin n)
  | 0, _ => none
  | fuel + 1, s =>
    match dijStep c v colsol s with
    | none => none
    | some (s, some j) => some (s, j)
    | some (s, none) => search c v colsol fuel s

/-- the new column prices, lapjv.hpp 497-504 -/
def newPrices (v : Fin n → K) (s : Dij n K) : Fin n → K :=
  (List.range s.ready).foldl (fun v k => put v (s.collist k) (v (s.collist k) + s.d (s.collist k) - s.min)) v

/-- the change of the assignment along the path, lapjv.hpp 507-516, with at most `fuel` turns -/
def walk (pred : Fin n → Fin n) (freerow : Fin n) :
    Nat → (Fin n → Option (Fin n)) → (Fin n → Option (Fin n)) → Fin n →
      Option ((Fin n → Option (Fin n)) × (Fin n → Option (Fin n)))
  | 0, _, _, _ => none
  | fuel + 1, rowsol, colsol, e =>
    let i := pred e
    let colsol := put colsol e (some i)
    let e' := rowsol i
    let rowsol := put rowsol i (some e)
    if i ≠ freerow then
      match e' with
      | none => none
      | some e' => walk pred freerow fuel rowsol colsol e'
    else some (rowsol, colsol)

/-- The augmentation for the free rows, lapjv.hpp 409-517. -/
def augment (c : Fin n → Fin n → K) :
    List (Fin n) → (Fin n → K) → (Fin n → Option (Fin n)) → (Fin n → Option (Fin n)) →
      Option ((Fin n → K) × (Fin n → Option (Fin n)) × (Fin n → Option (Fin n)))
  | [], v, rowsol, colsol => some (v, rowsol, colsol)
  | freerow :: rest, v, rowsol, colsol =>
    match search c v colsol (n + 1) (dijStart c v freerow) with
    | none => none
    | some (s, e) =>
      match walk s.pred freerow (n + 1) rowsol colsol e with
      | none => none
      | some (rowsol, colsol) => augment c rest (newPrices v s) rowsol colsol

/-! ### the whole -/

/-- What `lapjv` leaves in its arguments, lapjv.hpp 522-536. -/
structure Result (n : Nat) (K : Type) where
  rowsol : Fin n → Option (Fin n)
  colsol : Fin n → Option (Fin n)
  v : Fin n → K

/-- The two passes of the augmenting row reduction, lapjv.hpp 359-407, each with at most `fuel` turns. -/
def arrTwice (c : Fin n → Fin n → K) (fuel : Nat) (s : Arr n K) : Option (Arr n K) :=
  (arrLoop c (epsilon c) fuel s).bind fun s =>
    arrLoop c (epsilon c) fuel { s with todo := s.kept, kept := [] }

/-- `lapjv` for a dimension of at least 2, lapjv.hpp 296-520. -/
def lapjvMain (c : Fin n → Fin n → K) (fuel : Nat) : Option (Result n K) :=
  let r := columnReduction c
  match transfer c (epsilon c) r (List.finRange n) r.v [] with
  | none => none
  | some (v, free) =>
    match arrTwice c fuel { v := v, rowsol := r.rowsol, colsol := r.colsol, todo := free, kept := [] } with
    | none => none
    | some s =>
      match augment c s.kept s.v s.rowsol s.colsol with
      | none => none
      | some (v, rowsol, colsol) => some { rowsol := rowsol, colsol := colsol, v := v }

end

/-- `lapjv`, lapjv.hpp 281-538: the trivial dimension 1 (291-294; `v` is left as it was), nothing to do for
dimension 0.  With at most `fuel` turns of each pass of the augmenting row reduction. -/
def lapjv [Field K] [LinearOrder K] : {n : Nat} → (Fin n → Fin n → K) → Nat → Option (Result n K)
  | 0, _, _ => some { rowsol := fun _ => none, colsol := fun _ => none, v := fun _ => 0 }
  | 1, _, _ => some { rowsol := fun _ => some 0, colsol := fun _ => some 0, v := fun _ => 0 }
  | _ + 2, c, fuel => lapjvMain c fuel

/-- What the caller reads from an array of `lapjv`: entries which were not written are the zeros of
`resize`. -/
def readSolution {n : Nat} (f : Fin n → Option (Fin n)) : List Nat :=
  (List.finRange n).map fun i => match f i with
    | some j => j.val
    | none => 0

/-- `jv_permutation_fill(cost, row, col)`, permutation.hpp 604-613, for a square matrix of `n` rows: the
row and the column solution.  Simplification: `cost` is the matrix and not the flat vector from whose length
the code takes the (integer) square root. -/
def jvFill [Field K] [LinearOrder K] {n : Nat} (c : Fin n → Fin n → K) (fuel : Nat) :
    Option (List Nat × List Nat) :=
  (lapjv c fuel).map fun r => (readSolution r.rowsol, readSolution r.colsol)

end Brille.Lapjv
