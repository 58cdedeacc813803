/-
Model of /repo/src/vertex_map_set.h, /repo/src/vertex_index_map.h and /repo/src/vertex_map_knit.h.

A vertex is an element of an arbitrary type `V`; `near a b` is the approximate comparison
`row_is(cmp::eq, …)` with the tolerances of the set.  Exceptions (and the one out-of-bounds write)
are `none`.  The mutexes were removed by the authors; each thread owns its set.
-/
import Verif.Model.StdMap
import Mathlib.Data.List.Sort

namespace Brille.VMap

open Brille.StdMap

/-- `MapVertexType`, vertex_map_set.h 18. -/
inductive MapType | pristine | appended | secondPristine | secondAppended
  deriving DecidableEq, Repr

/-- `AddVertexType`, vertex_map_set.h 17. -/
inductive AddType | unknown | pristine | crafted
  deriving DecidableEq, Repr

/-- `rel_t`, vertex_map_set.h 28. -/
abbrev Rel := MapType × Nat

/-- `VertexMapSet`, vertex_map_set.h 24-39.  `appended` holds the first `appended_count_` rows of
`appended_`, `capacity` is `appended_.size(0)`.  The tolerances are fixed once and for all in `near`. -/
structure VMS (V : Type) where
  /-- `pristine_` -/
  pristine : List V
  /-- the used rows of `appended_` -/
  appended : List V
  /-- `appended_.size(0)` -/
  capacity : Nat
  /-- `preserve_` -/
  preserve : Map Nat

variable {V : Type} (near : V → V → Bool)

/-- The constructor from the pristine vertices, vertex_map_set.h 43-50 and 222-229.  `view(0)` of an
empty array throws. -/
def VMS.make (p : List V) : Option (VMS V) :=
  if p.length = 0 then none
  else some { pristine := p, appended := [], capacity := p.length / 2, preserve := [] }

/-- The positions of the rows equal to `v` (`row_is`, `count`, `first`), vertex_map_set.h 106-109 and
116-123: `none` for more than one match, else the first match if any. -/
def uniqueMatch (rows : List V) (v : V) : Option (Option Nat) :=
  if 1 < rows.countP (fun r => near r v) then none
  else if 0 < rows.countP (fun r => near r v) then some (some (rows.findIdx (fun r => near r v)))
  else some none

/-- `preserve`, vertex_map_set.h 127-130 (in C++17 `preserve_.size()` is evaluated before the element is
created). -/
def VMS.keep (s : VMS V) (index : Nat) : VMS V × Rel :=
  match find s.preserve index with
  | some v => (s, (.pristine, v))
  | none => ({ s with preserve := set s.preserve index s.preserve.length }, (.pristine, s.preserve.length))

/-- `insert`, vertex_map_set.h 231-236: `resize(2*appended_count_)` when full, then a write of row
`appended_count_`, which is out of bounds if the count was 0. -/
def VMS.insert (s : VMS V) (v : V) : Option (VMS V × Rel) :=
  let capacity := if s.capacity < s.appended.length + 1 then 2 * s.appended.length else s.capacity
  if s.appended.length < capacity then
    some ({ s with appended := s.appended ++ [v], capacity := capacity }, (.appended, s.appended.length))
  else none

/-- `add`, vertex_map_set.h 132-141. -/
def VMS.add (s : VMS V) (v : V) (ty : AddType) : Option (VMS V × Rel) :=
  let crafted : Option (VMS V × Rel) :=
    match uniqueMatch near s.appended v with
    | none => none
    | some (some index) => some (s, (.appended, index))
    | some none => s.insert v
  if ty ≠ .crafted then
    match uniqueMatch near s.pristine v with
    | none => none
    | some (some index) => some (s.keep index)
    | some none => crafted
  else crafted

/-- `reserve_appended`, vertex_map_set.h 82-84. -/
def VMS.reserveAppended (s : VMS V) (total : Nat) : VMS V :=
  if s.capacity < total then { s with capacity := total } else s

/-- `key_sorted_preserve`, vertex_map_set.h 238-243 (the values are distinct, so the order does not
depend on the sorting algorithm). -/
def keySorted (m : Map Nat) : List (Nat × Nat) := m.insertionSort (fun a b => a.2 ≤ b.2)

/-- The new array of `consolidate`, vertex_map_set.h 161-196: the preserved rows in the order in which
they were preserved, then the appended rows.  `none`: an index out of bounds, or an empty result. -/
def VMS.consolidatedRows (s : VMS V) : Option (List V) :=
  ((keySorted s.preserve).mapM (fun p => s.pristine[p.1]?)).map (· ++ s.appended)

/-- `pr[i] = i` for all rows, vertex_map_set.h 188. -/
def identityMap (n : Nat) : Map Nat := (List.range n).map (fun i => (i, i))

/-- `consolidate`, vertex_map_set.h 161-197, with the constructor 51-55 it ends in. -/
def VMS.consolidate (s : VMS V) : Option (VMS V) :=
  match s.consolidatedRows with
  | none => none
  | some rows => (VMS.make rows).map (fun t => { t with preserve := identityMap rows.length })

/-- `is_consolidated`, vertex_map_set.h 199-206; line 200 tests the *capacity* `appended_.size(0)`. -/
def VMS.isConsolidated (s : VMS V) : Bool :=
  if 0 < s.capacity then false else s.preserve.all (fun p => p.1 == p.2)

/-- `VertexIndexMap`, vertex_index_map.h 12-18. -/
abbrev VIM := Map (List Rel)

/-- The `switch` of `second_copy`, vertex_index_map.h 43-47. -/
def toSecond (x : Rel) : Option Rel :=
  match x.1 with
  | .pristine => some (.secondPristine, x.2)
  | .appended => some (.secondAppended, x.2)
  | _ => none

/-- `second_copy`, vertex_index_map.h 36-53. -/
def secondCopy (m : VIM) : Option VIM :=
  m.mapM (fun p => (p.2.mapM toSecond).map (fun v => (p.1, v)))

/-- `replace`, vertex_index_map.h 118-126. -/
def replace (m : VIM) (was new : Rel) : VIM :=
  m.map (fun p => (p.1, p.2.map (fun v => if v = was then new else v)))

/-- `has_second`, vertex_index_map.h 55-60. -/
def hasSecond (m : VIM) : Bool :=
  m.any (fun p => p.2.any (fun x => x.1 == .secondAppended || x.1 == .secondPristine))

/-- `merge`, vertex_index_map.h 62-65, used as in vertex_map_knit.h 159: the elements of `other` with
new keys are moved; left-over elements are an error. -/
def merge (m other : VIM) : Option VIM :=
  if other.any (fun p => (find m p.1).isSome) then none
  else some (other.foldl (fun m p => set m p.1 p.2) m)

/-- The `switch` of `decode`, vertex_index_map.h 104-108. -/
def decodeRel (offset : Nat) (x : Rel) : Option Nat :=
  match x.1 with
  | .pristine => some x.2
  | .appended => some (offset + x.2)
  | _ => none

/-- `decode(appended_offset, node)`, vertex_index_map.h 100-111. -/
def decode (m : VIM) (offset node : Nat) : Option (List Nat) :=
  (find m node).bind (fun l => l.mapM (decodeRel offset))

/-- `data_[node].push_back(value)`, vertex_index_map.h 69. -/
def append (m : VIM) (node : Nat) (value : Rel) : VIM :=
  match find m node with
  | some l => set m node (l ++ [value])
  | none => set m node [value]

/-- `differ`, vertex_map_knit.h 53-64: keys in both maps with different values, as (key, first, second). -/
def differOf (oneP twoP : Map Nat) : List (Nat × Nat × Nat) :=
  oneP.filterMap (fun p => match find twoP p.1 with
    | some s => if s ≠ p.2 then some (p.1, p.2, s) else none
    | none => none)

/-- `same`, vertex_map_knit.h 54-64: values of keys in both maps with the same value. -/
def sameOf (oneP twoP : Map Nat) : List Nat :=
  oneP.filterMap (fun p => match find twoP p.1 with
    | some s => if s ≠ p.2 then none else some p.2
    | none => none)

/-- `only_second`, vertex_map_knit.h 77-90: the keys only in the second map, ordered by their value and
numbered from `preserved_count`; ((key, second value), new value). -/
def onlySecondOf (oneP twoP : Map Nat) : List ((Nat × Nat) × Nat) :=
  ((twoP.filter (fun p => (find oneP p.1).isNone)).insertionSort (fun a b => a.2 ≤ b.2)).zipIdx oneP.length

/-- The replacements of vertex_map_knit.h 97-114.  The last loop of the code runs over the map
`only_second` in key order; its entries have distinct second values. -/
def renumber (oneP twoP : Map Nat) (m : VIM) : VIM :=
  let m := (differOf oneP twoP).foldl (fun m d => replace m (.secondPristine, d.2.2) (.pristine, d.2.1)) m
  let m := (sameOf oneP twoP).foldl (fun m x => replace m (.secondPristine, x) (.pristine, x)) m
  (onlySecondOf oneP twoP).foldl (fun m p => replace m (.secondPristine, p.1.2) (.pristine, p.2)) m

/-- The loop of vertex_map_knit.h 139-142 from row `i` on. -/
def addAppended (out : VMS V) (m : VIM) (i : Nat) : List V → Option (VMS V × VIM)
  | [] => some (out, m)
  | v :: vs => do
    let (out, new) ← out.add near v .crafted
    addAppended out (replace m (.secondAppended, i) new) (i + 1) vs

/-- `combine`, vertex_map_knit.h 42-164. -/
def combine (one two : VMS V × VIM) : Option (VMS V × VIM) := do
  let twoSecond ← secondCopy two.2
  let twoSecond := renumber one.1.preserve two.1.preserve twoSecond
  -- line 116
  let oneP := (onlySecondOf one.1.preserve two.1.preserve).foldl (fun m p => set m p.1.1 p.2) one.1.preserve
  -- lines 132-142
  let out : VMS V := { pristine := one.1.pristine, appended := one.1.appended,
                       capacity := one.1.appended.length, preserve := oneP }
  let out := out.reserveAppended (out.appended.length + two.1.appended.length)
  let (out, twoSecond) ← addAppended near out twoSecond 0 two.1.appended
  -- lines 154-163
  if hasSecond twoSecond then none else
  let merged ← merge one.2 twoSecond
  some (out, merged)

/-- One pass of `steps::reduce` / `steps::parallel_reduce`, vertex_map_knit.h 166-198: pairs are
combined, an odd last element is carried over.  The iterations of the parallel loop write distinct
elements and read only the input, so their order is irrelevant. -/
def reduceStep : List (VMS V × VIM) → Option (List (VMS V × VIM))
  | a :: b :: rest => do
    let c ← combine near a b
    let r ← reduceStep rest
    some (c :: r)
  | [a] => some [a]
  | [] => some []

/-- `steps::consolidate_pair`, vertex_map_knit.h 200-219. -/
def consolidatePair (p : VMS V × VIM) : Option (VMS V × VIM) := do
  let vim := (List.range p.1.appended.length).foldl
    (fun m i => replace m (.appended, i) (.pristine, i + p.1.preserve.length)) p.2
  let vms ← p.1.consolidate
  some (vms, vim)

/-- The `while (workspace.size() > 1)` loop, vertex_map_knit.h 229 and 239, with an iteration bound. -/
def reduceLoop : Nat → List (VMS V × VIM) → Option (List (VMS V × VIM))
  | 0, _ => none
  | fuel + 1, ws => if 1 < ws.length then (reduceStep near ws).bind (reduceLoop fuel) else some ws

/-- `reduce` and `parallel_reduce`, vertex_map_knit.h 223-242.  A single input is returned as it is;
an empty input is undefined (`none`). -/
def reduce (input : List (VMS V × VIM)) : Option (VMS V × VIM) :=
  match input with
  | [] => none
  | [a] => some a
  | _ => do
    let ws ← reduceStep near input
    let ws ← reduceLoop near (input.length + 1) ws
    match ws with
    | [] => none
    | w :: _ => consolidatePair w

/-- One request of the node loop, trellis_poly_parallel.tpp 219-291: line 244 and 262 `preserve(index)`,
line 265 `add(vertex, Crafted)`, line 279 `origin_index()` which is `add(origin)`. -/
inductive Op (V : Type) where
  /-- `preserve(index)` -/
  | keep (index : Nat)
  /-- `add(vertex, type)` -/
  | add (vertex : V) (type : AddType)

/-- One request made of a set. -/
def VMS.perform (s : VMS V) : Op V → Option (VMS V × Rel)
  | .keep index => some (s.keep index)
  | .add vertex type => s.add near vertex type

/-- One request whose answer is recorded for a node, trellis_poly_parallel.tpp 243-244, 260-265 and 279
(the vector of a node is resized and then filled in order; here it is extended in order). -/
def record (p : VMS V × VIM) (task : Nat × Op V) : Option (VMS V × VIM) := do
  let (s, r) ← p.1.perform near task.2
  some (s, append p.2 task.1 r)

/-- The work of one thread in part_one, trellis_poly_parallel.tpp 203-206 and 219-291: from a fresh set,
the requests in order. -/
def work (pristine : List V) (tasks : List (Nat × Op V)) : Option (VMS V × VIM) := do
  let s ← VMS.make pristine
  tasks.foldlM (record near) (s, [])

/-- A sequence of requests and their answers. -/
def VMS.run (s : VMS V) : List (Op V) → Option (VMS V × List Rel)
  | [] => some (s, [])
  | op :: ops => do
    let (s, r) ← s.perform near op
    let (s, rs) ← s.run ops
    some (s, r :: rs)

/-- trellis_poly_parallel.tpp 144: the final index of an answer. -/
def finalIndex (kept : Nat) (r : Rel) : Nat := if r.1 = .pristine then r.2 else kept + r.2

end Brille.VMap
