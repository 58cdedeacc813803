/-
How the planes that bound the irreducible Brillouin zone are chosen: the first part of `wedge_brute_force`, lines 52-374 of
/repo/src/bz_wedge.cpp, and `keep_if` and `have_volume` of the same file, and `match` of /repo/src/array2.tpp.

Vectors are exact and Cartesian, with entries in any ordered field; comparisons have no tolerance; normals are not normalised, as only
their directions matter.  `cross` of lattice vectors is the Cartesian cross product.  The operations come in the order in which the code has
sorted them, lines 68-86, which is a parameter, and so is the order in which the groups of equivalent points are tried, lines 235-244.
-/
import Mathlib.Algebra.Order.Field.Basic
import Mathlib.Data.Fin.VecNotation
import Mathlib.Data.Fintype.Basic
import Mathlib.Data.List.Basic

namespace Brille.WedgeSearch

/-- a vector in Cartesian coordinates -/
abbrev V (K : Type) := Fin 3 → K

variable {K : Type} [Field K] [LinearOrder K]

/-- `dot`, array_functions.hpp -/
def dot (a b : V K) : K := a 0 * b 0 + a 1 * b 1 + a 2 * b 2

/-- `cross`, array_functions.hpp -/
def cross (a b : V K) : V K := ![a 1 * b 2 - a 2 * b 1, a 2 * b 0 - a 0 * b 2, a 0 * b 1 - a 1 * b 0]

/-- what the search knows of one operation: what `transpose(ps.get(i))` makes of a vector, `ps.order(i)`, `ps.isometry(i)` and
`ps.axis(i)` -/
structure Op (K : Type) where
  turn : V K → V K
  order : ℕ
  isometry : ℤ
  axis : V K

/-- the variables of the search, bz_wedge.cpp 64, 96-101: `special`, the rows of `cutting_normals` that have been set, and the numbers `i` for
which `sym_unused[i]` is false -/
structure St (K : Type) where
  special : List (V K)
  normals : List (V K)
  used : List ℕ

/-- the points that `dot(nrm, special)` is not negative for, for all normals: bz_wedge.cpp 33, 136, 157, 171, 177 -/
def above (ns special : List (V K)) : List (V K) := special.filter fun p => ns.all fun n => decide (0 ≤ dot n p)

/-- `special = special.extract(keep); sym_unused[i] = false; cutting_normals.set(n_cut++, nrm)`, bz_wedge.cpp 138-141, 159-162, 182-185,
359-363 -/
def cut (st : St K) (i : ℕ) (ns : List (V K)) : St K :=
  { special := above ns st.special, normals := st.normals ++ ns, used := st.used ++ [i] }

/-! ### two-fold axes along special directions -/

/-- `eiv` with a basis, bz_wedge.cpp 107-110 -/
def directions (b : Fin 3 → V K) : List (V K) :=
  [b 0, b 1, b 2, b 0 + b 1, b 0 - b 1, b 0 + b 2, b 1 + b 2, b 0 - b 2, b 1 - b 2, b 0 + b 1 + b 2]

/-- the table of `e1` and `e2`, bz_wedge.cpp 122-133 -/
def table : ℕ → ℕ × ℕ
  | 0 => (2, 0)
  | 1 => (0, 1)
  | 2 => (1, 2)
  | 3 => (3, 2)
  | 4 => (2, 4)
  | 5 => (1, 5)
  | 6 => (6, 0)
  | 7 => (7, 1)
  | 8 => (0, 8)
  | _ => (0, 0)

/-- `norm(cross(eis, v)).is(eq, 0.)`, bz_wedge.cpp 118, 139 and 150: which directions are parallel to a vector -/
def parallel (ds : List (V K)) (v : V K) : List Bool := ds.map fun e => decide (cross e v = 0)

/-- one turn of the loop over two-fold rotations, bz_wedge.cpp 115-164; `a` and `b` are the real and the reciprocal basis -/
def twoFold (a b : Fin 3 → V K) (st : St K) (io : ℕ × Op K) : St K :=
  if io.2.isometry ≠ 2 then st
  else
    let nth := (parallel (directions b) io.2.axis).findIdx id
    let st :=
      if nth < 9 then
        let nrm := cross ((directions a).getD (table nth).1 0) ((directions b).getD (table nth).2 0)
        if (parallel (directions b) nrm).count true = 1 then cut st io.1 [nrm] else st
      else st
    let nth := (parallel (directions a) io.2.axis).findIdx id
    if io.1 ∉ st.used ∧ nth < 2 then cut st io.1 [(directions b).getD (if nth = 0 then 1 else 0) 0] else st

/-! ### mirror planes -/

/-- the loop of `have_volume`, bz_wedge.cpp 39-40 -/
def volumeSum : List (V K) → K
  | p :: q :: r :: l => |dot p (cross q r)| + volumeSum (q :: r :: l)
  | _ => 0

/-- `keep.count() > 2 && have_volume(special.extract(keep))`, bz_wedge.cpp 37-42, 175, 179 -/
def enough (kept : List (V K)) : Bool := decide (2 < kept.length) && decide (volumeSum kept ≠ 0)

/-- one turn of the loop over mirror planes, bz_wedge.cpp 167-187 -/
def mirror (st : St K) (io : ℕ × Op K) : St K :=
  if io.2.isometry ≠ -2 then st
  else
    let nrm := if enough (above [io.2.axis] st.special) then io.2.axis else -io.2.axis
    if enough (above [nrm] st.special) then cut st io.1 [nrm] else st

/-! ### equivalent points -/

/-- `match` with exactly `n` rotations, array2.tpp 631-635 -/
def carried (o : Op K) (special : List (V K)) (n k j : ℕ) : Bool := decide (o.turn^[n] (special.getD j 0) = special.getD k 0)

/-- `match` with any of up to `order` rotations, array2.tpp 621-630 -/
def carriedAny (o : Op K) (special : List (V K)) (k j : ℕ) : Bool :=
  (List.range (o.order + 1)).any fun n => carried o special n k j

/-- `type_order`, bz_wedge.cpp 220-231, for rotations from the `n`-th on: of the points left, the last that the rotation carries the first
onto, and then these are not considered again; the number of points where there is none -/
def typeOrder (o : Op K) (special : List (V K)) (j : ℕ) : List ℕ → List ℕ → List ℕ
  | [], _ => []
  | n :: ns, left =>
    (left.filter fun k => carried o special n k j).getLastD special.length ::
      typeOrder o special j ns (left.filter fun k => !carried o special n k j)

/-- `one_type`, bz_wedge.cpp 207-217: the point `j` and the later ones, not yet found, that it can be carried onto -/
def oneType (o : Op K) (special : List (V K)) (found : List ℕ) (j : ℕ) : List ℕ :=
  j :: (List.range special.length).filter fun k => decide (j < k) && decide (k ∉ found) && carriedAny o special k j

/-- the loop over points, bz_wedge.cpp 206-234: `one_sym` -/
def groups (o : Op K) (special : List (V K)) : List ℕ → List ℕ → List (List ℕ)
  | [], _ => []
  | j :: js, found =>
    if j ∈ found then groups o special js found
    else typeOrder o special j (List.range o.order) (oneType o special found j) ::
      groups o special js (found ++ oneType o special found j)

/-- `one_sym`, bz_wedge.cpp 204-234 -/
def oneSym (o : Op K) (special : List (V K)) : List (List ℕ) := groups o special (List.range special.length) []

/-! ### planes from equivalent points -/

/-- `not_parallel`, bz_wedge.cpp 312-315: squared, as there are no roots in the field -/
def notParallel (q x : V K) : Bool := decide (dot x q * dot x q ≠ dot x x * dot q q)

/-- `keep_if`, bz_wedge.cpp 21-35 -/
def keepIf (ns special : List (V K)) : List (V K) :=
  if ns.any fun n => !(special.any fun p => decide (0 < dot n p)) then special else above ns special

/-- the normals and whether they can be used, bz_wedge.cpp 319-348 -/
def normalsOf (o : Op K) (special : List (V K)) (p0 p1 : V K) : Bool × List (V K) :=
  if 2 < o.order then
    (notParallel o.axis p0 && notParallel o.axis p1,
      if dot p1 (cross o.axis p0) < 0 then [cross o.axis p1, cross p0 o.axis] else [cross o.axis p0, cross p1 o.axis])
  else
    (notParallel o.axis p0,
      if special.any fun p => decide (0 < dot (cross o.axis p0) p) then [cross o.axis p0] else [-cross o.axis p0])

/-- one turn of the loop over pairs of equivalent points, bz_wedge.cpp 317-366 -/
def tryPair (i : ℕ) (o : Op K) (st : St K) (jk : ℕ × ℕ) : St K :=
  if i ∉ st.used ∧ jk.1 < st.special.length ∧ jk.2 < st.special.length then
    let r := normalsOf o st.special (st.special.getD jk.1 0) (st.special.getD jk.2 0)
    if r.1 then
      if 2 < (keepIf r.2 st.special).length ∧ (keepIf r.2 st.special).length < st.special.length then
        { cut st i r.2 with special := keepIf r.2 st.special }
      else st
    else st
  else st

/-- one turn of the loop over groups, bz_wedge.cpp 303-369 -/
def tryGroup (i : ℕ) (o : Op K) (st : St K) (s : List ℕ) : St K :=
  if i ∉ st.used ∧ s.count st.special.length + 1 < s.length then
    ((List.range s.length).map fun j => (s.getD j 0, s.getD ((j + 1) % s.length) 0)).foldl (tryPair i o) st
  else st

/-- one turn of the loop over operations, bz_wedge.cpp 201-370; `sorted` is what the groups are sorted by -/
def tryOp (sorted : List (List ℕ) → List (List ℕ)) (st : St K) (io : ℕ × Op K) : St K :=
  if io.1 ∈ st.used then st else (sorted (oneSym io.2 st.special)).foldl (tryGroup io.1 io.2) st

/-- the search, bz_wedge.cpp 52-371: the operations of order above one are numbered -/
def search (twoFolds mirrors : Bool) (sorted : List (List ℕ) → List (List ℕ)) (a b : Fin 3 → V K) (ops : List (Op K))
    (special : List (V K)) : St K :=
  let numbered := ops.zipIdx.map fun x => (x.2, x.1)
  let st : St K := { special := special, normals := [], used := [] }
  let st := if twoFolds then numbered.foldl (twoFold a b) st else st
  let st := if mirrors then numbered.foldl mirror st else st
  numbered.foldl (tryOp sorted) st

/-- `n_expected`, bz_wedge.cpp 92-94: the number of rows of `cutting_normals` -/
def expected (ops : List (Op K)) : ℕ := (ops.map fun o => if o.order = 2 then 1 else 2).sum

end Brille.WedgeSearch
