/-
Moving points into the first Brillouin zone and into its irreducible part: /repo/src/bz_move.cpp.

Simplifications: coordinates are exact rational numbers.  The geometry of the zone enters through parameters,
which may be any functions: the scalar products with the normals of the faces, the lengths of the lattice
vectors, the tests for being inside of the zone and of the wedge.  One point at a time is treated; the code
treats the points of a list one after the other, independently.
-/
import Verif.Model.Primitive
import Verif.Model.Symmetry
import Mathlib.Algebra.Order.Floor.Ring
import Mathlib.Data.Rat.Floor
import Mathlib.Algebra.Order.Field.Rat

namespace Brille.Move

open Brille.Prim

abbrev Pt := Fin 3 → ℚ
abbrev IPt := Fin 3 → ℤ

/-- `std::round`: to the nearest integer, halves away from zero (`Array2::round`, array2.tpp 505). -/
def round (x : ℚ) : ℤ := if 0 ≤ x then ⌊x + 1 / 2⌋ else ⌈x - 1 / 2⌉

/-- What `part_moveinto_prim` gets to know about the zone, bz_move.cpp 14-18, 118-120: the lattice vectors `taus`
of the faces, the scalar product of a point with the normal of face `j`, the length of `taus[j]`, and
`point_inside_all_planes`. -/
structure Zone where
  taus : List IPt
  proj : Nat → Pt → ℚ
  len : Nat → ℚ
  inside : Pt → Bool

/-- The variables of the loop for one point: `q_i`, `tau_i`, `last_shift`, bz_move.cpp 23-26. -/
structure St where
  q : Pt
  tau : IPt
  last : IPt

/-- `taus.view(j)` -/
def tauAt (z : Zone) (j : Nat) : IPt := z.taus.getD j 0

/-- `N_hkl[j]`, bz_move.cpp 30 -/
def nhkl (z : Zone) (q : Pt) (j : Nat) : ℤ := round (z.proj j q / z.len j)

/-- One turn of the loop that selects a face, bz_move.cpp 34-42: the state is `(max_nm, max_at)`.  `norm > 0` is
taken as: not the zero vector. -/
def chooseStep (z : Zone) (s : St) (m : ℤ × Nat) (j : Nat) : ℤ × Nat :=
  if 0 < nhkl z s.q j ∧ m.1 ≤ nhkl z s.q j ∧
      (m.1 = 0 ∨ ((fun i => tauAt z j i + s.last i) ≠ (fun _ => 0) ∧ z.proj m.2 s.q < z.proj j s.q)) then
    (nhkl z s.q j, j)
  else m

/-- the loop, bz_move.cpp 32-42 -/
def choose (z : Zone) (s : St) : ℤ × Nat := (List.range z.taus.length).foldl (chooseStep z s) (0, 0)

/-- The body of the `while` loop, bz_move.cpp 29-47. -/
def turn (z : Zone) (s : St) : St :=
  if (List.range z.taus.length).any fun j => decide (0 < nhkl z s.q j) then
    { q := fun i => s.q i - tauAt z (choose z s).2 i * (choose z s).1
      tau := fun i => s.tau i + tauAt z (choose z s).2 i * (choose z s).1
      last := fun i => tauAt z (choose z s).2 i * (choose z s).1 }
  else s

/-- The `while` loop with `left` turns left, bz_move.cpp 28-48. -/
def loop (z : Zone) : Nat → St → St
  | 0, s => s
  | left + 1, s => if z.inside s.q then s else loop z left (turn z s)

/-- `part_moveinto_prim` for one point, bz_move.cpp 14-53 -/
def movePrim (z : Zone) (Q : Pt) : Pt × IPt :=
  let tau : IPt := fun i => round (Q i)
  let s := loop z z.taus.length { q := fun i => Q i - tau i, tau := tau, last := tau }
  (s.q, s.tau)

/-- `transform_from_primitive<int>` of a reciprocal vector, transform.hpp 108-158: no division is needed. -/
def fromPrimitiveIntRecip (b : Bravais) (v : IPt) : Option IPt :=
  if doesNothing b then some v else (getInvPt b).map fun m => Mat.mulVec m v

/-- `BrillouinZone::moveinto` for one point in reciprocal units, bz_move.cpp 102-165.  `on` is the lattice in which
the point is given: for a zone of a primitive lattice, `standard` and `primitive` are the same.  `contains` is
`isinside`.  `none`: an exception. -/
def moveinto (b : Bravais) (z : Zone) (contains : OnLattice → Pt → Bool) (on : OnLattice) (Q : Pt) :
    Option (Pt × IPt) :=
  let check := fun (r : Pt × IPt) => if contains on r.1 then some r else none
  if on = .primitive ∨ (on = .standard ∧ doesNothing b) then check (movePrim z Q)
  else if on = .standard then
    match toPrimitive b .standard .inverseAngstrom Q with
    | none => none
    | some (_, Qp) =>
      match fromPrimitive b .primitive .inverseAngstrom (movePrim z Qp).1,
          fromPrimitiveIntRecip b (movePrim z Qp).2 with
      | some (_, q), some tau => check (q, tau)
      | _, _ => none
  else none

/-- `_inside_wedge_outer`, bz.hpp 756-763: the values are those of `dot(normals, p)`; `ge` and `le` are the
comparisons with zero (`all` with `le_ge`: all of one kind or all of the other). -/
def insideWedge (ge le : ℚ → Bool) (noMirroring : Bool) (dots : Pt → List ℚ) (p : Pt) : Bool :=
  (dots p).isEmpty || (dots p).all ge || (!noMirroring && (dots p).all le)

/-- `multiply_matrix_vector(q_j, r_transpose[j], q)`, bz_move.cpp 277 -/
def rotate (r : Fin 3 → Fin 3 → ℤ) (q : Pt) : Pt := applyQ (Mat.transpose r) q

/-- The search for an operation for one point, bz_move.cpp 266-292 and (for the wedge) 325-347: the operation's
index and the moved point.  `none`: none is found. -/
def findRotation (wedge : Pt → Bool) (R : List (Fin 3 → Fin 3 → ℤ)) (q : Pt) : Option (Nat × Pt) :=
  match R.findIdx? fun r => wedge (rotate r q) with
  | none => none
  | some j => (R[j]?).map fun r => (j, rotate r q)

/-- What `ir_moveinto` returns for one point: `q`, `Ridx`, `invRidx`. -/
structure IrPoint where
  q : Pt
  ridx : Nat
  invRidx : Nat

/-- The loop body for one point, bz_move.cpp 266-292; `none`: the exception of `get_inverse_index`, or the one
thrown afterwards since the point is outside. -/
def irPoint (wedge : Pt → Bool) (R : List (Fin 3 → Fin 3 → ℤ)) (q : Pt) : Option IrPoint :=
  if wedge q then
    some { q := q, ridx := Sym.findIndex R Mot.idMat, invRidx := Sym.findIndex R Mot.idMat }
  else
    match findRotation wedge R q with
    | none => none
    | some (j, q') => (Sym.getInverseIndex R j).map fun k => { q := q', ridx := k, invRidx := j }

/-- `ir_moveinto` for one point, bz_move.cpp 167-303 -/
def irMoveinto (b : Bravais) (z : Zone) (contains : OnLattice → Pt → Bool) (wedge : Pt → Bool)
    (R : List (Fin 3 → Fin 3 → ℤ)) (Q : Pt) : Option (IrPoint × IPt) :=
  match moveinto b z contains .standard Q with
  | none => none
  | some (q, tau) => (irPoint wedge R q).map fun p => (p, tau)

/-- `ir_moveinto_wedge` for one point, bz_move.cpp 306-358: the point and the index of the operation -/
def irMoveintoWedge (wedge : Pt → Bool) (R : List (Fin 3 → Fin 3 → ℤ)) (Q : Pt) : Option (Pt × Nat) :=
  (irPoint wedge R Q).map fun p => (p.q, p.ridx)

end Brille.Move
