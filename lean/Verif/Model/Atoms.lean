/-
The atoms of the unit cell and how symmetry operations permute them: /repo/src/basis.hpp, and the table of
/repo/src/phonon.hpp.  Positions are exact rational numbers in units of the lattice vectors.  The approximate comparison
of a difference vector with zero (`approx_float::equal(d, z, e_tol, e_tol, n_tol)`) is a parameter.
-/
import Verif.Model.Motion
import Verif.Model.Symmetry
import Mathlib.Algebra.Order.Field.Rat
import Mathlib.Algebra.BigOperators.Fin

namespace Brille.Atoms

open Brille.Mot

abbrev Pt := Fin 3 → ℚ

/-- `Basis`, basis.hpp 41-42 -/
structure Basis where
  positions : List Pt
  types : List Nat

/-- The constructor from positions and types, basis.hpp 58-65: types of the wrong number are replaced. -/
def Basis.make (pos : List Pt) (typ : List Nat) : Basis :=
  if pos.length = typ.length then ⟨pos, typ⟩ else ⟨pos, List.range pos.length⟩

/-- the atoms as pairs; the two vectors have the same length -/
def Basis.atoms (b : Basis) : List (Pt × Nat) := b.positions.zip b.types

/-- the difference modulo one with the discontinuity at one half, basis.hpp 98-99 and 158-159 -/
def diffMod (kappa p : Pt) : Pt := fun i =>
  |kappa i - p i + 1 / 2 - ⌊kappa i - p i + 1 / 2⌋| - 1 / 2

/-- `equivalent_to`, basis.hpp 147-169 -/
def Basis.equivalentTo (near : Pt → Bool) (b : Basis) (type : Nat) (kappa : Pt) : Bool × Nat :=
  match b.atoms.findIdx? fun a => decide (a.2 = type) && near (diffMod kappa a.1) with
  | some i => (true, i)
  | none => (false, b.positions.length)

/-- `equivalent_after_operation(k, motion)`, basis.hpp 185-190; `none`: the exception -/
def Basis.equivalentAfter (near : Pt → Bool) (b : Basis) (k : Nat) (op : Motion) : Option (Bool × Nat) :=
  match b.positions[k]?, b.types[k]? with
  | some p, some t => some (b.equivalentTo near t (movePoint op p))
  | _, _ => none

/-- one entry of the vector `v` of `closest_to`: is the type right, is the position, the difference; basis.hpp 94-104 -/
def check (near : Pt → Bool) (type : Nat) (kappa : Pt) (a : Pt × Nat) : Bool × Bool × Pt :=
  if a.2 ≠ type then (false, false, fun _ => 0) else (true, near (diffMod kappa a.1), diffMod kappa a.1)

/-- sum of the squares of the components -/
def sumSq (d : Pt) : ℚ := d 0 * d 0 + d 1 * d 1 + d 2 * d 2

/-- is the first distance less than the second; `none` is `std::numeric_limits<double>::max()` -/
def closer : Option ℚ → Option ℚ → Bool
  | some a, some b => decide (a < b)
  | some _, none => true
  | none, _ => false

/-- `std::min_element`: the index of the first of the least entries -/
def minElement (d : List (Option ℚ)) : Nat :=
  (List.range d.length).foldl (fun m i => if closer (d.getD i none) (d.getD m none) then i else m) 0

/-- `closest_to`, basis.hpp 88-132; `none`: an access beyond the end, for a basis without atoms -/
def Basis.closestTo (near : Pt → Bool) (b : Basis) (type : Nat) (kappa : Pt) : Option (Bool × Nat × Pt) :=
  let v := b.atoms.map (check near type kappa)
  let found := v.findIdx? fun a => a.1 && a.2.1
  let kp := match found with
    | some i => i
    | none => minElement (v.map fun a => if a.1 then some (sumSq a.2.2) else none)
  (v[kp]?).map fun a => (found.isSome, kp, a.2.2)

/-- does every operation take atom `k` to an equivalent atom?  basis.hpp 198-203 -/
def Basis.okAt (near : Pt → Bool) (b : Basis) (ops : List Motion) (k : Nat) : Bool :=
  ops.all fun op => ((b.equivalentAfter near k op).map (·.1)).getD false

/-- does every operation take every atom to an equivalent one?  basis.hpp 196-205 and 227-232 -/
def Basis.okAll (near : Pt → Bool) (b : Basis) (ops : List Motion) : Bool :=
  (List.range b.positions.length).all fun k => b.okAt near ops k

/-- adding one difference if the closest atom is atom `k` itself, basis.hpp 215-218 -/
def addDiff (k : Nat) (acc : Pt × Nat) : Option (Bool × Nat × Pt) → Pt × Nat
  | some (_, c, d) => if c = k then (fun i => acc.1 i + d i, acc.2 + 1) else acc
  | none => acc

/-- the correction for atom `k`, basis.hpp 211-221: the sum of the differences and their number -/
def Basis.correction (near : Pt → Bool) (b : Basis) (ops : List Motion) (k : Nat) : Pt × Nat :=
  match b.positions[k]?, b.types[k]? with
  | some p, some t => ops.foldl (fun acc op => addDiff k acc (b.closestTo near t (movePoint op p))) (fun _ => 0, 0)
  | _, _ => (fun _ => 0, 0)

/-- moving one atom, basis.hpp 207-226 -/
def Basis.moveAtom (near : Pt → Bool) (ops : List Motion) (b : Basis) (k : Nat) : Basis :=
  let c := b.correction near ops k
  ⟨b.positions.modify k (fun p i => p i + (if c.2 ≠ 0 then c.1 i / (c.2 : ℚ) else c.1 i)), b.types⟩

/-- `snap_to`, basis.hpp 191-233: the returned truth value and the basis afterwards -/
def Basis.snapTo (near : Pt → Bool) (b : Basis) (ops : List Motion) : Bool × Basis :=
  if b.okAll near ops then (true, b)
  else
    let bad := (List.range b.positions.length).filter fun k => !b.okAt near ops k
    let b' := bad.foldl (Basis.moveAtom near ops) b
    (b'.okAll near ops, b')

/-! The table of permutations and lattice vectors, `GammaTable`, phonon.hpp 90-194 -/

/-- `GammaTable`, phonon.hpp 94-104.  `l_mapping` and `v_mapping` are functions on the keys; the vectors have
`n_atoms*n_sym_ops` entries, initially zero. -/
structure Gamma where
  nAtoms : Nat
  nOps : Nat
  point2space : List Nat
  l : Nat → Nat
  v : Nat → Nat
  vectors : List Pt

/-- `calc_key`, phonon.hpp 189-193; `none`: the exception -/
def Gamma.key (g : Gamma) (k r : Nat) : Option Nat :=
  if k < g.nAtoms ∧ r < g.nOps then some (k * g.nOps + r) else none

/-- `F0`, phonon.hpp 168-171 -/
def Gamma.F0 (g : Gamma) (k r : Nat) : Option Nat := (g.key k r).map g.l

/-- `vector_index`, phonon.hpp 173-176 -/
def Gamma.vectorIndex (g : Gamma) (k r : Nat) : Option Nat := (g.key k r).map g.v

/-- `vector`, phonon.hpp 177-182 -/
def Gamma.vector (g : Gamma) (k r : Nat) : Option Pt := (g.vectorIndex k r).bind fun v => g.vectors[v]?

/-- `find_matrix_index`, symmetry.cpp 193-196 -/
def findMatrixIndex (spg : List Motion) (W : Fin 3 → Fin 3 → ℤ) : Nat := spg.findIdx fun m => decide (m.W = W)

/-- the first loop, phonon.hpp 133-139; `none`: the exception -/
def toSpace (spg : List Motion) (ps : List (Fin 3 → Fin 3 → ℤ)) : Option (List Nat) :=
  ps.mapM fun W => if findMatrixIndex spg W < spg.length then some (findMatrixIndex spg W) else none

/-- `(R⁻¹ rₗ - rₖ)`, phonon.hpp 151-154 -/
def shiftVector (m : Motion) (rl rk : Pt) : Pt := fun i => movePoint (inverse m) rl i - rk i

/-- the body of the double loop, phonon.hpp 142-164; `none`: the exception.  `same x y` is the test that the norm of
`x - y` is (approximately) zero. -/
def Gamma.step (near : Pt → Bool) (same : Pt → Pt → Bool) (spg : List Motion) (b : Basis) (g : Gamma) (kr : Nat × Nat) :
    Option Gamma :=
  match g.point2space[kr.2]?.bind fun s => spg[s]? with
  | none => none
  | some m =>
    match b.equivalentAfter near kr.1 m with
    | some (true, l) =>
      match b.positions[l]?, b.positions[kr.1]? with
      | some rl, some rk =>
        let vec := shiftVector m rl rk
        let v := g.vectors.findIdx fun x => same x vec
        let vectors := if v = g.vectors.length then g.vectors ++ [vec] else g.vectors
        match g.key kr.1 kr.2 with
        | some key => some { g with l := Function.update g.l key l, v := Function.update g.v key v, vectors }
        | none => none
      | _, _ => none
    | _ => none

/-- `construct`, phonon.hpp 114-167, for the operations after a possible `add_space_inversion` -/
def Gamma.construct (near : Pt → Bool) (same : Pt → Pt → Bool) (ps : List (Fin 3 → Fin 3 → ℤ)) (spg : List Motion)
    (b : Basis) : Option Gamma :=
  match toSpace spg ps with
  | none => none
  | some p2s =>
    ((List.range b.positions.length).flatMap fun k => (List.range ps.length).map fun r => (k, r)).foldlM
      (Gamma.step near same spg b)
      { nAtoms := b.positions.length, nOps := ps.length, point2space := p2s, l := fun _ => 0, v := fun _ => 0,
        vectors := [fun _ => 0] }

end Brille.Atoms
