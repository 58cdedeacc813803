/-
Model of adjusting a lattice to its symmetry operations: `snap_to_symmetry` and its callers,
/repo/src/lattice_dual.hpp 17-51, 312-510, `Symmetry::getcentring`, /repo/src/symmetry.cpp 198-215, and the links of
/repo/src/pointsymmetry.cpp 480-497.

Numbers are real numbers (no rounding).  Messages to the user are left out.
-/
import Verif.Model.Lattice
import Verif.Model.Symmetry
import Verif.Model.PointGroup
import Mathlib.Analysis.SpecialFunctions.Complex.Arg

namespace Brille.Snap
open Brille.Mat Brille.Lat Brille.Mot
open Brille.Rot (LengthUnit)
open Brille.Prim (Bravais IMat)
open Classical

/-- `Symmetry::getcentring`, symmetry.cpp 198-215 -/
def getcentring (G : List Motion) : Bravais :=
  let has := fun w => Sym.has Sym.motionOps G ⟨idMat, w⟩
  let hasa := has ![0, 1 / 2, 1 / 2]
  let hasb := has ![1 / 2, 0, 1 / 2]
  let hasc := has ![1 / 2, 1 / 2, 0]
  if hasa && hasb && hasc then .F
  else if hasa then .A
  else if hasb then .B
  else if hasc then .C
  else if has ![1 / 2, 1 / 2, 1 / 2] then .I
  else if has ![1 / 3, 2 / 3, 2 / 3] && has ![2 / 3, 1 / 3, 1 / 3] then .R
  else .P

/-- the unit vectors, lattice_dual.hpp 326 -/
def ei (i : Fin 3) : Fin 3 → ℤ := fun k => if k = i then 1 else 0

/-- `mat_vec_links`, pointsymmetry.cpp 489-497 -/
def matVecLinks (ops : List IMat) (a b : Fin 3 → ℤ) : Bool :=
  ops.any fun R =>
    let aR := Mat.mulVec R a
    decide (aR 0 = b 0) && decide (aR 1 = b 1) && decide (aR 2 = b 2)

/-- `vec_mat_links`, pointsymmetry.cpp 480-488; `mul_vec_mat`, linear_algebra.hpp 65-69 -/
def vecMatLinks (ops : List IMat) (a b : Fin 3 → ℤ) : Bool :=
  ops.any fun R =>
    let aR := Mat.mulVec (transpose R) a
    decide (aR 0 = b 0) && decide (aR 1 = b 1) && decide (aR 2 = b 2)

/-- lattice_dual.hpp 314 -/
noncomputable def equal2 (x y : ℝ) : ℝ := if x = y then x else (x + y) / 2

/-- lattice_dual.hpp 315 -/
noncomputable def equal3 (x y z : ℝ) : ℝ := if x = y ∧ y = z then x else (x + y + z) / 3

/-- `v[i] = v[j] = x` -/
def set2 (v : V3) (i j : Fin 3) (x : ℝ) : V3 := Function.update (Function.update v j x) i x

/-- the cosines and sines of two angles made equal, lattice_dual.hpp 351-352 and 369-370 -/
noncomputable def pairAngles (right : Bool) (p : Params) (i j : Fin 3) : Params :=
  let c := if right then 0 else equal2 (p.cos i) (p.cos j)
  let s := if right then 1 else Real.sqrt (1 - c * c)
  { p with cos := set2 p.cos i j c, sin := set2 p.sin i j s }

/-- the body of the loop over `main`, lattice_dual.hpp 355-372; `none`: an exception -/
noncomputable def mainStep (cen : Bravais) (isReal : Bool) (main dual : Fin 3 → Bool) (p : Params) (i : Fin 3) :
    Option Params :=
  if main i then
    let p := { p with len := set2 p.len i (i + 1) (equal2 (p.len i) (p.len (i + 1))) }
    if dual 0 && dual 1 then none
    else if (dual 0 && decide (i ≠ 0)) || (dual 1 && decide (i ≠ 1)) || (dual 2 && decide (i ≠ 2)) then none
    else if dual i then
      let p := if cen = .R then
          let cs := cosAndSinD (if isReal then 120 else 60)
          { p with cos := Function.update p.cos (i + 2) cs.1, sin := Function.update p.sin (i + 2) cs.2 }
        else p
      some (pairAngles (decide (cen ≠ .P)) p i (i + 1))
    else some p
  else some p

/-- the changes made by `snap_to_symmetry`, lattice_dual.hpp 318-373, given the links -/
noncomputable def snapWith (cen : Bravais) (isReal : Bool) (main dual : Fin 3 → Bool) (p : Params) : Option Params :=
  if main 0 && main 1 then
    let l := equal3 (p.len 0) (p.len 1) (p.len 2)
    let p := { p with len := fun _ => l }
    if dual 0 && dual 1 then
      let c := if cen ≠ .P then 0 else equal3 (p.cos 0) (p.cos 1) (p.cos 2)
      let s := if cen ≠ .P then 1 else Real.sqrt (1 - c * c)
      some { p with cos := fun _ => c, sin := fun _ => s }
    else
      let step := fun (p : Params) (i : Fin 3) =>
        if dual i then pairAngles (decide (cen ≠ .P ∧ cen ≠ .R)) p i (i + 1) else p
      some (step (step (step p 0) 1) 2)
  else
    (mainStep cen isReal main dual p 0).bind fun p => (mainStep cen isReal main dual p 1).bind fun p =>
      mainStep cen isReal main dual p 2

/-- `main` before swapping, lattice_dual.hpp 329-334 -/
def linkedReal (ops : List IMat) (i : Fin 3) : Bool := matVecLinks ops (ei i) (ei (i + 1))

/-- `dual` before swapping, lattice_dual.hpp 335 -/
def linkedRecip (ops : List IMat) (i : Fin 3) : Bool := vecMatLinks ops (ei i) (ei (i + 1))

/-- the parameters after `snap_to_symmetry`, lattice_dual.hpp 312-373 -/
noncomputable def snap (cen : Bravais) (ops : List IMat) (isReal : Bool) (p : Params) : Option Params :=
  if isReal then snapWith cen true (linkedReal ops) (linkedRecip ops) p
  else snapWith cen false (linkedRecip ops) (linkedReal ops) p

/-- what `snap_to_symmetry` returns, lattice_dual.hpp 375-384; `near x` stands for `approx_float::scalar(x, 0.)` -/
noncomputable def changed (near : ℝ → Bool) (main : Fin 3 → Bool) (p q : Params) : Bool :=
  (main 0 || main 1 || main 2) &&
    (!near (p.len 0 - q.len 0) || !near (p.len 1 - q.len 1) || !near (p.len 2 - q.len 2) ||
      !near (p.cos 0 - q.cos 0) || !near (p.cos 1 - q.cos 1) || !near (p.cos 2 - q.cos 2))

/-- `set_vectors(lengths, angles, …)` with snapping, lattice_dual.hpp 455-484: the parameters of the reciprocal lattice are
adjusted -/
noncomputable def fromParameters (near : ℝ → Bool) (cen : Bravais) (ops : List IMat) (lu : LengthUnit) (lengths angles : V3)
    (au : AngleUnit) : Option Lattice :=
  (cosinesSines angles au).bind fun cs =>
    let p : Params := ⟨lengths, cs.1, cs.2⟩
    let dr : Option (Params × Params) := match lu with
      | .angstrom => (dualParams p).map fun r => (p, r)
      | .inverseAngstrom => (dualParams p).map fun d => (d, p)
      | _ => none
    dr.bind fun (d, r) => (snap cen ops false r).bind fun r' =>
      (if changed near (linkedRecip ops) r r' then dualParams r' else some d).bind fun d' =>
        fromMatrix (bMatrix d' r') .inverseAngstrom

/-- `std::atan2(x, y)` unless the first number is zero, lattice_dual.hpp 29 -/
noncomputable def arctan (x y : ℝ) : ℝ := if |x| ≠ 0 then Complex.arg ⟨y, x⟩ else 0

/-- `standard_orientation_matrix`, lattice_dual.hpp 18-51 -/
noncomputable def orientation (b : M3) : M3 :=
  let mu := arctan (-b 1 0) (b 2 0)
  let (cmu, smu) := cosAndSin mu
  let nu := arctan (-b 2 0) (b 0 0 * cmu)
  let (cnu, snu) := cosAndSin nu
  let num := b 0 1 * snu - b 1 1 * cnu * smu + b 2 1 * cnu * cmu
  let den := b 1 1 * cmu + b 2 1 * smu
  let xi := arctan num den
  let (cxi, sxi) := cosAndSin xi
  ![![cnu, snu * smu, -snu * cmu],
    ![sxi * snu, cxi * cmu - sxi * cnu * smu, cxi * smu + sxi * cnu * cmu],
    ![cxi * snu, -sxi * cmu - cxi * cnu * smu, -sxi * smu + cxi * cnu * cmu]]

/-- the basis vectors in standard orientation, lattice_dual.hpp 416-420 -/
noncomputable def upper (p : Params) (volume : ℝ) : M3 :=
  ![![p.len 0, p.len 1 * p.cos 2, p.len 2 * p.cos 1],
    ![0, p.len 1 * p.sin 2, p.len 2 * (p.cos 0 - p.cos 2 * p.cos 1) / p.sin 2],
    ![0, 0, p.len 2 * volume / p.sin 2]]

/-- the parameters of basis vectors, lattice_dual.hpp 406-407 -/
noncomputable def paramsOf (l : Lattice) (lu : LengthUnit) : Option Params :=
  (l.length lu 0).bind fun l0 => (l.length lu 1).bind fun l1 => (l.length lu 2).bind fun l2 =>
  (l.angle lu 0 .radian).bind fun a0 => (l.angle lu 1 .radian).bind fun a1 => (l.angle lu 2 .radian).bind fun a2 =>
  (cosinesSines ![a0, a1, a2] .radian).map fun cs => ⟨![l0, l1, l2], cs.1, cs.2⟩

/-- `set_vectors(matrix, unit, true)`, lattice_dual.hpp 403-453 and 493-510, followed by `set_metrics` -/
noncomputable def fromMatrix (near : ℝ → Bool) (cen : Bravais) (ops : List IMat) (m : M3) (lu : LengthUnit) :
    Option Lattice :=
  (Lat.fromMatrix m lu).bind fun l =>
    let real := decide (lu = .angstrom)
    (paramsOf l lu).bind fun p => (snap cen ops real p).bind fun p' =>
      if changed near (if real then linkedReal ops else linkedRecip ops) p p' then
        (unitVolume p'.cos).bind fun v =>
          Lat.fromMatrix (mulArrays (transpose (orientation m)) (upper p' v)) lu
      else some l

/-- the constructor from vectors, lattice_dual.hpp 205-214 -/
noncomputable def fromVectors (near : ℝ → Bool) (cen : Bravais) (ops : List IMat) (lu : LengthUnit) (vectors : M3)
    (column : Bool) : Option Lattice := fromMatrix near cen ops (if column then vectors else transpose vectors) lu

end Brille.Snap
