/-
Model of lattices and lattice vectors: /repo/src/lattice_dual.hpp, /repo/src/math.hpp 45-118,
/repo/src/linear_algebra.hpp, /repo/src/array_lvec_methods.tpp and the products of
/repo/src/array_functions.hpp 167-324 and 392-410.

Numbers are real numbers (no rounding).  Flattened 3×3 matrices are functions of row and column, see
`Brille.Mat`.  The basis vectors of a lattice are the columns of its matrices.
-/
import Verif.Model.Matrix
import Verif.Model.Rotate
import Verif.Model.Primitive
import Mathlib.Analysis.SpecialFunctions.Trigonometric.Inverse
import Mathlib.Data.Fin.VecNotation

namespace Brille.Lat
open Brille.Mat
open Brille.Rot (LengthUnit)
open Classical

abbrev V3 := Fin 3 → ℝ
abbrev M3 := Fin 3 → Fin 3 → ℝ

/-- enums.hpp 32 -/
inductive AngleUnit | notProvided | radian | degree | pi
  deriving DecidableEq

/-! ### math.hpp -/

/-- `cos_and_sin`, math.hpp 96-104 -/
noncomputable def cosAndSin (r : ℝ) : ℝ × ℝ :=
  if 0 = r then (1, 0)
  else if Real.pi / 3 = r then (1 / 2, Real.sqrt 3 / 2)
  else if Real.pi / 2 = r then (0, 1)
  else if 2 * Real.pi / 3 = r then (-(1 / 2), Real.sqrt 3 / 2)
  else if Real.pi = r then (-1, 0)
  else (Real.cos r, Real.sin r)

/-- The integral quotient of `std::remquo(x, 90, &q)` for `x ≥ 0`: the nearest integer to `x / 90`, the even one
if there are two. -/
noncomputable def quotient90 (x : ℝ) : ℤ :=
  let f := ⌊x / 90⌋
  if x / 90 - f < 1 / 2 then f else if 1 / 2 < x / 90 - f then f + 1 else if f % 2 = 0 then f else f + 1

/-- `cosd`, math.hpp 45-61 -/
noncomputable def cosd (degree : ℝ) : ℝ :=
  let q := quotient90 |degree|
  let radian := (|degree| - 90 * q) / 180 * Real.pi
  if q % 4 = 0 then Real.cos radian
  else if q % 4 = 1 then Real.sin (-radian + 0)
  else if q % 4 = 2 then -Real.cos radian
  else if q % 4 = 3 then Real.sin (radian + 0)
  else 0

/-- `sind`, math.hpp 63-81, for a number that is not negative -/
noncomputable def sindPos (degree : ℝ) : ℝ :=
  let q := quotient90 |degree|
  let radian := (|degree| - 90 * q) / 180 * Real.pi
  if q % 4 = 0 then Real.sin (radian * 1)
  else if q % 4 = 1 then Real.cos radian
  else if q % 4 = 2 then Real.sin (-radian * 1)
  else if q % 4 = 3 then -Real.cos radian
  else 0

/-- `sind`, math.hpp 63-81; the recursion (66) goes one level deep -/
noncomputable def sind (degree : ℝ) : ℝ := if degree < 0 then -sindPos (-degree) else sindPos degree

/-- `cos_and_sin_d`, math.hpp 106-118 -/
noncomputable def cosAndSinD (d : ℝ) : ℝ × ℝ :=
  if 0 = d then (1, 0)
  else if 30 = d then (Real.sqrt 3 / 2, 1 / 2)
  else if 45 = d then (Real.sqrt 2 / 2, Real.sqrt 2 / 2)
  else if 60 = d then (1 / 2, Real.sqrt 3 / 2)
  else if 90 = d then (0, 1)
  else if 120 = d then (-(1 / 2), Real.sqrt 3 / 2)
  else if 135 = d then (-(Real.sqrt 2 / 2), Real.sqrt 2 / 2)
  else if 150 = d then (-(Real.sqrt 3 / 2), 1 / 2)
  else if 180 = d then (-1, 0)
  else (cosd d, sind d)

/-! ### parameters -/

/-- the unit used for angles without one, lattice_dual.hpp 93-98; `none`: the exception for negative angles -/
noncomputable def resolveUnit (angles : V3) (au : AngleUnit) : Option AngleUnit :=
  if au = .notProvided then
    if min (angles 0) (min (angles 1) (angles 2)) < 0 then none
    else if max (angles 0) (max (angles 1) (angles 2)) < Real.pi then some .radian else some .degree
  else some au

/-- one angle, lattice_dual.hpp 100-110 -/
noncomputable def cosSinOf (au : AngleUnit) (a : ℝ) : ℝ × ℝ :=
  match au with
  | .degree => cosAndSinD a
  | .radian => cosAndSin a
  | _ => cosAndSin (Real.pi * a)

/-- `inter_facial_angles_to_cosines_sines`, lattice_dual.hpp 91-112 -/
noncomputable def cosinesSines (angles : V3) (au : AngleUnit) : Option (V3 × V3) :=
  (resolveUnit angles au).map fun au => (fun i => (cosSinOf au (angles i)).1, fun i => (cosSinOf au (angles i)).2)

/-- `unit_parallelpiped_volume`, lattice_dual.hpp 55-73; `none`: the exception -/
noncomputable def unitVolume (c : V3) : Option ℝ :=
  let sum := 0 + c 0 * c 0 + c 1 * c 1 + c 2 * c 2
  let prod := 2 * c 0 * c 1 * c 2
  let squared := 1 - sum + prod
  if squared ≤ 0 then none else some (Real.sqrt squared)

/-- lengths, cosines and sines -/
structure Params where
  len : V3
  cos : V3
  sin : V3

/-- `dual_lattice_parameters`, lattice_dual.hpp 75-89 -/
noncomputable def dualParams (p : Params) : Option Params :=
  (unitVolume p.cos).map fun v =>
    let cos := fun i : Fin 3 => (p.cos (i + 1) * p.cos (i + 2) - p.cos i) / (p.sin (i + 1) * p.sin (i + 2))
    { len := fun i => 2 * Real.pi * p.sin i / p.len i / v
      cos := cos
      sin := fun i => Real.sqrt (1 - cos i * cos i) }

/-! ### linear_algebra.hpp -/

/-- `dot`, linear_algebra.hpp 24-38 -/
def dot (a b : V3) : ℝ := a 0 * b 0 + a 1 * b 1 + a 2 * b 2

/-- `norm`, linear_algebra.hpp 39-44 -/
noncomputable def norm (a : V3) : ℝ := Real.sqrt (dot a a)

/-- `mat_inverse`, linear_algebra.hpp 120-125: zeros if `matrix_inverse` does not write (its result is not looked at) -/
noncomputable def matInverse (m : M3) : M3 := ((inverseField m 0).2).getD fun _ _ => 0

/-- `metric_from_column_vectors`, lattice_dual.hpp 134-145; `mul_mat_mat`, linear_algebra.hpp 66-75 -/
noncomputable def metricOf (m : M3) : M3 := mulArrays (transpose m) m

/-! ### the lattice -/

/-- The basis vectors (columns) and metrics, lattice_dual.hpp 153-156. -/
structure Lattice where
  real : M3
  recip : M3
  realMetric : M3
  recipMetric : M3

/-- `set_metrics`, lattice_dual.hpp 511-517 -/
noncomputable def withMetrics (real recip : M3) : Lattice := ⟨real, recip, metricOf real, metricOf recip⟩

/-- `set_vectors(matrix, unit)` without snapping, lattice_dual.hpp 493-510, followed by `set_metrics`; `none`: the
exception for other units -/
noncomputable def fromMatrix (m : M3) (lu : LengthUnit) : Option Lattice :=
  let other := fun i j => matInverse m i j * (2 * Real.pi)
  match lu with
  | .angstrom => some (withMetrics m (transpose other))
  | .inverseAngstrom => some (withMetrics (transpose other) m)
  | _ => none

/-- the constructor from vectors, lattice_dual.hpp 205-214: `column` says that the vectors are the columns -/
noncomputable def fromVectors (lu : LengthUnit) (vectors : M3) (column : Bool) : Option Lattice :=
  fromMatrix (if column then vectors else transpose vectors) lu

/-- the matrix of Busing and Levy, lattice_dual.hpp 476-482 -/
noncomputable def bMatrix (d r : Params) : M3 :=
  ![![r.len 0, r.len 1 * r.cos 2, r.len 2 * r.cos 1],
    ![0, r.len 1 * r.sin 2, -r.len 2 * r.sin 1 * d.cos 0],
    ![0, 0, 2 * Real.pi / d.len 2]]

/-- `set_vectors(lengths, angles, …)` without snapping, lattice_dual.hpp 459-484, as in the constructor 184-194 -/
noncomputable def fromParameters (lu : LengthUnit) (lengths angles : V3) (au : AngleUnit) : Option Lattice :=
  (cosinesSines angles au).bind fun cs =>
    let p : Params := ⟨lengths, cs.1, cs.2⟩
    match lu with
    | .angstrom => (dualParams p).bind fun r => fromMatrix (bMatrix p r) .inverseAngstrom
    | .inverseAngstrom => (dualParams p).bind fun d => fromMatrix (bMatrix d p) .inverseAngstrom
    | _ => none

/-- `vectors(unit)` and `to_xyz`, lattice_dual.hpp 560-567 and 671-685; `none`: the exception -/
def Lattice.vectors (l : Lattice) : LengthUnit → Option M3
  | .angstrom => some l.real
  | .inverseAngstrom => some l.recip
  | _ => none

/-- `metric(unit)`, lattice_dual.hpp 569-576 -/
def Lattice.metric (l : Lattice) : LengthUnit → Option M3
  | .angstrom => some l.realMetric
  | .inverseAngstrom => some l.recipMetric
  | _ => none

/-- `vector(unit, i)`, lattice_dual.hpp 582-594: column `i` -/
def Lattice.vector (l : Lattice) (lu : LengthUnit) (i : Fin 3) : Option V3 := (l.vectors lu).map fun m k => m k i

/-- `length(unit, i)`, lattice_dual.hpp 595-599 -/
noncomputable def Lattice.length (l : Lattice) (lu : LengthUnit) (i : Fin 3) : Option ℝ := (l.vector lu i).map norm

/-- `angle(unit, i, unit of the angle)`, lattice_dual.hpp 600-615 -/
noncomputable def Lattice.angle (l : Lattice) (lu : LengthUnit) (i : Fin 3) (au : AngleUnit) : Option ℝ :=
  (l.vector lu (i + 1)).bind fun vj => (l.vector lu (i + 2)).bind fun vk =>
    let c := dot vj vk / norm vj / norm vk
    match au with
    | .radian => some (Real.arccos c)
    | .degree => some (Real.arccos c / Real.pi * 180)
    | .pi => some (Real.arccos c / Real.pi)
    | .notProvided => none

/-- `volume(unit)`, lattice_dual.hpp 621-630 -/
def Lattice.volume (l : Lattice) (lu : LengthUnit) : Option ℝ := (l.vectors lu).map determinant

/-- `from_xyz(unit)`, lattice_dual.hpp 686-702 -/
noncomputable def Lattice.fromXyz (l : Lattice) (lu : LengthUnit) : Option M3 :=
  let m := match lu with
    | .angstrom => some l.recip
    | .inverseAngstrom => some l.real
    | _ => none
  m.map fun m => transpose fun i j => m i j / (2 * Real.pi)

/-- `primitive()`, lattice_dual.hpp 738-776 (the vectors and metrics; the basis is snapped again, see `Brille.Atoms`).
`none`: the exception for an unknown centring -/
noncomputable def Lattice.primitive (l : Lattice) (b : Prim.Bravais) : Option Lattice :=
  if Prim.doesNothing b then some l
  else
    (Prim.get6P b).bind fun p => (Prim.getInvPt b).map fun q =>
      let pv : M3 := fun i j => mulArrays l.real (fun i j => (p i j : ℝ)) i j / 6
      let pr : M3 := mulArrays l.recip fun i j => (q i j : ℝ)
      ⟨pv, pr, metricOf pv, metricOf pr⟩

/-! ### vectors of a lattice -/

/-- A vector of a lattice (one row of an `LVec`), array_lvec.hpp 87-95. -/
structure LVec where
  type : LengthUnit
  hkl : V3

/-- the unit of the dual vectors, array_lvec_methods.tpp 58: everything but `angstrom` becomes `angstrom` -/
def starType (u : LengthUnit) : LengthUnit := if u = .angstrom then .inverseAngstrom else .angstrom

/-- `LVec::xyz`, array_lvec_methods.tpp 42-51 -/
noncomputable def xyz (l : Lattice) (v : LVec) : Option V3 := (l.vectors v.type).map fun m => mulVec m v.hkl

/-- `LVec::star`, array_lvec_methods.tpp 53-66 -/
noncomputable def LVec.star (l : Lattice) (v : LVec) : Option LVec :=
  (l.metric v.type).map fun g => ⟨starType v.type, fun i => mulVec g v.hkl i / (2 * Real.pi)⟩

/-- the function `star`, array_functions.hpp 398-410 -/
noncomputable def starFunction (l : Lattice) (v : LVec) : Option LVec :=
  (l.metric v.type).map fun g => ⟨starType v.type, fun i => mulVec g v.hkl i⟩

/-- `same_lattice_dot`, array_functions.hpp 246-255 -/
noncomputable def metricDot (g : M3) (x y : V3) : ℝ :=
  0 + mulVec g x 0 * y 0 + mulVec g x 1 * y 1 + mulVec g x 2 * y 2

/-- `dot` of vectors of one lattice, array_functions.hpp 257-289 -/
noncomputable def lvecDot (l : Lattice) (a b : LVec) : Option ℝ :=
  if a.type ≠ b.type then some (dot a.hkl b.hkl * (2 * Real.pi))
  else (l.metric a.type).map fun g => metricDot g a.hkl b.hkl

/-- `norm`, array_functions.hpp 319-326 -/
noncomputable def lvecNorm (l : Lattice) (a : LVec) : Option ℝ := (lvecDot l a a).map Real.sqrt

/-- `vector_cross`, utilities.hpp 369-376 -/
def vectorCross (a b : V3) : V3 := ![a 1 * b 2 - a 2 * b 1, a 2 * b 0 - a 0 * b 2, a 0 * b 1 - a 1 * b 0]

/-- `cross` of vectors of one lattice, array_functions.hpp 189-201 and array_lvec_methods.tpp 68-82; `none`: the
exception (and the assertion that both vectors have the same unit) -/
noncomputable def lvecCross (l : Lattice) (a b : LVec) : Option LVec :=
  if a.type ≠ b.type then none
  else (l.volume a.type).bind fun v =>
    LVec.star l ⟨starType a.type, fun i => vectorCross a.hkl b.hkl i * (v / (2 * Real.pi))⟩

/-- `from_xyz_like`, array_functions.hpp 563-575 and array_l_functions.hpp 9-20 -/
noncomputable def fromXyzLike (l : Lattice) (u : LengthUnit) (e : V3) : Option LVec :=
  (l.fromXyz u).map fun m => ⟨u, mulVec m e⟩

end Brille.Lat
