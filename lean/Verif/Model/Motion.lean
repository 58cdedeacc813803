import Verif.Model.Matrix
import Verif.Model.Approx
import Mathlib.Data.Rat.Floor

/-
Model of `brille::Motion<R,T>`, `/repo/src/motion.hpp`, with integer rotation part (`R = int`) and
exact rational translation part (`T = double`).
-/
namespace Brille.Mot
open Brille.Mat

/-- `class Motion`, motion.hpp:27-29: rotation part `W`, translation part `w`. -/
@[ext] structure Motion where
  W : Fin 3 → Fin 3 → ℤ
  w : Fin 3 → ℚ

/-- The integer rotation part read as numbers of the vector type (`R` and `T` mix in the products). -/
def cast (W : Fin 3 → Fin 3 → ℤ) : Fin 3 → Fin 3 → ℚ := fun i j => (W i j : ℚ)

/-- Identity matrix literal `{1,0,0, 0,1,0, 0,0,1}`. -/
def idMat : Fin 3 → Fin 3 → ℤ := fun i j => if i = j then 1 else 0

/-- `Motion()` followed by the identity values; `Motion(Matrix)` motion.hpp:34, `Motion(Vector)` :35. -/
def ofRotation (W : Fin 3 → Fin 3 → ℤ) : Motion := ⟨W, fun _ => 0⟩
def ofTranslation (w : Fin 3 → ℚ) : Motion := ⟨idMat, w⟩

/-- `operator*`, motion.hpp:37-50. -/
def mul (a b : Motion) : Motion :=
  { W := mulArrays a.W b.W
    w := fun i =>
      let x := mulVec (cast a.W) b.w i + a.w i
      x - ⌊x⌋ }

/-- `matrix_inverse(outW, W)` for `int`, which leaves `outW` zero when the determinant is zero. -/
def invMat (W : Fin 3 → Fin 3 → ℤ) : Fin 3 → Fin 3 → ℤ := ((inverseInt W 0).2).getD fun _ _ => 0

/-- `inverse()`, motion.hpp:51-62. -/
def inverse (a : Motion) : Motion :=
  { W := invMat a.W
    w := fun i =>
      let x := mulVec (cast (invMat a.W)) a.w i * (-1)
      x - ⌊x⌋ }

/-- `move_point`, motion.hpp:64-70. -/
def movePoint (a : Motion) (p : Fin 3 → ℚ) : Fin 3 → ℚ := fun i => mulVec (cast a.W) p i + a.w i

/-- `move_vector`, motion.hpp:72-76. -/
def moveVector (a : Motion) (v : Fin 3 → ℚ) : Fin 3 → ℚ := mulVec (cast a.W) v

/-- `move_axial`, motion.hpp:78-83. -/
def moveAxial (a : Motion) (v : Fin 3 → ℚ) : Fin 3 → ℚ :=
  let outa := moveVector a v
  let det := determinant a.W
  if 1 ≠ det then fun i => outa i * (det : ℚ) else outa

/-- `operator==`, motion.hpp:88-98: the difference of translations brought to `[0,1)`, folded so that
values near 0 and near 1 are near 0, compared with zero; matrices compared as integers. -/
def beq (a m : Motion) : Bool :=
  let d := fun i => m.w i - a.w i
  let d := fun i => 1 / 2 - |d i - ⌊d i⌋ - 1 / 2|
  Approx.array .double .double ((List.finRange 3).map fun i => (d i, 0)) 0 0 1 &&
    Approx.array .int .int (((List.finRange 3).flatMap fun i => (List.finRange 3).map fun j =>
      ((a.W i j : ℚ), (m.W i j : ℚ)))) 0 0 1

/-- `has_identity_rotation`, motion.hpp:108-111. -/
def hasIdentityRotation (a : Motion) : Bool :=
  Approx.array .int .int (((List.finRange 3).flatMap fun i => (List.finRange 3).map fun j =>
      ((a.W i j : ℚ), (idMat i j : ℚ)))) 0 0 1

/-- `has_identity_translation`, motion.hpp:112-115. -/
def hasIdentityTranslation (a : Motion) : Bool :=
  Approx.array .double .double ((List.finRange 3).map fun i => (a.w i, 0)) 0 0 1

end Brille.Mot
