/-
What the grid of the trellis is meant to do, independently of the code.
-/
import Mathlib.Data.Rat.Defs
import Mathlib.Data.Fin.VecNotation
import Mathlib.Algebra.Order.Ring.Rat
import Mathlib.Algebra.Order.Group.Abs

namespace Brille.Spec

/-- The knots along an axis: strictly increasing. -/
def Increasing (knots : List ℚ) : Prop := knots.Pairwise (· < ·)

/-- Bin number `i` of the axis contains `x`: the bins are half-open. -/
def InBin (knots : List ℚ) (i : Nat) (x : ℚ) : Prop :=
  ∃ a b, knots[i]? = some a ∧ knots[i + 1]? = some b ∧ a ≤ x ∧ x < b

/-- A function of three coordinates that is affine in each of them. -/
structure Trilinear (f : ℚ → ℚ → ℚ → ℚ) : Prop where
  x : ∀ t a b y z, f ((1 - t) * a + t * b) y z = (1 - t) * f a y z + t * f b y z
  y : ∀ t x a b z, f x ((1 - t) * a + t * b) z = (1 - t) * f x a z + t * f x b z
  z : ∀ t x y a b, f x y ((1 - t) * a + t * b) = (1 - t) * f x y a + t * f x y b

/-- The eight corners in the order (000), (100), (110), (010), (101), (001), (011), (111) of the
documentation of the cube node. -/
def cornerBits : Fin 8 → Fin 3 → Bool
  | 0 => ![false, false, false]
  | 1 => ![true, false, false]
  | 2 => ![true, true, false]
  | 3 => ![false, true, false]
  | 4 => ![true, false, true]
  | 5 => ![false, false, true]
  | 6 => ![false, true, true]
  | 7 => ![true, true, true]

/-- The corner of the box from `lo` to `hi`. -/
def boxCorner (lo hi : Fin 3 → ℚ) (i : Fin 8) : Fin 3 → ℚ :=
  fun d => if cornerBits i d then hi d else lo d

/-- The linear combination of the data `f` prescribed by a list of vertex indices and weights. -/
def combine (iw : List (Nat × ℚ)) (f : Nat → ℚ) : ℚ := (iw.map (fun p => p.2 * f p.1)).sum

/-- The faces of a box, by corner number in the order of `cornerBits`. -/
def boxFaces : List (List (Fin 8)) :=
  [[5, 0, 1, 4], [5, 6, 3, 0], [0, 3, 2, 1], [5, 4, 7, 6], [4, 1, 2, 7], [6, 7, 2, 3]]

/-- The side of the box (axis, and whether it is the upper side) that contains all listed corners. -/
def sideOf (f : List (Fin 8)) : Option (Fin 3 × Bool) :=
  [(0, false), (0, true), (1, false), (1, true), (2, false), (2, true)].find?
    (fun s => f.all (fun c => cornerBits c s.1 == s.2))

/-- Corner of the unit box, with integer coordinates. -/
def unitCorner (c : Fin 8) (d : Fin 3) : Int := if cornerBits c d then 1 else 0

/-- The closed polygon `f` has edges along single axes and runs anticlockwise seen from outside of the
unit box: for all three successive corners `a b c`, `((b - a) × (c - b)) · (a - centre) > 0`, and each
edge changes exactly one coordinate. -/
def outward (f : List (Fin 8)) : Bool :=
  (f.zip ((f.rotate 1).zip (f.rotate 2))).all fun (a, b, c) =>
    let u := fun d => unitCorner b d - unitCorner a d
    let v := fun d => unitCorner c d - unitCorner b d
    let n : Fin 3 → Int := ![u 1 * v 2 - u 2 * v 1, u 2 * v 0 - u 0 * v 2, u 0 * v 1 - u 1 * v 0]
    let m := fun d => 2 * unitCorner a d - 1
    decide (0 < n 0 * m 0 + n 1 * m 1 + n 2 * m 2) && decide ((u 0).natAbs + (u 1).natAbs + (u 2).natAbs = 1)

/-- Two subscripts are those of touching, different nodes. -/
def Touching (a b : Fin 3 → Nat) : Prop := a ≠ b ∧ ∀ d, a d ≤ b d + 1 ∧ b d ≤ a d + 1

end Brille.Spec
