/-
Sorting the corners of a new face: `sort_convex_polygon_face` and `bare_winding_angles` of /repo/src/geometry.hpp.
Coordinates are exact.  Unit vectors are replaced by vectors of the same direction: an angle is compared, not computed, and
neither the half turn a vector lies in nor which of two vectors of one half turn comes first depends on the lengths.
-/
import Verif.Model.Cut

namespace Brille.SortFace

open Brille.Tetra Brille.Faces Brille.Cut

/-- `vectors.sum(0) / size`, geometry.hpp 749 -/
def centre (v : List Pt) : Pt := fun d => (v.map fun p => p d).sum / v.length

/-- the part of a vector in the plane, geometry.hpp 318 -/
def planar (n u : Pt) : Pt := fun d => u d - dot u n / dot n n * n d

/-- `on_plane_vector`, geometry.hpp 282-286, with the axes of geometry.hpp 320-321 up to their lengths -/
def onPlane (n x u : Pt) : ℚ × ℚ := (dot (planar n u) x, dot (planar n u) (cross n x))

/-- the angle is in the first half turn, geometry.hpp 329-330: `atan2` is not negative and not a half turn -/
def upper (b : ℚ × ℚ) : Bool := decide (0 < b.2 ∨ (b.2 = 0 ∧ 0 ≤ b.1))

/-- the determinant of two vectors in the plane -/
def det2 (a b : ℚ × ℚ) : ℚ := a.1 * b.2 - a.2 * b.1

/-- the angle of the first vector is less than the angle of the second -/
def angleLt (a b : ℚ × ℚ) : Bool := (upper a && !upper b) || (upper a == upper b && decide (0 < det2 a b))

/-- `std::min_element`: the first of the least elements -/
def minFirst (key : Nat → ℚ × ℚ) (l : List Nat) (m : Nat) : Nat := l.foldl (fun m x => if angleLt (key x) (key m) then x else m) m

/-- the loop of geometry.hpp 776-780: take the first of the least angles that are left, until none is left -/
def select (key : Nat → ℚ × ℚ) : Nat → List Nat → List Nat
  | 0, _ => []
  | _, [] => []
  | fuel + 1, x :: l =>
    let m := minFirst key l x
    m :: select key fuel ((x :: l).erase m)

/-- the loop of geometry.hpp 816-830: remove corners without a left turn while there are more than three -/
def turns (n : Pt) (points : List Pt) : Nat → Nat → List Nat → List Nat
  | 0, _, sorted => sorted
  | fuel + 1, i, sorted =>
    if sorted.length > 3 ∧ i < sorted.length then
      let at' := fun j => points.getD (sorted.getD (j % sorted.length) 0) 0
      let prev := diff (at' i) (at' (sorted.length + i - 1))
      let next := diff (at' (sorted.length + i + 1)) (at' i)
      if dot n (cross prev next) > 0 then turns n points fuel (i + 1) sorted
      else turns n points fuel i (sorted.eraseIdx i)
    else sorted

/-- `sort_convex_polygon_face`, geometry.hpp 745-832 -/
def sortFace (P : Plane) (face : Face) (points : List Pt) : Face :=
  let c := centre (face.map fun i => points.getD i 0)
  match face.filter fun i => decide (points.getD i 0 ≠ c) with
  | [] => []
  | first :: rest =>
    let x := planar P.normal (diff (points.getD first 0) c)
    let key := fun i => onPlane P.normal x (diff (points.getD i 0) c)
    let sorted := first :: select key rest.length rest
    turns P.normal points sorted.length 0 sorted

end Brille.SortFace
