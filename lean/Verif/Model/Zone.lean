/-
The first Brillouin zone: `voro_search` of /repo/src/bz.cpp, `construct` of /repo/src/bz.hpp, `plane_points_from_normal` of
/repo/src/geometry.hpp and the extremes `bounding_box` of /repo/src/polyhedron_flex.hpp starts from.
Coordinates are exact, in the Cartesian frame of the lattice.  The transformation between the primitive and the conventional
lattice (bz.cpp 209-212 and 225-228) is the subject of `Verif/Model/ZoneCentred.lean`: here one lattice is both.
-/
import Verif.Model.SortFace
import Verif.Model.Neighbours
import Mathlib.Data.List.Sort

namespace Brille.Zone

open Brille.Tetra Brille.Faces Brille.Cut Brille.SortFace Brille.Neighbours

/-- `plane_points_from_normal`, geometry.hpp 187-207.  Unit vectors are replaced by vectors of the same directions: the normal
of the plane is a positive multiple of that of the code. -/
def planePoints (n p : Pt) : Plane :=
  let one : Pt := ![1, 1, 1]
  let a_dot_n : Pt := fun d => dot one n / dot n n * n d
  let a : Pt := if a_dot_n = one then ![2, 0, 1] else one
  let a := diff a a_dot_n
  let b := cross n a
  ⟨p, fun d => a d + p d, fun d => b d + p d⟩

/-- the Cartesian position of a lattice point, `LVec::xyz`; the rows of the matrix are the lattice vectors -/
def position (B : Fin 3 → Pt) (i : ℤ × ℤ × ℤ) : Pt := fun d => i.1 * B 0 d + i.2.1 * B 1 d + i.2.2 * B 2 d

/-- the sorted lattice points, bz.cpp 200-206.  `std::sort` may leave points at equal distance in any order; the theorems
hold for any order. -/
def tau (B : Fin 3 → Pt) (extent : ℤ) : List Pt :=
  ((offsets extent).map (position B)).insertionSort fun p q => dot p p ≤ dot q q

/-- `points.min(0)` and `points.max(0)`, polyhedron_flex.hpp 310-311 -/
def least (points : List Pt) : Pt := fun d => (points.map fun p => p d).foldl min (points.getD 0 0 d)

def largest (points : List Pt) : Pt := fun d => (points.map fun p => p d).foldl max (points.getD 0 0 d)

/-- `BrillouinZone::voro_search`, bz.cpp 197-231, for lattice points in the order given -/
def voroSearch (tau : List Pt) : Option (List Pt × List Face) :=
  let planes := tau.map fun t => planePoints t fun d => t d / 2
  cut sortFace planes ((List.range 8).map (boxVertices (least tau) (largest tau))) boxFaces

/-- the loop of `BrillouinZone::construct`, bz.hpp 142-154; `near` is the approximate comparison, `none` stands for an
exception; the number of turns is limited by the first argument -/
def construct (near : ℚ → ℚ → Bool) (B : Fin 3 → Pt) : Nat → ℤ → ℚ → Option (List Pt × List Face)
  | 0, _, _ => none
  | turns + 1, extent, old =>
    match voroSearch (tau B extent) with
    | none => none
    | some (v, f) =>
      let new := volume f fun i => v.getD i 0
      if near new old then (if near new 0 then none else some (v, f))
      else construct near B turns (extent + 1) new

end Brille.Zone
