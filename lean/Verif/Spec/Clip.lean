/-
What cutting a polyhedron with a plane means, polygon by polygon.
-/
import Verif.Spec.Polyhedron
import Mathlib.Data.Fintype.Basic

namespace Brille.Spec

abbrev Point := Fin 3 → ℚ

/-- the point a fraction `t` of the way from `p` to `q` -/
def along (p q : Point) (t : ℚ) : Point := fun d => p d + t * (q d - p d)

/-- the point between `p` and `q` where the affine function `side` vanishes -/
def crossing (side : Point → ℚ) (p q : Point) : Point := along p q (side p / (side p - side q))

/-- the part of a polygon where `side` is not negative: the corners there, in order, and the points where the boundary
crosses from one side to the other (Sutherland and Hodgman) -/
def clip (side : Point → ℚ) (polygon : List Point) : List Point :=
  (polygon.zip (polygon.rotate 1)).flatMap fun e =>
    (if 0 ≤ side e.1 then [e.1] else []) ++ if side e.1 * side e.2 < 0 then [crossing side e.1 e.2] else []

/-- no corner lies between its two neighbours -/
def Turning (polygon : List Point) : Prop :=
  ∀ i p q r rest, polygon.rotate i = p :: q :: r :: rest → ¬ ∃ t, 0 ≤ t ∧ t ≤ 1 ∧ q = along p r t

/-- every corner is a corner of three of the polygons or more -/
def ThreeAtEachCorner (polygons : List (List Point)) : Prop :=
  ∀ f ∈ polygons, ∀ p ∈ f, 3 ≤ (polygons.filter fun g => decide (p ∈ g)).length

/-- the surface of a polyhedron: distinct vertices, polygons without repeated corners, each edge run along once in either
direction, and edges which meet each other and the vertices at their ends only -/
structure Surface (v : List Point) (faces : List (List Nat)) : Prop where
  distinct : v.Nodup
  valid : ∀ f ∈ faces, ∀ i ∈ f, i < v.length
  simple : ∀ f ∈ faces, f.Nodup ∧ 3 ≤ f.length
  once : (faces.flatMap steps).Nodup
  closed : ∀ a b, (a, b) ∈ faces.flatMap steps → (b, a) ∈ faces.flatMap steps
  vertices : ∀ a b, (a, b) ∈ faces.flatMap steps → ∀ t, 0 < t → t < 1 → along (v.getD a 0) (v.getD b 0) t ∉ v
  edges : ∀ a b c d, (a, b) ∈ faces.flatMap steps → (c, d) ∈ faces.flatMap steps →
    ∀ s t, 0 < s → s < 1 → 0 < t → t < 1 → along (v.getD a 0) (v.getD b 0) s = along (v.getD c 0) (v.getD d 0) t →
    (a, b) = (c, d) ∨ (a, b) = (d, c)

end Brille.Spec
