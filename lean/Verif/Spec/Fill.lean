/-
Specification of how the data of a grid are laid out (documentation of `fill` and of
`Interpolator::branches`).
-/
import Mathlib.Algebra.BigOperators.Group.List.Basic

namespace Brille.Spec

/-- The position of a subscript in an array of the given shape in row order. -/
def rowMajor : List Nat → List Nat → Nat
  | _ :: shape, i :: sub => i * shape.prod + rowMajor shape sub
  | _, _ => 0

/-- The documented meaning of an array of data.  `Layout shape e points modes e'`: an array of this shape,
given with the numbers `e` of scalar, vector and matrix elements per mode, has for each of `points` points
`modes` modes, each with the numbers `e'` of elements; the numbers may be left out (all zero). -/
inductive Layout : List Nat → Nat × Nat × Nat → Nat → Nat → Nat × Nat × Nat → Prop
  /-- (P): one scalar per point -/
  | one (p : Nat) (s v m : Nat) (h : s + v + m = 1) : Layout [p] (s, v, m) p 1 (s, v, m)
  | oneDefault (p : Nat) : Layout [p] (0, 0, 0) p 1 (1, 0, 0)
  /-- (P, B·Y): B modes with Y elements one after the other -/
  | two (p b s v m : Nat) (h : 0 < s + v + m) : Layout [p, b * (s + v + m)] (s, v, m) p b (s, v, m)
  /-- (P, Y) without further information: one mode with Y scalars -/
  | twoDefault (p y : Nat) (h : 0 < y) : Layout [p, y] (0, 0, 0) p 1 (y, 0, 0)
  /-- (P, B, Y) -/
  | three (p b s v m : Nat) (h : 0 < s + v + m) : Layout [p, b, s + v + m] (s, v, m) p b (s, v, m)
  | threeDefault (p b y : Nat) : Layout [p, b, y] (0, 0, 0) p b (y, 0, 0)
  /-- (P, B, V, 3): V three-vectors per mode -/
  | four (p b n s v m : Nat) (h : 0 < s + v + m) (hn : s + v + m = n * 3) :
      Layout [p, b, n, 3] (s, v, m) p b (s, v, m)
  | fourDefault (p b n : Nat) : Layout [p, b, n, 3] (0, 0, 0) p b (0, n * 3, 0)
  /-- (P, B, M, 3, 3): M matrices per mode -/
  | five (p b n s v m : Nat) (h : 0 < s + v + m) (hn : s + v + m = n * 9) :
      Layout [p, b, n, 3, 3] (s, v, m) p b (s, v, m)
  | fiveDefault (p b n : Nat) : Layout [p, b, n, 3, 3] (0, 0, 0) p b (0, 0, n * 9)

end Brille.Spec
