/-
Specifications for index iteration (independent of the model).
-/
import Mathlib.Data.List.Defs
import Mathlib.Data.List.Forall2
namespace Brille.Spec

/-- `x` is a valid subscript of an array with extents `shape`: same rank, every entry in range. -/
def InRange (shape x : List Nat) : Prop := List.Forall₂ (fun i s => i < s) x shape

/-- A list of subscripts is in row-major order without repetition iff it is strictly increasing in
the lexicographic order of lists. -/
def RowMajorOrder (l : List (List Nat)) : Prop := l.Pairwise (· < ·)

/-- `x` agrees with the requested fixed positions: an axis whose request is a valid position is
pinned to it, any other axis is free. -/
def Agrees : (shape request x : List Nat) → Prop
  | [], [], [] => True
  | s :: ss, r :: rs, x :: xs => (if r < s then x = r else x < s) ∧ Agrees ss rs xs
  | _, _, _ => False

/-- Two shapes can be broadcast together: same rank and in each dimension equal, or one is 1. -/
def Compatible (a b : List Nat) : Prop := List.Forall₂ (fun x y => x = y ∨ x = 1 ∨ y = 1) a b

/-- The subscript of the operand with extents `s` paired with the output subscript `o`: singleton
axes are pinned to zero. -/
def pin (s o : List Nat) : List Nat := List.zipWith (fun s o => if s = 1 then 0 else o) s o

end Brille.Spec
