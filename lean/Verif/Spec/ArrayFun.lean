import Verif.Model.ArrayFun
/-
What a caller can observe of a two-dimensional array: its extents and the value at a subscript; and
the ways in which its elements can lie in memory.
-/
namespace Brille.Spec
open Brille.ArrFun

variable {T : Type}

/-- `a` is the table with `n` rows, `m` columns and entries `f i j`. -/
structure Shows (a : A2 T) (n m : Nat) (f : Nat → Nat → T) : Prop where
  rows : a.n0 = n
  cols : a.n1 = m
  entry : ∀ i j, i < n → j < m → a.read [i, j] = .ok (f i j)

/-- Row after row without gaps, as in C. -/
def RowPacked (a : A2 T) : Prop :=
  ∀ i j, i < a.n0 → j < a.n1 → i * a.t0 + j * a.t1 = i * a.n1 + j

/-- Column after column without gaps, as in Fortran. -/
def ColPacked (a : A2 T) : Prop :=
  ∀ i j, i < a.n0 → j < a.n1 → i * a.t0 + j * a.t1 = i + j * a.n0

/-- No two elements share a place in memory. -/
def Separate (a : A2 T) : Prop :=
  ∀ i j k l, i < a.n0 → j < a.n1 → k < a.n0 → l < a.n1 →
    i * a.t0 + j * a.t1 = k * a.t0 + l * a.t1 → i = k ∧ j = l

/-- The entries of a table in row order, as one list. -/
def flat (n m : Nat) (f : Nat → Nat → T) : List T :=
  (List.range n).flatMap fun i => (List.range m).map fun j => f i j

/-- The rows of a table as a list. -/
def rowsOf (n m : Nat) (f : Nat → Nat → T) : List (List T) :=
  (List.range n).map fun i => (List.range m).map (f i)

/-- Nothing but the array's own elements differs between `a` and `b`. -/
def SameElsewhere (a b : A2 T) : Prop :=
  b.n0 = a.n0 ∧ b.n1 = a.n1 ∧ b.t0 = a.t0 ∧ b.t1 = a.t1 ∧ b.shift = a.shift ∧
  b.data.length = a.data.length ∧
  ∀ k, (∀ i j, i < a.n0 → j < a.n1 → k ≠ i * a.t0 + j * a.t1 + a.shift) → b.data[k]? = a.data[k]?

end Brille.Spec
