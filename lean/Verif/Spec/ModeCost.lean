/-
Specification of the cost of pairing two modes.

A mode has a list of scalars and a list of complex vector components, which are defined up to a common phase.
-/
import Mathlib.Analysis.Complex.Norm
import Mathlib.Analysis.SpecialFunctions.Trigonometric.Inverse
import Mathlib.Algebra.BigOperators.Group.Finset.Basic

namespace Brille.Spec
open Finset

/-- The Hermitian product of two complex vectors with `n` components. -/
noncomputable def hdot (n : Nat) (a b : Nat → ℂ) : ℂ := ∑ k ∈ range n, (starRingEnd ℂ) (a k) * b k

/-- The length of a vector with `n` components. -/
noncomputable def length (n : Nat) (a : Nat → ℂ) : ℝ := Real.sqrt (∑ k ∈ range n, ‖a k‖ ^ 2)

/-- How much two vectors overlap, from 0 (orthogonal) to 1 (parallel).  Two vanishing vectors are counted as
parallel, a vanishing and a non-vanishing one as orthogonal. -/
noncomputable def overlap (n : Nat) (a b : Nat → ℂ) : ℝ :=
  if length n a = 0 ∧ length n b = 0 then 1
  else if length n a = 0 ∨ length n b = 0 then 0
  else ‖hdot n a b‖ / (length n a * length n b)

/-- The documented vector costs (table of `set_cost_info`), freed from the arbitrary phase: the difference
vector, one minus the product, the angle (twice) and the square of the sine of the angle. -/
noncomputable def vectorCost (kind : Int) (n : Nat) (a b : Nat → ℂ) : ℝ :=
  if kind = 1 then Real.sqrt (length n a ^ 2 + length n b ^ 2 - 2 * ‖hdot n a b‖)
  else if kind = 2 then 1 - ‖hdot n a b‖ ^ 2
  else if kind = 3 ∨ kind = 4 then Real.arccos (overlap n a b)
  else 1 - overlap n a b ^ 2

/-- One vector is the other times a non-zero number. -/
def Parallel (n : Nat) (a b : Nat → ℂ) : Prop := ∃ c : ℂ, c ≠ 0 ∧ ∀ k, k < n → b k = c * a k

/-- One vector is the other times a phase factor. -/
def Rephased (n : Nat) (a b : Nat → ℂ) : Prop := ∃ c : ℂ, ‖c‖ = 1 ∧ ∀ k, k < n → b k = c * a k

/-- The modes of one point are those of another in the order `π`, with other phases: mode `π b` of the
second point is mode `b` of the first.  `x` and `y` give the scalars and the vectors of a mode. -/
structure Relabelled {T : Type} (modes ns nv : Nat) (x0 x1 : Nat → Nat → T) (y0 y1 : Nat → Nat → ℂ)
    (π : Equiv.Perm (Fin modes)) : Prop where
  scalars : ∀ (b : Fin modes) k, k < ns → x1 (π b) k = x0 b k
  vectors : ∀ b : Fin modes, Rephased nv (y0 b) (y1 (π b))

/-- Any two modes of a point differ in a scalar or in the direction of their vectors. -/
def Distinguishable {T : Type} (modes ns nv : Nat) (x : Nat → Nat → T) (y : Nat → Nat → ℂ) : Prop :=
  ∀ b c, b < modes → c < modes → b ≠ c → (∃ k, k < ns ∧ x b k ≠ x c k) ∨ ¬ Parallel nv (y b) (y c)

end Brille.Spec
