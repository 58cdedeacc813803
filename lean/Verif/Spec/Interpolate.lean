/-
Specification of mode-wise linear interpolation.
-/
import Mathlib.Algebra.BigOperators.Group.List.Basic
import Mathlib.Algebra.Ring.Defs

namespace Brille.Spec

/-- A stored or interpolated row of `span`-element modes: element `s` of mode `b`. -/
def modeElem {K : Type} (span : Nat) (row : Nat → K) (b s : Nat) : K := row (b * span + s)

/-- One vertex taking part in an interpolation: its weight and, for each mode of the result, the mode
of the vertex that belongs to it. -/
structure Contribution (K : Type) where
  weight : K
  row : Nat → K
  perm : List Nat

/-- The weighted sum `Σ w · mode_perm(b)` of element `s`. -/
def weightedMode {K : Type} [Semiring K] (span : Nat) (cs : List (Contribution K)) (b s : Nat) : K :=
  (cs.map fun c => c.weight * modeElem span c.row (c.perm.getD b 0) s).sum

/-- `p` assigns to each of `n` modes one of `n` modes. -/
def ModeMap (n : Nat) (p : List Nat) : Prop := p.length = n ∧ ∀ x ∈ p, x < n

end Brille.Spec
