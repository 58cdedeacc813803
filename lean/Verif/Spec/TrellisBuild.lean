/-
What the construction of the hybrid grid is meant to do, independently of the code.
-/
import Verif.Spec.Trellis
import Verif.Spec.Convex

namespace Brille.Spec

/-- the knots along one axis for coordinates `values` of which each is covered: they increase from the least to the largest of the
values in equal steps no longer than `longest`, and no smaller number of equal steps would do -/
structure EqualKnots (longest : ℚ) (values knots : List ℚ) : Prop where
  increasing : Increasing knots
  enough : 2 ≤ knots.length
  first : ∃ mn, knots.head? = some mn ∧ mn ∈ values ∧ ∀ x ∈ values, mn ≤ x
  last : ∃ mx, knots.getLast? = some mx ∧ mx ∈ values ∧ ∀ x ∈ values, x ≤ mx
  steps : ∃ step ≤ longest, ∀ (j : Nat) (a b : ℚ), knots[j]? = some a → knots[j + 1]? = some b → b - a = step
  fewest : ∀ mn mx, knots.head? = some mn → knots.getLast? = some mx → ((knots.length - 2 : Nat) : ℚ) * longest < mx - mn

/-- the closed box between two corners -/
def Box (lo hi : Fin 3 → ℚ) : Set (Fin 3 → ℝ) := {x | ∀ d, (lo d : ℝ) ≤ x d ∧ x d ≤ hi d}

/-- the inner points of the box -/
def OpenBox (lo hi : Fin 3 → ℚ) : Set (Fin 3 → ℝ) := {x | ∀ d, (lo d : ℝ) < x d ∧ x d < hi d}

end Brille.Spec
