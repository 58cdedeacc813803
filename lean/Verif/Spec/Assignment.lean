/-
Specification of assignment problems: a choice of a different column for every row, of least total cost.
-/
import Mathlib.Algebra.BigOperators.Fin
import Mathlib.Logic.Equiv.Defs

namespace Brille.Spec

/-- the total cost of assigning column `σ r` to each row `r` -/
def totalCost {N : Nat} {K : Type} [AddCommMonoid K] (cost : Fin N → Fin N → K)
    (σ : Equiv.Perm (Fin N)) : K := ∑ r, cost r (σ r)

/-- no other assignment costs less -/
def IsOptimal {N : Nat} {K : Type} [AddCommMonoid K] [LE K] (cost : Fin N → Fin N → K)
    (σ : Equiv.Perm (Fin N)) : Prop := ∀ τ : Equiv.Perm (Fin N), totalCost cost σ ≤ totalCost cost τ

end Brille.Spec
