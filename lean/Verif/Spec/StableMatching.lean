/-
Specification of stable matchings of rows and columns, when both sides prefer small entries of one matrix.
-/
import Mathlib.Logic.Equiv.Defs

namespace Brille.Spec

/-- row `r` and column `c` would both rather have each other than their partners -/
def Blocking {n : Nat} {P : Type} [LT P] (prefs : Fin n → Fin n → P) (σ : Equiv.Perm (Fin n)) (r c : Fin n) :
    Prop := prefs r c < prefs r (σ r) ∧ prefs r c < prefs (σ.symm c) c

/-- no row and column block the matching -/
def Stable {n : Nat} {P : Type} [LT P] (prefs : Fin n → Fin n → P) (σ : Equiv.Perm (Fin n)) : Prop :=
  ∀ r c, ¬ Blocking prefs σ r c

end Brille.Spec
