/-
Lattice dynamics of a crystal, as far as is needed to say what the rotation of phonon eigenvectors should do.  Independent
of the model, except for the structures that hold atoms and symmetry operations.
-/
import Verif.Spec.Atoms
import Verif.Spec.Rotate
import Mathlib.Algebra.BigOperators.Finprod
import Mathlib.Algebra.BigOperators.Group.Finset.Basic

namespace Brille.Spec

open Brille.Atoms Brille.Mot

variable {K : Type} [CommRing K]

/-- the scalar product of a point of reciprocal space and a vector, in units of `2π` -/
def dotQ (q d : Fin 3 → ℚ) : ℚ := q 0 * d 0 + q 1 * d 1 + q 2 * d 2

/-- A function that behaves like `exp(2πi x)`. -/
structure PhaseFactor (e : ℚ → K) : Prop where
  add : ∀ x y, e (x + y) = e x * e y
  whole : ∀ z : ℤ, e z = 1

/-- Force constants: between atom `k` of the first cell and atom `k'` of the cell at lattice vector `L`. -/
abbrev Forces (K : Type) := ℕ → ℕ → (Fin 3 → ℤ) → Fin 3 → Fin 3 → K

/-- The dynamical matrix at `q` (masses equal to one). -/
noncomputable def dynamical (e : ℚ → K) (F : Forces K) (q : Fin 3 → ℚ) (k k' : ℕ) (a a' : Fin 3) : K :=
  ∑ᶠ L : Fin 3 → ℤ, e (dotQ q fun i => (L i : ℚ)) * F k k' L a a'

/-- The displacements `ε` of `n` atoms are an eigenvector of the dynamical matrix at `q`. -/
def IsMode (e : ℚ → K) (F : Forces K) (n : ℕ) (q : Fin 3 → ℚ) (ε : ℕ → Fin 3 → K) (ev : K) : Prop :=
  ∀ k < n, ∀ a, ∑ k' ∈ Finset.range n, ∑ a' : Fin 3, dynamical e F q k k' a a' * ε k' a' = ev * ε k a

/-- The force constants are those of a crystal with the symmetry operation `m`, which turns displacements by `C` with
inverse `D`: if it takes atom `k` to atom `l` of the same kind in cell `N`, and `k'` to `l'` in cell `N'`, then the
forces between `l` and `l'` are those between `k` and `k'`, turned. -/
def SymmetricForces (b : Basis) (F : Forces K) (m : Motion) (C D : Fin 3 → Fin 3 → K) : Prop :=
  ∀ (k k' l l' : ℕ) (pk pk' pl pl' : Fin 3 → ℚ) (N N' L M : Fin 3 → ℤ),
    b.positions[k]? = some pk → b.positions[k']? = some pk' → b.positions[l]? = some pl → b.positions[l']? = some pl' →
    b.types[l]? = b.types[k]? → b.types[l']? = b.types[k']? →
    (∀ i, affine m.W m.w pk i = pl i + N i) → (∀ i, affine m.W m.w pk' i = pl' i + N' i) →
    (∀ i, M i = (∑ j, m.W i j * L j) + N' i - N i) →
    F l l' M = timesM C (timesM (F k k' L) D)

/-- Forces of finite range. -/
def FiniteRange (F : Forces K) : Prop := ∀ k k', {L | F k k' L ≠ fun _ _ => 0}.Finite

end Brille.Spec
