/-
What it means to rotate a row of results: where its vectors and matrices are, and how they change.
-/
import Verif.Model.Rotate
import Verif.Spec.Motion
import Mathlib.Algebra.BigOperators.Fin

namespace Brille.Spec

variable {K : Type}

/-- A row consists of branches of `e0 + e1 + e2` numbers: scalars, then vectors, then matrices, row by row.  This is
vector number `v` of branch `b`. -/
def vectorOf (e0 e1 e2 : ℕ) (x : ℕ → K) (b v : ℕ) : Fin 3 → K := fun j => x (b * (e0 + e1 + e2) + e0 + 3 * v + j)

/-- matrix number `m` of branch `b` -/
def matrixOf (e0 e1 e2 : ℕ) (x : ℕ → K) (b m : ℕ) : Fin 3 → Fin 3 → K :=
  fun i j => x (b * (e0 + e1 + e2) + e0 + e1 + 9 * m + 3 * i + j)

/-- scalar number `s` of branch `b` -/
def scalarOf (e0 e1 e2 : ℕ) (x : ℕ → K) (b s : ℕ) : K := x (b * (e0 + e1 + e2) + s)

/-- Every vector of the `n` branches has changed by `fv`, every matrix by `fm`, no scalar and nothing else. -/
structure RowTurned (e0 e1 e2 n : ℕ) (fv : (Fin 3 → K) → Fin 3 → K) (fm : (Fin 3 → Fin 3 → K) → Fin 3 → Fin 3 → K)
    (x x' : ℕ → K) : Prop where
  scalars : ∀ b < n, ∀ s < e0, scalarOf e0 e1 e2 x' b s = scalarOf e0 e1 e2 x b s
  vectors : ∀ b < n, ∀ v < e1 / 3, vectorOf e0 e1 e2 x' b v = fv (vectorOf e0 e1 e2 x b v)
  matrices : ∀ b < n, ∀ m < e2 / 9, matrixOf e0 e1 e2 x' b m = fm (matrixOf e0 e1 e2 x b m)
  rest : ∀ i, n * (e0 + e1 + e2) ≤ i → x' i = x i

variable [CommRing K]

/-- Products written out. -/
def times (A : Fin 3 → Fin 3 → K) (v : Fin 3 → K) : Fin 3 → K := fun i => ∑ j, A i j * v j
def timesM (A B : Fin 3 → Fin 3 → K) : Fin 3 → Fin 3 → K := fun i k => ∑ j, A i j * B j k

/-- Scalar product of a vector with components along the lattice vectors and one with components along the reciprocal
lattice vectors. -/
def pairing (q v : Fin 3 → K) : K := ∑ i, q i * v i

/-- An integer matrix and its transpose, with entries among the numbers of the results. -/
def whole (W : Fin 3 → Fin 3 → ℤ) : Fin 3 → Fin 3 → K := fun i j => (W i j : K)
def wholeT (W : Fin 3 → Fin 3 → ℤ) : Fin 3 → Fin 3 → K := fun i j => (W j i : K)

end Brille.Spec
