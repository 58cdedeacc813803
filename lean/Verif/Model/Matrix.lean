import Mathlib.LinearAlgebra.Matrix.Defs
import Mathlib.Data.Fintype.Basic
import Mathlib.Algebra.Order.Field.Basic
import Mathlib.Algebra.Order.AbsoluteValue.Basic

/-
Model of the small dense matrix routines of `/repo/src/utilities.tpp`.

Simplification: a row-major flat array `M[i*N+j]` is a function `Fin N → Fin N → R` of row and
column; template parameters of mixed element types are one type.
-/
namespace Brille.Mat

variable {R : Type}

/-- `multiply_arrays`, utilities.tpp:39-42: `C[i*M+j] += A[i*I+k]*B[k*M+j]` starting from 0, the sum
running over `k = 0,1,…`. -/
def mulArrays [Zero R] [Add R] [Mul R] {n l m : Nat} (A : Fin n → Fin l → R) (B : Fin l → Fin m → R) :
    Fin n → Fin m → R :=
  fun i j => (List.finRange l).foldl (fun acc k => acc + A i k * B k j) 0

/-- `multiply_matrix_vector`, utilities.tpp:44. -/
def mulVec [Zero R] [Add R] [Mul R] {n l : Nat} (A : Fin n → Fin l → R) (b : Fin l → R) : Fin n → R :=
  fun i => (List.finRange l).foldl (fun acc k => acc + A i k * b k) 0

/-- `trace`, utilities.tpp:19-23. -/
def trace [Zero R] [Add R] {n : Nat} (M : Fin n → Fin n → R) : R :=
  (List.finRange n).foldl (fun acc i => acc + M i i) 0

/-- `matrix_cofactor(C, A, i, j, N)`, utilities.tpp:98-102.  The loop copies, in row-major order, the
entries `A[n+N*m]` (row `m`, column `n`) with `n ≠ i` and `m ≠ j`; i.e. column `i` and row `j` are
skipped (`Fin.succAbove` is the increasing map that skips one index). -/
def cofactor {n : Nat} (A : Fin (n + 1) → Fin (n + 1) → R) (i j : Fin (n + 1)) : Fin n → Fin n → R :=
  fun a b => A (j.succAbove a) (i.succAbove b)

/-- `matrix_determinant(M, N)`, utilities.tpp:105-122.  `N = 0` (for which C++ allocates one element
and returns 0) is included for totality. -/
def determinant [Ring R] : {n : Nat} → (Fin n → Fin n → R) → R
  | 0, _ => 0
  | 1, M => M 0 0
  | n + 2, M =>
    ((List.finRange (n + 2)).foldl
      (fun (s : R × R) i => (s.1 + s.2 * M i 0 * determinant (cofactor M 0 i), s.2 * (-1)))
      (0, 1)).1

/-- `matrix_adjoint(A, M, N)`, utilities.tpp:125-141 (`N ≥ 1`): `A[j+i*N] = ± det(cofactor(i,j))`. -/
def adjoint [Ring R] : {n : Nat} → (Fin n → Fin n → R) → (Fin n → Fin n → R)
  | 0, _ => fun i => i.elim0
  | 1, _ => fun _ _ => 1
  | _ + 2, M => fun i j =>
    (if (i.val + j.val) % 2 = 0 then 1 else -1) * determinant (cofactor M i j)

/-- `matrix_determinant_and_inverse` and `matrix_inverse`, utilities.tpp:144-156, for a field of
numbers: the determinant and, when its magnitude exceeds `tol`, adjoint divided by determinant. -/
def inverseField {K : Type} [Field K] [LinearOrder K] {n : Nat} (M : Fin n → Fin n → K) (tol : K) :
    K × Option (Fin n → Fin n → K) :=
  let d := determinant M
  (d, if |d| > tol then some fun i j => adjoint M i j / d else none)

/-- The same routine instantiated with `R = int`: C++ integer division truncates toward zero. -/
def inverseInt {n : Nat} (M : Fin n → Fin n → ℤ) (tol : ℤ) : ℤ × Option (Fin n → Fin n → ℤ) :=
  let d := determinant M
  (d, if |d| > tol then some fun i j => (adjoint M i j).tdiv d else none)

/-- `array_transpose`, utilities.tpp:174-177: `D[i+j*N] = S[j+i*M]`. -/
def transpose {n m : Nat} (S : Fin n → Fin m → R) : Fin m → Fin n → R := fun j i => S i j

/-- `similar_matrix`, utilities.tpp:158-172, over a field: `M = B⁻¹ A B`. -/
def similarField {K : Type} [Field K] [LinearOrder K] {n : Nat} (A B : Fin n → Fin n → K) (tol : K) :
    Option (Fin n → Fin n → K) :=
  (inverseField B tol).2.map fun C => mulArrays C (mulArrays A B)

end Brille.Mat
