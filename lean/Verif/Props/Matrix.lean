import Verif.Proofs.Matrix
import Mathlib.Data.Matrix.Mul
import Mathlib.Algebra.BigOperators.Field
import Mathlib.Algebra.Order.Field.Rat
import Mathlib.Data.Fintype.Card
import Mathlib.Tactic.FinCases
import Mathlib.Tactic.NormNum

/-! C13: determinant, adjoint and inverse of small matrices.  The specification is Mathlib's
determinant, and "inverse" is stated with the sum-of-products formula. -/
namespace Brille.Props
open Brille.Mat

/-- **C13 (determinant).** For every size and commutative ring the Laplace expansion computed by the
code is the determinant. -/
theorem C13_determinant {R : Type} [CommRing R] {n : Nat} (M : Fin (n + 1) → Fin (n + 1) → R) :
    determinant M = Matrix.det (Matrix.of M) := determinant_eq M

example : determinant (fun i j : Fin 3 => (![![2, 1, 0], ![1, 3, 1], ![0, 1, 4]] i j : ℤ)) = 18 := by
  decide

theorem sum_adjoint_mul {R : Type} [CommRing R] {n : Nat} (M : Fin (n + 1) → Fin (n + 1) → R)
    (i j : Fin (n + 1)) :
    ∑ k, adjoint M i k * M k j = (if i = j then Matrix.det (Matrix.of M) else 0) ∧
    ∑ k, M i k * adjoint M k j = (if i = j then Matrix.det (Matrix.of M) else 0) := by
  have h1 := congrFun (congrFun (Matrix.adjugate_mul (Matrix.of M)) i) j
  have h2 := congrFun (congrFun (Matrix.mul_adjugate (Matrix.of M)) i) j
  rw [← adjoint_eq] at h1 h2
  rw [Matrix.mul_apply] at h1 h2
  simp only [Matrix.of_apply, Matrix.smul_apply, Matrix.one_apply, smul_eq_mul, mul_ite, mul_one,
    mul_zero] at h1 h2
  exact ⟨h1, h2⟩

/-- **C13 (adjoint).** `adjoint(M) * M = M * adjoint(M) = det(M) * identity`. -/
theorem C13_adjoint {R : Type} [CommRing R] {n : Nat} (M : Fin (n + 1) → Fin (n + 1) → R)
    (i j : Fin (n + 1)) :
    ∑ k, adjoint M i k * M k j = (if i = j then Matrix.det (Matrix.of M) else 0) ∧
    ∑ k, M i k * adjoint M k j = (if i = j then Matrix.det (Matrix.of M) else 0) :=
  sum_adjoint_mul M i j

/-- **C13 (inverse, field).** The routine reports the determinant; it produces a matrix exactly when
the determinant exceeds the tolerance in magnitude, and that matrix is a two-sided inverse. -/
theorem C13_inverse_field {K : Type} [Field K] [LinearOrder K] [IsStrictOrderedRing K] {n : Nat}
    (M : Fin (n + 1) → Fin (n + 1) → K) (tol : K) (htol : 0 ≤ tol) :
    (inverseField M tol).1 = Matrix.det (Matrix.of M) ∧
    ((inverseField M tol).2 = none ↔ |Matrix.det (Matrix.of M)| ≤ tol) ∧
    ∀ N, (inverseField M tol).2 = some N → ∀ i j,
      ∑ k, N i k * M k j = (if i = j then 1 else 0) ∧
      ∑ k, M i k * N k j = (if i = j then 1 else 0) := by
  have hd := determinant_eq M
  refine ⟨hd, ?_, ?_⟩
  · simp only [inverseField, hd]
    split <;> simp_all
  · intro N hN i j
    simp only [inverseField, hd] at hN
    split at hN
    · next hgt =>
      have h0 : Matrix.det (Matrix.of M) ≠ 0 := by
        intro h; rw [h, abs_zero] at hgt; exact absurd htol (not_le.2 hgt)
      obtain rfl := Option.some.inj hN
      obtain ⟨h1, h2⟩ := sum_adjoint_mul M i j
      constructor
      · have : ∀ k, adjoint M i k / Matrix.det (Matrix.of M) * M k j =
            (adjoint M i k * M k j) / Matrix.det (Matrix.of M) := fun k => by ring
        simp only [this, ← Finset.sum_div, h1]
        split <;> simp [h0]
      · have : ∀ k, M i k * (adjoint M k j / Matrix.det (Matrix.of M)) =
            (M i k * adjoint M k j) / Matrix.det (Matrix.of M) := fun k => by ring
        simp only [this, ← Finset.sum_div, h2]
        split <;> simp [h0]
    · exact absurd hN (by simp)

/-- With the default tolerance 0 an inverse is produced exactly for nonsingular matrices. -/
theorem C13_inverse_field_exists {K : Type} [Field K] [LinearOrder K] [IsStrictOrderedRing K] {n : Nat}
    (M : Fin (n + 1) → Fin (n + 1) → K) :
    (∃ N, (inverseField M 0).2 = some N) ↔ Matrix.det (Matrix.of M) ≠ 0 := by
  have h := (C13_inverse_field M 0 le_rfl).2.1
  rw [← Option.isSome_iff_exists, ← Option.ne_none_iff_isSome, Ne, h, abs_nonpos_iff]

example : ∃ N, (inverseField (fun i j : Fin 3 => (![![2, 1, 0], ![1, 3, 1], ![0, 1, 4]] i j : ℚ)) 0).2
    = some N := by
  rw [C13_inverse_field_exists, ← C13_determinant]
  decide +kernel

/-- **C13 (inverse, integers).** With integer elements a matrix of determinant ±1 gets a two-sided
integer inverse, a singular one gets none. -/
theorem C13_inverse_int {n : Nat} (M : Fin (n + 1) → Fin (n + 1) → ℤ) :
    (inverseInt M 0).1 = Matrix.det (Matrix.of M) ∧
    ((inverseInt M 0).2 = none ↔ Matrix.det (Matrix.of M) = 0) ∧
    ((Matrix.det (Matrix.of M) = 1 ∨ Matrix.det (Matrix.of M) = -1) →
      ∃ N, (inverseInt M 0).2 = some N ∧ ∀ i j,
        ∑ k, N i k * M k j = (if i = j then 1 else 0) ∧
        ∑ k, M i k * N k j = (if i = j then 1 else 0)) := by
  have hd := determinant_eq M
  refine ⟨hd, ?_, ?_⟩
  · simp only [inverseInt, hd]
    split
    · next h => simp only [reduceCtorEq, false_iff]; intro h0; simp [h0] at h
    · next h => simpa using h
  · intro h
    have hdd : Matrix.det (Matrix.of M) * Matrix.det (Matrix.of M) = 1 := by
      rcases h with h | h <;> rw [h] <;> rfl
    have habs : |Matrix.det (Matrix.of M)| > 0 := by
      rcases h with h | h <;> rw [h] <;> decide
    have htd : ∀ x : ℤ, x.tdiv (Matrix.det (Matrix.of M)) = Matrix.det (Matrix.of M) * x := by
      intro x
      rcases h with h | h <;> rw [h] <;> simp
    refine ⟨fun i j => (adjoint M i j).tdiv (Matrix.det (Matrix.of M)),
      by simp only [inverseInt, hd, if_pos habs], ?_⟩
    intro i j
    obtain ⟨h1, h2⟩ := sum_adjoint_mul M i j
    simp only [htd]
    constructor
    · simp only [mul_assoc, ← Finset.mul_sum, h1]
      split <;> simp [hdd]
    · simp only [mul_left_comm (M i _), ← Finset.mul_sum, h2]
      split <;> simp [hdd]

example : ∃ N, (inverseInt (fun i j : Fin 3 => (![![1, 1, 0], ![-1, 0, 0], ![0, 0, -1]] i j : ℤ)) 0).2 = some N ∧
    N 0 1 = -1 ∧ N 1 0 = 1 := ⟨_, rfl, by decide, by decide⟩

/-- **C13 (integers, limit).** For other determinants the integer routine still reports success but,
because the division truncates, its result is not an inverse. -/
theorem C13_inverse_int_counterexample :
    ∃ M N : Fin 3 → Fin 3 → ℤ, (inverseInt M 0).2 = some N ∧ ∑ k, N 0 k * M k 0 ≠ 1 :=
  ⟨fun i j => if i = j then 2 else 0, _, rfl, by decide⟩

/-- **C13 (products).** `multiply_arrays` is the matrix product and `determinant` is multiplicative
for it. -/
theorem C13_product {R : Type} [CommRing R] {n : Nat} (A B : Fin (n + 1) → Fin (n + 1) → R) :
    (∀ i j, mulArrays A B i j = ∑ k, A i k * B k j) ∧
    determinant (mulArrays A B) = determinant A * determinant B := by
  constructor
  · intro i j; rw [mulArrays_eq]; rfl
  · rw [determinant_eq, determinant_eq, determinant_eq, mulArrays_eq]
    exact Matrix.det_mul _ _

/-- **C13 (similar matrix).** When `similar_matrix` succeeds its result `X` satisfies `B X = A B`. -/
theorem C13_similar {K : Type} [Field K] [LinearOrder K] [IsStrictOrderedRing K] {n : Nat}
    (A B X : Fin (n + 1) → Fin (n + 1) → K) (tol : K) (htol : 0 ≤ tol)
    (h : similarField A B tol = some X) (i j : Fin (n + 1)) :
    ∑ k, B i k * X k j = ∑ k, A i k * B k j := by
  simp only [similarField, Option.map_eq_some_iff] at h
  obtain ⟨C, hC, rfl⟩ := h
  have hinv := (C13_inverse_field B tol htol).2.2 C hC
  have h1 : Matrix.of B * Matrix.of C = 1 := by
    ext i j
    rw [Matrix.mul_apply, Matrix.one_apply]
    exact (hinv i j).2
  rw [mulArrays_eq, mulArrays_eq]
  have h2 : Matrix.of B * (Matrix.of C * (Matrix.of A * Matrix.of B)) = Matrix.of A * Matrix.of B := by
    rw [← Matrix.mul_assoc, h1, Matrix.one_mul]
  have := congrFun (congrFun h2 i) j
  rw [Matrix.mul_apply, Matrix.mul_apply] at this
  exact this

example : ∃ X, similarField (fun i j : Fin 2 => (![![1, 2], ![3, 4]] i j : ℚ)) (fun i j => ![![1, 1], ![0, 1]] i j) 0
    = some X := by
  have : (inverseField (fun i j : Fin 2 => (![![1, 1], ![0, 1]] i j : ℚ)) 0).2.isSome := by
    rw [Option.isSome_iff_exists, C13_inverse_field_exists, Matrix.det_fin_two]
    norm_num [Matrix.of_apply]
  obtain ⟨C, hC⟩ := Option.isSome_iff_exists.1 this
  exact ⟨_, by rw [similarField, hC]; rfl⟩

end Brille.Props
