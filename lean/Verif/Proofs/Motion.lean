import Verif.Model.Motion
import Verif.Spec.Motion
import Verif.Proofs.Matrix
import Verif.Proofs.Approx
import Mathlib.Algebra.BigOperators.Fin
import Mathlib.Algebra.Order.Floor.Ring
import Mathlib.Tactic.FinCases
import Mathlib.Tactic.Push

namespace Brille.Mot
open Brille.Mat Brille.Spec

theorem determinant3 (W : Fin 3 → Fin 3 → ℤ) : determinant W = det3 W := by
  rw [determinant_eq, Matrix.det_fin_three]
  simp only [Matrix.of_apply, det3]
  ring

theorem mulVec3 {R : Type} [CommRing R] (A : Fin 3 → Fin 3 → R) (b : Fin 3 → R) (i : Fin 3) :
    mulVec A b i = A i 0 * b 0 + A i 1 * b 1 + A i 2 * b 2 := by
  rw [mulVec_eq, Matrix.mulVec, dotProduct, Fin.sum_univ_three]
  rfl

theorem mulArrays3 {R : Type} [CommRing R] (A B : Fin 3 → Fin 3 → R) (i j : Fin 3) :
    mulArrays A B i j = A i 0 * B 0 j + A i 1 * B 1 j + A i 2 * B 2 j := by
  rw [mulArrays_eq, Matrix.mul_apply, Fin.sum_univ_three]
  rfl

theorem mulArrays_assoc {R : Type} [CommRing R] (A B C : Fin 3 → Fin 3 → R) :
    mulArrays (mulArrays A B) C = mulArrays A (mulArrays B C) := by
  funext i j; simp only [mulArrays3]; ring

theorem mulArrays_id (A : Fin 3 → Fin 3 → ℤ) : mulArrays A idMat = A ∧ mulArrays idMat A = A := by
  constructor <;> funext i j <;> rw [mulArrays3] <;> fin_cases i <;> fin_cases j <;> simp [idMat]

theorem cast_mul (A B : Fin 3 → Fin 3 → ℤ) : cast (mulArrays A B) = mulArrays (cast A) (cast B) := by
  funext i j
  simp only [cast, mulArrays3]
  push_cast
  ring

theorem mulVec_mul {R : Type} [CommRing R] (A B : Fin 3 → Fin 3 → R) (v : Fin 3 → R) :
    mulVec (mulArrays A B) v = mulVec A (mulVec B v) := by
  funext i
  simp only [mulVec3, mulArrays3]
  ring

theorem mulVec_id (v : Fin 3 → ℚ) : mulVec (cast idMat) v = v := by
  funext i
  rw [mulVec3]
  fin_cases i <;> simp [cast, idMat]

/-- The cell reduction subtracts an integer. -/
theorem fract_sub (x : ℚ) : x - ⌊x⌋ = Int.fract x := rfl

/-- Integer matrices map lattice-equivalent points to lattice-equivalent points. -/
theorem mulVec_int (W : Fin 3 → Fin 3 → ℤ) {p q : Fin 3 → ℚ} (h : SameModLattice p q) (i : Fin 3) :
    ∃ z : ℤ, mulVec (cast W) p i - mulVec (cast W) q i = (z : ℚ) := by
  obtain ⟨z0, h0⟩ := h 0
  obtain ⟨z1, h1⟩ := h 1
  obtain ⟨z2, h2⟩ := h 2
  refine ⟨W i 0 * z0 + W i 1 * z1 + W i 2 * z2, ?_⟩
  push_cast
  rw [← h0, ← h1, ← h2, mulVec3, mulVec3]
  simp only [cast]
  ring

theorem fract_same (p : Fin 3 → ℚ) : SameModLattice (fun i => p i - ⌊p i⌋) p :=
  fun i => ⟨-⌊p i⌋, by push_cast; ring⟩

theorem same_symm {p q : Fin 3 → ℚ} (h : SameModLattice p q) : SameModLattice q p := by
  intro i
  obtain ⟨z, hz⟩ := h i
  exact ⟨-z, by push_cast; rw [← hz]; ring⟩

theorem same_trans {p q r : Fin 3 → ℚ} (h : SameModLattice p q) (h' : SameModLattice q r) :
    SameModLattice p r := by
  intro i
  obtain ⟨z, hz⟩ := h i
  obtain ⟨y, hy⟩ := h' i
  exact ⟨z + y, by push_cast; rw [← hz, ← hy]; ring⟩

theorem same_refl (p : Fin 3 → ℚ) : SameModLattice p p := fun i => ⟨0, by simp⟩

theorem invMat_mul (W : Fin 3 → Fin 3 → ℤ) (h : det3 W = 1 ∨ det3 W = -1) :
    mulArrays W (invMat W) = idMat ∧ mulArrays (invMat W) W = idMat := by
  rw [← determinant3] at h
  have hd := h
  have htd : ∀ x : ℤ, x.tdiv (determinant W) = determinant W * x := by
    intro x
    rcases h with h | h <;> rw [h] <;> simp
  have hdd : determinant W * determinant W = 1 := by rcases h with h | h <;> rw [h] <;> rfl
  have habs : |determinant W| > 0 := by rcases h with h | h <;> rw [h] <;> decide
  have hinv : invMat W = fun i j => determinant W * adjoint W i j := by
    simp only [invMat, inverseInt, if_pos habs, Option.getD_some, htd]
  have h1 := Matrix.mul_adjugate (Matrix.of W)
  have h2 := Matrix.adjugate_mul (Matrix.of W)
  rw [← adjoint_eq, ← determinant_eq] at h1 h2
  constructor
  · funext i j
    have e := congrFun (congrFun h1 i) j
    rw [Matrix.mul_apply, Fin.sum_univ_three] at e
    rw [mulArrays3, hinv]
    simp only [Matrix.of_apply, Matrix.smul_apply, Matrix.one_apply, smul_eq_mul] at e
    have : W i 0 * (determinant W * adjoint W 0 j) + W i 1 * (determinant W * adjoint W 1 j) +
        W i 2 * (determinant W * adjoint W 2 j) = determinant W * (determinant W * if i = j then 1 else 0) := by
      rw [← e]; ring
    rw [this, ← mul_assoc, hdd, one_mul]
    rfl
  · funext i j
    have e := congrFun (congrFun h2 i) j
    rw [Matrix.mul_apply, Fin.sum_univ_three] at e
    rw [mulArrays3, hinv]
    simp only [Matrix.of_apply, Matrix.smul_apply, Matrix.one_apply, smul_eq_mul] at e
    have : determinant W * adjoint W i 0 * W 0 j + determinant W * adjoint W i 1 * W 1 j +
        determinant W * adjoint W i 2 * W 2 j = determinant W * (determinant W * if i = j then 1 else 0) := by
      rw [← e]; ring
    rw [this, ← mul_assoc, hdd, one_mul]
    rfl

end Brille.Mot
