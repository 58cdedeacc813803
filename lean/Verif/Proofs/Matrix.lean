import Verif.Model.Matrix
import Mathlib.LinearAlgebra.Matrix.Determinant.Basic
import Mathlib.LinearAlgebra.Matrix.Adjugate
import Mathlib.LinearAlgebra.Matrix.Trace
import Mathlib.Tactic.Ring
import Mathlib.Tactic.FieldSimp
import Mathlib.Tactic.Linarith

namespace Brille.Mat
open Matrix

theorem foldl_add_eq {R ι : Type} [AddCommMonoid R] (f : ι → R) (l : List ι) (a : R) :
    l.foldl (fun acc k => acc + f k) a = a + (l.map f).sum := by
  induction l generalizing a with
  | nil => simp
  | cons x l ih => rw [List.foldl_cons, ih]; simp [add_assoc]

theorem finRange_sum {R : Type} [AddCommMonoid R] {n : Nat} (f : Fin n → R) :
    ((List.finRange n).map f).sum = ∑ i, f i := by
  rw [← List.ofFn_eq_map, List.sum_ofFn]

theorem mulArrays_eq {R : Type} [CommRing R] {n l m : Nat} (A : Fin n → Fin l → R)
    (B : Fin l → Fin m → R) : mulArrays A B = (Matrix.of A * Matrix.of B : Matrix _ _ R) := by
  funext i j
  simp only [mulArrays, foldl_add_eq, zero_add, finRange_sum]
  rfl

theorem mulVec_eq {R : Type} [CommRing R] {n l : Nat} (A : Fin n → Fin l → R)
    (b : Fin l → R) : mulVec A b = (Matrix.of A).mulVec b := by
  funext i
  simp only [mulVec, foldl_add_eq, zero_add, finRange_sum]
  rfl

theorem trace_eq {R : Type} [CommRing R] {n : Nat} (A : Fin n → Fin n → R) :
    trace A = (Matrix.of A).trace := by
  simp only [trace, foldl_add_eq, zero_add, finRange_sum]
  rfl

theorem mapIdx_neg_sum {R : Type} [CommRing R] {ι : Type} (l : List ι) (g : Nat → ι → R) :
    (l.mapIdx fun k i => -g k i).sum = -(l.mapIdx g).sum := by
  induction l generalizing g with
  | nil => simp
  | cons x l ih =>
    simp only [List.mapIdx_cons, List.sum_cons, neg_add]
    rw [ih (fun k => g (k + 1))]

theorem foldl_alt {R : Type} [CommRing R] {ι : Type} (f : ι → R) (l : List ι) (d pm : R) :
    l.foldl (fun (s : R × R) i => (s.1 + s.2 * f i, s.2 * (-1))) (d, pm) =
      (d + pm * (l.mapIdx fun k i => (-1) ^ k * f i).sum, pm * (-1) ^ l.length) := by
  induction l generalizing d pm with
  | nil => simp
  | cons x l ih =>
    rw [List.foldl_cons, ih]
    simp only [List.mapIdx_cons, List.sum_cons, pow_zero, one_mul, List.length_cons]
    have : (List.mapIdx (fun k i => (-1 : R) ^ (k + 1) * f i) l).sum =
        - (List.mapIdx (fun k i => (-1 : R) ^ k * f i) l).sum := by
      rw [← mapIdx_neg_sum]
      congr 2
      funext k i
      simp [pow_succ]
    rw [this]
    ext <;> simp <;> ring

theorem finRange_mapIdx {R : Type} {n : Nat} (g : Nat → Fin n → R) :
    (List.finRange n).mapIdx g = (List.finRange n).map fun i => g i.val i := by
  apply List.ext_getElem
  · simp
  · intro k h1 h2
    simp

theorem determinant_eq {R : Type} [CommRing R] : ∀ {n : Nat} (M : Fin (n + 1) → Fin (n + 1) → R),
    determinant M = (Matrix.of M).det
  | 0, M => by simp [determinant]
  | n + 1, M => by
    have ih := fun A => determinant_eq (R := R) (n := n) A
    rw [det_succ_column_zero, determinant]
    have h := foldl_alt (fun i => M i 0 * determinant (cofactor M 0 i)) (List.finRange (n + 2)) 0 1
    simp only [mul_assoc] at h ⊢
    rw [h]
    simp only [zero_add, one_mul]
    rw [finRange_mapIdx (fun k i => (-1 : R) ^ k * (M i 0 * determinant (cofactor M 0 i))),
      finRange_sum]
    apply Finset.sum_congr rfl
    intro i _
    rw [ih]
    simp only [Matrix.of_apply]
    congr 3

theorem adjoint_eq {R : Type} [CommRing R] : ∀ {n : Nat} (M : Fin (n + 1) → Fin (n + 1) → R),
    Matrix.of (adjoint M) = (Matrix.of M).adjugate
  | 0, M => by
    ext i j
    obtain ⟨i, hi⟩ := i
    obtain ⟨j, hj⟩ := j
    have : i = 0 := by omega
    have : j = 0 := by omega
    subst_vars
    simp [adjoint, adjugate_fin_one]
  | n + 1, M => by
    ext i j
    rw [adjugate_fin_succ_eq_det_submatrix]
    simp only [adjoint, Matrix.of_apply]
    rw [determinant_eq]
    have hp : (if (i.val + j.val) % 2 = 0 then (1 : R) else -1) = (-1) ^ (j.val + i.val) := by
      rw [add_comm j.val i.val]
      split
      · next h => exact (Even.neg_one_pow (Nat.even_iff.2 h)).symm
      · next h => exact (Odd.neg_one_pow (Nat.odd_iff.2 (by omega))).symm
    rw [hp]
    rfl

end Brille.Mat
