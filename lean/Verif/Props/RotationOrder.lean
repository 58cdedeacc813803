/-
C14: the order of a rotation, and its kind, from determinant and trace.
-/
import Verif.Proofs.RotationOrder

namespace Brille.Props

open Brille.Sym Brille.Mot Matrix

theorem trace_mat (R : Fin 3 → Fin 3 → ℤ) : Mat.trace R = (Matrix.of R).trace :=
  Mat.trace_eq R

theorem det_mat (R : Fin 3 → Fin 3 → ℤ) : Mat.determinant R = (Matrix.of R).det := Mat.determinant_eq R

/-- The least positive `n` with `A ^ n = 1` is `r`. -/
def HasOrder (A : Matrix (Fin 3) (Fin 3) ℤ) (r : Nat) : Prop :=
  0 < r ∧ A ^ r = 1 ∧ ∀ m, 0 < m → m < r → A ^ m ≠ 1

/-- For a proper rotation the switch over the trace gives the order. -/
theorem proper_switch {A : Matrix (Fin 3) (Fin 3) ℤ} {k : Nat} (hk : 0 < k) (h : A ^ k = 1) (hd : A.det = 1) :
    (A.trace = 3 ∧ HasOrder A 1) ∨ (A.trace = -1 ∧ HasOrder A 2) ∨ (A.trace = 0 ∧ HasOrder A 3) ∨
    (A.trace = 1 ∧ HasOrder A 4) ∨ (A.trace = 2 ∧ HasOrder A 6) := by
  rcases proper_order hk h hd with ⟨t, h1⟩ | ⟨t, h2, n1⟩ | ⟨t, h3, n1, n2⟩ | ⟨t, h4, n1, n2, n3⟩ |
    ⟨t, h6, n1, n2, n3, n4, n5⟩
  · exact Or.inl ⟨t, by norm_num, by rw [pow_one, h1], by intro m h1 h2; omega⟩
  · refine Or.inr (Or.inl ⟨t, by norm_num, h2, ?_⟩)
    intro m hm hm'
    obtain rfl : m = 1 := by omega
    rwa [pow_one]
  · refine Or.inr (Or.inr (Or.inl ⟨t, by norm_num, h3, ?_⟩))
    intro m hm hm'
    obtain rfl | rfl : m = 1 ∨ m = 2 := by omega
    · rwa [pow_one]
    · exact n2
  · refine Or.inr (Or.inr (Or.inr (Or.inl ⟨t, by norm_num, h4, ?_⟩)))
    intro m hm hm'
    obtain rfl | rfl | rfl : m = 1 ∨ m = 2 ∨ m = 3 := by omega
    · rwa [pow_one]
    · exact n2
    · exact n3
  · refine Or.inr (Or.inr (Or.inr (Or.inr ⟨t, by norm_num, h6, ?_⟩)))
    intro m hm hm'
    obtain rfl | rfl | rfl | rfl | rfl : m = 1 ∨ m = 2 ∨ m = 3 ∨ m = 4 ∨ m = 5 := by omega
    · rwa [pow_one]
    · exact n2
    · exact n3
    · exact n4
    · exact n5

/-- **C14.** For every integer matrix of finite order: its determinant is 1 or -1; the reported rotation order
is the least positive exponent that takes the proper part, the matrix times its determinant, to the identity;
the reported kind is that order with the sign of the determinant; and the proper part is what the library
returns as such. -/
theorem C14_rotation_order (R : Fin 3 → Fin 3 → ℤ) (k : Nat) (hk : 0 < k) (h : Matrix.of R ^ k = 1) :
    ((Matrix.of R).det = 1 ∨ (Matrix.of R).det = -1) ∧
    HasOrder ((Matrix.of R).det • Matrix.of R) (rotationOrder R) ∧
    isometryValue R = (Matrix.of R).det * rotationOrder R ∧
    Matrix.of (getProper R) = (Matrix.of R).det • Matrix.of R := by
  have hdet := det_of_finite hk h
  refine ⟨hdet, ?_⟩
  rcases hdet with hd | hd
  · have hne : ¬ Mat.determinant R = -1 := by rw [det_mat, hd]; norm_num
    rw [hd, one_smul]
    have key : HasOrder (Matrix.of R) (rotationOrder R) ∧ isometryValue R = 1 * (rotationOrder R : ℤ) := by
      rcases proper_switch hk h hd with ⟨t, ho⟩ | ⟨t, ho⟩ | ⟨t, ho⟩ | ⟨t, ho⟩ | ⟨t, ho⟩ <;>
      · rw [← trace_mat] at t
        unfold rotationOrder isometryValue isometryType
        dsimp only
        rw [if_neg hne, t]
        exact ⟨ho, rfl⟩
    refine ⟨key.1, key.2, ?_⟩
    unfold getProper
    rw [if_neg (by rw [key.2]; omega)]
  · have heq : Mat.determinant R = -1 := by rw [det_mat, hd]
    rw [hd, neg_one_smul]
    have hfin : (-Matrix.of R) ^ (2 * k) = 1 := by
      rw [pow_mul, neg_sq, ← pow_mul, mul_comm, pow_mul, h, one_pow]
    have hdn : (-Matrix.of R).det = 1 := by
      rw [Matrix.det_neg, hd]; simp
    have htn : (-Matrix.of R).trace = -Mat.trace R := by rw [Matrix.trace_neg, trace_mat]
    have key : HasOrder (-Matrix.of R) (rotationOrder R) ∧ isometryValue R = -1 * (rotationOrder R : ℤ) := by
      rcases proper_switch (by omega) hfin hdn with ⟨t, ho⟩ | ⟨t, ho⟩ | ⟨t, ho⟩ | ⟨t, ho⟩ | ⟨t, ho⟩ <;>
      · rw [htn] at t
        have t' := neg_eq_iff_eq_neg.mp t
        unfold rotationOrder isometryValue isometryType
        dsimp only
        rw [if_pos heq, t']
        exact ⟨ho, rfl⟩
    refine ⟨key.1, key.2, ?_⟩
    have hpos := key.1.1
    unfold getProper
    rw [if_pos (by rw [key.2]; omega)]
    ext i j
    show R i j * -1 = -R i j
    ring

/-- a six-fold rotation and its inversion -/
example : (Matrix.of ![![1, -1, 0], ![1, 0, 0], ![0, 0, 1]] : Matrix (Fin 3) (Fin 3) ℤ) ^ 6 = 1 ∧
    rotationOrder ![![1, -1, 0], ![1, 0, 0], ![0, 0, 1]] = 6 ∧
    isometryValue ![![-1, 1, 0], ![-1, 0, 0], ![0, 0, -1]] = -6 := by decide +kernel

/-- The classification does not recognise matrices that are no symmetry operations: a shear, which has no finite
order, counts as the identity, and a matrix with determinant 2 counts as a four-fold rotation. -/
theorem C14_unchecked_counterexample :
    rotationOrder ![![1, 1, 0], ![0, 1, 0], ![0, 0, 1]] = 1 ∧
    (∀ k, 0 < k → (Matrix.of ![![1, 1, 0], ![0, 1, 0], ![0, 0, 1]] : Matrix (Fin 3) (Fin 3) ℤ) ^ k ≠ 1) ∧
    rotationOrder ![![2, 0, 0], ![0, 0, -1], ![0, 1, -1]] = 4 ∧
    (Matrix.of ![![2, 0, 0], ![0, 0, -1], ![0, 1, -1]] : Matrix (Fin 3) (Fin 3) ℤ).det = 2 := by
  refine ⟨by decide +kernel, ?_, by decide +kernel, by decide +kernel⟩
  intro k hk h
  have : ∀ k : Nat, ((Matrix.of ![![1, 1, 0], ![0, 1, 0], ![0, 0, 1]] : Matrix (Fin 3) (Fin 3) ℤ) ^ k) =
      Matrix.of ![![1, (k : ℤ), 0], ![0, 1, 0], ![0, 0, 1]] := by
    intro k
    induction k with
    | zero => decide
    | succ k ih =>
      rw [pow_succ, ih]
      ext i j
      rw [Matrix.mul_apply, Fin.sum_univ_three]
      fin_cases i <;> fin_cases j <;> simp
      ring
  rw [this] at h
  have h01 := congrFun (congrFun h 0) 1
  simp at h01
  omega

end Brille.Props
