import Verif.Proofs.SymmetryOps
import Mathlib.LinearAlgebra.Matrix.ToLinearEquiv
import Mathlib.LinearAlgebra.Matrix.Trace
import Mathlib.Algebra.Order.Ring.Int
import Mathlib.Tactic.LinearCombination
import Mathlib.Tactic.NoncommRing
import Mathlib.LinearAlgebra.Matrix.DotProduct

namespace Brille.Sym

open Matrix

abbrev M3 := Matrix (Fin 3) (Fin 3) ℤ

/-- the sum of the principal minors -/
def minors (A : M3) : ℤ :=
  A 0 0 * A 1 1 - A 0 1 * A 1 0 + (A 0 0 * A 2 2 - A 0 2 * A 2 0) + (A 1 1 * A 2 2 - A 1 2 * A 2 1)

theorem trace3 (A : M3) : A.trace = A 0 0 + A 1 1 + A 2 2 := by
  rw [Matrix.trace, Fin.sum_univ_three]; rfl

/-- Cayley-Hamilton for three dimensions -/
theorem cayley3 (A : M3) : A ^ 3 = A.trace • A ^ 2 - minors A • A + A.det • (1 : M3) := by
  rw [trace3, det_fin_three]
  ext i j
  simp only [pow_succ, pow_zero, one_mul, Matrix.mul_apply, Fin.sum_univ_three, Matrix.sub_apply,
    Matrix.add_apply, Matrix.smul_apply, smul_eq_mul, minors]
  fin_cases i <;> fin_cases j <;> simp <;> ring

theorem det_of_finite {A : M3} {k : Nat} (hk : 0 < k) (h : A ^ k = 1) : A.det = 1 ∨ A.det = -1 := by
  have h1 : A.det ^ k = 1 := by rw [← det_pow, h, det_one]
  exact Int.isUnit_iff.mp (IsUnit.of_pow_eq_one h1 hk.ne')

/-- the form that `A` leaves unchanged -/
def form (A : M3) (k : Nat) : M3 := ∑ i ∈ Finset.range k, (A ^ i)ᵀ * A ^ i

theorem form_inv {A : M3} {k : Nat} (h : A ^ k = 1) : Aᵀ * form A k * A = form A k := by
  have e : Aᵀ * form A k * A = ∑ i ∈ Finset.range k, (A ^ (i + 1))ᵀ * A ^ (i + 1) := by
    unfold form
    rw [Finset.mul_sum, Finset.sum_mul]
    apply Finset.sum_congr rfl
    intro i _
    rw [pow_succ, transpose_mul]
    simp only [Matrix.mul_assoc]
  have h2 := Finset.sum_range_succ (fun i => (A ^ i)ᵀ * A ^ i) k
  have h3 := Finset.sum_range_succ' (fun i => (A ^ i)ᵀ * A ^ i) k
  rw [h2, h] at h3
  rw [e]
  simpa [form] using h3.symm

theorem form_det {A : M3} {k : Nat} (hk : 0 < k) : (form A k).det ≠ 0 := by
  intro h0
  obtain ⟨v, hv, h⟩ := (exists_mulVec_eq_zero_iff).mpr h0
  have e : v ⬝ᵥ (form A k *ᵥ v) = ∑ i ∈ Finset.range k, (A ^ i *ᵥ v) ⬝ᵥ (A ^ i *ᵥ v) := by
    unfold form
    rw [Matrix.sum_mulVec, dotProduct_sum]
    apply Finset.sum_congr rfl
    intro i _
    rw [← mulVec_mulVec, dotProduct_mulVec, vecMul_transpose]
  rw [h, dotProduct_zero] at e
  have hnn : ∀ w : Fin 3 → ℤ, 0 ≤ w ⬝ᵥ w := fun w => Finset.sum_nonneg fun i _ => mul_self_nonneg _
  have := (Finset.sum_eq_zero_iff_of_nonneg (fun i _ => hnn (A ^ i *ᵥ v))).mp e.symm 0 (Finset.mem_range.mpr hk)
  rw [pow_zero, one_mulVec] at this
  exact hv (dotProduct_self_eq_zero.mp this)

theorem minors_eq_trace {A : M3} {k : Nat} (hk : 0 < k) (h : A ^ k = 1) (hd : A.det = 1) :
    minors A = A.trace := by
  have h1 : Aᵀ * form A k * (A - 1) = (1 - Aᵀ) * form A k := by
    rw [Matrix.mul_sub, form_inv h, Matrix.mul_one, Matrix.sub_mul, Matrix.one_mul]
  have h2 := congrArg det h1
  rw [det_mul, det_mul, det_transpose, hd, one_mul, det_mul] at h2
  have h3 : (1 - Aᵀ).det = -(A - 1).det := by
    rw [show (1 - Aᵀ : M3) = (-(A - 1))ᵀ by simp, det_transpose, det_neg]
    simp
  rw [h3] at h2
  have h4 : (A - 1).det = 0 := by
    have : (form A k).det * (A - 1).det = 0 := by linarith
    exact (mul_eq_zero.mp this).resolve_left (form_det hk)
  rw [det_fin_three] at h4 hd
  rw [trace3, minors]
  simp at h4
  linarith

/-- trace of the powers -/
theorem trace_rec {A : M3} (hd : A.det = 1) (hm : minors A = A.trace) (n : Nat) :
    (A ^ (n + 3)).trace = A.trace * (A ^ (n + 2)).trace - A.trace * (A ^ (n + 1)).trace + (A ^ n).trace := by
  have : A ^ (n + 3) = A.trace • A ^ (n + 2) - A.trace • A ^ (n + 1) + A ^ n := by
    rw [pow_add, cayley3, hd, hm, Matrix.mul_add, Matrix.mul_sub, Matrix.mul_smul, Matrix.mul_smul, one_smul,
      Matrix.mul_one, ← pow_add, ← pow_succ]
  rw [this, trace_add, trace_sub, trace_smul, trace_smul, smul_eq_mul, smul_eq_mul]

theorem trace_sq (A : M3) : (A ^ 2).trace = A.trace ^ 2 - 2 * minors A := by
  rw [pow_two, trace3, trace3, minors]
  simp only [Matrix.mul_apply, Fin.sum_univ_three]
  ring

theorem trace_rec2 {A : M3} (hd : A.det = 1) (hm : minors A = A.trace) (n : Nat) :
    (A ^ (n + 2)).trace - 1 = (A.trace - 1) * ((A ^ (n + 1)).trace - 1) - ((A ^ n).trace - 1) := by
  induction n with
  | zero =>
    have h3 : (1 : M3).trace = 3 := by rw [trace3]; simp
    rw [trace_sq, hm, Nat.zero_add, pow_one, pow_zero, h3]
    ring
  | succ n ih =>
    have := trace_rec hd hm n
    linear_combination this + ih

theorem trace_bound {A : M3} {k : Nat} (hk : 0 < k) (h : A ^ k = 1) (hd : A.det = 1) :
    |A.trace - 1| ≤ 2 := by
  have hm := minors_eq_trace hk h hd
  by_contra hlt
  have hc : 3 ≤ |A.trace - 1| := by omega
  have h3 : (1 : M3).trace = 3 := by rw [trace3]; simp
  have grow : ∀ n, 2 ≤ |(A ^ n).trace - 1| ∧ |(A ^ n).trace - 1| < |(A ^ (n + 1)).trace - 1| := by
    intro n
    induction n with
    | zero =>
      rw [pow_zero, h3, Nat.zero_add, pow_one]
      refine ⟨by norm_num, ?_⟩
      have : |(3 : ℤ) - 1| = 2 := by norm_num
      omega
    | succ n ih =>
      obtain ⟨h1, h2⟩ := ih
      refine ⟨by omega, ?_⟩
      rw [trace_rec2 hd hm n]
      have e := abs_sub_abs_le_abs_sub ((A.trace - 1) * ((A ^ (n + 1)).trace - 1)) ((A ^ n).trace - 1)
      rw [abs_mul] at e
      nlinarith
  have hlast : ∀ n, 0 < n → 2 < |(A ^ n).trace - 1| := by
    intro n hn
    obtain ⟨m, rfl⟩ : ∃ m, n = m + 1 := ⟨n - 1, by omega⟩
    have := grow m
    omega
  have := hlast k hk
  rw [h, h3] at this
  norm_num at this

/-- unipotent and of finite order: the identity -/
theorem one_of_sq_zero {A : M3} {k : Nat} (hk : 0 < k) (h : A ^ k = 1) (h2 : (A - 1) ^ 2 = 0) : A = 1 := by
  have hp : ∀ n : Nat, A ^ n = 1 + n • (A - 1) := by
    intro n
    induction n with
    | zero => simp
    | succ n ih =>
      have e : A ^ (n + 1) = (1 + n • (A - 1)) * (1 + (A - 1)) := by
        rw [← ih, pow_succ]; congr 1; abel
      rw [e, add_mul, mul_add, one_mul, one_mul, mul_add, mul_one, smul_mul_assoc, ← pow_two, h2, smul_zero,
        add_zero, succ_nsmul]
      abel
  have h3 := hp k
  rw [h] at h3
  have h4 : k • (A - 1) = 0 := by
    have := congrArg (fun B => B - 1) h3
    simpa using this.symm
  have h5 : A - 1 = 0 := by
    rw [← Nat.cast_smul_eq_nsmul ℤ] at h4
    rcases smul_eq_zero.mp h4 with h | h
    · exact absurd h (by exact_mod_cast hk.ne')
    · exact h
  exact sub_eq_zero.mp h5

theorem one_of_cube_zero {A : M3} {k : Nat} (hk : 0 < k) (h : A ^ k = 1) (h3 : (A - 1) ^ 3 = 0) : A = 1 := by
  -- the square of a unipotent element of finite order; first show that `(A - 1)²` vanishes
  have hN : ∀ n : Nat, (A - 1) * (A ^ n - 1) = n • (A - 1) ^ 2 := by
    intro n
    induction n with
    | zero => simp
    | succ n ih =>
      have e : A ^ (n + 1) - 1 = (A ^ n - 1) + (A ^ n - 1) * (A - 1) + (A - 1) := by
        rw [pow_succ]; noncomm_ring
      rw [e, mul_add, mul_add, ih, ← mul_assoc, ih, smul_mul_assoc, ← pow_succ, h3, smul_zero, add_zero,
        ← pow_two, succ_nsmul]
  have h4 := hN k
  rw [h, sub_self, mul_zero] at h4
  apply one_of_sq_zero hk h
  rw [← Nat.cast_smul_eq_nsmul ℤ] at h4
  rcases smul_eq_zero.mp h4.symm with h | h
  · exact absurd h (by exact_mod_cast hk.ne')
  · exact h

/-- **The crystallographic restriction** in three dimensions: a proper rotation of finite order has a trace from
-1 to 3, which determines its order. -/
theorem proper_order {A : M3} {k : Nat} (hk : 0 < k) (h : A ^ k = 1) (hd : A.det = 1) :
    (A.trace = 3 ∧ A = 1) ∨ (A.trace = -1 ∧ A ^ 2 = 1 ∧ A ≠ 1) ∨
    (A.trace = 0 ∧ A ^ 3 = 1 ∧ A ≠ 1 ∧ A ^ 2 ≠ 1) ∨
    (A.trace = 1 ∧ A ^ 4 = 1 ∧ A ≠ 1 ∧ A ^ 2 ≠ 1 ∧ A ^ 3 ≠ 1) ∨
    (A.trace = 2 ∧ A ^ 6 = 1 ∧ A ≠ 1 ∧ A ^ 2 ≠ 1 ∧ A ^ 3 ≠ 1 ∧ A ^ 4 ≠ 1 ∧ A ^ 5 ≠ 1) := by
  have hm := minors_eq_trace hk h hd
  have hb := abs_le.mp (trace_bound hk h hd)
  have hch := cayley3 A
  rw [hm, hd, one_smul] at hch
  have h3 : (1 : M3).trace = 3 := by rw [trace3]; simp
  have t0 : (A ^ 0).trace = 3 := by rw [pow_zero, h3]
  have t1 : (A ^ 1).trace = A.trace := by rw [pow_one]
  have t2 := trace_rec2 hd hm 0
  have t3 := trace_rec2 hd hm 1
  have t4 := trace_rec2 hd hm 2
  have t5 := trace_rec2 hd hm 3
  simp only [Nat.reduceAdd] at t2 t3 t4 t5
  have ne : ∀ n, (A ^ n).trace ≠ 3 → A ^ n ≠ 1 := fun n hn he => hn (by rw [he, h3])
  have cases : A.trace = -1 ∨ A.trace = 0 ∨ A.trace = 1 ∨ A.trace = 2 ∨ A.trace = 3 := by omega
  rcases cases with ht | ht | ht | ht | ht
  · -- two-fold
    refine Or.inr (Or.inl ⟨ht, ?_, ?_⟩)
    · have hk2 : (A ^ 2) ^ k = 1 := by rw [← pow_mul, mul_comm, pow_mul, h, one_pow]
      apply one_of_sq_zero hk hk2
      have e : (A ^ 2 - 1) ^ 2 = A * A ^ 3 - 2 • A ^ 2 + 1 := by
        rw [two_nsmul]; noncomm_ring
      rw [e, hch, ht]
      have e2 : A * ((-1 : ℤ) • A ^ 2 - (-1 : ℤ) • A + 1) - 2 • A ^ 2 + 1 =
          -(A ^ 3) - A ^ 2 + A + 1 := by
        noncomm_ring
      rw [e2, hch, ht]
      noncomm_ring
    · have := ne 1 (by rw [t1, ht]; norm_num)
      rwa [pow_one] at this
  · refine Or.inr (Or.inr (Or.inl ⟨ht, ?_, ?_, ?_⟩))
    · rw [hch, ht]; simp
    · have := ne 1 (by rw [t1, ht]; norm_num)
      rwa [pow_one] at this
    · apply ne 2
      rw [t0, t1, ht] at t2
      omega
  · refine Or.inr (Or.inr (Or.inr (Or.inl ⟨ht, ?_, ?_, ?_, ?_⟩)))
    · rw [pow_succ' A 3, hch, ht]
      have e : A * ((1 : ℤ) • A ^ 2 - (1 : ℤ) • A + 1) = A ^ 3 - A ^ 2 + A := by noncomm_ring
      rw [e, hch, ht]
      noncomm_ring
    · have := ne 1 (by rw [t1, ht]; norm_num)
      rwa [pow_one] at this
    · apply ne 2
      rw [t0, t1, ht] at t2
      omega
    · apply ne 3
      rw [t0, t1, ht] at t2
      rw [t1, ht] at t3
      omega
  · refine Or.inr (Or.inr (Or.inr (Or.inr ⟨ht, ?_, ?_, ?_, ?_, ?_, ?_⟩)))
    · have e3 : A ^ 3 = 2 • A ^ 2 - 2 • A + 1 := by
        rw [hch, ht]; noncomm_ring
      have e4 : A ^ 4 = 2 • A ^ 2 - 3 • A + 2 • 1 := by
        have : A ^ 4 = A * A ^ 3 := by noncomm_ring
        rw [this, e3]
        have : A * (2 • A ^ 2 - 2 • A + 1) = 2 • A ^ 3 - 2 • A ^ 2 + A := by noncomm_ring
        rw [this, e3]
        noncomm_ring
      have : A ^ 6 = A ^ 2 * A ^ 4 := by noncomm_ring
      rw [this, e4]
      have : A ^ 2 * (2 • A ^ 2 - 3 • A + 2 • 1) = 2 • A ^ 4 - 3 • A ^ 3 + 2 • A ^ 2 := by noncomm_ring
      rw [this, e4, e3]
      noncomm_ring
    · have := ne 1 (by rw [t1, ht]; norm_num)
      rwa [pow_one] at this
    · apply ne 2
      rw [t0, t1, ht] at t2
      omega
    · apply ne 3
      rw [t0, t1, ht] at t2
      rw [t1, ht] at t3
      omega
    · apply ne 4
      rw [t0, t1, ht] at t2
      rw [t1, ht] at t3
      rw [ht] at t4
      omega
    · apply ne 5
      rw [t0, t1, ht] at t2
      rw [t1, ht] at t3
      rw [ht] at t4 t5
      omega
  · refine Or.inl ⟨ht, ?_⟩
    apply one_of_cube_zero hk h
    have e : (A - 1) ^ 3 = A ^ 3 - 3 • A ^ 2 + 3 • A - 1 := by noncomm_ring
    rw [e, hch, ht]
    noncomm_ring

end Brille.Sym
