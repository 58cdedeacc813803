/-
Proofs about the costs of pairing modes.
-/
import Mathlib.Analysis.InnerProductSpace.PiL2
import Verif.Model.ModeCost
import Verif.Spec.ModeCost
import Verif.Proofs.LapjvDirect

namespace Brille.ModeCost
open Finset Brille.Spec

theorem sumLoop_eq {S : Type} [AddCommMonoid S] (n : Nat) (f : Nat → S) :
    sumLoop n f = ∑ k ∈ range n, f k := by
  unfold sumLoop
  induction n with
  | zero => simp
  | succ n ih => rw [List.range_succ, List.foldl_append, ih, sum_range_succ]; rfl

/-- the vector of the components `a 0 … a (n-1)` -/
noncomputable def toE (n : Nat) (a : Nat → ℂ) : EuclideanSpace ℂ (Fin n) := WithLp.toLp 2 fun i => a i

theorem hdot_inner (n : Nat) (a b : Nat → ℂ) : hdot n a b = inner ℂ (toE n a) (toE n b) := by
  rw [hdot, PiLp.inner_apply, sum_range]
  refine sum_congr rfl fun i _ => ?_
  simp [toE, mul_comm]

theorem length_norm (n : Nat) (a : Nat → ℂ) : Spec.length n a = ‖toE n a‖ := by
  rw [Spec.length, EuclideanSpace.norm_eq, sum_range]
  rfl

theorem hermitianProduct_eq (n : Nat) (a b : Nat → ℂ) : hermitianProduct n a b = hdot n a b := by
  unfold hermitianProduct
  rw [sumLoop_eq, sumLoop_eq]
  apply Complex.ext <;> simp [hdot]

theorem sqrt_complexProduct (n : Nat) (a b : Nat → ℂ) :
    Real.sqrt (complexProduct n a b) = ‖hdot n a b‖ := by
  unfold complexProduct
  rw [hermitianProduct_eq, Complex.mul_conj, Complex.ofReal_re, Complex.normSq_eq_norm_sq,
    Real.sqrt_sq (norm_nonneg _)]

theorem complexProduct_eq (n : Nat) (a b : Nat → ℂ) : complexProduct n a b = ‖hdot n a b‖ ^ 2 := by
  unfold complexProduct
  rw [hermitianProduct_eq, Complex.mul_conj, Complex.ofReal_re, Complex.normSq_eq_norm_sq]

theorem re_hdot_self (n : Nat) (a : Nat → ℂ) : (hdot n a a).re = Spec.length n a ^ 2 := by
  rw [hdot_inner, length_norm]
  exact inner_self_eq_norm_sq (𝕜 := ℂ) _

theorem length_nonneg (n : Nat) (a : Nat → ℂ) : 0 ≤ Spec.length n a := Real.sqrt_nonneg _

theorem sqrt_self (n : Nat) (a : Nat → ℂ) : Real.sqrt (hermitianProduct n a a).re = Spec.length n a := by
  rw [hermitianProduct_eq, re_hdot_self, Real.sqrt_sq (length_nonneg _ _)]

theorem euclid_self (n : Nat) (a : Nat → ℂ) :
    Real.sqrt (sumLoop n fun i => (a i).re * (a i).re + (a i).im * (a i).im) = Spec.length n a := by
  rw [sumLoop_eq, Spec.length]
  congr 1
  refine sum_congr rfl fun k _ => ?_
  rw [← Complex.normSq_eq_norm_sq, Complex.normSq_apply]

theorem euclid_dot (n : Nat) (a b : Nat → ℂ) :
    (sumLoop n fun i => (a i).re * (b i).re + (a i).im * (b i).im) = (hdot n a b).re := by
  rw [sumLoop_eq, hdot, Complex.re_sum]
  refine sum_congr rfl fun k _ => ?_
  simp [Complex.mul_re]

theorem hdot_le (n : Nat) (a b : Nat → ℂ) : ‖hdot n a b‖ ≤ Spec.length n a * Spec.length n b := by
  rw [hdot_inner, length_norm, length_norm]
  exact norm_inner_le_norm _ _

theorem overlap_nonneg (n : Nat) (a b : Nat → ℂ) : 0 ≤ overlap n a b := by
  unfold overlap
  split
  · exact zero_le_one
  · split
    · exact le_refl _
    · exact div_nonneg (norm_nonneg _) (mul_nonneg (length_nonneg _ _) (length_nonneg _ _))

theorem overlap_le (n : Nat) (a b : Nat → ℂ) : overlap n a b ≤ 1 := by
  unfold overlap
  split
  · exact le_refl _
  · split
    · exact zero_le_one
    · exact div_le_one_of_le₀ (hdot_le n a b) (mul_nonneg (length_nonneg _ _) (length_nonneg _ _))

theorem angleOf_overlap (n : Nat) (a b : Nat → ℂ) :
    angleOf ‖hdot n a b‖ (Spec.length n a) (Spec.length n b) = some (Real.arccos (overlap n a b)) := by
  have h : (if Spec.length n a ≠ 0 ∧ Spec.length n b ≠ 0 then
      ‖hdot n a b‖ / (Spec.length n a * Spec.length n b)
      else if Spec.length n a ≠ 0 ∨ Spec.length n b ≠ 0 then 0 else 1) = overlap n a b := by
    unfold overlap
    by_cases ha : Spec.length n a = 0 <;> by_cases hb : Spec.length n b = 0 <;> simp [ha, hb]
  unfold angleOf
  simp only [h]
  rw [if_neg]
  rw [abs_of_nonneg (overlap_nonneg n a b)]
  exact not_lt.mpr (overlap_le n a b)

theorem hermitianAngle_eq (n : Nat) (a b : Nat → ℂ) :
    hermitianAngle n a b = some (Real.arccos (overlap n a b)) := by
  unfold hermitianAngle
  rw [sqrt_complexProduct, sqrt_self, sqrt_self, angleOf_overlap]

theorem vectorDistance_eq (n : Nat) (a b : Nat → ℂ) : vectorDistance n a b = ‖toE n a - toE n b‖ := by
  rw [vectorDistance, EuclideanSpace.norm_eq, sumLoop_eq, sum_range]
  congr 1
  refine sum_congr rfl fun i _ => ?_
  have : ((a i - b i) * (starRingEnd ℂ) (a i - b i)) = ((‖a i - b i‖ ^ 2 : ℝ) : ℂ) := by
    rw [Complex.mul_conj, Complex.normSq_eq_norm_sq]
  rw [this]
  exact Complex.ofReal_re _

theorem hdot_mul (n : Nat) (a b : Nat → ℂ) (c : ℂ) : hdot n a (fun k => c * b k) = c * hdot n a b := by
  unfold hdot
  rw [mul_sum]
  exact sum_congr rfl fun k _ => by ring

theorem toE_mul (n : Nat) (b : Nat → ℂ) (c : ℂ) : toE n (fun k => c * b k) = c • toE n b := by
  ext i; simp [toE]

theorem length_mul (n : Nat) (b : Nat → ℂ) (c : ℂ) : Spec.length n (fun k => c * b k) = ‖c‖ * Spec.length n b := by
  rw [length_norm, length_norm, toE_mul, norm_smul]

theorem antiphase_hdot (n : Nat) (a b : Nat → ℂ) :
    Interp.antiphase n a b = Complex.exp (-(Complex.arg (hdot n a b)) * Complex.I) := by
  have h : (⟨(List.range n).foldl (fun s i => s + ((a i).re * (b i).re + (a i).im * (b i).im)) 0,
      (List.range n).foldl (fun s i => s + ((a i).re * (b i).im - (a i).im * (b i).re)) 0⟩ : ℂ) =
      hdot n a b := by
    have h1 := sumLoop_eq n fun i => (a i).re * (b i).re + (a i).im * (b i).im
    have h2 := sumLoop_eq n fun i => (a i).re * (b i).im - (a i).im * (b i).re
    unfold sumLoop at h1 h2
    rw [h1, h2]
    apply Complex.ext
    · simp [hdot, Complex.mul_re]
    · simp only [hdot, Complex.im_sum, Complex.mul_im, Complex.conj_re, Complex.conj_im]
      exact sum_congr rfl fun k _ => by ring
  unfold Interp.antiphase
  simp only [h]

theorem antiphase_norm (n : Nat) (a b : Nat → ℂ) : ‖Interp.antiphase n a b‖ = 1 := by
  rw [antiphase_hdot, show -((Complex.arg (hdot n a b) : ℝ) : ℂ) = ((-Complex.arg (hdot n a b) : ℝ) : ℂ) by simp]
  exact Complex.norm_exp_ofReal_mul_I _

theorem antiphase_mul (n : Nat) (a b : Nat → ℂ) :
    Interp.antiphase n a b * hdot n a b = (‖hdot n a b‖ : ℂ) := by
  rw [antiphase_hdot]
  conv_lhs => arg 2; rw [← Complex.norm_mul_exp_arg_mul_I (hdot n a b)]
  rw [mul_comm, mul_assoc, ← Complex.exp_add]
  simp

/-- the vector in phase with another one -/
theorem phased (n : Nat) (a b : Nat → ℂ) :
    hdot n a (fun k => Interp.antiphase n a b * b k) = (‖hdot n a b‖ : ℂ) ∧
      Spec.length n (fun k => Interp.antiphase n a b * b k) = Spec.length n b := by
  rw [hdot_mul, antiphase_mul, length_mul, antiphase_norm, one_mul]
  exact ⟨rfl, rfl⟩

theorem overlap_congr {n : Nat} {a b b' : Nat → ℂ} (h1 : ‖hdot n a b'‖ = ‖hdot n a b‖)
    (h2 : Spec.length n b' = Spec.length n b) : overlap n a b' = overlap n a b := by
  unfold overlap
  rw [h1, h2]

theorem vectorFun_phased (vcf : Int) (n : Nat) (a b : Nat → ℂ) :
    vectorFun complexes vcf n a (fun k => Interp.antiphase n a b * b k) = some (vectorCost vcf n a b) := by
  obtain ⟨h1, h2⟩ := phased n a b
  have h3 : ‖hdot n a (fun k => Interp.antiphase n a b * b k)‖ = ‖hdot n a b‖ := by
    rw [h1]; simp
  have h4 := overlap_congr h3 h2
  unfold vectorFun vectorCost
  split
  · congr 1
    rw [vectorDistance_eq, ← Real.sqrt_sq (norm_nonneg _)]
    congr 1
    rw [@norm_sub_sq ℂ, ← hdot_inner, h1, ← length_norm, ← length_norm, h2]
    simp only [RCLike.re_to_complex, Complex.ofReal_re]
    ring
  · split
    · simp only [complexes, complexProduct_eq, h3]
    · have h5 : complexes.hermitianAngle n a (fun k => Interp.antiphase n a b * b k) =
          some (Real.arccos (overlap n a b)) := by
        simp only [complexes, hermitianAngle_eq, h4]
      by_cases hv3 : vcf = 3
      · subst hv3
        have h6 : complexes.vectorAngle n a (fun k => Interp.antiphase n a b * b k) =
            some (Real.arccos (overlap n a b)) := by
          show euclideanAngle n a _ = _
          unfold euclideanAngle
          rw [euclid_self, euclid_self, euclid_dot, h1, h2, Complex.ofReal_re, angleOf_overlap]
        simp [h6]
      · by_cases hv4 : vcf = 4
        · subst hv4; simp [h5]
        · rw [if_neg hv3, if_neg hv4, if_neg (by simp [hv3, hv4]), h5]
          simp only [Option.map_some, Option.some.injEq, Real.sin_arccos]
          rw [Real.mul_self_sqrt]
          have h0 := overlap_nonneg n a b
          have h6 := overlap_le n a b
          nlinarith

end Brille.ModeCost
