/-
Proofs about which vectors are paired without cost.
-/
import Verif.Proofs.ModeCost

namespace Brille.ModeCost
open Finset Brille.Spec

theorem length_zero {n : Nat} {a : Nat → ℂ} : Spec.length n a = 0 ↔ ∀ k, k < n → a k = 0 := by
  rw [length_norm, norm_eq_zero]
  constructor
  · intro h k hk
    have := congrArg (fun x : EuclideanSpace ℂ (Fin n) => x ⟨k, hk⟩) h
    simpa [toE] using this
  · intro h
    ext i
    simpa [toE] using h i i.isLt

theorem toE_ne_zero {n : Nat} {a : Nat → ℂ} (h : Spec.length n a ≠ 0) : toE n a ≠ 0 := by
  rwa [length_norm, norm_ne_zero_iff] at h

theorem hdot_lt {n : Nat} {a b : Nat → ℂ} (ha : Spec.length n a ≠ 0) (hb : Spec.length n b ≠ 0)
    (h : ¬ Parallel n a b) : ‖hdot n a b‖ < Spec.length n a * Spec.length n b := by
  refine lt_of_le_of_ne (hdot_le n a b) fun e => h ?_
  rw [hdot_inner, length_norm, length_norm, norm_inner_eq_norm_iff (toE_ne_zero ha) (toE_ne_zero hb)] at e
  obtain ⟨r, hr, e⟩ := e
  refine ⟨r, hr, fun k hk => ?_⟩
  have := congrArg (fun x : EuclideanSpace ℂ (Fin n) => x ⟨k, hk⟩) e
  simpa [toE] using this

theorem not_both_zero {n : Nat} {a b : Nat → ℂ} (h : ¬ Parallel n a b) :
    ¬ (Spec.length n a = 0 ∧ Spec.length n b = 0) := by
  rintro ⟨ha, hb⟩
  refine h ⟨1, one_ne_zero, fun k hk => ?_⟩
  rw [length_zero.mp ha k hk, length_zero.mp hb k hk, mul_zero]

theorem overlap_lt {n : Nat} {a b : Nat → ℂ} (h : ¬ Parallel n a b) : overlap n a b < 1 := by
  unfold overlap
  rw [if_neg (not_both_zero h)]
  split
  · exact zero_lt_one
  · rename_i h0
    rw [not_or] at h0
    have := mul_pos (lt_of_le_of_ne (length_nonneg n a) (Ne.symm h0.1))
      (lt_of_le_of_ne (length_nonneg n b) (Ne.symm h0.2))
    rw [div_lt_one this]
    exact hdot_lt h0.1 h0.2 h

theorem distance_pos {n : Nat} {a b : Nat → ℂ} (h : ¬ Parallel n a b) :
    0 < Spec.length n a ^ 2 + Spec.length n b ^ 2 - 2 * ‖hdot n a b‖ := by
  have ha := length_nonneg n a
  have hb := length_nonneg n b
  have hle := hdot_le n a b
  by_cases h0 : Spec.length n a = 0
  · have : Spec.length n b ≠ 0 := fun e => not_both_zero h ⟨h0, e⟩
    have : 0 < Spec.length n b := lt_of_le_of_ne hb (Ne.symm this)
    rw [h0] at hle ⊢
    nlinarith
  · by_cases h1 : Spec.length n b = 0
    · have : 0 < Spec.length n a := lt_of_le_of_ne ha (Ne.symm h0)
      rw [h1] at hle ⊢
      nlinarith
    · have := hdot_lt h0 h1 h
      nlinarith [sq_nonneg (Spec.length n a - Spec.length n b)]

/-- the vectors have length one where that is needed -/
def NormalisedFor (kind : Int) (n : Nat) (a : Nat → ℂ) : Prop := kind = 2 → Spec.length n a = 1

theorem vectorCost_pos {kind : Int} {n : Nat} {a b : Nat → ℂ} (ha : NormalisedFor kind n a)
    (hb : NormalisedFor kind n b) (h : ¬ Parallel n a b) : 0 < vectorCost kind n a b := by
  unfold vectorCost
  split
  · exact Real.sqrt_pos.mpr (distance_pos h)
  · split
    · rename_i h2
      have := hdot_lt (by rw [ha h2]; exact one_ne_zero) (by rw [hb h2]; exact one_ne_zero) h
      rw [ha h2, hb h2] at this
      nlinarith [norm_nonneg (hdot n a b)]
    · have h1 := overlap_lt h
      have h0 := overlap_nonneg n a b
      split
      · exact Real.arccos_pos.mpr h1
      · nlinarith

theorem hdot_rephased {n : Nat} {a b : Nat → ℂ} (h : Rephased n a b) :
    ‖hdot n a b‖ = Spec.length n a ^ 2 ∧ Spec.length n b = Spec.length n a := by
  obtain ⟨c, hc, h⟩ := h
  have e1 : toE n b = c • toE n a := by
    ext i; simpa [toE] using h i i.isLt
  rw [hdot_inner, length_norm, length_norm, e1, inner_smul_right, norm_mul, norm_smul, hc, one_mul, one_mul,
    inner_self_eq_norm_sq_to_K]
  simp

theorem vectorCost_rephased {kind : Int} {n : Nat} {a b : Nat → ℂ} (ha : NormalisedFor kind n a)
    (h : Rephased n a b) : vectorCost kind n a b = 0 := by
  obtain ⟨h1, h2⟩ := hdot_rephased h
  have h3 : overlap n a b = 1 := by
    unfold overlap
    rw [h1, h2]
    by_cases h0 : Spec.length n a = 0
    · simp [h0]
    · simp only [h0, or_self, if_false, and_self]
      rw [pow_two, div_self (mul_ne_zero h0 h0)]
  unfold vectorCost
  split
  · rw [h1, h2, show Spec.length n a ^ 2 + Spec.length n a ^ 2 - 2 * Spec.length n a ^ 2 = 0 by ring,
      Real.sqrt_zero]
  · split
    · rename_i hk
      rw [h1, ha hk]; norm_num
    · rw [h3]
      split
      · exact Real.arccos_one
      · norm_num

theorem vectorCost_nonneg {kind : Int} {n : Nat} {a b : Nat → ℂ} (ha : NormalisedFor kind n a)
    (hb : NormalisedFor kind n b) : 0 ≤ vectorCost kind n a b := by
  unfold vectorCost
  split
  · exact Real.sqrt_nonneg _
  · split
    · rename_i h2
      have := hdot_le n a b
      rw [ha h2, hb h2] at this
      nlinarith [norm_nonneg (hdot n a b)]
    · have h1 := overlap_le n a b
      have h0 := overlap_nonneg n a b
      split
      · exact Real.arccos_nonneg _
      · nlinarith

theorem hdot_comm (n : Nat) (a b : Nat → ℂ) : ‖hdot n b a‖ = ‖hdot n a b‖ := by
  rw [hdot_inner, hdot_inner, norm_inner_symm]

theorem overlap_comm (n : Nat) (a b : Nat → ℂ) : overlap n b a = overlap n a b := by
  unfold overlap
  rw [hdot_comm, mul_comm (Spec.length n b)]
  by_cases ha : Spec.length n a = 0 <;> by_cases hb : Spec.length n b = 0 <;> simp [ha, hb]

theorem vectorCost_comm (kind : Int) (n : Nat) (a b : Nat → ℂ) :
    vectorCost kind n b a = vectorCost kind n a b := by
  unfold vectorCost
  rw [hdot_comm, overlap_comm, add_comm (Spec.length n b ^ 2)]

theorem rephased_eq {n : Nat} {b b' : Nat → ℂ} (h : Rephased n b b') (a : Nat → ℂ) :
    ‖hdot n a b'‖ = ‖hdot n a b‖ := by
  obtain ⟨c, hc, h⟩ := h
  have e1 : toE n b' = c • toE n b := by
    ext i; simpa [toE] using h i i.isLt
  rw [hdot_inner, hdot_inner, e1, inner_smul_right, norm_mul, hc, one_mul]

theorem vectorCost_phase {n : Nat} {b b' : Nat → ℂ} (h : Rephased n b b') (kind : Int) (a : Nat → ℂ) :
    vectorCost kind n a b' = vectorCost kind n a b := by
  have h1 := rephased_eq h a
  have h2 := (hdot_rephased h).2
  unfold vectorCost
  rw [overlap_congr h1 h2, h1, h2]

end Brille.ModeCost
