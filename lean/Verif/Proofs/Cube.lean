import Verif.Model.Trellis
import Verif.Spec.Trellis
import Mathlib.Tactic.Ring
import Mathlib.Tactic.Linarith
import Mathlib.Tactic.FieldSimp
import Mathlib.Tactic.Positivity
import Mathlib.Tactic.FinCases
import Mathlib.Data.Fin.VecNotation

namespace Brille.Trellis

open Brille.Spec

theorem sum_filter_map {β : Type} (l : List β) (p : β → Bool) (h : β → ℚ) :
    ((l.filter p).map h).sum = (l.map (fun i => if p i then h i else 0)).sum := by
  induction l with
  | nil => rfl
  | cons a l ih => by_cases hp : p a <;> simp [hp, ih]

theorem absProd_eq (a b : Pt) : absProd a b = |a 0 - b 0| * |a 1 - b 1| * |a 2 - b 2| := by
  simp [absProd, List.finRange_succ]

/-- The relative position of `x` in the box. -/
def rel (lo hi x : Pt) (d : Fin 3) : ℚ := (x d - lo d) / (hi d - lo d)

/-- The factor of axis `d` belonging to corner bit `b` of the *opposite* corner. -/
def factor (lo hi x : Pt) (d : Fin 3) (b : Bool) : ℚ := if b then 1 - rel lo hi x d else rel lo hi x d

theorem cubeW_box (lo hi x : Pt) (h : ∀ d, lo d < hi d) (hx : ∀ d, lo d ≤ x d ∧ x d ≤ hi d)
    (i : Fin 8) :
    cubeW (boxCorner lo hi) x i = factor lo hi x 0 (cornerBits i 0) *
      factor lo hi x 1 (cornerBits i 1) * factor lo hi x 2 (cornerBits i 2) := by
  have key : ∀ d (b : Bool), |x d - (if b then hi d else lo d)| =
      factor lo hi x d b * (hi d - lo d) := by
    intro d b
    have h1 : hi d - lo d ≠ 0 := by have := h d; linarith
    cases b
    · simp only [factor, rel, Bool.false_eq_true, if_false]
      rw [abs_of_nonneg (by linarith [(hx d).1])]; field_simp
    · simp only [factor, rel, if_true]
      rw [abs_of_nonpos (by linarith [(hx d).2])]; field_simp; ring
  have hv : absProd (boxCorner lo hi 0) (boxCorner lo hi 7) =
      (hi 0 - lo 0) * (hi 1 - lo 1) * (hi 2 - lo 2) := by
    rw [absProd_eq]
    have : ∀ d, |boxCorner lo hi 0 d - boxCorner lo hi 7 d| = hi d - lo d := by
      intro d
      have h0 : cornerBits 0 d = false := by fin_cases d <;> rfl
      have h7 : cornerBits 7 d = true := by fin_cases d <;> rfl
      simp only [boxCorner, h0, h7, Bool.false_eq_true, if_false, if_true]
      rw [abs_of_nonpos (by linarith [h d])]; ring
    rw [this, this, this]
  rw [cubeW, hv, absProd_eq]
  simp only [boxCorner, key]
  have h0 : hi 0 - lo 0 ≠ 0 := by have := h 0; linarith
  have h1 : hi 1 - lo 1 ≠ 0 := by have := h 1; linarith
  have h2 : hi 2 - lo 2 ≠ 0 := by have := h 2; linarith
  field_simp

theorem rel_bounds (lo hi x : Pt) (h : ∀ d, lo d < hi d) (hx : ∀ d, lo d ≤ x d ∧ x d ≤ hi d) (d) :
    0 ≤ rel lo hi x d ∧ rel lo hi x d ≤ 1 := by
  have h1 : 0 < hi d - lo d := by have := h d; linarith
  refine ⟨div_nonneg (by linarith [(hx d).1]) h1.le, ?_⟩
  rw [rel, div_le_one h1]; linarith [(hx d).2]

theorem factor_bounds (lo hi x : Pt) (h : ∀ d, lo d < hi d) (hx : ∀ d, lo d ≤ x d ∧ x d ≤ hi d)
    (d b) : 0 ≤ factor lo hi x d b ∧ factor lo hi x d b ≤ 1 := by
  have := rel_bounds lo hi x h hx d
  cases b <;> simp [factor, this.1, this.2]

theorem cubeW_bounds (lo hi x : Pt) (h : ∀ d, lo d < hi d) (hx : ∀ d, lo d ≤ x d ∧ x d ≤ hi d)
    (i : Fin 8) : 0 ≤ cubeW (boxCorner lo hi) x i ∧ cubeW (boxCorner lo hi) x i ≤ 1 := by
  rw [cubeW_box lo hi x h hx]
  have f0 := factor_bounds lo hi x h hx 0 (cornerBits i 0)
  have f1 := factor_bounds lo hi x h hx 1 (cornerBits i 1)
  have f2 := factor_bounds lo hi x h hx 2 (cornerBits i 2)
  have h01 := mul_nonneg f0.1 f1.1
  exact ⟨mul_nonneg h01 f2.1,
    mul_le_one₀ (mul_le_one₀ f0.2 f1.1 f1.2) f2.1 f2.2⟩

/-- Summing all eight weights against the values of a trilinear function at the opposite corners gives
the value at `x`. -/
theorem cube_trilinear (lo hi x : Pt) (h : ∀ d, lo d < hi d) (hx : ∀ d, lo d ≤ x d ∧ x d ≤ hi d)
    (f : ℚ → ℚ → ℚ → ℚ) (hf : Trilinear f) :
    ((List.finRange 8).map (fun i => cubeW (boxCorner lo hi) x i *
      f (boxCorner lo hi (7 - i) 0) (boxCorner lo hi (7 - i) 1) (boxCorner lo hi (7 - i) 2))).sum
    = f (x 0) (x 1) (x 2) := by
  have hxd : ∀ d, x d = (1 - rel lo hi x d) * lo d + rel lo hi x d * hi d := by
    intro d
    have h1 : hi d - lo d ≠ 0 := by have := h d; linarith
    simp only [rel]; field_simp; ring
  simp only [cubeW_box lo hi x h hx]
  rw [show f (x 0) (x 1) (x 2) = f ((1 - rel lo hi x 0) * lo 0 + rel lo hi x 0 * hi 0)
    ((1 - rel lo hi x 1) * lo 1 + rel lo hi x 1 * hi 1)
    ((1 - rel lo hi x 2) * lo 2 + rel lo hi x 2 * hi 2) by rw [← hxd, ← hxd, ← hxd]]
  simp only [hf.x, hf.y, hf.z]
  simp only [List.finRange_succ, List.finRange_zero, List.map_cons, List.map_nil, List.sum_cons,
    List.sum_nil]
  simp only [boxCorner]
  simp [cornerBits, factor, Fin.succ]
  ring

end Brille.Trellis
