import Verif.Model.Lattice
import Verif.Spec.Lattice
import Verif.Proofs.Matrix
import Verif.Props.Matrix
import Mathlib.LinearAlgebra.Matrix.NonsingularInverse
import Mathlib.Tactic.FinCases
import Mathlib.Tactic.FieldSimp
import Mathlib.Tactic.LinearCombination
import Mathlib.Tactic.NormNum
import Mathlib.Tactic.Positivity

/-! Helper lemmas for C64 and C65. -/
namespace Brille.Lat
open Brille.Mat Brille.Spec
open Brille.Rot (LengthUnit)

/-! ### cosines and sines -/

theorem cosAndSin_eq (r : ℝ) : cosAndSin r = (Real.cos r, Real.sin r) := by
  unfold cosAndSin
  split_ifs with h1 h2 h3 h4 h5
  · rw [← h1]; simp
  · rw [← h2]; simp
  · rw [← h3]; simp
  · rw [← h4, show 2 * Real.pi / 3 = Real.pi - Real.pi / 3 by ring, Real.cos_pi_sub, Real.sin_pi_sub]; simp
  · rw [← h5]; simp
  · rfl

theorem quarter (x : ℝ) (q : ℤ) : x / 180 * Real.pi = (x - 90 * q) / 180 * Real.pi + q * (Real.pi / 2) := by ring

theorem cos_quarter (y : ℝ) (q : ℤ) :
    Real.cos (y + q * (Real.pi / 2)) = if q % 4 = 0 then Real.cos y else if q % 4 = 1 then Real.sin (-y + 0)
      else if q % 4 = 2 then -Real.cos y else if q % 4 = 3 then Real.sin (y + 0) else 0 := by
  obtain ⟨k, hk⟩ : ∃ k, q = q % 4 + 4 * k := ⟨q / 4, by omega⟩
  have e : Real.cos (y + q * (Real.pi / 2)) = Real.cos (y + (q % 4 : ℤ) * (Real.pi / 2)) := by
    rw [← Real.cos_add_int_mul_two_pi (y + (q % 4 : ℤ) * (Real.pi / 2)) k]
    congr 1
    conv_lhs => rw [hk]
    push_cast; ring
  rw [e]
  have h4 : q % 4 = 0 ∨ q % 4 = 1 ∨ q % 4 = 2 ∨ q % 4 = 3 := by omega
  rcases h4 with h | h | h | h
  · simp [h]
  · simp [h, Real.cos_add_pi_div_two]
  · rw [h]; push_cast
    rw [show y + 2 * (Real.pi / 2) = y + Real.pi by ring, Real.cos_add_pi]
  · rw [h]; push_cast
    rw [show y + 3 * (Real.pi / 2) = (y + Real.pi) + Real.pi / 2 by ring, Real.cos_add_pi_div_two, Real.sin_add_pi]
    simp

theorem sin_quarter (y : ℝ) (q : ℤ) :
    Real.sin (y + q * (Real.pi / 2)) = if q % 4 = 0 then Real.sin (y * 1) else if q % 4 = 1 then Real.cos y
      else if q % 4 = 2 then Real.sin (-y * 1) else if q % 4 = 3 then -Real.cos y else 0 := by
  obtain ⟨k, hk⟩ : ∃ k, q = q % 4 + 4 * k := ⟨q / 4, by omega⟩
  have e : Real.sin (y + q * (Real.pi / 2)) = Real.sin (y + (q % 4 : ℤ) * (Real.pi / 2)) := by
    rw [← Real.sin_add_int_mul_two_pi (y + (q % 4 : ℤ) * (Real.pi / 2)) k]
    congr 1
    conv_lhs => rw [hk]
    push_cast; ring
  rw [e]
  have h4 : q % 4 = 0 ∨ q % 4 = 1 ∨ q % 4 = 2 ∨ q % 4 = 3 := by omega
  rcases h4 with h | h | h | h
  · simp [h]
  · simp [h, Real.sin_add_pi_div_two]
  · rw [h]; push_cast
    rw [show y + 2 * (Real.pi / 2) = y + Real.pi by ring, Real.sin_add_pi]; simp
  · rw [h]; push_cast
    rw [show y + 3 * (Real.pi / 2) = (y + Real.pi) + Real.pi / 2 by ring, Real.sin_add_pi_div_two, Real.cos_add_pi]

theorem cosd_eq (d : ℝ) : cosd d = Real.cos (d / 180 * Real.pi) := by
  have e : Real.cos (d / 180 * Real.pi) = Real.cos (|d| / 180 * Real.pi) := by
    rcases abs_choice d with h | h
    · rw [h]
    · rw [h, ← Real.cos_neg]; congr 1; ring
  rw [e, quarter |d| (quotient90 |d|), cos_quarter]
  rfl

theorem sindPos_eq (d : ℝ) (hd : 0 ≤ d) : sindPos d = Real.sin (d / 180 * Real.pi) := by
  have e : |d| = d := abs_of_nonneg hd
  conv_rhs => rw [← e]
  rw [quarter |d| (quotient90 |d|), sin_quarter]
  rfl

theorem sind_eq (d : ℝ) : sind d = Real.sin (d / 180 * Real.pi) := by
  unfold sind
  split_ifs with h
  · rw [sindPos_eq _ (by linarith), ← Real.sin_neg]
    congr 1; ring
  · exact sindPos_eq d (by linarith)

theorem cosAndSinD_eq (d : ℝ) : cosAndSinD d = (Real.cos (d / 180 * Real.pi), Real.sin (d / 180 * Real.pi)) := by
  unfold cosAndSinD
  split_ifs with h1 h2 h3 h4 h5 h6 h7 h8 h9
  · rw [← h1]; simp
  · rw [← h2, show (30 : ℝ) / 180 * Real.pi = Real.pi / 6 by ring]; simp
  · rw [← h3, show (45 : ℝ) / 180 * Real.pi = Real.pi / 4 by ring]; simp
  · rw [← h4, show (60 : ℝ) / 180 * Real.pi = Real.pi / 3 by ring]; simp
  · rw [← h5, show (90 : ℝ) / 180 * Real.pi = Real.pi / 2 by ring]; simp
  · rw [← h6, show (120 : ℝ) / 180 * Real.pi = Real.pi - Real.pi / 3 by ring, Real.cos_pi_sub, Real.sin_pi_sub]; simp
  · rw [← h7, show (135 : ℝ) / 180 * Real.pi = Real.pi - Real.pi / 4 by ring, Real.cos_pi_sub, Real.sin_pi_sub]; simp
  · rw [← h8, show (150 : ℝ) / 180 * Real.pi = Real.pi - Real.pi / 6 by ring, Real.cos_pi_sub, Real.sin_pi_sub]; simp
  · rw [← h9, show (180 : ℝ) / 180 * Real.pi = Real.pi by ring]; simp
  · rw [cosd_eq, sind_eq]

/-! ### parameters -/

/-- the square of the volume of a cell with unit lengths -/
def vol2 (c : V3) : ℝ := 1 - (c 0 * c 0 + c 1 * c 1 + c 2 * c 2) + 2 * c 0 * c 1 * c 2

structure Valid (p : Params) : Prop where
  len : ∀ i, 0 < p.len i
  sin : ∀ i, 0 < p.sin i
  unit : ∀ i, p.sin i * p.sin i = 1 - p.cos i * p.cos i
  vol : 0 < vol2 p.cos

theorem unitVolume_eq (c : V3) : unitVolume c = if vol2 c ≤ 0 then none else some (Real.sqrt (vol2 c)) := by
  unfold unitVolume vol2
  simp only [zero_add]

/-- the scalar products of basis vectors with these parameters -/
def gram (p : Params) : M3 :=
  ![![p.len 0 * p.len 0, p.len 0 * p.len 1 * p.cos 2, p.len 0 * p.len 2 * p.cos 1],
    ![p.len 0 * p.len 1 * p.cos 2, p.len 1 * p.len 1, p.len 1 * p.len 2 * p.cos 0],
    ![p.len 0 * p.len 2 * p.cos 1, p.len 1 * p.len 2 * p.cos 0, p.len 2 * p.len 2]]

/-- the dual parameters, spelled out -/
theorem dual_spelled {p d : Params} (hp : Valid p) (hd : dualParams p = some d) :
    ∃ v, 0 < v ∧ v * v = vol2 p.cos ∧
      d.len 0 = 2 * Real.pi * p.sin 0 / (p.len 0 * v) ∧ d.len 1 = 2 * Real.pi * p.sin 1 / (p.len 1 * v) ∧
      d.len 2 = 2 * Real.pi * p.sin 2 / (p.len 2 * v) ∧
      d.cos 0 = (p.cos 1 * p.cos 2 - p.cos 0) / (p.sin 1 * p.sin 2) ∧
      d.cos 1 = (p.cos 2 * p.cos 0 - p.cos 1) / (p.sin 2 * p.sin 0) ∧
      d.cos 2 = (p.cos 0 * p.cos 1 - p.cos 2) / (p.sin 0 * p.sin 1) ∧
      d.sin 0 = v / (p.sin 1 * p.sin 2) ∧ d.sin 1 = v / (p.sin 2 * p.sin 0) ∧ d.sin 2 = v / (p.sin 0 * p.sin 1) := by
  have hv := hp.vol
  unfold dualParams at hd
  rw [unitVolume_eq, if_neg (not_le.mpr hv), Option.map_some, Option.some.injEq] at hd
  have hpos := Real.sqrt_pos.mpr hv
  have hsq := Real.mul_self_sqrt hv.le
  set v := Real.sqrt (vol2 p.cos) with hvdef
  clear_value v
  have s0 := hp.sin 0
  have s1 := hp.sin 1
  have s2 := hp.sin 2
  have u0 := hp.unit 0
  have u1 := hp.unit 1
  have u2 := hp.unit 2
  have key : ∀ x s t : ℝ, 0 < s → 0 < t → 1 - x * x = (v / (s * t)) * (v / (s * t)) →
      Real.sqrt (1 - x * x) = v / (s * t) := by
    intro x s t hs ht h
    rw [h]
    exact Real.sqrt_mul_self (by positivity)
  subst hd
  refine ⟨v, hpos, hsq, ?_, ?_, ?_, rfl, rfl, rfl, ?_, ?_, ?_⟩
  · simp only [div_div]
  · simp only [div_div]
  · simp only [div_div]
  · apply key _ _ _ s1 s2
    show 1 - (p.cos 1 * p.cos 2 - p.cos 0) / (p.sin 1 * p.sin 2) * ((p.cos 1 * p.cos 2 - p.cos 0) / (p.sin 1 * p.sin 2)) = _
    field_simp
    unfold vol2 at hsq
    linear_combination (p.sin 2 * p.sin 2) * u1 + (1 - p.cos 1 * p.cos 1) * u2 - hsq
  · apply key _ _ _ s2 s0
    show 1 - (p.cos 2 * p.cos 0 - p.cos 1) / (p.sin 2 * p.sin 0) * ((p.cos 2 * p.cos 0 - p.cos 1) / (p.sin 2 * p.sin 0)) = _
    field_simp
    unfold vol2 at hsq
    linear_combination (p.sin 2 * p.sin 2) * u0 + (1 - p.cos 0 * p.cos 0) * u2 - hsq
  · apply key _ _ _ s0 s1
    show 1 - (p.cos 0 * p.cos 1 - p.cos 2) / (p.sin 0 * p.sin 1) * ((p.cos 0 * p.cos 1 - p.cos 2) / (p.sin 0 * p.sin 1)) = _
    field_simp
    unfold vol2 at hsq
    linear_combination (p.sin 1 * p.sin 1) * u0 + (1 - p.cos 0 * p.cos 0) * u1 - hsq

theorem vol2_dual {p d : Params} (hp : Valid p) (hd : dualParams p = some d) :
    vol2 d.cos = (vol2 p.cos / (p.sin 0 * p.sin 1 * p.sin 2)) * (vol2 p.cos / (p.sin 0 * p.sin 1 * p.sin 2)) := by
  obtain ⟨v, hv, hvv, -, -, -, c0, c1, c2, -, -, -⟩ := dual_spelled hp hd
  have s0 := hp.sin 0
  have s1 := hp.sin 1
  have s2 := hp.sin 2
  have u0 := hp.unit 0
  have u1 := hp.unit 1
  have u2 := hp.unit 2
  have e0 : p.sin 0 ^ 2 = 1 - p.cos 0 ^ 2 := by rw [sq, sq]; exact u0
  have e1 : p.sin 1 ^ 2 = 1 - p.cos 1 ^ 2 := by rw [sq, sq]; exact u1
  have e2 : p.sin 2 ^ 2 = 1 - p.cos 2 ^ 2 := by rw [sq, sq]; exact u2
  unfold vol2
  rw [c0, c1, c2]
  field_simp
  rw [e0, e1, e2]
  ring

theorem dual_valid {p d : Params} (hp : Valid p) (hd : dualParams p = some d) : Valid d := by
  have hvd := vol2_dual hp hd
  obtain ⟨v, hv, hvv, l0, l1, l2, c0, c1, c2, t0, t1, t2⟩ := dual_spelled hp hd
  have s0 := hp.sin 0
  have s1 := hp.sin 1
  have s2 := hp.sin 2
  have a0 := hp.len 0
  have a1 := hp.len 1
  have a2 := hp.len 2
  have u0 := hp.unit 0
  have u1 := hp.unit 1
  have u2 := hp.unit 2
  have hvol := hp.vol
  have hpi := Real.pi_pos
  refine ⟨?_, ?_, ?_, ?_⟩
  · intro i; fin_cases i
    · show 0 < d.len 0; rw [l0]; positivity
    · show 0 < d.len 1; rw [l1]; positivity
    · show 0 < d.len 2; rw [l2]; positivity
  · intro i; fin_cases i
    · show 0 < d.sin 0; rw [t0]; positivity
    · show 0 < d.sin 1; rw [t1]; positivity
    · show 0 < d.sin 2; rw [t2]; positivity
  · unfold vol2 at hvv
    intro i; fin_cases i
    · show d.sin 0 * d.sin 0 = 1 - d.cos 0 * d.cos 0
      rw [t0, c0]; field_simp
      linear_combination hvv - (p.sin 2 * p.sin 2) * u1 - (1 - p.cos 1 * p.cos 1) * u2
    · show d.sin 1 * d.sin 1 = 1 - d.cos 1 * d.cos 1
      rw [t1, c1]; field_simp
      linear_combination hvv - (p.sin 2 * p.sin 2) * u0 - (1 - p.cos 0 * p.cos 0) * u2
    · show d.sin 2 * d.sin 2 = 1 - d.cos 2 * d.cos 2
      rw [t2, c2]; field_simp
      linear_combination hvv - (p.sin 1 * p.sin 1) * u0 - (1 - p.cos 0 * p.cos 0) * u1
  · rw [hvd]; positivity

theorem dual_some {p : Params} (hp : Valid p) : ∃ d, dualParams p = some d := by
  unfold dualParams
  rw [unitVolume_eq, if_neg (not_le.mpr hp.vol)]
  exact ⟨_, rfl⟩

theorem dual_none {p : Params} (h : vol2 p.cos ≤ 0) : dualParams p = none := by
  unfold dualParams
  rw [unitVolume_eq, if_pos h]; rfl

/-- the dual of the dual are the parameters -/
theorem dual_dual {p d e : Params} (hp : Valid p) (hd : dualParams p = some d) (he : dualParams d = some e) :
    e.len 2 = p.len 2 ∧ e.cos 0 = p.cos 0 := by
  have hdv := dual_valid hp hd
  have hvd := vol2_dual hp hd
  obtain ⟨v, hv, hvv, l0, l1, l2, c0, c1, c2, t0, t1, t2⟩ := dual_spelled hp hd
  obtain ⟨w, hw, hww, -, -, m2, b0, -, -, -, -, -⟩ := dual_spelled hdv he
  have s0 := hp.sin 0
  have s1 := hp.sin 1
  have s2 := hp.sin 2
  have a2 := hp.len 2
  have u0 := hp.unit 0
  have u1 := hp.unit 1
  have u2 := hp.unit 2
  have hpi := Real.pi_pos
  have hwe : w = v * v / (p.sin 0 * p.sin 1 * p.sin 2) := by
    rw [hvd, ← hvv] at hww
    rcases mul_self_eq_mul_self_iff.mp hww with h | h
    · exact h
    · exfalso
      have : 0 < v * v / (p.sin 0 * p.sin 1 * p.sin 2) := by positivity
      linarith
  constructor
  · rw [m2, l2, t2, hwe]; field_simp
  · rw [b0, c0, c1, c2, t1, t2]
    field_simp
    unfold vol2 at hvv
    have e0 : p.sin 0 ^ 2 = 1 - p.cos 0 ^ 2 := by rw [sq, sq]; exact u0
    first
      | linear_combination (p.cos 0) * hvv
      | (rw [show v ^ 2 = v * v by ring, hvv, e0]; ring)

/-- the products of the columns of the matrix -/
theorem bMatrix_gram {p d : Params} (hp : Valid p) (hd : dualParams p = some d) (i j : Fin 3) :
    columnDot (bMatrix d p) (bMatrix d p) i j = gram p i j := by
  obtain ⟨v, hv, hvv, -, -, l2, c0, -, -, -, -, -⟩ := dual_spelled hp hd
  have s1 := hp.sin 1
  have s2 := hp.sin 2
  have a2 := hp.len 2
  have u1 := hp.unit 1
  have u2 := hp.unit 2
  have hpi := Real.pi_pos
  have x0 : bMatrix d p 1 2 = -p.len 2 * p.sin 1 * ((p.cos 1 * p.cos 2 - p.cos 0) / (p.sin 1 * p.sin 2)) := by
    rw [← c0]; rfl
  have x1 : bMatrix d p 2 2 = p.len 2 * v / p.sin 2 := by
    show 2 * Real.pi / d.len 2 = _
    rw [l2]; field_simp
  have x2 : bMatrix d p 0 2 = p.len 2 * p.cos 1 := rfl
  have y0 : bMatrix d p 0 1 = p.len 1 * p.cos 2 := rfl
  have y1 : bMatrix d p 1 1 = p.len 1 * p.sin 2 := rfl
  have y2 : bMatrix d p 2 1 = 0 := rfl
  have z0 : bMatrix d p 0 0 = p.len 0 := rfl
  have z1 : bMatrix d p 1 0 = 0 := rfl
  have z2 : bMatrix d p 2 0 = 0 := rfl
  have g : ∀ i j, gram p i j = gram p j i := by
    intro i j; fin_cases i <;> fin_cases j <;> rfl
  have k12 : columnDot (bMatrix d p) (bMatrix d p) 1 2 = p.len 1 * p.len 2 * p.cos 0 := by
    unfold columnDot; rw [x0, x1, x2, y0, y1, y2]; field_simp; ring
  have k22 : columnDot (bMatrix d p) (bMatrix d p) 2 2 = p.len 2 * p.len 2 := by
    unfold columnDot; rw [x0, x1, x2]
    unfold vol2 at hvv
    field_simp
    linear_combination hvv + (p.cos 1 * p.cos 1 - 1) * u2
  have sym : ∀ i j, columnDot (bMatrix d p) (bMatrix d p) i j = columnDot (bMatrix d p) (bMatrix d p) j i := by
    intro i j; unfold columnDot; ring
  fin_cases i <;> fin_cases j
  · show columnDot _ _ 0 0 = p.len 0 * p.len 0
    unfold columnDot; rw [z0, z1, z2]; ring
  · show columnDot _ _ 0 1 = p.len 0 * p.len 1 * p.cos 2
    unfold columnDot; rw [z0, z1, z2, y0]; ring
  · show columnDot _ _ 0 2 = p.len 0 * p.len 2 * p.cos 1
    unfold columnDot; rw [z0, z1, z2, x2]; ring
  · show columnDot _ _ 1 0 = p.len 0 * p.len 1 * p.cos 2
    unfold columnDot; rw [z0, z1, z2, y0]; ring
  · show columnDot _ _ 1 1 = p.len 1 * p.len 1
    unfold columnDot; rw [y0, y1, y2]; linear_combination (p.len 1 * p.len 1) * u2
  · exact k12
  · show columnDot _ _ 2 0 = p.len 0 * p.len 2 * p.cos 1
    unfold columnDot; rw [z0, z1, z2, x2]; ring
  · exact (sym 2 1).trans k12
  · exact k22

/-- the Gram matrices of the parameters and of their duals are inverse up to `4π²` -/
theorem gram_dual {p d : Params} (hp : Valid p) (hd : dualParams p = some d) (i j : Fin 3) :
    gram p i 0 * gram d 0 j + gram p i 1 * gram d 1 j + gram p i 2 * gram d 2 j
      = if i = j then 4 * (Real.pi * Real.pi) else 0 := by
  obtain ⟨v, hv, hvv, l0, l1, l2, c0, c1, c2, -, -, -⟩ := dual_spelled hp hd
  have s0 := hp.sin 0
  have s1 := hp.sin 1
  have s2 := hp.sin 2
  have a0 := hp.len 0
  have a1 := hp.len 1
  have a2 := hp.len 2
  have u0 := hp.unit 0
  have u1 := hp.unit 1
  have u2 := hp.unit 2
  unfold vol2 at hvv
  have d00 : d.len 0 * d.len 0 = 4 * (Real.pi * Real.pi) * (1 - p.cos 0 * p.cos 0) / (p.len 0 * p.len 0 * (v * v)) := by
    rw [l0, ← u0]; field_simp; ring
  have d11 : d.len 1 * d.len 1 = 4 * (Real.pi * Real.pi) * (1 - p.cos 1 * p.cos 1) / (p.len 1 * p.len 1 * (v * v)) := by
    rw [l1, ← u1]; field_simp; ring
  have d22 : d.len 2 * d.len 2 = 4 * (Real.pi * Real.pi) * (1 - p.cos 2 * p.cos 2) / (p.len 2 * p.len 2 * (v * v)) := by
    rw [l2, ← u2]; field_simp; ring
  have d01 : d.len 0 * d.len 1 * d.cos 2
      = 4 * (Real.pi * Real.pi) * (p.cos 0 * p.cos 1 - p.cos 2) / (p.len 0 * p.len 1 * (v * v)) := by
    rw [l0, l1, c2]; field_simp; ring
  have d02 : d.len 0 * d.len 2 * d.cos 1
      = 4 * (Real.pi * Real.pi) * (p.cos 2 * p.cos 0 - p.cos 1) / (p.len 0 * p.len 2 * (v * v)) := by
    rw [l0, l2, c1]; field_simp; ring
  have d12 : d.len 1 * d.len 2 * d.cos 0
      = 4 * (Real.pi * Real.pi) * (p.cos 1 * p.cos 2 - p.cos 0) / (p.len 1 * p.len 2 * (v * v)) := by
    rw [l1, l2, c0]; field_simp; ring
  have g : gram d = ![![_, _, _], ![_, _, _], ![_, _, _]] := rfl
  rw [g, d00, d11, d22, d01, d02, d12]
  have hvv' : v ^ 2 = 1 - (p.cos 0 * p.cos 0 + p.cos 1 * p.cos 1 + p.cos 2 * p.cos 2) + 2 * p.cos 0 * p.cos 1 * p.cos 2 := by
    rw [sq]; exact hvv
  fin_cases i <;> fin_cases j <;> simp [gram] <;> field_simp <;> first | ring1 | (rw [hvv']; ring1)

/-! ### matrices -/

theorem columnDot_eq (A B : M3) (i j : Fin 3) : columnDot A B i j = ((Matrix.of A).transpose * Matrix.of B) i j := by
  simp [columnDot, Matrix.mul_apply, Fin.sum_univ_three]

theorem dual_iff (A B : M3) :
    DualBases A B ↔ (Matrix.of A).transpose * Matrix.of B = (2 * Real.pi) • (1 : Matrix (Fin 3) (Fin 3) ℝ) := by
  constructor
  · intro h
    ext i j
    rw [← columnDot_eq, h i j, Matrix.smul_apply, Matrix.one_apply]
    simp
  · intro h i j
    rw [columnDot_eq, h, Matrix.smul_apply, Matrix.one_apply]
    simp

theorem twoPi : (2 * Real.pi) ≠ 0 := by have := Real.pi_pos; positivity

/-- the other product of dual bases -/
theorem dual_right {A B : M3} (h : DualBases A B) :
    Matrix.of A * (Matrix.of B).transpose = (2 * Real.pi) • (1 : Matrix (Fin 3) (Fin 3) ℝ) := by
  have h := (dual_iff A B).mp h
  have h1 : (Matrix.of A).transpose * ((2 * Real.pi)⁻¹ • Matrix.of B) = 1 := by
    rw [Matrix.mul_smul, h, smul_smul, inv_mul_cancel₀ twoPi, one_smul]
  have h2 := mul_eq_one_comm.mp h1
  have h3 : Matrix.of B * (Matrix.of A).transpose = (2 * Real.pi) • (1 : Matrix (Fin 3) (Fin 3) ℝ) := by
    rw [Matrix.smul_mul] at h2
    rw [← h2, smul_smul, mul_inv_cancel₀ twoPi, one_smul]
  have h4 := congrArg Matrix.transpose h3
  rwa [Matrix.transpose_mul, Matrix.transpose_transpose, Matrix.transpose_smul, Matrix.transpose_one] at h4

theorem dual_symm {A B : M3} (h : DualBases A B) : DualBases B A := by
  intro i j
  have e := h j i
  have : columnDot B A i j = columnDot A B j i := by unfold columnDot; ring
  rw [this, e]
  by_cases hij : i = j
  · rw [if_pos hij, if_pos hij.symm]
  · rw [if_neg hij, if_neg (fun h => hij h.symm)]

theorem dual_det {A B : M3} (h : DualBases A B) :
    Matrix.det (Matrix.of A) * Matrix.det (Matrix.of B) = (2 * Real.pi) ^ 3 := by
  have e := congrArg Matrix.det ((dual_iff A B).mp h)
  rw [Matrix.det_mul, Matrix.det_transpose, Matrix.det_smul, Matrix.det_one, Fintype.card_fin, mul_one] at e
  exact e

theorem metricOf_eq (m : M3) (i j : Fin 3) : metricOf m i j = columnDot m m i j := by
  unfold metricOf
  rw [mulArrays_eq, columnDot_eq]; rfl

/-- a lattice as its constructors leave it -/
structure Healthy (l : Lattice) : Prop where
  dual : DualBases l.real l.recip
  realMetric : ∀ i j, l.realMetric i j = columnDot l.real l.real i j
  recipMetric : ∀ i j, l.recipMetric i j = columnDot l.recip l.recip i j

theorem withMetrics_healthy {A B : M3} (h : DualBases A B) : Healthy (withMetrics A B) :=
  ⟨h, fun i j => metricOf_eq A i j, fun i j => metricOf_eq B i j⟩

/-- the dual of a matrix -/
theorem other_dual {m : M3} (h : Matrix.det (Matrix.of m) ≠ 0) :
    DualBases m (transpose fun i j => matInverse m i j * (2 * Real.pi)) := by
  obtain ⟨N, hN⟩ := (Brille.Props.C13_inverse_field_exists m).mpr h
  have hinv := (Brille.Props.C13_inverse_field m 0 le_rfl).2.2 N hN
  have hm : matInverse m = N := by unfold matInverse; rw [hN]; rfl
  intro i j
  rw [hm]
  have e := (hinv j i).1
  rw [Fin.sum_univ_three] at e
  show m 0 i * (N j 0 * (2 * Real.pi)) + m 1 i * (N j 1 * (2 * Real.pi)) + m 2 i * (N j 2 * (2 * Real.pi)) = _
  have : m 0 i * (N j 0 * (2 * Real.pi)) + m 1 i * (N j 1 * (2 * Real.pi)) + m 2 i * (N j 2 * (2 * Real.pi))
      = (N j 0 * m 0 i + N j 1 * m 1 i + N j 2 * m 2 i) * (2 * Real.pi) := by ring
  rw [this, e]
  by_cases hij : i = j
  · rw [if_pos hij, if_pos hij.symm, one_mul]
  · rw [if_neg hij, if_neg (fun h => hij h.symm), zero_mul]

theorem fromMatrix_spec {m : M3} {lu : LengthUnit} {l : Lattice} (h : Matrix.det (Matrix.of m) ≠ 0)
    (hl : fromMatrix m lu = some l) : Healthy l ∧ l.vectors lu = some m := by
  cases lu <;> simp only [fromMatrix, Option.some.injEq, reduceCtorEq] at hl
  · subst hl
    exact ⟨withMetrics_healthy (other_dual h), rfl⟩
  · subst hl
    exact ⟨withMetrics_healthy (dual_symm (other_dual h)), rfl⟩

/-- Gram matrices of dual bases -/
theorem dual_gram {A B : M3} (h : DualBases A B) :
    ((Matrix.of A).transpose * Matrix.of A) * ((Matrix.of B).transpose * Matrix.of B)
      = (4 * (Real.pi * Real.pi)) • (1 : Matrix (Fin 3) (Fin 3) ℝ) := by
  have h1 := dual_right h
  have h2 := (dual_iff A B).mp h
  calc ((Matrix.of A).transpose * Matrix.of A) * ((Matrix.of B).transpose * Matrix.of B)
      = (Matrix.of A).transpose * (Matrix.of A * (Matrix.of B).transpose) * Matrix.of B := by
        simp only [Matrix.mul_assoc]
    _ = _ := by
        rw [h1, Matrix.mul_smul, Matrix.mul_one, Matrix.smul_mul, h2, smul_smul]
        congr 1; ring

theorem gram_smul {p d : Params} (hp : Valid p) (hd : dualParams p = some d) :
    Matrix.of (gram p) * Matrix.of (gram d) = (4 * (Real.pi * Real.pi)) • (1 : Matrix (Fin 3) (Fin 3) ℝ) := by
  ext i j
  rw [Matrix.mul_apply, Fin.sum_univ_three, Matrix.smul_apply, Matrix.one_apply]
  have := gram_dual hp hd i j
  simp only [Matrix.of_apply, this]
  simp

theorem bMatrix_det {p d : Params} (hp : Valid p) (hd : 0 < d.len 2) : 0 < Matrix.det (Matrix.of (bMatrix d p)) := by
  have : Matrix.det (Matrix.of (bMatrix d p)) = p.len 0 * (p.len 1 * p.sin 2) * (2 * Real.pi / d.len 2) := by
    rw [Matrix.det_fin_three]
    simp [bMatrix]
  rw [this]
  have h0 := hp.len 0
  have h1 := hp.len 1
  have h2 := hp.sin 2
  have := Real.pi_pos
  positivity

/-- what the constructor from parameters makes -/
theorem fromParams_spec {p r : Params} (hp : Valid p) (hr : dualParams p = some r) :
    (∀ l, fromMatrix (bMatrix p r) .inverseAngstrom = some l →
      Healthy l ∧ l.recip = bMatrix p r ∧ 0 < Matrix.det (Matrix.of l.recip) ∧
      ∀ i j, columnDot l.real l.real i j = gram p i j) ∧
    (∀ l, fromMatrix (bMatrix r p) .inverseAngstrom = some l →
      Healthy l ∧ l.recip = bMatrix r p ∧ 0 < Matrix.det (Matrix.of l.recip) ∧
      ∀ i j, columnDot l.recip l.recip i j = gram p i j) := by
  have hrv := dual_valid hp hr
  constructor
  · intro l hl
    have hdet := bMatrix_det (d := p) hrv (hp.len 2)
    obtain ⟨hh, hv⟩ := fromMatrix_spec hdet.ne' hl
    have hrec : l.recip = bMatrix p r := Option.some.inj hv
    refine ⟨hh, hrec, hrec ▸ hdet, ?_⟩
    obtain ⟨e, he⟩ := dual_some hrv
    obtain ⟨x1, x2⟩ := dual_dual hp hr he
    have hb : bMatrix p r = bMatrix e r := by unfold bMatrix; rw [x1, x2]
    have hg : (Matrix.of l.recip).transpose * Matrix.of l.recip = Matrix.of (gram r) := by
      ext i j
      rw [← columnDot_eq, hrec, hb, bMatrix_gram hrv he]; rfl
    have hA := dual_gram hh.dual
    rw [hg] at hA
    have hG := gram_smul hp hr
    have hne : (4 * (Real.pi * Real.pi)) ≠ 0 := by have := Real.pi_pos; positivity
    have inv : Matrix.of (gram r) * ((4 * (Real.pi * Real.pi))⁻¹ • Matrix.of (gram p)) = 1 := by
      apply mul_eq_one_comm.mp
      rw [Matrix.smul_mul, hG, smul_smul, inv_mul_cancel₀ hne, one_smul]
    have key : (Matrix.of l.real).transpose * Matrix.of l.real = Matrix.of (gram p) := by
      calc _ = (Matrix.of l.real).transpose * Matrix.of l.real
              * (Matrix.of (gram r) * ((4 * (Real.pi * Real.pi))⁻¹ • Matrix.of (gram p))) := by rw [inv, Matrix.mul_one]
        _ = _ := by
          rw [← Matrix.mul_assoc, hA, Matrix.smul_mul, Matrix.one_mul, smul_smul, mul_inv_cancel₀ hne, one_smul]
    intro i j
    rw [columnDot_eq, key]; rfl
  · intro l hl
    have hdet := bMatrix_det (d := r) hp (hrv.len 2)
    obtain ⟨hh, hv⟩ := fromMatrix_spec hdet.ne' hl
    have hrec : l.recip = bMatrix r p := Option.some.inj hv
    refine ⟨hh, hrec, hrec ▸ hdet, ?_⟩
    intro i j
    rw [hrec, bMatrix_gram hp hr]

/-- a cell exists only if the volume is positive -/
theorem vol_of_cell {A : M3} {len ang : V3} (h : HasParameters A len ang) (hdet : Matrix.det (Matrix.of A) ≠ 0) :
    0 < vol2 fun i => Real.cos (ang i) := by
  have l0 := h.lengths 0
  have l1 := h.lengths 1
  have l2 := h.lengths 2
  have a0 : columnDot A A 1 2 = len 1 * len 2 * Real.cos (ang 0) := h.angles 0
  have a1 : columnDot A A 2 0 = len 2 * len 0 * Real.cos (ang 1) := h.angles 1
  have a2 : columnDot A A 0 1 = len 0 * len 1 * Real.cos (ang 2) := h.angles 2
  have sym : ∀ i j, columnDot A A i j = columnDot A A j i := by intro i j; unfold columnDot; ring
  have e : Matrix.det ((Matrix.of A).transpose * Matrix.of A)
      = (len 0 * len 1 * len 2) ^ 2 * vol2 fun i => Real.cos (ang i) := by
    rw [Matrix.det_fin_three]
    simp only [← columnDot_eq]
    rw [sym 1 0, sym 2 1, sym 0 2, l0, l1, l2, a0, a1, a2]
    unfold vol2
    ring
  rw [Matrix.det_mul, Matrix.det_transpose] at e
  by_contra hn
  have h1 : 0 < Matrix.det (Matrix.of A) * Matrix.det (Matrix.of A) := by
    rcases lt_or_gt_of_ne hdet with h | h
    · exact mul_pos_of_neg_of_neg h h
    · exact mul_pos h h
  have h2 : (len 0 * len 1 * len 2) ^ 2 * (vol2 fun i => Real.cos (ang i)) ≤ 0 :=
    mul_nonpos_of_nonneg_of_nonpos (sq_nonneg _) (not_lt.mp hn)
  rw [e] at h1
  linarith

/-- reading lengths and angles back -/
theorem read_length {l : Lattice} {lu : LengthUnit} {m : M3} (h : l.vectors lu = some m) (i : Fin 3) {x : ℝ} (hx : 0 ≤ x)
    (e : columnDot m m i i = x * x) : l.length lu i = some x := by
  unfold Lattice.length Lattice.vector
  rw [h]
  show some (norm fun k => m k i) = _
  congr 1
  show Real.sqrt (columnDot m m i i) = x
  rw [e, Real.sqrt_mul_self hx]

theorem read_angle {l : Lattice} {lu : LengthUnit} {m : M3} (h : l.vectors lu = some m) (i : Fin 3) {x y a : ℝ}
    (hx : 0 < x) (hy : 0 < y) (ha : 0 ≤ a) (ha' : a ≤ Real.pi)
    (e1 : columnDot m m (i + 1) (i + 1) = x * x) (e2 : columnDot m m (i + 2) (i + 2) = y * y)
    (e : columnDot m m (i + 1) (i + 2) = x * y * Real.cos a) :
    l.angle lu i .radian = some a ∧ l.angle lu i .degree = some (a / Real.pi * 180) ∧
      l.angle lu i .pi = some (a / Real.pi) := by
  have n1 : norm (fun k => m k (i + 1)) = x := by
    show Real.sqrt (columnDot m m (i + 1) (i + 1)) = x
    rw [e1, Real.sqrt_mul_self hx.le]
  have n2 : norm (fun k => m k (i + 2)) = y := by
    show Real.sqrt (columnDot m m (i + 2) (i + 2)) = y
    rw [e2, Real.sqrt_mul_self hy.le]
  have d : dot (fun k => m k (i + 1)) (fun k => m k (i + 2)) = x * y * Real.cos a := e
  have c : Real.arccos (dot (fun k => m k (i + 1)) (fun k => m k (i + 2)) / norm (fun k => m k (i + 1)) /
      norm (fun k => m k (i + 2))) = a := by
    rw [d, n1, n2, show x * y * Real.cos a / x / y = Real.cos a by field_simp, Real.arccos_cos ha ha']
  have key : ∀ au, l.angle lu i au = match au with
    | .radian => some a
    | .degree => some (a / Real.pi * 180)
    | .pi => some (a / Real.pi)
    | .notProvided => none := by
    intro au
    unfold Lattice.angle Lattice.vector
    rw [h]
    simp only [Option.map_some, Option.bind_some]
    rw [c]
    cases au <;> rfl
  exact ⟨key _, key _, key _⟩

end Brille.Lat
