import Verif.Model.Tetra
import Verif.Spec.Tetra
import Verif.Spec.Trellis
import Mathlib.Tactic.Ring
import Mathlib.Tactic.FieldSimp
import Mathlib.Tactic.Linarith
import Mathlib.Tactic.Positivity
import Mathlib.Tactic.LinearCombination
import Mathlib.Algebra.Order.AbsoluteValue.Basic

namespace Brille.Tetra

open Brille.Spec

/-- The stored volume is that of the corners, which are in positive order; the sphere goes around them. -/
structure Fits (v : Nat → Pt) (t : Tet) : Prop where
  vol : t.vol * 6 = vol6 fun j => v (t.vi j)
  pos : 0 < t.vol
  sphere : InBall (fun j => v (t.vi j)) t.centre t.radius

/-- the corners of a tetrahedron -/
def corners (v : Nat → Pt) (t : Tet) : Fin 4 → Pt := fun j => v (t.vi j)

theorem baryW_places (v : Nat → Pt) (t : Tet) (x : Pt) (hv : t.vol * 6 = vol6 (corners v t))
    (h0 : t.vol ≠ 0) : Places (corners v t) (baryW v t x) x := by
  have h6 : t.vol * 6 ≠ 0 := mul_ne_zero h0 (by norm_num)
  have e : ∀ a b c d : ℚ, a / (t.vol * 6) + b / (t.vol * 6) + c / (t.vol * 6) + d / (t.vol * 6) =
      (a + b + c + d) / (t.vol * 6) := by intros; ring
  constructor
  · simp only [Fin.sum_univ_four, baryW, Matrix.cons_val]
    rw [e, div_eq_one_iff_eq h6, hv]
    simp only [orient3d, dot, diff, cross, vol6, corners, Matrix.cons_val]
    ring
  · intro d
    have e2 : ∀ a b c d p q r s : ℚ, a / (t.vol * 6) * p + b / (t.vol * 6) * q + c / (t.vol * 6) * r +
        d / (t.vol * 6) * s = (a * p + b * q + c * r + d * s) / (t.vol * 6) := by intros; ring
    simp only [Fin.sum_univ_four, baryW, Matrix.cons_val]
    rw [e2, eq_div_iff h6, hv]
    simp only [orient3d, dot, diff, cross, vol6, corners, Matrix.cons_val]
    match d with
    | 0 => ring
    | 1 => ring
    | 2 => ring

theorem baryW_unique (v : Nat → Pt) (t : Tet) (x : Pt) (hv : t.vol * 6 = vol6 (corners v t))
    (h0 : t.vol ≠ 0) (w : Fin 4 → ℚ) (hw : Places (corners v t) w x) : w = baryW v t x := by
  have h6 : t.vol * 6 ≠ 0 := mul_ne_zero h0 (by norm_num)
  obtain ⟨h1, h2⟩ := hw
  have hx0 := h2 0
  have hx1 := h2 1
  have hx2 := h2 2
  rw [Fin.sum_univ_four] at h1 hx0 hx1 hx2
  have hw3 : w 3 = 1 - w 0 - w 1 - w 2 := by linarith
  rw [hw3] at hx0 hx1 hx2
  funext j
  match j with
  | 0 =>
    show w 0 = _ / (t.vol * 6)
    rw [eq_div_iff h6, hv]
    simp only [orient3d, dot, diff, cross, vol6, Matrix.cons_val, hx0, hx1, hx2]
    simp only [corners]
    ring
  | 1 =>
    show w 1 = _ / (t.vol * 6)
    rw [eq_div_iff h6, hv]
    simp only [orient3d, dot, diff, cross, vol6, Matrix.cons_val, hx0, hx1, hx2]
    simp only [corners]
    ring
  | 2 =>
    show w 2 = _ / (t.vol * 6)
    rw [eq_div_iff h6, hv]
    simp only [orient3d, dot, diff, cross, vol6, Matrix.cons_val, hx0, hx1, hx2]
    simp only [corners]
    ring
  | 3 =>
    show w 3 = _ / (t.vol * 6)
    rw [eq_div_iff h6, hv, hw3]
    simp only [orient3d, dot, diff, cross, vol6, Matrix.cons_val, hx0, hx1, hx2]
    simp only [corners]
    ring

/-- the square of a mixture is at most the mixture of the squares -/
theorem jensen4 (w a : Fin 4 → ℚ) (hw : ∀ j, 0 ≤ w j) (h1 : w 0 + w 1 + w 2 + w 3 = 1) :
    (w 0 * a 0 + w 1 * a 1 + w 2 * a 2 + w 3 * a 3) ^ 2 ≤
      w 0 * a 0 ^ 2 + w 1 * a 1 ^ 2 + w 2 * a 2 ^ 2 + w 3 * a 3 ^ 2 := by
  have key : w 0 * a 0 ^ 2 + w 1 * a 1 ^ 2 + w 2 * a 2 ^ 2 + w 3 * a 3 ^ 2 -
      (w 0 * a 0 + w 1 * a 1 + w 2 * a 2 + w 3 * a 3) ^ 2 =
      w 0 * w 1 * (a 0 - a 1) ^ 2 + w 0 * w 2 * (a 0 - a 2) ^ 2 + w 0 * w 3 * (a 0 - a 3) ^ 2 +
      w 1 * w 2 * (a 1 - a 2) ^ 2 + w 1 * w 3 * (a 1 - a 3) ^ 2 + w 2 * w 3 * (a 2 - a 3) ^ 2 := by
    have h3 : w 3 = 1 - w 0 - w 1 - w 2 := by linarith
    rw [h3]
    ring
  have : 0 ≤ w 0 * w 1 * (a 0 - a 1) ^ 2 + w 0 * w 2 * (a 0 - a 2) ^ 2 + w 0 * w 3 * (a 0 - a 3) ^ 2 +
      w 1 * w 2 * (a 1 - a 2) ^ 2 + w 1 * w 3 * (a 1 - a 3) ^ 2 + w 2 * w 3 * (a 2 - a 3) ^ 2 := by
    have h0 := hw 0
    have h1 := hw 1
    have h2 := hw 2
    have h3 := hw 3
    positivity
  linarith

theorem inSphere_of_inTet {near : ℚ → ℚ → Bool} (hnear : ∀ a, near a a = true) {v : Nat → Pt} {t : Tet}
    (hs : InBall (corners v t) t.centre t.radius) {x : Pt} (hx : InTet (corners v t) x) :
    inSphere near t x = true := by
  obtain ⟨w, hw, h1, h2⟩ := hx
  rw [Fin.sum_univ_four] at h1
  have hle : dist2 t x ≤ t.radius * t.radius := by
    have hd : ∀ d, (t.centre d - x d) ^ 2 ≤ w 0 * (corners v t 0 d - t.centre d) ^ 2 +
        w 1 * (corners v t 1 d - t.centre d) ^ 2 + w 2 * (corners v t 2 d - t.centre d) ^ 2 +
        w 3 * (corners v t 3 d - t.centre d) ^ 2 := by
      intro d
      refine le_trans (le_of_eq ?_) (jensen4 w (fun j => corners v t j d - t.centre d) hw h1)
      rw [h2 d, Fin.sum_univ_four]
      have h3 : w 3 = 1 - w 0 - w 1 - w 2 := by linarith
      rw [h3]
      ring
    have s0 := hs 0
    have s1 := hs 1
    have s2 := hs 2
    have s3 := hs 3
    rw [Fin.sum_univ_three] at s0 s1 s2 s3
    have hsum := add_le_add (add_le_add (hd 0) (hd 1)) (hd 2)
    have e : w 0 * (corners v t 0 0 - t.centre 0) ^ 2 + w 1 * (corners v t 1 0 - t.centre 0) ^ 2 +
        w 2 * (corners v t 2 0 - t.centre 0) ^ 2 + w 3 * (corners v t 3 0 - t.centre 0) ^ 2 +
        (w 0 * (corners v t 0 1 - t.centre 1) ^ 2 + w 1 * (corners v t 1 1 - t.centre 1) ^ 2 +
        w 2 * (corners v t 2 1 - t.centre 1) ^ 2 + w 3 * (corners v t 3 1 - t.centre 1) ^ 2) +
        (w 0 * (corners v t 0 2 - t.centre 2) ^ 2 + w 1 * (corners v t 1 2 - t.centre 2) ^ 2 +
        w 2 * (corners v t 2 2 - t.centre 2) ^ 2 + w 3 * (corners v t 3 2 - t.centre 2) ^ 2) ≤
        t.radius ^ 2 := by
      have g0 := hw 0
      have g1 := hw 1
      have g2 := hw 2
      have g3 := hw 3
      linear_combination w 0 * s0 + w 1 * s1 + w 2 * s2 + w 3 * s3 + t.radius ^ 2 * h1
    unfold dist2 dot diff
    have := hsum.trans e
    linarith
  unfold inSphere
  rcases lt_or_eq_of_le hle with h | h
  · simp [h]
  · simp [h, hnear]

theorem min4_le (w : Fin 4 → ℚ) (j : Fin 4) : min4 w ≤ w j := by
  unfold min4
  match j with
  | 0 => exact (min_le_left _ _).trans (min_le_left _ _)
  | 1 => exact (min_le_left _ _).trans (min_le_right _ _)
  | 2 => exact (min_le_right _ _).trans (min_le_left _ _)
  | 3 => exact (min_le_right _ _).trans (min_le_right _ _)

theorem worst_nonneg_iff (isZero : ℚ → Bool) (w : Fin 4 → ℚ) :
    0 ≤ worst isZero w ↔ ∀ j, w j < 0 → isZero (w j) = true := by
  unfold worst
  constructor
  · intro h j hj
    by_contra hz
    have hany : (List.finRange 4).any (fun j => negative isZero (w j)) = true := by
      rw [List.any_eq_true]
      exact ⟨j, List.mem_finRange j, by simp [negative, hj, hz]⟩
    rw [if_pos hany] at h
    exact absurd (lt_of_le_of_lt (min4_le w j) hj) (not_lt.mpr h)
  · intro h
    rw [if_neg]
    rw [List.any_eq_true]
    rintro ⟨j, _, hj⟩
    simp only [negative, Bool.and_eq_true, decide_eq_true_eq, Bool.not_eq_true'] at hj
    rw [h j hj.1] at hj
    exact absurd hj.2 (by simp)

theorem worst_le_zero (isZero : ℚ → Bool) (w : Fin 4 → ℚ) : worst isZero w ≤ 0 := by
  unfold worst
  by_cases h : (List.finRange 4).any (fun j => negative isZero (w j)) = true
  · rw [if_pos h]
    rw [List.any_eq_true] at h
    obtain ⟨j, _, hj⟩ := h
    simp only [negative, Bool.and_eq_true, decide_eq_true_eq] at hj
    exact (min4_le w j).trans hj.1.le
  · rw [if_neg h]

theorem mightContain_nonneg {near : ℚ → ℚ → Bool} {t : Tet} {x : Pt} (h : inSphere near t x = true) :
    mightContain near t x = 0 := by
  unfold mightContain
  rw [if_pos h]

theorem tetContains_of_inTet {isZero : ℚ → Bool} {near : ℚ → ℚ → Bool} (hnear : ∀ a, near a a = true)
    {v : Nat → Pt} {t : Tet} (ht : Fits v t) {x : Pt} (hx : InTet (corners v t) x) (b : Bool) :
    0 ≤ tetContains isZero near v t x b := by
  unfold tetContains
  rw [mightContain_nonneg (inSphere_of_inTet hnear ht.sphere hx)]
  rw [if_neg (by simp), worst_nonneg_iff]
  obtain ⟨w, hw, hp⟩ := hx
  have := baryW_unique v t x ht.vol ht.pos.ne' w hp
  rw [← this]
  intro j hj
  exact absurd (hw j) (not_le.mpr hj)

theorem tetContains_weights {isZero : ℚ → Bool} {near : ℚ → ℚ → Bool} {v : Nat → Pt} {t : Tet} {x : Pt}
    {b : Bool} (h : 0 ≤ tetContains isZero near v t x b) :
    ∀ j, baryW v t x j < 0 → isZero (baryW v t x j) = true := by
  unfold tetContains at h
  by_cases hs : (b && decide (mightContain near t x < 0)) = true
  · rw [if_pos hs] at h
    simp only [Bool.and_eq_true, decide_eq_true_eq] at hs
    exact absurd hs.2 (not_lt.mpr h)
  · rw [if_neg hs] at h
    exact (worst_nonneg_iff _ _).mp h

/-! ### the sum over the vertices that are kept -/

theorem combine_nonzero (isZero : ℚ → Bool) (t : Tet) (w : Fin 4 → ℚ) (g : Nat → ℚ) :
    combine (nonzero isZero t w) g =
      ∑ j, (if isZero (w j) = true then 0 else w j * g (t.vi j)) := by
  unfold combine nonzero
  have : ∀ l : List (Fin 4), (List.map (fun p : Nat × ℚ => p.2 * g p.1)
      ((l.filter fun j => !isZero (w j)).map fun j => (t.vi j, w j))).sum =
      (l.map fun j => if isZero (w j) = true then 0 else w j * g (t.vi j)).sum := by
    intro l
    induction l with
    | nil => rfl
    | cons j l ih =>
      by_cases h : isZero (w j) = true
      · rw [List.filter_cons_of_neg (by simp [h]), ih]; simp [h]
      · rw [List.filter_cons_of_pos (by simp [h])]; simp [h]
        simpa using ih
  rw [this]
  have h4 : List.finRange 4 = [0, 1, 2, 3] := by decide
  rw [h4, Fin.sum_univ_four]
  simp only [List.map_cons, List.map_nil, List.sum_cons, List.sum_nil]
  ring

theorem affine_places {p : Fin 4 → Pt} {w : Fin 4 → ℚ} {x : Pt} (h : Places p w x) {f : Pt → ℚ}
    (hf : AffineMap f) : ∑ j, w j * f (p j) = f x := by
  obtain ⟨c, a, hf⟩ := hf
  obtain ⟨h1, h2⟩ := h
  have e : ∀ j, w j * f (p j) = c * w j + (a 0 * (w j * p j 0) + a 1 * (w j * p j 1) + a 2 * (w j * p j 2)) := by
    intro j
    rw [hf, Fin.sum_univ_three]
    ring
  rw [Finset.sum_congr rfl (fun j _ => e j), Finset.sum_add_distrib, Finset.sum_add_distrib,
    Finset.sum_add_distrib, ← Finset.mul_sum, ← Finset.mul_sum, ← Finset.mul_sum, ← Finset.mul_sum, h1,
    ← h2 0, ← h2 1, ← h2 2, hf, Fin.sum_univ_three]
  ring

/-- dropping weights of at most `τ` changes the sum by at most `4 τ M` -/
theorem combine_close {isZero : ℚ → Bool} {τ M : ℚ} (hz : ∀ z, isZero z = true → |z| ≤ τ) {v : Nat → Pt}
    {t : Tet} {w : Fin 4 → ℚ} {x : Pt} (hp : Places (corners v t) w x) {f : Pt → ℚ} (hf : AffineMap f)
    (hτ : 0 ≤ τ) (hM : ∀ j, |f (v (t.vi j))| ≤ M) :
    |combine (nonzero isZero t w) (fun i => f (v i)) - f x| ≤ 4 * τ * M := by
  rw [combine_nonzero, ← affine_places hp hf, ← Finset.sum_sub_distrib]
  have hM0 : 0 ≤ M := (abs_nonneg _).trans (hM 0)
  refine (Finset.abs_sum_le_sum_abs _ _).trans ?_
  have : ∀ j, |(if isZero (w j) = true then 0 else w j * f (v (t.vi j))) - w j * f (corners v t j)| ≤ τ * M := by
    intro j
    by_cases h : isZero (w j) = true
    · rw [if_pos h, zero_sub, abs_neg, abs_mul]
      exact mul_le_mul (hz _ h) (hM j) (abs_nonneg _) hτ
    · rw [if_neg h]
      unfold corners
      rw [sub_self, abs_zero]
      exact mul_nonneg hτ hM0
  refine (Finset.sum_le_sum fun j _ => this j).trans ?_
  rw [Fin.sum_univ_four]
  linarith

theorem bestTet_mem {val : Tet → ℚ} {tets : List Tet} {t : Tet} (h : bestTet val tets = some t) :
    t ∈ tets := by
  cases tets with
  | nil => simp [bestTet] at h
  | cons a rest =>
    unfold bestTet at h
    have h := Option.some.inj h
    have : ∀ (l : List Tet) (b : Tet), l.foldl (fun b t => if val b < val t then t else b) b = b ∨
        l.foldl (fun b t => if val b < val t then t else b) b ∈ l := by
      intro l
      induction l with
      | nil => intro b; exact Or.inl rfl
      | cons c l ih =>
        intro b
        rw [List.foldl_cons]
        rcases ih (if val b < val c then c else b) with h1 | h1
        · by_cases hc : val b < val c
          · rw [if_pos hc] at h1
            right; rw [if_pos hc, h1]; exact List.mem_cons_self
          · rw [if_neg hc] at h1
            left; rw [if_neg hc]; exact h1
        · exact Or.inr (List.mem_cons_of_mem _ h1)
    rcases this rest a with h1 | h1
    · rw [h1] at h; rw [← h]; exact List.mem_cons_self
    · rw [h] at h1; exact List.mem_cons_of_mem _ h1

end Brille.Tetra
