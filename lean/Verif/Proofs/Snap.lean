import Verif.Model.Snap
import Verif.Proofs.SnapCert
import Verif.Proofs.Lattice

/-! Helper lemmas for C66. -/
namespace Brille.Snap
open Brille.Mat Brille.Lat Brille.Spec
open Brille.Prim (Bravais IMat)

/-- the scalar products `M` of basis vectors do not change under the matrices -/
def Inv (S : List IMat) (M : M3) : Prop :=
  ∀ R ∈ S, ∀ i j, ∑ k, ∑ l, (R k i : ℝ) * M k l * (R l j : ℝ) = M i j

theorem isCol_iff {R : IMat} {i k : Fin 3} {s : ℤ} :
    isCol R i k s = true ↔ ∀ x, R x i = if x = k then s else 0 := by
  unfold isCol
  rw [Bool.and_eq_true, Bool.and_eq_true, beq_iff_eq, beq_iff_eq, beq_iff_eq]
  constructor
  · rintro ⟨⟨h1, h2⟩, h3⟩ x
    fin_cases k <;> fin_cases x <;> first | exact h1 | exact h2 | exact h3
  · intro h
    refine ⟨⟨?_, ?_⟩, ?_⟩
    · rw [h, if_pos rfl]
    · rw [h, if_neg]; clear h; revert k; decide
    · rw [h, if_neg]; clear h; revert k; decide

theorem isRow_iff {R : IMat} {i k : Fin 3} {s : ℤ} :
    isRow R i k s = true ↔ ∀ x, R i x = if x = k then s else 0 := isCol_iff (R := Mat.transpose R)

/-- two columns that are unit vectors up to a sign -/
theorem inv_cols {S : List IMat} {M : M3} (h : Inv S M) {R : IMat} (hR : R ∈ S) {a b c d : Fin 3} {s t : ℤ}
    (h1 : isCol R a c s = true) (h2 : isCol R b d t = true) : M a b = s * t * M c d := by
  rw [isCol_iff] at h1 h2
  rw [← h R hR a b]
  simp only [h1, h2]
  rw [Finset.sum_eq_single c, Finset.sum_eq_single d]
  · simp; ring
  · intro x _ hx; simp [hx]
  · simp
  · intro x _ hx; simp [hx]
  · simp

theorem mainF_len {S : List IMat} {M : M3} (h : Inv S M) {i : Fin 3} (hm : mainF S i = true) :
    M i i = M (i + 1) (i + 1) := by
  obtain ⟨R, hR, hc⟩ := List.any_eq_true.mp hm
  have := inv_cols h hR hc hc
  simpa using this

theorem eqC_sound {S : List IMat} {M : M3} (hs : ∀ i j, M i j = M j i) (h : Inv S M) {a b c d : Fin 3}
    (hc : eqC S a b c d = true) : M a b = M c d := by
  obtain ⟨R, hR, hc⟩ := List.any_eq_true.mp hc
  simp only [Bool.or_eq_true, Bool.and_eq_true] at hc
  rcases hc with ((⟨h1, h2⟩ | ⟨h1, h2⟩) | ⟨h1, h2⟩) | ⟨h1, h2⟩
  · simpa using inv_cols h hR h1 h2
  · simpa using inv_cols h hR h1 h2
  · rw [hs c d]; simpa using inv_cols h hR h1 h2
  · rw [hs c d]; simpa using inv_cols h hR h1 h2

theorem zC_sound {S : List IMat} {M : M3} (h : Inv S M) {a b : Fin 3} (hc : zC S a b = true) : M a b = 0 := by
  obtain ⟨R, hR, hc⟩ := List.any_eq_true.mp hc
  simp only [Bool.or_eq_true, Bool.and_eq_true] at hc
  rcases hc with ⟨h1, h2⟩ | ⟨h1, h2⟩
  · have := inv_cols h hR h1 h2
    simp at this; linarith
  · have := inv_cols h hR h1 h2
    simp at this; linarith

/-- the sums written for the three indices `i`, `i + 1`, `i + 2` -/
theorem inv_expand {S : List IMat} {M : M3} (h : Inv S M) {R : IMat} (hR : R ∈ S) (i x y : Fin 3) :
    (R i x : ℝ) * M i i * R i y + R i x * M i (i + 1) * R (i + 1) y + R i x * M i (i + 2) * R (i + 2) y
      + (R (i + 1) x * M (i + 1) i * R i y + R (i + 1) x * M (i + 1) (i + 1) * R (i + 1) y
        + R (i + 1) x * M (i + 1) (i + 2) * R (i + 2) y)
      + (R (i + 2) x * M (i + 2) i * R i y + R (i + 2) x * M (i + 2) (i + 1) * R (i + 1) y
        + R (i + 2) x * M (i + 2) (i + 2) * R (i + 2) y) = M x y := by
  rw [← h R hR x y]
  simp only [Fin.sum_univ_three]
  fin_cases i
  · rfl
  · show (R 1 x : ℝ) * M 1 1 * R 1 y + R 1 x * M 1 2 * R 2 y + R 1 x * M 1 0 * R 0 y
      + (R 2 x * M 2 1 * R 1 y + R 2 x * M 2 2 * R 2 y + R 2 x * M 2 0 * R 0 y)
      + (R 0 x * M 0 1 * R 1 y + R 0 x * M 0 2 * R 2 y + R 0 x * M 0 0 * R 0 y) = _
    ring
  · show (R 2 x : ℝ) * M 2 2 * R 2 y + R 2 x * M 2 0 * R 0 y + R 2 x * M 2 1 * R 1 y
      + (R 0 x * M 0 2 * R 2 y + R 0 x * M 0 0 * R 0 y + R 0 x * M 0 1 * R 1 y)
      + (R 1 x * M 1 2 * R 2 y + R 1 x * M 1 0 * R 0 y + R 1 x * M 1 1 * R 1 y) = _
    ring

theorem hexC_sound {S : List IMat} {M : M3} (hs : ∀ i j, M i j = M j i) (h : Inv S M) {i : Fin 3} {real : Bool}
    (hl : M i i = M (i + 1) (i + 1)) (hc : hexC S i real = true) :
    M i (i + 1) = (if real then -(1 / 2) else 1 / 2) * M i i := by
  obtain ⟨R, hR, hc⟩ := List.any_eq_true.mp hc
  simp only [Bool.and_eq_true, beq_iff_eq, bne_iff_ne, ne_eq] at hc
  obtain ⟨⟨⟨h1, h2⟩, h3⟩, h4⟩ := hc
  have e := inv_expand h hR i i (i + 1)
  rw [h1, h2, ← hl, hs (i + 1) i] at e
  have h3' : (R i i * R (i + 1) (i + 1) + R (i + 1) i * R i (i + 1) : ℝ) ≠ 1 := by exact_mod_cast h3
  have h4' : 2 * (R i i * R i (i + 1) + R (i + 1) i * R (i + 1) (i + 1) : ℝ) =
      if real then (R i i * R (i + 1) (i + 1) + R (i + 1) i * R i (i + 1) : ℝ) - 1
      else 1 - (R i i * R (i + 1) (i + 1) + R (i + 1) i * R i (i + 1) : ℝ) := by
    have := congrArg (fun z : ℤ => (z : ℝ)) h4
    cases real <;> simpa using this
  set r : ℝ := R i i * R (i + 1) (i + 1) + R (i + 1) i * R i (i + 1) with hr
  set s : ℝ := R i i * R i (i + 1) + R (i + 1) i * R (i + 1) (i + 1) with hsd
  have e' : s * M i i + r * M i (i + 1) = M i (i + 1) := by
    rw [hr, hsd]
    simp only [Int.cast_zero, mul_zero, zero_mul, add_zero] at e
    linear_combination e
  have hne : r - 1 ≠ 0 := sub_ne_zero.mpr h3'
  apply mul_left_cancel₀ hne
  cases real
  · simp only [Bool.false_eq_true, if_false] at h4' ⊢
    linear_combination e' - (1 / 2) * M i i * h4'
  · simp only [if_true] at h4' ⊢
    linear_combination e' - (1 / 2) * M i i * h4'

theorem zPair_sound {S : List IMat} {M : M3} (h : Inv S M) {i : Fin 3}
    (hc : zPair S i = true) : M (i + 1) (i + 2) = 0 ∧ M i (i + 2) = 0 := by
  obtain ⟨R, hR, hc⟩ := List.any_eq_true.mp hc
  simp only [Bool.and_eq_true, Bool.or_eq_true, beq_iff_eq, bne_iff_ne, ne_eq] at hc
  obtain ⟨⟨⟨⟨⟨h1, h2⟩, h3⟩, h4⟩, h5⟩, h6⟩ := hc
  have e1 := inv_expand h hR i i (i + 2)
  have e2 := inv_expand h hR i (i + 1) (i + 2)
  rw [h1, h3, h4] at e1
  rw [h2, h3, h4] at e2
  simp only [Int.cast_zero, mul_zero, zero_mul, add_zero, zero_add] at e1 e2
  have h6' : ((1 - R (i + 2) (i + 2) * R i i) * (1 - R (i + 2) (i + 2) * R (i + 1) (i + 1)) - R (i + 1) i * R i (i + 1) : ℝ)
      ≠ 0 := by exact_mod_cast h6
  have h5' : (R (i + 2) (i + 2) * R (i + 2) (i + 2) : ℝ) = 1 := by
    rcases h5 with h | h <;> rw [h] <;> norm_num
  set ε : ℝ := ((R (i + 2) (i + 2) : ℤ) : ℝ)
  set a : ℝ := ((R i i : ℤ) : ℝ)
  set b : ℝ := ((R (i + 1) i : ℤ) : ℝ)
  set c : ℝ := ((R i (i + 1) : ℤ) : ℝ)
  set d : ℝ := ((R (i + 1) (i + 1) : ℤ) : ℝ)
  set x := M i (i + 2)
  set y := M (i + 1) (i + 2)
  -- a x ε + b y ε = x, c x ε + d y ε = y
  constructor
  · apply mul_left_cancel₀ h6'
    linear_combination (-(c * ε)) * e1 + (-(1 - ε * a)) * e2 + (b * c * y) * h5'
  · apply mul_left_cancel₀ h6'
    linear_combination (-(1 - ε * d)) * e1 + (-(b * ε)) * e2 + (b * c * x) * h5'

/-! ### the links -/

theorem mulVec_ei (R : IMat) (i k : Fin 3) : Mat.mulVec R (ei i) k = R k i := by
  rw [Mat.mulVec_eq]
  simp only [Matrix.mulVec, dotProduct, Fin.sum_univ_three, ei, Matrix.of_apply]
  fin_cases i <;> simp

theorem linkedReal_eq (ops : List IMat) : linkedReal ops = mainF ops := by
  funext i
  unfold linkedReal matVecLinks mainF
  congr 1
  funext R
  simp only [mulVec_ei]
  rw [Bool.eq_iff_iff, isCol_iff, Bool.and_eq_true, Bool.and_eq_true, decide_eq_true_eq, decide_eq_true_eq, decide_eq_true_eq]
  constructor
  · rintro ⟨⟨h0, h1⟩, h2⟩ x
    fin_cases x
    · exact h0
    · exact h1
    · exact h2
  · intro h
    exact ⟨⟨h 0, h 1⟩, h 2⟩

theorem linkedRecip_eq (ops : List IMat) : linkedRecip ops = dualF ops := by
  funext i
  unfold linkedRecip vecMatLinks dualF
  congr 1
  funext R
  simp only [mulVec_ei]
  rw [Bool.eq_iff_iff, isRow_iff, Bool.and_eq_true, Bool.and_eq_true, decide_eq_true_eq, decide_eq_true_eq, decide_eq_true_eq]
  constructor
  · rintro ⟨⟨h0, h1⟩, h2⟩ x
    fin_cases x
    · exact h0
    · exact h1
    · exact h2
  · intro h
    exact ⟨⟨h 0, h 1⟩, h 2⟩

theorem mainF_transpose (ops : List IMat) : mainF (ops.map Mat.transpose) = dualF ops := by
  funext i
  unfold mainF dualF
  rw [List.any_map]
  rfl

theorem dualF_transpose (ops : List IMat) : dualF (ops.map Mat.transpose) = mainF ops := by
  funext i
  unfold mainF dualF
  rw [List.any_map]
  rfl

/-! ### the parameters are not changed -/

theorem gram_symm (p : Params) (i j : Fin 3) : gram p i j = gram p j i := by
  fin_cases i <;> fin_cases j <;> rfl

theorem gram_diag (p : Params) (i : Fin 3) : gram p i i = p.len i * p.len i := by fin_cases i <;> rfl

theorem gram_off (p : Params) (i : Fin 3) : gram p (i + 1) (i + 2) = p.len (i + 1) * p.len (i + 2) * p.cos i := by
  fin_cases i
  · rfl
  · show p.len 0 * p.len 2 * p.cos 1 = p.len 2 * p.len 0 * p.cos 1
    ring
  · rfl

theorem plus_three (i : Fin 3) : i + 1 + 2 = i ∧ i + 1 + 1 = i + 2 ∧ i + 2 + 1 = i ∧ i + 2 + 2 = i + 1 := by revert i; decide

variable {p : Params} {S : List IMat}

theorem len_eq (hv : Valid p) (h : Inv S (gram p)) {i : Fin 3} (hm : mainF S i = true) : p.len i = p.len (i + 1) := by
  have := mainF_len h hm
  rw [gram_diag, gram_diag] at this
  have h1 := hv.len i
  have h2 := hv.len (i + 1)
  nlinarith

/-- all lengths equal -/
theorem len_all (h0 : p.len 0 = p.len 1) (h1 : p.len 1 = p.len 2) (i j : Fin 3) : p.len i = p.len j := by
  fin_cases i <;> fin_cases j <;> simp [h0, h1]

theorem cos_eq (hv : Valid p) (h : Inv S (gram p)) {i : Fin 3} (hl : p.len i = p.len (i + 1))
    (he : eqAng S i (i + 1) = true) : p.cos i = p.cos (i + 1) := by
  have := eqC_sound (gram_symm p) h he
  obtain ⟨e1, e2, -, -⟩ := plus_three i
  rw [gram_off, gram_off, e1, e2, hl] at this
  have h1 := hv.len (i + 1)
  have h2 := hv.len (i + 2)
  have : p.len (i + 1) * p.len (i + 2) * (p.cos i - p.cos (i + 1)) = 0 := by linear_combination this
  rcases mul_eq_zero.mp this with h | h
  · exact absurd h (mul_pos h1 h2).ne'
  · linarith

theorem cos_zero (hv : Valid p) {i : Fin 3} (h : gram p (i + 1) (i + 2) = 0) : p.cos i = 0 := by
  rw [gram_off] at h
  rcases mul_eq_zero.mp h with h | h
  · exact absurd h (mul_pos (hv.len _) (hv.len _)).ne'
  · exact h

theorem sin_of_cos (hv : Valid p) (i : Fin 3) : p.sin i = Real.sqrt (1 - p.cos i * p.cos i) := by
  rw [← hv.unit i, Real.sqrt_mul_self (hv.sin i).le]

theorem sin_one (hv : Valid p) {i : Fin 3} (h : p.cos i = 0) : p.sin i = 1 := by
  rw [sin_of_cos hv, h]; simp

theorem set2_self (v : V3) (i j : Fin 3) (h : v i = v j) : set2 v i j (v i) = v := by
  unfold set2
  conv_lhs => rw [h, Function.update_eq_self, ← h, Function.update_eq_self]

theorem equal2_self (x : ℝ) : equal2 x x = x := if_pos rfl

theorem pairAngles_self (hv : Valid p) {right : Bool} {i j : Fin 3} (h : p.cos i = p.cos j)
    (hr : right = true → p.cos i = 0) : pairAngles right p i j = p := by
  have hs : p.sin i = p.sin j := by rw [sin_of_cos hv, sin_of_cos hv, h]
  unfold pairAngles
  cases right
  · simp only [Bool.false_eq_true, if_false]
    rw [← h, equal2_self, ← sin_of_cos hv, set2_self _ _ _ h, set2_self _ _ _ hs]
  · have h0 := hr rfl
    simp only [if_true]
    have e1 : set2 p.cos i j 0 = p.cos := by
      have := set2_self _ _ _ h
      rwa [h0] at this
    have e2 : set2 p.sin i j 1 = p.sin := by
      have := set2_self _ _ _ hs
      rwa [sin_one hv h0] at this
    rw [e1, e2]

theorem implies_iff {a b : Bool} : implies a b = true ↔ (a = true → b = true) := by
  cases a <;> cases b <;> decide

theorem zPair_cos (hv : Valid p) (h : Inv S (gram p)) {i : Fin 3} (hz : zPair S i = true) :
    p.cos i = 0 ∧ p.cos (i + 1) = 0 := by
  obtain ⟨h1, h2⟩ := zPair_sound h hz
  refine ⟨cos_zero hv h1, cos_zero hv ?_⟩
  obtain ⟨e1, e2, -, -⟩ := plus_three i
  rw [e1, e2, gram_symm]
  exact h2

theorem mainStep_self (hv : Valid p) (h : Inv S (gram p)) {cen : Bravais} {real : Bool} {i : Fin 3}
    (hc : mainF S i = true → certMain S (decide (cen = .P)) (decide (cen = .R)) real (dualF S) i = true) :
    mainStep cen real (mainF S) (dualF S) p i = some p := by
  unfold mainStep
  by_cases hm : mainF S i = true
  swap
  · rw [if_neg hm]
  rw [if_pos hm]
  have hl := len_eq hv h hm
  have hc := hc hm
  unfold certMain at hc
  rw [Bool.and_eq_true, Bool.and_eq_true, Bool.not_eq_true', Bool.not_eq_true', implies_iff] at hc
  obtain ⟨⟨c1, c2⟩, c3⟩ := hc
  dsimp only
  have hset : set2 p.len i (i + 1) (equal2 (p.len i) (p.len (i + 1))) = p.len := by
    rw [← hl, equal2_self, set2_self _ _ _ hl]
  rw [if_neg (by rw [c1]; decide), if_neg (by rw [c2]; decide)]
  simp only [hset]
  by_cases hd : dualF S i = true
  swap
  · rw [if_neg hd]
  rw [if_pos hd]
  have c3 := c3 hd
  rw [Bool.and_eq_true, implies_iff] at c3
  obtain ⟨c3, c4⟩ := c3
  have e : (if cen = .R then
          { p with cos := Function.update p.cos (i + 2) (cosAndSinD (if real then 120 else 60)).1,
                   sin := Function.update p.sin (i + 2) (cosAndSinD (if real then 120 else 60)).2 }
        else p) = p := by
    split
    · rename_i hR
      have hh := hexC_sound (gram_symm p) h (by rw [gram_diag, gram_diag, hl]) (c3 (by simp [hR]))
      have e := gram_off p (i + 2)
      obtain ⟨-, -, e1, e2⟩ := plus_three i
      rw [e1, e2, ← hl, hh, gram_diag] at e
      have h1 := hv.len i
      have hcos : p.cos (i + 2) = if real then -(1 / 2) else 1 / 2 := by
        have : (p.len i * p.len i) * (p.cos (i + 2) - if real then -(1 / 2) else 1 / 2) = 0 := by linear_combination -e
        rcases mul_eq_zero.mp this with h | h
        · exact absurd h (mul_pos h1 h1).ne'
        · linarith
      have hsin : p.sin (i + 2) = Real.sqrt 3 / 2 := by
        rw [sin_of_cos hv, hcos]
        have : (1 - (if real = true then -(1 / 2 : ℝ) else 1 / 2) * if real = true then -(1 / 2) else 1 / 2) = 3 / 2 ^ 2 := by
          cases real <;> norm_num
        rw [this, Real.sqrt_div (by norm_num), Real.sqrt_sq (by norm_num)]
      have ecs : cosAndSinD (if real then 120 else 60) = (p.cos (i + 2), p.sin (i + 2)) := by
        rw [hcos, hsin]
        cases real
        · simp only [Bool.false_eq_true, if_false]; unfold cosAndSinD; norm_num
        · simp only [if_true]; unfold cosAndSinD; norm_num
      rw [ecs, Function.update_eq_self, Function.update_eq_self]
    · rfl
  rw [e]
  congr 1
  by_cases hP : cen = .P
  · rw [decide_eq_true hP, cond_true, Bool.or_eq_true] at c4
    rcases c4 with c4 | c4
    · exact pairAngles_self hv (cos_eq hv h hl c4) (fun hh => absurd hP (of_decide_eq_true hh))
    · obtain ⟨z1, z2⟩ := zPair_cos hv h c4
      exact pairAngles_self hv (by rw [z1, z2]) fun _ => z1
  · rw [decide_eq_false hP, cond_false] at c4
    obtain ⟨z1, z2⟩ := zPair_cos hv h c4
    exact pairAngles_self hv (by rw [z1, z2]) fun _ => z1

/-- **a lattice that has the symmetry is left alone** -/
theorem snapWith_fixed (hv : Valid p) (h : Inv S (gram p)) {cen : Bravais} {real : Bool}
    (hc : certS S (decide (cen = .P)) (decide (cen = .R)) real = true) :
    snapWith cen real (mainF S) (dualF S) p = some p := by
  unfold certS at hc
  dsimp only at hc
  unfold snapWith
  by_cases hm : (mainF S 0 && mainF S 1) = true
  · rw [hm, cond_true] at hc
    rw [if_pos hm]
    rw [Bool.and_eq_true] at hm
    have l0 := len_eq hv h hm.1
    have l1 := len_eq hv h hm.2
    have l0 : p.len 0 = p.len 1 := l0
    have l1 : p.len 1 = p.len 2 := l1
    have la := len_all l0 l1
    have el : (fun _ : Fin 3 => equal3 (p.len 0) (p.len 1) (p.len 2)) = p.len := by
      funext i
      unfold equal3
      rw [if_pos ⟨l0, l1⟩]
      exact la 0 i
    dsimp only
    rw [el]
    by_cases hd : (dualF S 0 && dualF S 1) = true
    · rw [hd, cond_true] at hc
      rw [if_pos hd]
      congr 1
      by_cases hP : cen = .P
      · rw [decide_eq_true hP, cond_true, Bool.and_eq_true] at hc
        have c0 := cos_eq hv h (la _ _) hc.1
        have c1 := cos_eq (i := 1) hv h (la _ _) hc.2
        have c0 : p.cos 0 = p.cos 1 := c0
        have c1 : p.cos 1 = p.cos 2 := c1
        have ec : ∀ i : Fin 3, equal3 (p.cos 0) (p.cos 1) (p.cos 2) = p.cos i := by
          intro i
          unfold equal3
          rw [if_pos ⟨c0, c1⟩]
          fin_cases i
          · rfl
          · exact c0
          · exact c0.trans c1
        have n : ¬ cen ≠ .P := fun hh => hh hP
        simp only [if_neg n]
        have e1 : (fun _ : Fin 3 => equal3 (p.cos 0) (p.cos 1) (p.cos 2)) = p.cos := funext ec
        have e2 : (fun _ : Fin 3 => Real.sqrt (1 - equal3 (p.cos 0) (p.cos 1) (p.cos 2) * equal3 (p.cos 0) (p.cos 1) (p.cos 2)))
            = p.sin := by
          funext i
          rw [ec i, sin_of_cos hv]
        rw [e1, e2]
      · rw [decide_eq_false hP, cond_false, Bool.and_eq_true, Bool.and_eq_true] at hc
        obtain ⟨⟨z0, z1⟩, z2⟩ := hc
        have c : ∀ i, p.cos i = 0 := by
          intro i
          fin_cases i
          · exact cos_zero hv (zC_sound h z0)
          · exact cos_zero hv (zC_sound h z1)
          · exact cos_zero hv (zC_sound h z2)
        simp only [if_pos hP]
        have e1 : (fun _ : Fin 3 => (0 : ℝ)) = p.cos := funext fun i => (c i).symm
        have e2 : (fun _ : Fin 3 => (1 : ℝ)) = p.sin := funext fun i => (sin_one hv (c i)).symm
        rw [e1, e2]
    · rw [if_neg hd]
      rw [Bool.not_eq_true] at hd
      rw [hd, cond_false, Bool.and_eq_true, Bool.and_eq_true] at hc
      obtain ⟨⟨c0, c1⟩, c2⟩ := hc
      have step : ∀ i, implies (dualF S i) (bif decide (cen = .P) || decide (cen = .R) then eqAng S i (i + 1)
            else zAng S i && zAng S (i + 1)) = true →
          (if dualF S i = true then pairAngles (decide (cen ≠ .P ∧ cen ≠ .R)) p i (i + 1) else p) = p := by
        intro i hi
        by_cases hdi : dualF S i = true
        swap
        · rw [if_neg hdi]
        rw [if_pos hdi]
        have hi := implies_iff.mp hi hdi
        by_cases hPR : cen = .P ∨ cen = .R
        · have : (decide (cen = .P) || decide (cen = .R)) = true := by simpa using hPR
          rw [this, cond_true] at hi
          apply pairAngles_self hv (cos_eq hv h (la _ _) hi)
          intro hh
          have := of_decide_eq_true hh
          tauto
        · have : (decide (cen = .P) || decide (cen = .R)) = false := by simpa using hPR
          rw [this, cond_false, Bool.and_eq_true] at hi
          have z1 := cos_zero hv (zC_sound h hi.1)
          have z2 := cos_zero hv (zC_sound h hi.2)
          exact pairAngles_self hv (by rw [z1, z2]) fun _ => z1
      rw [step 0 c0, step 1 c1, step 2 c2]
  · rw [if_neg hm]
    rw [Bool.not_eq_true] at hm
    rw [hm, cond_false, Bool.and_eq_true, Bool.and_eq_true] at hc
    obtain ⟨⟨c0, c1⟩, c2⟩ := hc
    rw [mainStep_self hv h (implies_iff.mp c0), Option.bind_some, mainStep_self hv h (implies_iff.mp c1), Option.bind_some,
      mainStep_self hv h (implies_iff.mp c2)]

theorem changed_self (near : ℝ → Bool) (hn : near 0 = true) (main : Fin 3 → Bool) (p : Params) :
    changed near main p p = false := by
  unfold changed
  simp [hn]

/-! ### the reciprocal lattice -/

theorem inv_matrix {M : M3} : Inv S M ↔ ∀ R ∈ S,
    (Matrix.of fun i j => (R i j : ℝ)).transpose * Matrix.of M * (Matrix.of fun i j => (R i j : ℝ)) = Matrix.of M := by
  unfold Inv
  refine forall_congr' fun R => forall_congr' fun _ => ?_
  have e : ∀ i j, ((Matrix.of fun i j => (R i j : ℝ)).transpose * Matrix.of M * (Matrix.of fun i j => (R i j : ℝ))) i j
      = ∑ k, ∑ l, (R k i : ℝ) * M k l * (R l j : ℝ) := by
    intro i j
    rw [Matrix.mul_apply, Finset.sum_comm]
    refine Finset.sum_congr rfl fun l _ => ?_
    rw [Matrix.mul_apply, Finset.sum_mul]
    rfl
  constructor
  · intro h
    ext i j
    rw [e, h]; rfl
  · intro h i j
    rw [← e, h]; rfl

/-- the metric of the reciprocal lattice is invariant under the transposed matrices -/
theorem inv_dual {M N : M3} (h : Inv S M) {c : ℝ} (hc : c ≠ 0)
    (hMN : Matrix.of M * Matrix.of N = c • (1 : Matrix (Fin 3) (Fin 3) ℝ)) : Inv (S.map Mat.transpose) N := by
  rw [inv_matrix] at h ⊢
  intro R' hR'
  obtain ⟨R, hR, rfl⟩ := List.mem_map.mp hR'
  have h := h R hR
  set r : Matrix (Fin 3) (Fin 3) ℝ := Matrix.of fun i j => (R i j : ℝ) with hr
  have e : (Matrix.of fun i j => ((Mat.transpose R) i j : ℝ)) = r.transpose := rfl
  rw [e, Matrix.transpose_transpose]
  set A : Matrix (Fin 3) (Fin 3) ℝ := Matrix.of M
  set B : Matrix (Fin 3) (Fin 3) ℝ := Matrix.of N
  have hAB : A * (c⁻¹ • B) = 1 := by rw [Matrix.mul_smul, hMN, smul_smul, inv_mul_cancel₀ hc, one_smul]
  have hBA : (c⁻¹ • B) * A = 1 := mul_eq_one_comm.mp hAB
  -- `rᵀ A (r B) = c`
  have h1 : r.transpose * (A * r * (c⁻¹ • B)) = 1 := by
    rw [← Matrix.mul_assoc, ← Matrix.mul_assoc, h, hAB]
  have h2 : A * r * (c⁻¹ • B) * r.transpose = 1 := mul_eq_one_comm.mp h1
  have h3 : r * (c⁻¹ • B) * r.transpose = c⁻¹ • B := by
    calc r * (c⁻¹ • B) * r.transpose = ((c⁻¹ • B) * A) * (r * (c⁻¹ • B) * r.transpose) := by rw [hBA, Matrix.one_mul]
      _ = (c⁻¹ • B) * (A * r * (c⁻¹ • B) * r.transpose) := by simp only [Matrix.mul_assoc]
      _ = c⁻¹ • B := by rw [h2, Matrix.mul_one]
  rw [Matrix.mul_smul, Matrix.smul_mul] at h3
  have := congrArg (fun X => c • X) h3
  simpa only [smul_smul, mul_inv_cancel₀ hc, one_smul] using this

/-! ### the adjusted parameters are those of a cell -/

/-- lengths and angles, whether or not a cell with these angles exists -/
structure Pre (p : Params) : Prop where
  len : ∀ i, 0 < p.len i
  sin : ∀ i, 0 < p.sin i
  unit : ∀ i, p.sin i * p.sin i = 1 - p.cos i * p.cos i

theorem Pre.cos_lt {p : Params} (h : Pre p) (i : Fin 3) : p.cos i * p.cos i < 1 := by
  have h1 := h.sin i
  have h2 := h.unit i
  nlinarith

theorem _root_.Brille.Lat.Valid.pre {p : Params} (h : Valid p) : Pre p := ⟨h.len, h.sin, h.unit⟩

theorem Pre.valid {p : Params} (h : Pre p) (hv : 0 < vol2 p.cos) : Valid p := ⟨h.len, h.sin, h.unit, hv⟩

theorem set2_forall (P : ℝ → Prop) {v : V3} (i j : Fin 3) {x : ℝ} (hv : ∀ k, P (v k)) (hx : P x) (k : Fin 3) :
    P (set2 v i j x k) := by
  unfold set2
  by_cases h : k = i
  · subst h; rwa [Function.update_self]
  · rw [Function.update_of_ne h]
    by_cases h' : k = j
    · subst h'; rwa [Function.update_self]
    · rw [Function.update_of_ne h']; exact hv k

theorem equal2_mean (x y : ℝ) : equal2 x y = (x + y) / 2 := by
  unfold equal2; split
  · rename_i h; rw [h]; ring
  · rfl

theorem equal3_mean (x y z : ℝ) : equal3 x y z = (x + y + z) / 3 := by
  unfold equal3; split
  · rename_i h; rw [h.1, h.2]; ring
  · rfl

theorem Pre.lenPair {p : Params} (h : Pre p) (i j : Fin 3) :
    Pre { p with len := set2 p.len i j (equal2 (p.len i) (p.len j)) } := by
  refine ⟨set2_forall (fun x => 0 < x) i j h.len ?_, h.sin, h.unit⟩
  rw [equal2_mean]
  have := h.len i
  have := h.len j
  positivity

/-- the sine of a cosine smaller than one -/
theorem sine {c : ℝ} (h : c * c < 1) : 0 < Real.sqrt (1 - c * c) ∧ Real.sqrt (1 - c * c) * Real.sqrt (1 - c * c) = 1 - c * c :=
  ⟨Real.sqrt_pos.mpr (by linarith), Real.mul_self_sqrt (by linarith)⟩

theorem Pre.setCos {p : Params} (h : Pre p) (i j : Fin 3) {c s : ℝ} (hs : 0 < s) (hu : s * s = 1 - c * c) :
    Pre { p with cos := set2 p.cos i j c, sin := set2 p.sin i j s } := by
  refine ⟨h.len, set2_forall (fun x => 0 < x) i j h.sin hs, fun k => ?_⟩
  show set2 p.sin i j s k * set2 p.sin i j s k = 1 - set2 p.cos i j c k * set2 p.cos i j c k
  unfold set2
  by_cases h1 : k = i
  · subst h1; rw [Function.update_self, Function.update_self]; exact hu
  · rw [Function.update_of_ne h1, Function.update_of_ne h1]
    by_cases h2 : k = j
    · subst h2; rw [Function.update_self, Function.update_self]; exact hu
    · rw [Function.update_of_ne h2, Function.update_of_ne h2]; exact h.unit k

theorem vol2_set2 (c : V3) (i : Fin 3) (x : ℝ) :
    vol2 (set2 c i (i + 1) x) = 1 - (x * x + x * x + c (i + 2) * c (i + 2)) + 2 * x * x * c (i + 2) := by
  unfold vol2 set2
  fin_cases i
  · show 1 - (x * x + x * x + c 2 * c 2) + 2 * x * x * c 2 = 1 - (x * x + x * x + c 2 * c 2) + 2 * x * x * c 2
    rfl
  · show 1 - (c 0 * c 0 + x * x + x * x) + 2 * c 0 * x * x = 1 - (x * x + x * x + c 0 * c 0) + 2 * x * x * c 0
    ring
  · show 1 - (x * x + c 1 * c 1 + x * x) + 2 * x * c 1 * x = 1 - (x * x + x * x + c 1 * c 1) + 2 * x * x * c 1
    ring

theorem vol2_at (c : V3) (i : Fin 3) :
    vol2 c = 1 - (c i * c i + c (i + 1) * c (i + 1) + c (i + 2) * c (i + 2)) + 2 * c i * c (i + 1) * c (i + 2) := by
  unfold vol2
  fin_cases i
  · rfl
  · show _ = 1 - (c 1 * c 1 + c 2 * c 2 + c 0 * c 0) + 2 * c 1 * c 2 * c 0
    ring
  · show _ = 1 - (c 2 * c 2 + c 0 * c 0 + c 1 * c 1) + 2 * c 2 * c 0 * c 1
    ring

theorem pairAngles_right_valid {p : Params} (h : Pre p) (i : Fin 3) : Valid (pairAngles true p i (i + 1)) := by
  refine (h.setCos i (i + 1) (c := 0) (s := 1) one_pos (by norm_num)).valid ?_
  show 0 < vol2 (set2 p.cos i (i + 1) 0)
  rw [vol2_set2]
  have := h.cos_lt (i + 2)
  linarith

theorem pairAngles_valid {p : Params} (h : Valid p) (r : Bool) (i : Fin 3) : Valid (pairAngles r p i (i + 1)) := by
  cases r
  swap
  · exact pairAngles_right_valid h.pre i
  have c1 := h.pre.cos_lt i
  have c2 := h.pre.cos_lt (i + 1)
  have c3 := h.pre.cos_lt (i + 2)
  set m := equal2 (p.cos i) (p.cos (i + 1)) with hm
  have hm' := equal2_mean (p.cos i) (p.cos (i + 1))
  rw [← hm] at hm'
  have hmm : m * m < 1 := by
    rw [hm']
    nlinarith [mul_self_nonneg (p.cos i - p.cos (i + 1))]
  obtain ⟨s1, s2⟩ := sine hmm
  refine (h.pre.setCos i (i + 1) s1 s2).valid ?_
  show 0 < vol2 (set2 p.cos i (i + 1) m)
  rw [vol2_set2]
  have hv := h.vol
  rw [vol2_at _ i] at hv
  set a := p.cos i
  set b := p.cos (i + 1)
  set c := p.cos (i + 2)
  have hc : -1 < c := by nlinarith
  have : 1 - (m * m + m * m + c * c) + 2 * m * m * c =
      (1 - (a * a + b * b + c * c) + 2 * a * b * c) + (a - b) * (a - b) / 2 * (1 + c) := by rw [hm']; ring
  rw [this]
  have : 0 ≤ (a - b) * (a - b) / 2 * (1 + c) := mul_nonneg (by nlinarith [mul_self_nonneg (a - b)]) (by linarith)
  linarith

theorem mainStep_valid {p q : Params} (h : Valid p) {cen : Bravais} {real : Bool} {m d : Fin 3 → Bool} {i : Fin 3}
    (hs : mainStep cen real m d p i = some q) : Valid q := by
  unfold mainStep at hs
  split at hs
  swap
  · cases hs; exact h
  dsimp only at hs
  split at hs
  · cases hs
  split at hs
  · cases hs
  have h' := h.pre.lenPair i (i + 1)
  split at hs
  · cases hs
    split
    · rename_i hR
      have : decide (cen ≠ Bravais.P) = true := by rw [hR]; decide
      rw [this]
      apply pairAngles_right_valid
      have hcs : 0 < (cosAndSinD (if real then 120 else 60)).2 ∧
          (cosAndSinD (if real then 120 else 60)).2 * (cosAndSinD (if real then 120 else 60)).2 =
            1 - (cosAndSinD (if real then 120 else 60)).1 * (cosAndSinD (if real then 120 else 60)).1 := by
        have h3 : Real.sqrt 3 * Real.sqrt 3 = 3 := Real.mul_self_sqrt (by norm_num)
        cases real
        · simp only [Bool.false_eq_true, if_false]; unfold cosAndSinD; norm_num; nlinarith
        · simp only [if_true]; unfold cosAndSinD; norm_num; nlinarith
      have := h'.setCos (i + 2) (i + 2) hcs.1 hcs.2
      unfold set2 at this
      simp only [Function.update_idem] at this
      exact this
    · exact pairAngles_valid (h'.valid h.vol) _ i
  · cases hs
    exact h'.valid h.vol

/-- adjusting the parameters of a cell gives parameters of a cell -/
theorem snapWith_valid {p q : Params} (h : Valid p) {cen : Bravais} {real : Bool} {m d : Fin 3 → Bool}
    (hs : snapWith cen real m d p = some q) : Valid q := by
  unfold snapWith at hs
  split at hs
  · dsimp only at hs
    have l0 := h.len 0
    have l1 := h.len 1
    have l2 := h.len 2
    have hl : 0 < equal3 (p.len 0) (p.len 1) (p.len 2) := by rw [equal3_mean]; positivity
    have h' : Valid { p with len := fun _ => equal3 (p.len 0) (p.len 1) (p.len 2) } := ⟨fun _ => hl, h.sin, h.unit, h.vol⟩
    split at hs
    · cases hs
      by_cases hP : cen ≠ .P
      · simp only [if_pos hP]
        refine ⟨fun _ => hl, fun _ => one_pos, fun _ => by norm_num, ?_⟩
        show 0 < 1 - ((0 : ℝ) * 0 + 0 * 0 + 0 * 0) + 2 * 0 * 0 * 0
        norm_num
      · simp only [if_neg hP]
        set c := equal3 (p.cos 0) (p.cos 1) (p.cos 2) with hc
        have hc' := equal3_mean (p.cos 0) (p.cos 1) (p.cos 2)
        rw [← hc] at hc'
        have c0 := h.pre.cos_lt 0
        have c1 := h.pre.cos_lt 1
        have c2 := h.pre.cos_lt 2
        have hv := h.vol
        unfold vol2 at hv
        set x := p.cos 0
        set y := p.cos 1
        set z := p.cos 2
        have hx : x < 1 := by nlinarith
        have hy : y < 1 := by nlinarith
        have hz : z < 1 := by nlinarith
        have up : c < 1 := by rw [hc']; linarith
        have lo : -(1 / 2) < c := by
          -- the sum of the three unit vectors is not zero
          have ht : (x - y * z) * (x - y * z) < (1 - y * y) * (1 - z * z) := by nlinarith
          have hA : 0 < 1 - y * y := by linarith
          have hB : 0 < 1 - z * z := by linarith
          have key : 0 < (1 - y * y) + (1 - z * z) + 2 * (x - y * z) := by
            by_contra hn
            push Not at hn
            nlinarith [mul_self_nonneg ((1 - y * y) - (1 - z * z))]
          have : 3 + 2 * (x + y + z) = (1 + y + z) * (1 + y + z) + ((1 - y * y) + (1 - z * z) + 2 * (x - y * z)) := by ring
          have : 0 < 3 + 2 * (x + y + z) := by rw [this]; nlinarith [mul_self_nonneg (1 + y + z)]
          rw [hc']; linarith
        obtain ⟨s1, s2⟩ := sine (c := c) (by nlinarith)
        refine ⟨fun _ => hl, fun _ => s1, fun _ => s2, ?_⟩
        show 0 < 1 - (c * c + c * c + c * c) + 2 * c * c * c
        have : 1 - (c * c + c * c + c * c) + 2 * c * c * c = (1 - c) * (1 - c) * (1 + 2 * c) := by ring
        rw [this]
        have : 0 < 1 - c := by linarith
        have : 0 < 1 + 2 * c := by linarith
        positivity
    · cases hs
      have step : ∀ (q : Params) (i : Fin 3), Valid q →
          Valid (if d i = true then pairAngles (decide (cen ≠ .P ∧ cen ≠ .R)) q i (i + 1) else q) := by
        intro q i hq
        split
        · exact pairAngles_valid hq _ i
        · exact hq
      exact step _ 2 (step _ 1 (step _ 0 h'))
  · obtain ⟨p1, e1, hs⟩ := Option.bind_eq_some_iff.mp hs
    obtain ⟨p2, e2, e3⟩ := Option.bind_eq_some_iff.mp hs
    exact mainStep_valid (mainStep_valid (mainStep_valid h e1) e2) e3

theorem snap_valid {p q : Params} (h : Valid p) {cen : Bravais} {real : Bool} {ops : List IMat}
    (hs : snap cen ops real p = some q) : Valid q := by
  unfold snap at hs
  split at hs <;> exact snapWith_valid h hs

/-- whether adjusting throws does not depend on the lattice -/
theorem snapWith_total {S : List IMat} {cen : Bravais} {real : Bool}
    (hc : certS S (decide (cen = .P)) (decide (cen = .R)) real = true) (p : Params) :
    ∃ q, snapWith cen real (mainF S) (dualF S) p = some q := by
  have step : ∀ (p : Params) (i : Fin 3),
      implies (mainF S i) (certMain S (decide (cen = .P)) (decide (cen = .R)) real (dualF S) i) = true →
      ∃ q, mainStep cen real (mainF S) (dualF S) p i = some q := by
    intro p i hi
    unfold mainStep
    by_cases hm : mainF S i = true
    swap
    · rw [if_neg hm]; exact ⟨_, rfl⟩
    rw [if_pos hm]
    have hc := implies_iff.mp hi hm
    unfold certMain at hc
    rw [Bool.and_eq_true, Bool.and_eq_true, Bool.not_eq_true', Bool.not_eq_true', implies_iff] at hc
    obtain ⟨⟨c1, c2⟩, c3⟩ := hc
    dsimp only
    rw [if_neg (by rw [c1]; decide), if_neg (by rw [c2]; decide)]
    split <;> exact ⟨_, rfl⟩
  unfold snapWith
  unfold certS at hc
  dsimp only at hc
  by_cases hm : (mainF S 0 && mainF S 1) = true
  · rw [if_pos hm]
    dsimp only
    split <;> exact ⟨_, rfl⟩
  · rw [if_neg hm]
    rw [Bool.not_eq_true] at hm
    rw [hm, cond_false, Bool.and_eq_true, Bool.and_eq_true] at hc
    obtain ⟨⟨c0, c1⟩, c2⟩ := hc
    obtain ⟨p1, e1⟩ := step p 0 c0
    obtain ⟨p2, e2⟩ := step p1 1 c1
    obtain ⟨p3, e3⟩ := step p2 2 c2
    exact ⟨p3, by rw [e1, Option.bind_some, e2, Option.bind_some, e3]⟩

/-! ### the adjusted vectors -/

theorem upper_gram {p : Params} (h : Valid p) {v : ℝ} (hv : v * v = vol2 p.cos) (i j : Fin 3) :
    columnDot (upper p v) (upper p v) i j = gram p i j := by
  have s2 := h.sin 2
  have hs := h.unit 2
  unfold vol2 at hv
  have e : p.len 2 * (p.cos 0 - p.cos 2 * p.cos 1) / p.sin 2 * p.sin 2 = p.len 2 * (p.cos 0 - p.cos 2 * p.cos 1) := by
    field_simp
  have f : p.len 2 * v / p.sin 2 * p.sin 2 = p.len 2 * v := by field_simp
  set w := p.len 2 * (p.cos 0 - p.cos 2 * p.cos 1) / p.sin 2 with hw
  set u := p.len 2 * v / p.sin 2 with hu
  have hcol : ∀ i, upper p v 0 i = ![p.len 0, p.len 1 * p.cos 2, p.len 2 * p.cos 1] i ∧
      upper p v 1 i = ![0, p.len 1 * p.sin 2, w] i ∧ upper p v 2 i = ![0, 0, u] i := fun i => ⟨rfl, rfl, rfl⟩
  unfold columnDot
  rw [(hcol i).1, (hcol i).2.1, (hcol i).2.2, (hcol j).1, (hcol j).2.1, (hcol j).2.2]
  have d22 : (p.len 2 * p.cos 1) * (p.len 2 * p.cos 1) + w * w + u * u = p.len 2 * p.len 2 := by
    have hne : p.sin 2 * p.sin 2 ≠ 0 := (mul_pos s2 s2).ne'
    apply mul_left_cancel₀ hne
    have e2 : (w * p.sin 2) * (w * p.sin 2) = (p.len 2 * (p.cos 0 - p.cos 2 * p.cos 1)) * (p.len 2 * (p.cos 0 - p.cos 2 * p.cos 1)) := by
      rw [e]
    have f2 : (u * p.sin 2) * (u * p.sin 2) = (p.len 2 * v) * (p.len 2 * v) := by rw [f]
    linear_combination e2 + f2 + (p.len 2 * p.len 2) * hv + ((p.len 2 * p.cos 1) * (p.len 2 * p.cos 1) - p.len 2 * p.len 2) * hs
  fin_cases i <;> fin_cases j <;> simp [gram]
  · ring
  · ring
  · ring
  · linear_combination (p.len 1 * p.len 1) * hs
  · linear_combination p.len 1 * e
  · ring
  · linear_combination p.len 1 * e
  · linear_combination d22

theorem orientation_orthogonal (m : M3) : Matrix.of (orientation m) * (Matrix.of (orientation m)).transpose = 1 := by
  unfold orientation
  simp only [cosAndSin_eq]
  generalize arctan (-m 1 0) (m 2 0) = mu
  generalize arctan (-m 2 0) (m 0 0 * Real.cos mu) = nu
  generalize arctan _ _ = xi
  have h1 := Real.sin_sq_add_cos_sq mu
  have h2 := Real.sin_sq_add_cos_sq nu
  have h3 := Real.sin_sq_add_cos_sq xi
  set a := Real.cos mu
  set b := Real.sin mu
  set c := Real.cos nu
  set d := Real.sin nu
  set e := Real.cos xi
  set f := Real.sin xi
  ext i j
  rw [Matrix.mul_apply, Fin.sum_univ_three]
  fin_cases i <;> fin_cases j <;> simp [Matrix.one_apply]
  · linear_combination (d ^ 2) * h1 + h2
  · linear_combination (- (d * c * f)) * h1
  · linear_combination (- (d * c * e)) * h1
  · linear_combination (- (d * c * f)) * h1
  · linear_combination (e ^ 2 + f ^ 2 * c ^ 2) * h1 + f ^ 2 * h2 + h3
  · linear_combination (-(e * f) + f * e * c ^ 2) * h1 + (e * f) * h2
  · linear_combination (- (d * c * e)) * h1
  · linear_combination (-(e * f) + f * e * c ^ 2) * h1 + (e * f) * h2
  · linear_combination (f ^ 2 + e ^ 2 * c ^ 2) * h1 + e ^ 2 * h2 + h3

end Brille.Snap
