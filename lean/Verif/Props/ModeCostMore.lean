import Verif.Props.ModeCost

/-! C61: pairing the modes of two points; values with vectors and matrices, and a point with itself. -/
namespace Brille.Props
open Finset Brille.ModeCost Brille.Spec

variable {T : Type} [RCLike T]

/-- element `k` of mode `b` of point `i` -/
def elementOf (values : Data T) (i b k : Nat) : T :=
  values.row i (b * (values.scalars + values.vectors + values.matrices) + k)

/-- the length of the difference of the elements `o … o + n - 1` of two modes -/
noncomputable def differenceLength (values : Data T) (i j b c o n : Nat) : ℝ :=
  Real.sqrt (∑ k ∈ range n, ‖elementOf values i b (o + k) - elementOf values j c (o + k)‖ ^ 2)

theorem vectorDistance_norm (n : Nat) (a b : Nat → T) :
    vectorDistance n a b = Real.sqrt (∑ k ∈ range n, ‖a k - b k‖ ^ 2) := by
  rw [vectorDistance, sumLoop_eq]
  congr 1
  refine sum_congr rfl fun k _ => ?_
  rw [RCLike.mul_conj]
  norm_cast

/-- **C61 (all elements).** Values may have scalars, vectors and 3×3 matrices: their first elements are the scalars, then
come the vectors, then the matrices.  With the default costs the cost of the values is the weighted sum of the absolute
differences of the scalars, the length of the difference of the vectors and the sum of the lengths of the differences
of the matrices. -/
theorem C61_all_elements (st : Scalars T) (values : Data T) (vectors : Data ℂ)
    (hb : vectors.branches = values.branches) (hvcf : values.vcf = 1)
    (hw1 : vectors.scalars = 0) (hw2 : vectors.matrices = 0) (hw3 : vectors.vectors ≠ 0) (i j : Nat) (hij : i ≠ j) :
    ∃ cost, costMatrix st complexes values vectors i j = some cost ∧
      cost.length = values.branches * values.branches ∧
      ∀ b c, b < values.branches → c < values.branches →
        cost.getD (b * values.branches + c) 0 =
          values.mult.1 * ∑ k ∈ range values.scalars, ‖elementOf values i b k - elementOf values j c k‖ +
          values.mult.2.1 * differenceLength values i j b c values.scalars values.vectors +
          values.mult.2.2 * ∑ m ∈ range (values.matrices / 9),
            differenceLength values i j b c (values.scalars + values.vectors + 9 * m) 9 +
          vectors.mult.2.1 * vectorCost vectors.vcf vectors.vectors (vectorsOf vectors i b) (vectorsOf vectors j c) := by
  have hs' : vectors.span = vectors.vectors := by simp [Data.span, hw1, hw2]
  obtain ⟨c1, h1, h2, h3⟩ := addCost_spec st values i j
    (List.replicate (values.branches * values.branches) (0 : ℝ)) false (by simp)
    (fun b c => values.mult.1 * ∑ k ∈ range values.scalars, ‖elementOf values i b k - elementOf values j c k‖ +
          values.mult.2.1 * differenceLength values i j b c values.scalars values.vectors +
          values.mult.2.2 * ∑ m ∈ range (values.matrices / 9),
            differenceLength values i j b c (values.scalars + values.vectors + 9 * m) 9) (by
      intro b c _ _
      simp only [second, Bool.false_eq_true, if_false, Option.bind_some, pairCost, vectorFun, hvcf, if_true, ne_eq]
      have e1 : (if ¬ values.scalars = 0 then scalarFun values.scalars (fun k => values.row i (b * values.span + k))
          (fun k => values.row j (c * values.span + k)) else 0) =
          ∑ k ∈ range values.scalars, ‖elementOf values i b k - elementOf values j c k‖ := by
        by_cases h : values.scalars = 0
        · simp [h]
        · rw [if_pos h, scalarFun, sumLoop_eq]; rfl
      have e2 : (if ¬ values.vectors = 0 then some (vectorDistance values.vectors
          (fun k => values.row i (b * values.span + (values.scalars + k)))
          (fun k => values.row j (c * values.span + (values.scalars + k)))) else some 0) =
          some (differenceLength values i j b c values.scalars values.vectors) := by
        by_cases h : values.vectors = 0
        · simp [h, differenceLength]
        · rw [if_pos h, vectorDistance_norm]; rfl
      have e3 : (if ¬ values.matrices = 0 then sumLoop (values.matrices / 9) fun m => vectorDistance (3 * 3)
          (fun k => values.row i (b * values.span + (values.scalars + values.vectors + 9 * m + k)))
          (fun k => values.row j (c * values.span + (values.scalars + values.vectors + 9 * m + k))) else 0) =
          ∑ m ∈ range (values.matrices / 9),
            differenceLength values i j b c (values.scalars + values.vectors + 9 * m) 9 := by
        by_cases h : values.matrices = 0
        · simp [h]
        · rw [if_pos h, sumLoop_eq]
          refine sum_congr rfl fun m _ => ?_
          rw [vectorDistance_norm]; rfl
      rw [e1, e2, e3, Option.map_some])
  obtain ⟨c2, k1, k2, k3⟩ := addCost_spec complexes vectors i j c1 true
    (by rw [h2, hb]; simp)
    (fun b c => vectors.mult.2.1 * vectorCost vectors.vcf vectors.vectors (vectorsOf vectors i b) (vectorsOf vectors j c))
    (by
      intro b c _ _
      rw [hs', pairCost_vectors vectors hw1 hw2 hw3]
      rfl)
  refine ⟨c2, ?_, by rw [k2, h2]; simp, ?_⟩
  · unfold costMatrix
    simp only [hij, if_false]
    rw [h1, Option.bind_some, k1]
  · intro b c hb' hc
    have e2 := k3 b c (hb ▸ hb') (hb ▸ hc)
    rw [hb] at e2
    rw [e2, h3 b c hb' hc]
    have : (List.replicate (values.branches * values.branches) (0 : ℝ)).getD
        (b * values.branches + c) 0 = 0 := by
      rw [List.getD_eq_getElem?_getD, List.getElem?_replicate]
      split <;> rfl
    rw [this, zero_add]

/-- values with two scalars, one vector and one matrix of one mode; vectors as usual -/
example : ∃ (values : Data ℝ) (vectors : Data ℂ), vectors.branches = values.branches ∧ values.vcf = 1 ∧
    vectors.scalars = 0 ∧ vectors.matrices = 0 ∧ vectors.vectors ≠ 0 ∧ values.scalars = 2 ∧ values.vectors = 3 ∧
    values.matrices = 9 :=
  ⟨⟨fun _ k => k, 2, 3, 9, 1, (1, 1, 1), 1⟩, ⟨fun _ k => k, 0, 3, 0, 1, (1, 1, 1), 0⟩, rfl, rfl, rfl, rfl, by decide, rfl,
    rfl, rfl⟩

/-- setting some elements of a list -/
theorem getD_foldl_set (l : List Nat) (cost : List ℝ) (x : ℝ) (k : Nat) :
    (l.foldl (fun c j => c.set j x) cost).length = cost.length ∧
      (l.foldl (fun c j => c.set j x) cost).getD k 0 = if k ∈ l ∧ k < cost.length then x else cost.getD k 0 := by
  induction l generalizing cost with
  | nil => simp
  | cons j js ih =>
    obtain ⟨h1, h2⟩ := ih (cost.set j x)
    refine ⟨by rw [List.foldl_cons, h1, List.length_set], ?_⟩
    rw [List.foldl_cons, h2, List.length_set]
    by_cases hk : k < cost.length
    · by_cases hj : k ∈ js
      · simp [hj, hk]
      · by_cases hkj : k = j
        · subst hkj
          simp [hj, hk]
        · simp [hj, hkj, List.getD_eq_getElem?_getD, Ne.symm hkj]
    · simp [hk, List.getD_eq_getElem?_getD]

/-- **C61 (itself).** For a point and itself the cost matrix is zero but for its diagonal, where it is minus one. -/
theorem C61_itself_cost {R : Type} [RCLike R] (st : Scalars T) (sr : Scalars R) (values : Data T) (vectors : Data R)
    (i : Nat) :
    ∃ cost, costMatrix st sr values vectors i i = some cost ∧
      cost.length = values.branches * values.branches ∧
      ∀ b c, b < values.branches → c < values.branches →
        cost.getD (b * values.branches + c) 0 = if b = c then -1 else 0 := by
  unfold costMatrix
  simp only [if_true]
  refine ⟨_, rfl, by rw [(getD_foldl_set _ _ _ 0).1]; simp, ?_⟩
  intro b c hb hc
  have hlt : b * values.branches + c < values.branches * values.branches :=
    calc b * values.branches + c < b * values.branches + values.branches := by omega
      _ = (b + 1) * values.branches := by ring
      _ ≤ values.branches * values.branches := Nat.mul_le_mul_right _ hb
  rw [(getD_foldl_set _ _ _ _).2]
  have h0 : (List.replicate (values.branches * values.branches) (0 : ℝ)).getD (b * values.branches + c) 0 = 0 := by
    rw [List.getD_eq_getElem?_getD, List.getElem?_replicate]
    split <;> rfl
  rw [h0]
  have hiff : (b * values.branches + c ∈ (List.range (values.branches * values.branches)).filter
      fun j => j % (values.branches + 1) = 0) ↔ b = c := by
    simp only [List.mem_filter, List.mem_range, hlt, true_and, decide_eq_true_eq]
    have e : (b * values.branches + c : ℤ) = b * (values.branches + 1) + (c - b) := by ring
    rw [← Nat.dvd_iff_mod_eq_zero, ← Int.natCast_dvd_natCast]
    push_cast
    rw [e, Int.dvd_add_right (Dvd.intro_left _ rfl)]
    constructor
    · rintro ⟨q, hq⟩
      have hq0 : q = 0 := by
        by_contra hne
        rcases lt_or_gt_of_ne hne with h | h
        · nlinarith
        · nlinarith
      rw [hq0] at hq
      omega
    · rintro rfl; simp
  by_cases hbc : b = c
  · rw [if_pos hbc, if_pos ⟨hiff.mpr hbc, by simpa using hlt⟩]
  · rw [if_neg hbc, if_neg fun h => hbc (hiff.mp h.1)]

/-- **C61 (itself).** A point's modes are paired with themselves. -/
theorem C61_itself {R : Type} [RCLike R] (st : Scalars T) (sr : Scalars R) (values : Data T) (vectors : Data R)
    (i fuel : Nat) :
    determine st sr values vectors i i (fuel + 1) =
      some (List.range values.branches, List.range values.branches) := by
  obtain ⟨cost, h1, _, h3⟩ := C61_itself_cost st sr values vectors i
  obtain ⟨r, k1, k2, k3⟩ := Lapjv.lapjv_direct
    (fun a b : Fin values.branches => cost.getD (a.val * values.branches + b.val) 0) (Equiv.refl _) (by
      intro a b hab
      rw [h3 _ _ (Fin.isLt _) (Fin.isLt _), h3 _ _ (Fin.isLt _) (Fin.isLt _)]
      rw [Equiv.refl_apply] at hab ⊢
      rw [if_pos rfl, if_neg (by simpa [Fin.ext_iff] using hab)]
      norm_num) fuel
  have hr : images (Equiv.refl (Fin values.branches)) = List.range values.branches := by
    unfold images
    simp [List.finRange_eq_pmap_range, List.map_pmap]
  unfold determine
  rw [h1, Option.bind_some]
  unfold Lapjv.jvFill
  rw [k1, Option.map_some, readSolution_perm _ (Equiv.refl _) k2, readSolution_perm _ (Equiv.refl _) k3]
  exact congrArg some (Prod.ext hr hr)

end Brille.Props
