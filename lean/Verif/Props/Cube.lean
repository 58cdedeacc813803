/-
C25: the interpolation weights of a cube node.
-/
import Verif.Proofs.Cube

namespace Brille.Props

open Brille.Trellis Brille.Spec

theorem combine_cube (gtZero : ℚ → Bool) (vi : Fin 8 → Nat) (w : Fin 8 → ℚ) (g : Nat → ℚ) :
    combine (((List.finRange 8).filter (fun i => gtZero (w i))).map (fun i => (vi (7 - i), w i))) g =
      ((List.finRange 8).map (fun i => if gtZero (w i) then w i * g (vi (7 - i)) else 0)).sum := by
  rw [combine, List.map_map, sum_filter_map]
  rfl

/-- What the cube node returns for a point of its box. -/
theorem cube_accepts (lo hi x : Fin 3 → ℚ) (hbox : ∀ d, lo d < hi d)
    (hx : ∀ d, lo d ≤ x d ∧ x d ≤ hi d)
    (gtOne gtZero : ℚ → Bool) (h1 : ∀ w, gtOne w = true → 1 < w)
    (vi : Fin 8 → Nat) (vertices : Nat → Fin 3 → ℚ) (hv : ∀ i, vertices (vi i) = boxCorner lo hi i)
    (shouldContain : Bool) :
    cubeIndicesWeights gtOne gtZero vi vertices x shouldContain =
      some (((List.finRange 8).filter (fun i => gtZero (cubeW (boxCorner lo hi) x i))).map
        (fun i => (vi (7 - i), cubeW (boxCorner lo hi) x i))) := by
  have hw : (fun i => vertices (vi i)) = boxCorner lo hi := funext hv
  have hb := cubeW_bounds lo hi x hbox hx
  rw [cubeIndicesWeights]
  simp only [hw]
  rw [if_neg]
  simp only [Bool.and_eq_true, List.any_eq_true, not_and]
  rintro ⟨i, -, hi'⟩
  exact absurd (h1 _ hi') (not_lt.2 (hb i).2)

/-- C25.  For every box, every point `x` of the closed box, whatever indices the eight corners have:
with exact comparisons the cube node returns a list of vertex indices and weights such that
* every weight is positive and at most 1,
* every index is one of the node's own, and its vertex lies on each face of the box on which `x` lies
  (so only the 4, 2 or 1 necessary corners are used on a face, an edge or a corner),
* every function affine in each coordinate is reproduced exactly at `x`. -/
theorem C25_cube_weights (lo hi x : Fin 3 → ℚ) (hbox : ∀ d, lo d < hi d)
    (hx : ∀ d, lo d ≤ x d ∧ x d ≤ hi d)
    (gtOne gtZero : ℚ → Bool) (h1 : ∀ w, gtOne w = true ↔ 1 < w) (h0 : ∀ w, gtZero w = true ↔ 0 < w)
    (vi : Fin 8 → Nat) (vertices : Nat → Fin 3 → ℚ) (hv : ∀ i, vertices (vi i) = boxCorner lo hi i)
    (shouldContain : Bool) :
    ∃ iw, cubeIndicesWeights gtOne gtZero vi vertices x shouldContain = some iw ∧
      (∀ p ∈ iw, 0 < p.2 ∧ p.2 ≤ 1 ∧ (∃ i, p.1 = vi i) ∧
        ∀ d, (x d = lo d → vertices p.1 d = lo d) ∧ (x d = hi d → vertices p.1 d = hi d)) ∧
      ∀ f, Trilinear f →
        combine iw (fun v => f (vertices v 0) (vertices v 1) (vertices v 2)) = f (x 0) (x 1) (x 2) := by
  have hb := cubeW_bounds lo hi x hbox hx
  refine ⟨_, cube_accepts lo hi x hbox hx gtOne gtZero (fun w => (h1 w).1) vi vertices hv _, ?_, ?_⟩
  · intro p hp
    simp only [List.mem_map, List.mem_filter] at hp
    obtain ⟨i, ⟨-, hi0⟩, rfl⟩ := hp
    have hpos := (h0 _).1 hi0
    refine ⟨hpos, (hb i).2, ⟨_, rfl⟩, ?_⟩
    rw [cubeW_box lo hi x hbox hx] at hpos
    have hfac : ∀ d, factor lo hi x d (cornerBits i d) ≠ 0 := by
      intro d hd
      have : factor lo hi x 0 (cornerBits i 0) * factor lo hi x 1 (cornerBits i 1) *
        factor lo hi x 2 (cornerBits i 2) = 0 := by
        fin_cases d <;> simp_all
      exact absurd hpos (by rw [this]; exact lt_irrefl _)
    have hopp : ∀ d, cornerBits (7 - i) d = !cornerBits i d :=
      (by decide : ∀ (i : Fin 8) d, cornerBits (7 - i) d = !cornerBits i d) i
    intro d
    have hd := hfac d
    have hne : hi d - lo d ≠ 0 := by have := hbox d; linarith
    simp only [hv, boxCorner, hopp]
    cases hbit : cornerBits i d
    · rw [hbit] at hd
      refine ⟨fun e => absurd ?_ hd, fun _ => by simp⟩
      simp [factor, rel, e]
    · rw [hbit] at hd
      refine ⟨fun _ => by simp, fun e => absurd ?_ hd⟩
      simp [factor, rel, e, div_self hne]
  · intro f hf
    rw [combine_cube, ← cube_trilinear lo hi x hbox hx f hf]
    congr 1
    apply List.map_congr_left
    intro i _
    by_cases hz : gtZero (cubeW (boxCorner lo hi) x i) = true
    · simp only [hz, if_true, hv]
    · have : cubeW (boxCorner lo hi) x i = 0 :=
        le_antisymm (not_lt.1 (fun h => hz ((h0 _).2 h))) (hb i).1
      simp [this]

/-- C25, the two consequences users rely on most: the weights add up to one and the weighted mean of
the vertices is the point itself. -/
theorem C25_partition_of_unity (lo hi x : Fin 3 → ℚ) (hbox : ∀ d, lo d < hi d)
    (hx : ∀ d, lo d ≤ x d ∧ x d ≤ hi d)
    (gtOne gtZero : ℚ → Bool) (h1 : ∀ w, gtOne w = true ↔ 1 < w) (h0 : ∀ w, gtZero w = true ↔ 0 < w)
    (vi : Fin 8 → Nat) (vertices : Nat → Fin 3 → ℚ) (hv : ∀ i, vertices (vi i) = boxCorner lo hi i)
    (shouldContain : Bool) :
    ∃ iw, cubeIndicesWeights gtOne gtZero vi vertices x shouldContain = some iw ∧
      (iw.map Prod.snd).sum = 1 ∧ ∀ d, (iw.map (fun p => p.2 * vertices p.1 d)).sum = x d := by
  obtain ⟨iw, e, -, hf⟩ :=
    C25_cube_weights lo hi x hbox hx gtOne gtZero h1 h0 vi vertices hv shouldContain
  refine ⟨iw, e, ?_, ?_⟩
  · have := hf (fun _ _ _ => 1) ⟨by intros; ring, by intros; ring, by intros; ring⟩
    simpa [combine] using this
  · intro d
    fin_cases d
    · exact hf (fun a _ _ => a) ⟨by intros; ring, by intros; ring, by intros; ring⟩
    · exact hf (fun _ a _ => a) ⟨by intros; ring, by intros; ring, by intros; ring⟩
    · exact hf (fun _ _ a => a) ⟨by intros; ring, by intros; ring, by intros; ring⟩

example : ∃ (lo hi x : Fin 3 → ℚ) (f : ℚ → ℚ → ℚ → ℚ), (∀ d, lo d < hi d) ∧
    (∀ d, lo d ≤ x d ∧ x d ≤ hi d) ∧ Trilinear f ∧ f 1 1 1 ≠ f 1 1 2 :=
  ⟨fun _ => 0, fun _ => 1, fun _ => 1/2, fun a b c => a * b * c + c, fun _ => by norm_num,
    fun _ => by norm_num, ⟨by intros; ring, by intros; ring, by intros; ring⟩, by norm_num⟩

/-- C25 with the approximate comparisons of the code.  If weights are discarded only when they are at
most `ε`, data bounded by `M` at the corners of the box are combined with an error of at most
`8 ε M`. -/
theorem C25_tolerance (lo hi x : Fin 3 → ℚ) (hbox : ∀ d, lo d < hi d)
    (hx : ∀ d, lo d ≤ x d ∧ x d ≤ hi d) (ε M : ℚ) (hε : 0 ≤ ε)
    (gtOne gtZero : ℚ → Bool) (h1 : ∀ w, gtOne w = true → 1 < w)
    (h0 : ∀ w, gtZero w = false → w ≤ ε)
    (vi : Fin 8 → Nat) (vertices : Nat → Fin 3 → ℚ) (hv : ∀ i, vertices (vi i) = boxCorner lo hi i)
    (shouldContain : Bool) (f : ℚ → ℚ → ℚ → ℚ) (hf : Trilinear f)
    (hM : ∀ i, |f (boxCorner lo hi i 0) (boxCorner lo hi i 1) (boxCorner lo hi i 2)| ≤ M) :
    ∃ iw, cubeIndicesWeights gtOne gtZero vi vertices x shouldContain = some iw ∧
      |combine iw (fun v => f (vertices v 0) (vertices v 1) (vertices v 2)) - f (x 0) (x 1) (x 2)|
        ≤ 8 * ε * M := by
  have hb := cubeW_bounds lo hi x hbox hx
  refine ⟨_, cube_accepts lo hi x hbox hx gtOne gtZero h1 vi vertices hv _, ?_⟩
  · rw [combine_cube, ← cube_trilinear lo hi x hbox hx f hf]
    simp only [hv]
    have hM0 : 0 ≤ M := le_trans (abs_nonneg _) (hM 0)
    have key : ∀ (l : List (Fin 8)) (a b : Fin 8 → ℚ), 0 ≤ ε * M → (∀ i, |a i - b i| ≤ ε * M) →
        |(l.map a).sum - (l.map b).sum| ≤ l.length * (ε * M) := by
      intro l a b hE hab
      induction l with
      | nil => simp
      | cons i l ih =>
        simp only [List.map_cons, List.sum_cons, List.length_cons, Nat.cast_add, Nat.cast_one]
        have e : a i + (l.map a).sum - (b i + (l.map b).sum) =
          (a i - b i) + ((l.map a).sum - (l.map b).sum) := by ring
        rw [e]
        have := abs_add_le (a i - b i) ((l.map a).sum - (l.map b).sum)
        have := hab i
        linarith
    have := key (List.finRange 8) _ _ (mul_nonneg hε hM0) (by
      intro i
      show |(if gtZero (cubeW (boxCorner lo hi) x i) then cubeW (boxCorner lo hi) x i *
          f (boxCorner lo hi (7 - i) 0) (boxCorner lo hi (7 - i) 1) (boxCorner lo hi (7 - i) 2)
          else 0) - cubeW (boxCorner lo hi) x i *
          f (boxCorner lo hi (7 - i) 0) (boxCorner lo hi (7 - i) 1) (boxCorner lo hi (7 - i) 2)| ≤ ε * M
      by_cases hz : gtZero (cubeW (boxCorner lo hi) x i) = true
      · simp only [hz, if_true, sub_self, abs_zero]; exact mul_nonneg hε hM0
      · have hz' := h0 _ (by simpa using hz)
        simp only [hz, Bool.false_eq_true, if_false, zero_sub, abs_neg, abs_mul,
          abs_of_nonneg (hb i).1]
        exact mul_le_mul hz' (hM _) (abs_nonneg _) hε)
    simp only [List.length_finRange] at this
    push_cast at this
    linarith

example : ∃ (gtZero : ℚ → Bool) (ε : ℚ), 0 < ε ∧ (∀ w, gtZero w = false → w ≤ ε) ∧
    gtZero (ε / 2) = false :=
  ⟨fun w => decide (1/100 < w), 1/100, by norm_num, fun w h => by simpa using h, by norm_num⟩

/-- The corner indices 0…7 of the unit cube. -/
def unitVertices (v : Nat) : Fin 3 → ℚ :=
  if h : v < 8 then boxCorner (fun _ => 0) (fun _ => 1) ⟨v, h⟩ else fun _ => 0

/-- C25 fails for points outside: the node accepts the point (3/2, 1/2, 1/2) although it lies outside
of the unit cube and even though the caller asked for a containment check, and the weights then add
up to 2.  (The documentation promises "outside of the volume no indices or weights are set".) -/
theorem C25_outside_counterexample :
    ∃ x : Fin 3 → ℚ, 1 < x 0 ∧
      (cubeIndicesWeights (fun w => decide (1 < w)) (fun w => decide (0 < w)) (fun i => i.val)
        unitVertices x false).map (fun iw => (iw.map Prod.snd).sum) = some 2 :=
  ⟨![3/2, 1/2, 1/2], by norm_num [Matrix.cons_val_zero], by decide +kernel⟩

end Brille.Props
