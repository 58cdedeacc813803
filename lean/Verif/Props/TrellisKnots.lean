/-
C73: the knots of the hybrid grid.
-/
import Verif.Proofs.Knots
import Verif.Spec.TrellisBuild

namespace Brille.Props

open Brille.TrellisBuild Brille.Spec Brille.Zone Brille.Tetra
open Brille.Trellis hiding Pt

theorem foldl_min_le (l : List ℚ) : ∀ a, l.foldl min a ≤ a ∧ (∀ x ∈ l, l.foldl min a ≤ x) ∧ (l.foldl min a = a ∨ l.foldl min a ∈ l) := by
  induction l with
  | nil => simp
  | cons b l ih =>
    intro a
    obtain ⟨h1, h2, h3⟩ := ih (min a b)
    simp only [List.foldl_cons, List.mem_cons, forall_eq_or_imp]
    refine ⟨h1.trans (min_le_left _ _), ⟨h1.trans (min_le_right _ _), h2⟩, ?_⟩
    rcases h3 with h3 | h3
    · rcases min_choice a b with e | e <;> rw [h3, e] <;> simp
    · exact Or.inr (Or.inr h3)

theorem foldl_max_ge (l : List ℚ) : ∀ a, a ≤ l.foldl max a ∧ (∀ x ∈ l, x ≤ l.foldl max a) ∧ (l.foldl max a = a ∨ l.foldl max a ∈ l) := by
  induction l with
  | nil => simp
  | cons b l ih =>
    intro a
    obtain ⟨h1, h2, h3⟩ := ih (max a b)
    simp only [List.foldl_cons, List.mem_cons, forall_eq_or_imp]
    refine ⟨(le_max_left _ _).trans h1, ⟨(le_max_right _ _).trans h1, h2⟩, ?_⟩
    rcases h3 with h3 | h3
    · rcases max_choice a b with e | e <;> rw [h3, e] <;> simp
    · exact Or.inr (Or.inr h3)

theorem first_mem (v : List Pt) (hv : v ≠ []) (d : Fin 3) : v.getD 0 0 d ∈ v.map (fun p => p d) := by
  cases v with
  | nil => exact absurd rfl hv
  | cons p v => simp

theorem least_value (v : List Pt) (hv : v ≠ []) (d : Fin 3) :
    least v d ∈ v.map (fun p => p d) ∧ ∀ x ∈ v.map (fun p => p d), least v d ≤ x := by
  obtain ⟨-, h2, h3⟩ := foldl_min_le (v.map fun p => p d) (v.getD 0 0 d)
  refine ⟨?_, h2⟩
  rcases h3 with h | h
  · unfold least; rw [h]; exact first_mem v hv d
  · exact h

theorem largest_value (v : List Pt) (hv : v ≠ []) (d : Fin 3) :
    largest v d ∈ v.map (fun p => p d) ∧ ∀ x ∈ v.map (fun p => p d), x ≤ largest v d := by
  obtain ⟨-, h2, h3⟩ := foldl_max_ge (v.map fun p => p d) (v.getD 0 0 d)
  refine ⟨?_, h2⟩
  rcases h3 with h | h
  · unfold largest; rw [h]; exact first_mem v hv d
  · exact h

theorem extent_pos (v : List Pt) (d : Fin 3) (hext : ∃ p ∈ v, ∃ q ∈ v, p d < q d) : v ≠ [] ∧ 0 < largest v d - least v d := by
  obtain ⟨p, hp, q, hq, h⟩ := hext
  have hv : v ≠ [] := List.ne_nil_of_mem hp
  refine ⟨hv, ?_⟩
  have h1 := (least_value v hv d).2 _ (List.mem_map.mpr ⟨p, hp, rfl⟩)
  have h2 := (largest_value v hv d).2 _ (List.mem_map.mpr ⟨q, hq, rfl⟩)
  linarith

/-- **C73 (one axis).** For every list of vertices that are not all at the same coordinate along an axis, and every positive edge length,
the loop that makes the knots ends, after as many turns as there are nodes along the axis, and makes knots that increase in equal steps,
no longer than the edge length, from the least to the largest coordinate, and as few as possible. -/
theorem C73_axis (turns : Nat) (edge : ℚ) (v : List Pt) (d : Fin 3) (hedge : 0 < edge) (hext : ∃ p ∈ v, ∃ q ∈ v, p d < q d)
    (hturns : (⌈(largest v d - least v d) / edge⌉ : ℤ) ≤ turns) :
    ∃ knots, axisKnots turns edge v d = some knots ∧ EqualKnots edge (v.map fun p => p d) knots := by
  obtain ⟨hv, hpos⟩ := extent_pos v d hext
  obtain ⟨n, hn, hc, hst, hsum, hle⟩ := parts hpos hedge
  have hk : axisKnots turns edge v d = some (equalSteps (least v d) (knotStep (largest v d - least v d) edge) n) := by
    unfold axisKnots
    refine knotLoop_spec hst n _ _ (by rw [hc] at hturns; exact_mod_cast hturns) (by rw [hsum]; ring)
  refine ⟨_, hk, ?_⟩
  have hhead : (equalSteps (least v d) (knotStep (largest v d - least v d) edge) n).head? = some (least v d) := by
    rw [List.head?_eq_getElem?, equalSteps_getElem?]; simp
  have hlast : (equalSteps (least v d) (knotStep (largest v d - least v d) edge) n).getLast? = some (largest v d) := by
    rw [List.getLast?_eq_getElem?, equalSteps_length, equalSteps_getElem?]
    refine ⟨by omega, ?_⟩
    rw [Nat.add_sub_cancel, hsum]; ring
  refine ⟨equalSteps_increasing hst n, by rw [equalSteps_length]; omega, ⟨_, hhead, least_value v hv d⟩, ⟨_, hlast, largest_value v hv d⟩,
    ⟨_, hle, ?_⟩, ?_⟩
  · intro j a b ha hb
    rw [equalSteps_getElem?] at ha hb
    rw [ha.2, hb.2]; push_cast; ring
  · intro mn mx h1 h2
    rw [hhead] at h1; rw [hlast] at h2
    obtain rfl := Option.some.inj h1
    obtain rfl := Option.some.inj h2
    rw [equalSteps_length]
    have := Int.ceil_lt_add_one ((largest v d - least v d) / edge)
    rw [hc] at this
    have h3 : ((n + 1 - 2 : Nat) : ℚ) = n - 1 := by
      have : (n + 1 - 2 : Nat) = n - 1 := by omega
      rw [this]; push_cast [Nat.cast_sub hn]; ring
    rw [h3]
    rw [← lt_div_iff₀ hedge]
    push_cast at this
    linarith

/-- **C73 (grid).** For every list of vertices not all in one plane perpendicular to an axis, the knots along all three axes are made, and no
node between them is larger than the largest volume allowed, the third power of the edge length. -/
theorem C73_grid (turns : Nat) (edge : ℚ) (v : List Pt) (hedge : 0 < edge) (hext : ∀ d : Fin 3, ∃ p ∈ v, ∃ q ∈ v, p d < q d)
    (hturns : ∀ d : Fin 3, (⌈(largest v d - least v d) / edge⌉ : ℤ) ≤ turns) :
    ∃ t, knotsOnly turns edge v = some t ∧ (∀ d, EqualKnots edge (v.map fun p => p d) (t.knots d)) ∧
      ∀ (sub : Fin 3 → Nat) (lo hi : Pt), (∀ d, (t.knots d)[sub d]? = some (lo d) ∧ (t.knots d)[sub d + 1]? = some (hi d)) →
        0 < (hi 0 - lo 0) * (hi 1 - lo 1) * (hi 2 - lo 2) ∧ (hi 0 - lo 0) * (hi 1 - lo 1) * (hi 2 - lo 2) ≤ edge ^ 3 := by
  obtain ⟨k0, e0, h0⟩ := C73_axis turns edge v 0 hedge (hext 0) (hturns 0)
  obtain ⟨k1, e1, h1⟩ := C73_axis turns edge v 1 hedge (hext 1) (hturns 1)
  obtain ⟨k2, e2, h2⟩ := C73_axis turns edge v 2 hedge (hext 2) (hturns 2)
  have hall : ∀ d : Fin 3, EqualKnots edge (v.map fun p => p d) (mk3 k0 k1 k2 d) := by
    intro d
    fin_cases d
    · exact h0
    · exact h1
    · exact h2
  refine ⟨{ knots := mk3 k0 k1 k2, types := [] }, ?_, hall, ?_⟩
  · unfold knotsOnly; rw [e0, e1, e2]; rfl
  · intro sub lo hi h
    have hd : ∀ d, 0 < hi d - lo d ∧ hi d - lo d ≤ edge := by
      intro d
      obtain ⟨ha, hb⟩ := h d
      obtain ⟨st, hst, hs⟩ := (hall d).steps
      refine ⟨?_, (hs _ _ _ ha hb).le.trans hst⟩
      obtain ⟨l1, e1⟩ := List.getElem?_eq_some_iff.mp ha
      obtain ⟨l2, e2⟩ := List.getElem?_eq_some_iff.mp hb
      have := List.pairwise_iff_getElem.mp (hall d).increasing _ _ l1 l2 (by omega)
      rw [e1, e2] at this
      linarith
    refine ⟨mul_pos (mul_pos (hd 0).1 (hd 1).1) (hd 2).1, ?_⟩
    have : edge ^ 3 = edge * edge * edge := by ring
    rw [this]
    exact mul_le_mul (mul_le_mul (hd 0).2 (hd 1).2 (hd 1).1.le hedge.le) (hd 2).2 (hd 2).1.le (mul_nonneg hedge.le hedge.le)

/-- a box 2 by 3 by 1 with the corner cut off, and an edge length of 4/5 -/
example : let v : List Pt := [![0, 0, 0], ![2, 0, 0], ![0, 3, 0], ![2, 3, 1/2], ![0, 0, 1]]
    (∀ d : Fin 3, ∃ p ∈ v, ∃ q ∈ v, p d < q d) ∧ (∀ d : Fin 3, (⌈(largest v d - least v d) / (4/5)⌉ : ℤ) ≤ (10 : Nat)) ∧
      axisKnots 10 (4/5) v 0 = some [0, 2/3, 4/3, 2] ∧ axisKnots 10 (4/5) v 1 = some [0, 3/4, 3/2, 9/4, 3] ∧
      axisKnots 10 (4/5) v 2 = some [0, 1/2, 1] := by decide +kernel

/-- C73 fails for a largest volume that is not positive, which nothing excludes: the loop that makes the knots never ends (and the list
of knots grows until memory runs out). -/
theorem C73_endless_counterexample (edge : ℚ) (hedge : edge ≤ 0) (v : List Pt) (d : Fin 3) (hext : ∃ p ∈ v, ∃ q ∈ v, p d < q d) (turns : Nat) :
    axisKnots turns edge v d = none := by
  obtain ⟨-, hpos⟩ := extent_pos v d hext
  unfold axisKnots
  refine knotLoop_endless ?_ turns _ (by linarith)
  unfold knotStep
  have h : (largest v d - least v d) / edge ≤ 0 := div_nonpos_of_nonneg_of_nonpos hpos.le hedge
  have : (⌈(largest v d - least v d) / edge⌉ : ℤ) ≤ 0 := Int.ceil_le.mpr (by simpa using h)
  exact div_nonpos_of_nonneg_of_nonpos hpos.le (by exact_mod_cast this)

end Brille.Props
