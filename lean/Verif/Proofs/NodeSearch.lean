/-
Every point of a convex polyhedron is in the box of a node that the polyhedron has inner points of, and the search finds such a node.
-/
import Verif.Props.TrellisBuild
import Mathlib.Topology.Algebra.Module.Cardinality

namespace Brille.Props

open Brille.TrellisBuild Brille.Spec Brille.Tetra Brille.Cut Brille.SortFace Brille.Zone
open Brille.IrCheck (Poly facePlane)
open Brille.Trellis hiding Pt

/-- points of a convex set with inner points, as near to a given one as wanted, that avoid finitely many coordinates -/
theorem nearby {K : Set (Fin 3 → ℝ)} (hK : Convex ℝ K) (hi : (interior K).Nonempty) (F : Fin 3 → Set ℝ) (hF : ∀ d, (F d).Finite)
    {p : Fin 3 → ℝ} (hp : p ∈ K) {ε : ℝ} (hε : 0 < ε) : ∃ y ∈ K, ∀ d, y d ∉ F d ∧ |y d - p d| < ε := by
  have hd : ∀ d : Fin 3, Dense ((fun x : Fin 3 → ℝ => x d) ⁻¹' (F d)ᶜ) := fun d => ((hF d).countable.dense_compl ℝ).preimage (isOpenMap_eval d)
  have ho : ∀ d : Fin 3, IsOpen ((fun x : Fin 3 → ℝ => x d) ⁻¹' (F d)ᶜ) := fun d => (hF d).isClosed.isOpen_compl.preimage (continuous_apply d)
  have hG : Dense (⋂ d, (fun x : Fin 3 → ℝ => x d) ⁻¹' (F d)ᶜ) := dense_iInter_of_isOpen ho hd
  have h1 : p ∈ closure (interior K) := by
    rw [hK.closure_interior_eq_closure_of_nonempty_interior hi]; exact subset_closure hp
  have h2 : closure (interior K) ⊆ closure (interior K ∩ ⋂ d, (fun x : Fin 3 → ℝ => x d) ⁻¹' (F d)ᶜ) :=
    closure_minimal (hG.open_subset_closure_inter isOpen_interior) isClosed_closure
  obtain ⟨y, ⟨hy1, hy2⟩, hy⟩ := Metric.mem_closure_iff.mp (h2 h1) ε hε
  refine ⟨y, interior_subset hy1, fun d => ⟨?_, ?_⟩⟩
  · exact Set.mem_iInter.mp hy2 d
  · rw [abs_sub_comm]
    exact lt_of_le_of_lt (dist_le_pi_dist p y d) hy

theorem gap (l : List ℚ) (x : ℝ) : ∃ ε > 0, ∀ k ∈ l, (k : ℝ) ≠ x → ε ≤ |(k : ℝ) - x| := by
  induction l with
  | nil => exact ⟨1, one_pos, by simp⟩
  | cons a l ih =>
    obtain ⟨ε, h0, h⟩ := ih
    by_cases ha : (a : ℝ) = x
    · exact ⟨ε, h0, by simpa [ha] using h⟩
    · refine ⟨min ε |(a : ℝ) - x|, lt_min h0 (abs_pos.mpr (sub_ne_zero.mpr ha)), ?_⟩
      intro k hk hne
      rcases List.mem_cons.mp hk with rfl | hk
      · exact min_le_right _ _
      · exact (min_le_left _ _).trans (h k hk hne)

/-- a number between the first and the last knot that is not a knot is between two successive ones -/
theorem between_knots (knots : List ℚ) (y : ℝ) (mn mx : ℚ) (h1 : knots.head? = some mn) (h2 : knots.getLast? = some mx) (hmn : (mn : ℝ) ≤ y)
    (hmx : y ≤ mx) (hy : ∀ k ∈ knots, (k : ℝ) ≠ y) : ∃ (j : Nat) (a b : ℚ), knots[j]? = some a ∧ knots[j + 1]? = some b ∧ (a : ℝ) < y ∧ y < b := by
  induction knots generalizing mn with
  | nil => simp at h1
  | cons a l ih =>
    obtain rfl : a = mn := by simpa using h1
    have ha : (a : ℝ) < y := lt_of_le_of_ne hmn (hy a (by simp))
    cases l with
    | nil =>
      have : a = mx := by simpa using h2
      rw [this] at ha; exact absurd hmx (not_le.mpr ha)
    | cons b l =>
      rcases lt_or_ge y (b : ℝ) with hb | hb
      · exact ⟨0, a, b, rfl, rfl, ha, hb⟩
      · obtain ⟨j, c, e, hc, he, h⟩ := ih b rfl (by simpa using h2) hb (fun k hk => hy k (by simp [hk]))
        exact ⟨j + 1, c, e, by simpa using hc, by simpa using he, h⟩

theorem hull_range {v : List Pt} {x : Fin 3 → ℝ} (hx : x ∈ Hull (· ∈ v)) (d : Fin 3) (mn mx : ℚ) (h1 : ∀ p ∈ v, mn ≤ p d) (h2 : ∀ p ∈ v, p d ≤ mx) :
    (mn : ℝ) ≤ x d ∧ x d ≤ mx := by
  have hc : Convex ℝ {x : Fin 3 → ℝ | (mn : ℝ) ≤ x d ∧ x d ≤ mx} := by
    intro y hy z hz s t hs ht hst
    simp only [Set.mem_ofPred_eq, Pi.add_apply, Pi.smul_apply, smul_eq_mul] at hy hz ⊢
    have : t = 1 - s := by linarith
    subst this
    constructor <;> nlinarith
  refine convexHull_min ?_ hc hx
  rintro _ ⟨p, hp, rfl⟩
  show ((mn : ℝ) ≤ ((p d : ℚ) : ℝ)) ∧ ((p d : ℚ) : ℝ) ≤ mx
  exact ⟨by exact_mod_cast h1 p hp, by exact_mod_cast h2 p hp⟩

theorem knots_range {v : List Pt} {edge : ℚ} {knots : Fin 3 → List ℚ} (hk : ∀ d, EqualKnots edge (v.map fun p => p d) (knots d)) {x : Fin 3 → ℝ}
    (hx : x ∈ Hull (· ∈ v)) (d : Fin 3) :
    ∃ mn mx, (knots d).head? = some mn ∧ (knots d).getLast? = some mx ∧ (mn : ℝ) ≤ x d ∧ x d ≤ mx := by
  obtain ⟨mn, e1, -, h1⟩ := (hk d).first
  obtain ⟨mx, e2, -, h2⟩ := (hk d).last
  exact ⟨mn, mx, e1, e2, hull_range hx d mn mx (fun p hp => h1 _ (List.mem_map.mpr ⟨p, hp, rfl⟩)) fun p hp => h2 _ (List.mem_map.mpr ⟨p, hp, rfl⟩)⟩

/-- every point of the polyhedron is in the box of a node that is used -/
theorem cover_box {v : List Pt} {faces : List Faces.Face} (h : ConvexSolid v faces) (hne : faces ≠ []) {edge : ℚ} {knots : Fin 3 → List ℚ}
    (hk : ∀ d, EqualKnots edge (v.map fun p => p d) (knots d)) {x : Fin 3 → ℝ} (hx : x ∈ Hull (· ∈ v)) :
    ∃ (sub : Fin 3 → Nat) (lo hi : Pt), (∀ d, (knots d)[sub d]? = some (lo d) ∧ (knots d)[sub d + 1]? = some (hi d)) ∧ x ∈ Box lo hi ∧
      (Hull (· ∈ v) ∩ OpenBox lo hi).Nonempty := by
  choose ε hε hgap using fun d : Fin 3 => gap (knots d) (x d)
  have hmin : 0 < min (ε 0) (min (ε 1) (ε 2)) := lt_min (hε 0) (lt_min (hε 1) (hε 2))
  have hle : ∀ d, min (ε 0) (min (ε 1) (ε 2)) ≤ ε d := by
    intro d
    fin_cases d
    · exact min_le_left _ _
    · exact (min_le_right _ _).trans (min_le_left _ _)
    · exact (min_le_right _ _).trans (min_le_right _ _)
  obtain ⟨y, hy, hyd⟩ := nearby (convex_convexHull ℝ _) (solid_interior h hne) (fun d => (fun k : ℚ => (k : ℝ)) '' {k | k ∈ knots d})
    (fun d => (List.finite_toSet (knots d)).image _) hx hmin
  have hbin : ∀ d, ∃ (j : Nat) (a b : ℚ), (knots d)[j]? = some a ∧ (knots d)[j + 1]? = some b ∧ (a : ℝ) < y d ∧ y d < b := by
    intro d
    obtain ⟨mn, mx, e1, e2, h1, h2⟩ := knots_range hk hy d
    exact between_knots (knots d) (y d) mn mx e1 e2 h1 h2 fun k hk' he => (hyd d).1 ⟨k, hk', he⟩
  choose sub lo hi h1 h2 h3 h4 using hbin
  refine ⟨sub, lo, hi, fun d => ⟨h1 d, h2 d⟩, fun d => ?_, ⟨y, hy, fun d => ⟨h3 d, h4 d⟩⟩⟩
  have hlt := lt_of_lt_of_le (hyd d).2 (hle d)
  rw [abs_lt] at hlt
  have g1 := hgap d (lo d) (List.mem_of_getElem? (h1 d))
  have g2 := hgap d (hi d) (List.mem_of_getElem? (h2 d))
  have a3 := h3 d
  have a4 := h4 d
  constructor
  · by_contra hc
    push Not at hc
    have := g1 hc.ne'
    rw [abs_of_pos (by linarith)] at this
    linarith
  · by_contra hc
    push Not at hc
    have := g2 hc.ne
    rw [abs_of_neg (by linarith)] at this
    linarith

/-- what the search takes is reached by at most one step along each axis, or by two along one if the node after one of them is not used -/
theorem find_double (sub close s : Fin 3 → Int) (ok : (Fin 3 → Int) → Bool) (hf : (candidates sub close).find? ok = some s) :
    (∀ d, s d = sub d ∨ s d = sub d + close d) ∨
      ∃ i, close i ≠ 0 ∧ s = bump (bump sub close i) close i ∧ ok (bump sub close i) = false := by
  have hmem := List.mem_of_find?_eq_some hf
  simp only [candidates, List.mem_append, mem_ite_nil, List.mem_map, List.mem_flatMap, List.mem_filter, List.mem_singleton] at hmem
  have single : ∀ i d, bump sub close i d = sub d ∨ bump sub close i d = sub d + close d := by
    intro i d
    by_cases e : d = i
    · subst e; right; simp [bump]
    · left; simp [bump, e]
  rcases hmem with ((⟨-, i, -, rfl⟩ | ⟨hn, i, ⟨hi1, hi⟩, j, ⟨-, hj⟩, rfl⟩) | ⟨-, rfl⟩)
  · exact Or.inl (single i)
  · by_cases e : i = j
    · subst e
      by_cases hok : ok (bump sub close i) = true
      · left
        unfold candidates at hf
        simp only [List.append_assoc] at hf
        rw [if_pos (by omega), List.find?_append] at hf
        have hin : bump sub close i ∈ ((List.finRange 3).filter (fun i => decide (close i ≠ 0))).map (fun i => bump sub close i) :=
          List.mem_map.mpr ⟨i, List.mem_filter.mpr ⟨hi1, hi⟩, rfl⟩
        obtain ⟨s', hs'⟩ := Option.isSome_iff_exists.mp (List.find?_isSome.mpr ⟨_, hin, hok⟩)
        rw [hs'] at hf
        simp only [Option.some_or, Option.some.injEq] at hf
        obtain ⟨k, -, hk⟩ := List.mem_map.mp (List.mem_of_find?_eq_some hs')
        intro d
        rw [← hf, ← hk]
        exact single k d
      · right
        exact ⟨i, by simpa using hi, rfl, by simpa using hok⟩
    · left
      intro d
      by_cases e1 : d = i <;> by_cases e2 : d = j
      · exact absurd (e1.symm.trans e2) e
      · subst e1; right; simp [bump, e2]
      · subst e2; right; simp [bump, e1]
      · left; simp [bump, e1, e2]
  · exact Or.inl fun d => Or.inr rfl

end Brille.Props
