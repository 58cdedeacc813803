/- Points in convex position: the turns between them, and the area of their polygon. -/
import Verif.Proofs.HullFaces
import Mathlib.Analysis.Real.Sqrt

namespace Brille.HullOf

open Brille.Spec Brille.Tetra Brille.Faces Brille.Cut Brille.SortFace Brille.Convex Brille.Props

/-- no point is in a triangle or between two of the others -/
def Extreme (l : List Pt) : Prop :=
  ∀ y ∈ l, ∀ a ∈ l, ∀ b ∈ l, ∀ c ∈ l, a ≠ y → b ≠ y → c ≠ y → ∀ α β γ : ℚ, 0 ≤ α → 0 ≤ β → 0 ≤ γ → 0 < α + β + γ →
    ¬ ∀ d, (α + β + γ) * y d = α * a d + β * b d + γ * c d

theorem cross_of_turn {n u v : Pt} (hn : n ≠ 0) (hu : dot n u = 0) (hv : dot n v = 0) (h : dot n (cross u v) = 0) : cross u v = 0 := by
  have hnn := dot_self_pos hn
  have par : cross n (cross u v) = 0 := by
    rw [cross_zero]
    simp only [dot, Tetra.cross, Matrix.cons_val_zero, Matrix.cons_val_one, Matrix.cons_val] at hu hv ⊢
    refine ⟨?_, ?_, ?_⟩
    · linear_combination u 0 * hv - v 0 * hu
    · linear_combination u 1 * hv - v 1 * hu
    · linear_combination u 2 * hv - v 2 * hu
  have pd := parallel par
  funext d
  have := pd d
  rw [h, zero_mul] at this
  exact (mul_eq_zero.mp this).resolve_left hnn.ne'

theorem turn_swap (n y a b : Pt) : turn n y b a = - turn n y a b := by
  simp only [turn, dot, Tetra.cross, diff, Matrix.cons_val_zero, Matrix.cons_val_one, Matrix.cons_val]; ring

theorem turn_cycle (n y a b : Pt) : turn n a b y = turn n y a b := by
  simp only [turn, dot, Tetra.cross, diff, Matrix.cons_val_zero, Matrix.cons_val_one, Matrix.cons_val]; ring

section

variable {n : Pt} {l : List Pt} (hn : n ≠ 0) (hflat : ∀ p ∈ l, ∀ q ∈ l, dot n (diff p q) = 0) (hE : Extreme l)
include hn hflat hE

theorem turn_ne (y a b : Pt) (hy : y ∈ l) (ha : a ∈ l) (hb : b ∈ l) (hya : a ≠ y) (hyb : b ≠ y) (hab : a ≠ b) : turn n y a b ≠ 0 := by
  intro h
  have hc := cross_of_turn hn (hflat a ha y hy) (hflat b hb y hy) h
  have u0 : diff a y ≠ 0 := by
    intro e; apply hya; funext d
    have := congrFun e d; simp only [diff, Pi.zero_apply] at this; linarith
  have uu := dot_self_pos u0
  have pd := parallel hc
  set A := dot (diff a y) (diff a y)
  set B := dot (diff a y) (diff b y)
  simp only [diff] at pd
  rcases le_or_gt B 0 with h1 | h1
  · exact hE y hy a ha b hb b hb hya hyb hyb (-B) A 0 (by linarith) uu.le le_rfl (by linarith) fun d => by linarith [pd d]
  · rcases le_or_gt B A with h2 | h2
    · exact hE b hb y hy a ha a ha hyb.symm hab hab (A - B) B 0 (by linarith) h1.le le_rfl (by linarith) fun d => by linarith [pd d]
    · exact hE a ha y hy b hb b hb hya.symm hab.symm hab.symm (B - A) A 0 (by linarith) uu.le le_rfl (by linarith) fun d => by linarith [pd d]

theorem turn_trans (y a b c : Pt) (hy : y ∈ l) (ha : a ∈ l) (hb : b ∈ l) (hc : c ∈ l) (hya : a ≠ y) (hyb : b ≠ y) (hyc : c ≠ y)
    (h1 : 0 < turn n y a b) (h2 : 0 < turn n y b c) : 0 < turn n y a c := by
  have hac : a ≠ c := by
    rintro rfl
    rw [turn_swap] at h2; linarith
  by_contra hcon
  have h3 : 0 < turn n y c a := by
    rw [turn_swap]
    have := lt_of_le_of_ne (not_lt.mp hcon) (turn_ne hn hflat hE y a c hy ha hc hya hyc hac)
    linarith
  refine hE y hy a ha b hb c hc hya hyb hyc (turn n y b c) (turn n y c a) (turn n y a b) h2.le h3.le h1.le (by linarith) fun d => ?_
  have pu := hflat a ha y hy
  have pv := hflat b hb y hy
  have pw := hflat c hc y hy
  have hnn := dot_self_pos hn
  have id : ∀ d, turn n y b c * diff a y d + turn n y c a * diff b y d + turn n y a b * diff c y d =
      dot (diff a y) (cross (diff b y) (diff c y)) * n d := by
    unfold turn
    generalize diff a y = u
    generalize diff b y = v
    generalize diff c y = w
    intro d
    simp only [dot, Tetra.cross, Matrix.cons_val_zero, Matrix.cons_val_one, Matrix.cons_val]
    fin_cases d
    · simp only [Fin.zero_eta, Fin.isValue]; ring
    · simp only [Fin.mk_one, Fin.isValue]; ring
    · simp only [Fin.reduceFinMk, Fin.isValue]; ring
  have z : dot (diff a y) (cross (diff b y) (diff c y)) = 0 := by
    have i0 := id 0
    have i1 := id 1
    have i2 := id 2
    have : dot (diff a y) (cross (diff b y) (diff c y)) * dot n n = 0 := by
      generalize turn n y b c = A at *
      generalize turn n y c a = B at *
      generalize turn n y a b = C at *
      generalize dot (diff a y) (cross (diff b y) (diff c y)) = D at *
      generalize diff a y = u at *
      generalize diff b y = v at *
      generalize diff c y = w at *
      simp only [dot] at pu pv pw ⊢
      linear_combination A * pu + B * pv + C * pw - n 0 * i0 - n 1 * i1 - n 2 * i2
    exact (mul_eq_zero.mp this).resolve_right hnn.ne'
  have := id d
  rw [z, zero_mul] at this
  simp only [diff] at this
  linarith

/-- from every point there is a next one with all the others on the left -/
theorem next_left (hl : l.Nodup) (h2 : 2 ≤ l.length) (y : Pt) (hy : y ∈ l) : ∃ z ∈ l, z ≠ y ∧ ∀ w ∈ l, w ≠ y → w ≠ z → 0 < turn n y z w := by
  have go : ∀ m : List Pt, (∀ p ∈ m, p ∈ l ∧ p ≠ y) → m ≠ [] → ∃ z ∈ m, ∀ w ∈ m, w ≠ z → 0 < turn n y z w := by
    intro m
    induction m with
    | nil => intro _ h; exact absurd rfl h
    | cons x m ih =>
      intro hm _
      by_cases e : m = []
      · subst e
        exact ⟨x, by simp, fun w hw hne => by simp at hw; exact absurd hw hne⟩
      · obtain ⟨z, hz, hz'⟩ := ih (fun p hp => hm p (List.mem_cons_of_mem _ hp)) e
        obtain ⟨zl, zy⟩ := hm z (List.mem_cons_of_mem _ hz)
        obtain ⟨xl, xy⟩ := hm x (by simp)
        by_cases exz : x = z
        · refine ⟨z, List.mem_cons_of_mem _ hz, fun w hw hne => ?_⟩
          rcases List.mem_cons.mp hw with rfl | hw
          · exact absurd exz hne
          · exact hz' w hw hne
        · have tn := turn_ne hn hflat hE y z x hy zl xl zy xy (Ne.symm exz)
          rcases lt_or_gt_of_ne tn with h | h
          · have h' : 0 < turn n y x z := by rw [turn_swap]; linarith
            refine ⟨x, by simp, fun w hw hne => ?_⟩
            rcases List.mem_cons.mp hw with rfl | hw
            · exact absurd rfl hne
            · by_cases ewz : w = z
              · rw [ewz]; exact h'
              · obtain ⟨wl, wy⟩ := hm w (List.mem_cons_of_mem _ hw)
                exact turn_trans hn hflat hE y x z w hy xl zl wl xy zy wy h' (hz' w hw ewz)
          · refine ⟨z, List.mem_cons_of_mem _ hz, fun w hw hne => ?_⟩
            rcases List.mem_cons.mp hw with rfl | hw
            · exact h
            · exact hz' w hw hne
  have hne : l.filter (fun p => decide (p ≠ y)) ≠ [] := by
    intro e
    have : l ⊆ [y] := by
      intro w hw
      by_contra hc
      have : w ∈ l.filter (fun p => decide (p ≠ y)) := by
        rw [List.mem_filter]; exact ⟨hw, by simpa using hc⟩
      rw [e] at this; cases this
    have := (List.subperm_of_subset hl this).length_le
    simp at this; omega
  obtain ⟨z, hz, hz'⟩ := go (l.filter fun p => decide (p ≠ y)) (fun p hp => by
    rw [List.mem_filter] at hp; exact ⟨hp.1, by simpa using hp.2⟩) hne
  rw [List.mem_filter] at hz
  refine ⟨z, hz.1, by simpa using hz.2, fun w hw h1 h2 => hz' w ?_ h2⟩
  rw [List.mem_filter]; exact ⟨hw, by simpa using h1⟩

/-- seen from the centre the next point is on the left -/
theorem next_centre (hl : l.Nodup) (h3 : 3 ≤ l.length) (y : Pt) (hy : y ∈ l) : ∃ z ∈ l, z ≠ y ∧
    0 < dot n (cross (diff y (centre l)) (diff z (centre l))) ∧ ∀ w ∈ l, w ≠ y → w ≠ z → 0 < turn n y z w := by
  obtain ⟨z, hz, hzy, hT⟩ := next_left hn hflat hE hl (by omega) y hy
  refine ⟨z, hz, hzy, ?_, hT⟩
  have hne : l ≠ [] := List.ne_nil_of_mem hy
  have e := turn_centre n y z l hne
  obtain ⟨w, hw, hwy, hwz⟩ := third l hl h3 y z
  have hpos : 0 < (l.map fun w => turn n y z w).sum := by
    refine sum_pos' _ ?_ _ (List.mem_map.mpr ⟨w, hw, rfl⟩) (hT w hw hwy hwz)
    intro x hx
    obtain ⟨j, hj, rfl⟩ := List.mem_map.mp hx
    by_cases e1 : j = y
    · rw [e1, turn_self]
    · by_cases e2 : j = z
      · rw [e2, turn_self']
      · exact (hT j hj e1 e2).le
  rw [← e] at hpos
  have hlen : (0 : ℚ) ≤ (l.length : ℚ) := by exact_mod_cast Nat.zero_le _
  by_contra hc
  have := mul_nonpos_of_nonneg_of_nonpos hlen (not_lt.mp hc)
  linarith

end

end Brille.HullOf
