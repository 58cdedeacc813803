/- The bounding planes found by the constructor of a convex hull. -/
import Verif.Model.Hull
import Verif.Props.Unique
import Verif.Props.ConvexCut

namespace Brille.HullOf

open Brille.Spec Brille.Tetra Brille.Faces Brille.Cut Brille.SortFace Brille.Convex Brille.Props

/-! ### vectors -/

theorem orient_dot (P : Plane) (x : Pt) : P.orient x = dot P.normal (diff P.a x) := by
  simp only [Plane.orient, Plane.normal, orient3d, dot, Tetra.cross, diff, Matrix.cons_val_zero, Matrix.cons_val_one, Matrix.cons_val]
  ring

theorem side_dot (a b c x : Pt) : side a b c x = dot (cross (diff b a) (diff c a)) (diff a x) := by
  simp only [side, dot, Tetra.cross, diff, Matrix.cons_val_zero, Matrix.cons_val_one, Matrix.cons_val]
  ring

theorem dot_self_pos {n : Pt} (h : n ≠ 0) : 0 < dot n n := by
  by_contra hc
  apply h
  have h0 := mul_self_nonneg (n 0)
  have h1 := mul_self_nonneg (n 1)
  have h2 := mul_self_nonneg (n 2)
  unfold dot at hc
  funext d
  fin_cases d
  · exact mul_self_eq_zero.mp (show n 0 * n 0 = 0 by linarith)
  · exact mul_self_eq_zero.mp (show n 1 * n 1 = 0 by linarith)
  · exact mul_self_eq_zero.mp (show n 2 * n 2 = 0 by linarith)

theorem cross_zero (u v : Pt) : cross u v = 0 ↔ u 1 * v 2 - u 2 * v 1 = 0 ∧ u 2 * v 0 - u 0 * v 2 = 0 ∧ u 0 * v 1 - u 1 * v 0 = 0 := by
  constructor
  · intro h
    exact ⟨congrFun h 0, congrFun h 1, congrFun h 2⟩
  · rintro ⟨h0, h1, h2⟩
    funext d
    fin_cases d <;> assumption

theorem parallel {u v : Pt} (h : cross u v = 0) : ∀ d, dot u u * v d = dot u v * u d := by
  obtain ⟨h0, h1, h2⟩ := (cross_zero u v).mp h
  intro d
  unfold dot
  fin_cases d
  · change (u 0 * u 0 + u 1 * u 1 + u 2 * u 2) * v 0 = (u 0 * v 0 + u 1 * v 1 + u 2 * v 2) * u 0
    linear_combination u 2 * h1 - u 1 * h2
  · change (u 0 * u 0 + u 1 * u 1 + u 2 * u 2) * v 1 = (u 0 * v 0 + u 1 * v 1 + u 2 * v 2) * u 1
    linear_combination u 0 * h2 - u 2 * h0
  · change (u 0 * u 0 + u 1 * u 1 + u 2 * u 2) * v 2 = (u 0 * v 0 + u 1 * v 1 + u 2 * v 2) * u 2
    linear_combination u 1 * h0 - u 0 * h1

theorem sameDirection_iff (m n : Pt) : sameDirection m n = true ↔ m ≠ 0 ∧ ∃ k > 0, n = fun d => k * m d := by
  unfold sameDirection
  rw [Bool.and_eq_true, decide_eq_true_eq, decide_eq_true_eq]
  constructor
  · rintro ⟨hc, hd⟩
    have hm : m ≠ 0 := by rintro rfl; simp [dot] at hd
    have hp := dot_self_pos hm
    refine ⟨hm, dot m n / dot m m, div_pos hd hp, ?_⟩
    funext d
    have := parallel hc d
    field_simp
    linarith
  · rintro ⟨hm, k, hk, rfl⟩
    have hp := dot_self_pos hm
    constructor
    · rw [cross_zero]; refine ⟨by ring, by ring, by ring⟩
    · have : dot m (fun d => k * m d) = k * dot m m := by unfold dot; ring
      rw [this]; exact mul_pos hk hp

theorem sameDirection_symm (m n : Pt) (h : sameDirection m n = true) : sameDirection n m = true := by
  rw [sameDirection_iff] at h
  obtain ⟨hm, k, hk, rfl⟩ := h
  rw [sameDirection_iff]
  refine ⟨fun e => hm ?_, k⁻¹, inv_pos.mpr hk, ?_⟩
  · funext d
    have := congrFun e d
    simp only [Pi.zero_apply, mul_eq_zero] at this
    exact this.resolve_left hk.ne'
  · funext d
    field_simp

theorem sameDirection_trans (l m n : Pt) (h : sameDirection l m = true) (h' : sameDirection m n = true) : sameDirection l n = true := by
  rw [sameDirection_iff] at *
  obtain ⟨hl, k, hk, rfl⟩ := h
  obtain ⟨_, k', hk', rfl⟩ := h'
  refine ⟨hl, k' * k, mul_pos hk' hk, ?_⟩
  funext d
  ring

theorem colinear_iff (a b c : Pt) : colinear a b c = true ↔ cross (diff b a) (diff c a) = 0 := by
  simp only [colinear, List.all_cons, List.all_nil, Bool.and_true, Bool.and_eq_true, decide_eq_true_eq]
  rw [cross_zero]
  unfold diff
  constructor
  · rintro ⟨h1, h2, h3⟩
    refine ⟨?_, ?_, ?_⟩ <;> linarith
  · rintro ⟨h1, h2, h3⟩
    refine ⟨?_, ?_, ?_⟩ <;> linarith

/-! ### the planes through three points with all points behind -/

/-- a plane with all points behind it or in it, and not all in it -/
structure Supporting (pts : List Pt) (P : Plane) : Prop where
  normal : P.normal ≠ 0
  behind : ∀ q ∈ pts, 0 ≤ P.orient q
  off : ∃ q ∈ pts, 0 < P.orient q

/-- a plane through points with all points behind it and not all in it -/
structure Bounding (pts : List Pt) (P : Plane) : Prop extends Supporting pts P where
  a : P.a ∈ pts
  b : P.b ∈ pts
  c : P.c ∈ pts

theorem getD_mem {pts : List Pt} {i : Nat} (h : i < pts.length) : pts.getD i 0 ∈ pts := by
  rw [Convex.getD_lt pts 0 h]; exact List.getElem_mem h

theorem exists_index {pts : List Pt} {p : Pt} (h : p ∈ pts) : ∃ i < pts.length, pts.getD i 0 = p := by
  obtain ⟨i, hi, e⟩ := List.getElem_of_mem h
  exact ⟨i, hi, by rw [Convex.getD_lt pts 0 hi, e]⟩

theorem others_all (pts : List Pt) (i j k : Nat) (p : ℚ → Prop) [DecidablePred p] (h0 : p 0) :
    (((List.range pts.length).filter fun r => !(r == i || r == j || r == k)).all fun r =>
      decide (p (orient3d (pts.getD i 0) (pts.getD j 0) (pts.getD k 0) (pts.getD r 0)))) = true ↔
    ∀ q ∈ pts, p (orient3d (pts.getD i 0) (pts.getD j 0) (pts.getD k 0) q) := by
  rw [List.all_eq_true]
  constructor
  · intro h q hq
    obtain ⟨r, hr, rfl⟩ := exists_index hq
    by_cases e : r = i ∨ r = j ∨ r = k
    · have z : orient3d (pts.getD i 0) (pts.getD j 0) (pts.getD k 0) (pts.getD r 0) = 0 := by
        rcases e with rfl | rfl | rfl <;>
        · simp only [orient3d, dot, Tetra.cross, diff, Matrix.cons_val_zero, Matrix.cons_val_one, Matrix.cons_val]
          ring
      rw [z]; exact h0
    · push Not at e
      have := h r (by
        rw [List.mem_filter]
        refine ⟨List.mem_range.mpr hr, ?_⟩
        simp [e.1, e.2.1, e.2.2])
      simpa using this
  · intro h r hr
    rw [List.mem_filter] at hr
    exact decide_eq_true (h _ (getD_mem (List.mem_range.mp hr.1)))

theorem orient_swap (a b c x : Pt) : orient3d b a c x = - orient3d a b c x := by
  simp only [orient3d, dot, Tetra.cross, diff, Matrix.cons_val_zero, Matrix.cons_val_one, Matrix.cons_val]
  ring

theorem boundingPlane_some (pts : List Pt) (i j k : Nat) (hi : i < pts.length) (hj : j < pts.length) (hk : k < pts.length) (P : Plane)
    (h : boundingPlane pts i j k = some P) : Bounding pts P := by
  unfold boundingPlane at h
  simp only at h
  split at h
  · cases h
  · rename_i hcol
    rw [colinear_iff] at hcol
    have hp := others_all pts i j k (fun x => 0 ≤ x) le_rfl
    have hm := others_all pts i j k (fun x => x ≤ 0) le_rfl
    generalize hP : (((List.range pts.length).filter fun r => !(r == i || r == j || r == k)).all fun r =>
      decide (0 ≤ orient3d (pts.getD i 0) (pts.getD j 0) (pts.getD k 0) (pts.getD r 0))) = pos at *
    generalize hN : (((List.range pts.length).filter fun r => !(r == i || r == j || r == k)).all fun r =>
      decide (orient3d (pts.getD i 0) (pts.getD j 0) (pts.getD k 0) (pts.getD r 0) ≤ 0)) = neg at *
    cases pos <;> cases neg
    · simp at h
    · simp only [show ((false != true) = true) = True from by simp, Bool.false_eq_true, if_false, if_true, Option.some.injEq] at h
      subst h
      simp only [false_iff, true_iff, Bool.false_eq_true] at hp hm
      push Not at hp
      refine ⟨⟨?_, ?_, ?_⟩, getD_mem hj, getD_mem hi, getD_mem hk⟩
      · intro e
        apply hcol
        simp only [Plane.normal, cross_zero, diff] at e ⊢
        obtain ⟨e0, e1, e2⟩ := e
        refine ⟨?_, ?_, ?_⟩ <;> linarith
      · intro q hq
        have := hm q hq
        simp only [Plane.orient]
        rw [orient_swap]; linarith
      · obtain ⟨q, hq, e⟩ := hp
        refine ⟨q, hq, ?_⟩
        simp only [Plane.orient]
        rw [orient_swap]; linarith
    · simp only [show ((true != false) = true) = True from by simp, if_true, Option.some.injEq] at h
      subst h
      simp only [false_iff, true_iff, Bool.false_eq_true] at hp hm
      push Not at hm
      refine ⟨⟨hcol, hp, ?_⟩, getD_mem hi, getD_mem hj, getD_mem hk⟩
      obtain ⟨q, hq, e⟩ := hm
      exact ⟨q, hq, e⟩
    · simp at h

theorem mem_boundingPlanes (pts : List Pt) (P : Plane) :
    P ∈ boundingPlanes pts ↔ ∃ i j k, i < j ∧ j < k ∧ k < pts.length ∧ boundingPlane pts i j k = some P := by
  unfold boundingPlanes
  simp only [List.mem_flatMap, List.mem_filterMap, List.mem_filter, List.mem_range, decide_eq_true_eq]
  constructor
  · rintro ⟨i, _, j, ⟨_, hij⟩, k, ⟨hk, hjk⟩, e⟩
    exact ⟨i, j, k, hij, hjk, hk, e⟩
  · rintro ⟨i, j, k, hij, hjk, hk, e⟩
    exact ⟨i, by omega, j, ⟨by omega, hij⟩, k, ⟨hk, hjk⟩, e⟩

theorem bounding_of_mem (pts : List Pt) (P : Plane) (h : P ∈ boundingPlanes pts) : Bounding pts P := by
  obtain ⟨i, j, k, hij, hjk, hk, e⟩ := (mem_boundingPlanes pts P).mp h
  exact boundingPlane_some pts i j k (by omega) (by omega) hk P e

theorem boundingPlane_pos (pts : List Pt) (i j k : Nat)
    (hcol : cross (diff (pts.getD j 0) (pts.getD i 0)) (diff (pts.getD k 0) (pts.getD i 0)) ≠ 0)
    (hb : ∀ q ∈ pts, 0 ≤ side (pts.getD i 0) (pts.getD j 0) (pts.getD k 0) q)
    (ho : ∃ q ∈ pts, 0 < side (pts.getD i 0) (pts.getD j 0) (pts.getD k 0) q) :
    boundingPlane pts i j k = some ⟨pts.getD i 0, pts.getD j 0, pts.getD k 0⟩ := by
  have hp := (others_all pts i j k (fun x => 0 ≤ x) le_rfl).mpr (fun q hq => by
    have := hb q hq
    rw [side_dot] at this
    simp only [orient3d, dot, Tetra.cross, diff, Matrix.cons_val_zero, Matrix.cons_val_one, Matrix.cons_val] at this ⊢
    linarith)
  have hm : ¬ _ := fun h => by
    have hm := (others_all pts i j k (fun x => x ≤ 0) le_rfl).mp h
    obtain ⟨q, hq, e⟩ := ho
    have := hm q hq
    rw [side_dot] at e
    simp only [orient3d, dot, Tetra.cross, diff, Matrix.cons_val_zero, Matrix.cons_val_one, Matrix.cons_val] at this e
    linarith
  have hc : colinear (pts.getD i 0) (pts.getD j 0) (pts.getD k 0) = false := by
    rw [Bool.eq_false_iff, ne_eq, colinear_iff]; exact hcol
  rw [Bool.not_eq_true] at hm
  unfold boundingPlane
  simp only [hc, Bool.false_eq_true, if_false, hp, hm]
  simp

theorem boundingPlane_neg (pts : List Pt) (i j k : Nat)
    (hcol : cross (diff (pts.getD j 0) (pts.getD i 0)) (diff (pts.getD k 0) (pts.getD i 0)) ≠ 0)
    (hb : ∀ q ∈ pts, side (pts.getD i 0) (pts.getD j 0) (pts.getD k 0) q ≤ 0)
    (ho : ∃ q ∈ pts, side (pts.getD i 0) (pts.getD j 0) (pts.getD k 0) q < 0) :
    boundingPlane pts i j k = some ⟨pts.getD j 0, pts.getD i 0, pts.getD k 0⟩ := by
  have hm := (others_all pts i j k (fun x => x ≤ 0) le_rfl).mpr (fun q hq => by
    have := hb q hq
    rw [side_dot] at this
    simp only [orient3d, dot, Tetra.cross, diff, Matrix.cons_val_zero, Matrix.cons_val_one, Matrix.cons_val] at this ⊢
    linarith)
  have hp : ¬ _ := fun h => by
    have hm := (others_all pts i j k (fun x => 0 ≤ x) le_rfl).mp h
    obtain ⟨q, hq, e⟩ := ho
    have := hm q hq
    rw [side_dot] at e
    simp only [orient3d, dot, Tetra.cross, diff, Matrix.cons_val_zero, Matrix.cons_val_one, Matrix.cons_val] at this e
    linarith
  have hc : colinear (pts.getD i 0) (pts.getD j 0) (pts.getD k 0) = false := by
    rw [Bool.eq_false_iff, ne_eq, colinear_iff]; exact hcol
  rw [Bool.not_eq_true] at hp
  unfold boundingPlane
  simp only [hc, Bool.false_eq_true, if_false, hp, hm]
  simp

/-- in the order of the loops, up to a change of sides -/
theorem bounding_sorted (pts : List Pt) (i j k : Nat) (hij : i < j) (hjk : j < k) (hk : k < pts.length)
    (hcol : cross (diff (pts.getD j 0) (pts.getD i 0)) (diff (pts.getD k 0) (pts.getD i 0)) ≠ 0) (L : Pt → ℚ)
    (hb : ∀ q ∈ pts, 0 ≤ L q) (ho : ∃ q ∈ pts, 0 < L q)
    (hL : (∀ x, side (pts.getD i 0) (pts.getD j 0) (pts.getD k 0) x = L x) ∨ (∀ x, side (pts.getD i 0) (pts.getD j 0) (pts.getD k 0) x = - L x)) :
    ∃ P ∈ boundingPlanes pts, ∀ x, P.orient x = L x := by
  rcases hL with hL | hL
  · refine ⟨_, (mem_boundingPlanes pts _).mpr ⟨i, j, k, hij, hjk, hk, boundingPlane_pos pts i j k hcol ?_ ?_⟩, ?_⟩
    · intro q hq; rw [hL]; exact hb q hq
    · obtain ⟨q, hq, h⟩ := ho; exact ⟨q, hq, by rw [hL]; exact h⟩
    · intro x; rw [orient_eq, hL]
  · refine ⟨_, (mem_boundingPlanes pts _).mpr ⟨i, j, k, hij, hjk, hk, boundingPlane_neg pts i j k hcol ?_ ?_⟩, ?_⟩
    · intro q hq; rw [hL]; linarith [hb q hq]
    · obtain ⟨q, hq, h⟩ := ho; exact ⟨q, hq, by rw [hL]; linarith⟩
    · intro x; rw [orient_eq]; simp only; rw [side_swap12, hL]; ring

theorem cross_of_side {a b c x : Pt} (h : side a b c x ≠ 0) : cross (diff b a) (diff c a) ≠ 0 := by
  intro e
  apply h
  rw [side_dot, e]
  simp [dot]

/-- every plane through three points with all points behind it is found -/
theorem bounding_found (pts : List Pt) (a b c : Pt) (ha : a ∈ pts) (hb : b ∈ pts) (hc : c ∈ pts)
    (hbe : ∀ q ∈ pts, 0 ≤ side a b c q) (ho : ∃ q ∈ pts, 0 < side a b c q) :
    ∃ P ∈ boundingPlanes pts, ∀ x, P.orient x = side a b c x := by
  obtain ⟨i, hi, rfl⟩ := exists_index ha
  obtain ⟨j, hj, rfl⟩ := exists_index hb
  obtain ⟨k, hk, rfl⟩ := exists_index hc
  obtain ⟨q0, hq0, h0⟩ := ho
  have s12 := side_swap12
  have s23 := side_swap23
  generalize hA : pts.getD i 0 = A at *
  generalize hB : pts.getD j 0 = B at *
  generalize hC : pts.getD k 0 = C at *
  have hij : i ≠ j := by
    rintro rfl
    rw [← hA, ← hB] at h0
    have : side (pts.getD i 0) (pts.getD i 0) C q0 = 0 := by unfold side; ring
    linarith
  have hik : i ≠ k := by
    rintro rfl
    rw [← hA, ← hC, side_aba] at h0; linarith
  have hjk : j ≠ k := by
    rintro rfl
    rw [← hB, ← hC, side_abb] at h0; linarith
  have go : ∀ i' j' k', i' < j' → j' < k' → k' < pts.length →
      ((∀ x, side (pts.getD i' 0) (pts.getD j' 0) (pts.getD k' 0) x = side A B C x) ∨
        (∀ x, side (pts.getD i' 0) (pts.getD j' 0) (pts.getD k' 0) x = - side A B C x)) →
      ∃ P ∈ boundingPlanes pts, ∀ x, P.orient x = side A B C x := by
    intro i' j' k' h1 h2 h3 hL
    refine bounding_sorted pts i' j' k' h1 h2 h3 ?_ (side A B C) hbe ⟨q0, hq0, h0⟩ hL
    apply cross_of_side (x := q0)
    rcases hL with hL | hL <;> rw [hL]
    · exact h0.ne'
    · exact (neg_neg_of_pos h0).ne
  rcases lt_or_gt_of_ne hij with h1 | h1 <;> rcases lt_or_gt_of_ne hik with h2 | h2 <;> rcases lt_or_gt_of_ne hjk with h3 | h3
  · exact go i j k h1 h3 hk (Or.inl fun x => by rw [hA, hB, hC])
  · exact go i k j h2 h3 hj (Or.inr fun x => by rw [hA, hB, hC, s23])
  · omega
  · exact go k i j h2 h1 hj (Or.inl fun x => by rw [hA, hB, hC, s12, s23]; ring)
  · exact go j i k h1 h2 hk (Or.inr fun x => by rw [hA, hB, hC, s12])
  · omega
  · exact go j k i h3 h2 hi (Or.inl fun x => by rw [hA, hB, hC, side_cycle])
  · exact go k j i h3 h1 hi (Or.inr fun x => by rw [hA, hB, hC, s12, side_cycle])

/-! ### the planes that are kept -/

/-- the planes of the faces of a hull -/
structure FacePlanes (pts : List Pt) (planes : List Plane) : Prop where
  bounding : ∀ P ∈ planes, Supporting pts P
  apart : planes.Pairwise fun P Q => sameDirection Q.normal P.normal = false
  all : ∀ a ∈ pts, ∀ b ∈ pts, ∀ c ∈ pts, (∀ q ∈ pts, 0 ≤ side a b c q) → (∃ q ∈ pts, 0 < side a b c q) →
    ∃ P ∈ planes, ∃ k > 0, ∀ x, P.orient x = k * side a b c x

/-- bounding planes with the same direction are the same plane -/
theorem same_bounding {pts : List Pt} {P Q : Plane} (hP : Bounding pts P) (hQ : Bounding pts Q) (h : sameDirection P.normal Q.normal = true) :
    ∃ k > 0, ∀ x, Q.orient x = k * P.orient x := by
  obtain ⟨_, k, hk, e⟩ := (sameDirection_iff _ _).mp h
  have key : ∀ x, Q.orient x = k * (P.orient x - P.orient Q.a) := by
    intro x
    rw [orient_dot, e, orient_dot, orient_dot]
    unfold dot diff
    ring
  have h1 := hP.behind _ hQ.a
  have h2 := hQ.behind _ hP.a
  rw [key, orient_dot P P.a] at h2
  have z : dot P.normal (diff P.a P.a) = 0 := by unfold dot diff; ring
  rw [z] at h2
  have h3 : P.orient Q.a = 0 := by nlinarith
  refine ⟨k, hk, fun x => ?_⟩
  rw [key, h3, sub_zero]

theorem unique_covers {β : Type} (eq : β → β → Bool) (rows : List β) (hrefl : ∀ x ∈ rows, eq x x = true)
    (htrans : ∀ x y z, eq x y = true → eq y z = true → eq x z = true) :
    ∀ x ∈ rows, ∃ y ∈ Approx.unique (fun x y => !eq x y) rows, eq x y = true := by
  induction rows using List.reverseRecOn with
  | nil => simp
  | append_singleton rows x ih =>
    have ih := ih fun x hx => hrefl x (List.mem_append_left _ hx)
    rw [unique_append]
    intro y hy
    rw [List.mem_append] at hy
    rcases hy with hy | hy
    · obtain ⟨z, hz, he⟩ := ih y hy
      exact ⟨z, List.mem_append_left _ hz, he⟩
    · rw [List.mem_singleton] at hy
      subst hy
      by_cases hall : rows.all (fun z => !eq y z) = true
      · exact ⟨y, by simp [hall], hrefl y (by simp)⟩
      · rw [List.all_eq_true] at hall
        push Not at hall
        obtain ⟨z, hz, he⟩ := hall
        obtain ⟨w, hw, hew⟩ := ih z hz
        exact ⟨w, List.mem_append_left _ hw, htrans _ _ _ (by simpa using he) hew⟩

theorem hullPlanes_spec (pts : List Pt) (planes : List Plane) (h : hullPlanes pts = some planes) :
    FacePlanes pts planes ∧ ∀ P ∈ planes, Bounding pts P := by
  unfold hullPlanes at h
  split at h
  · cases h
  · split at h
    · cases h
    · rw [Option.some.injEq] at h
      subst h
      obtain ⟨u1, u2, _⟩ := C46_unique (fun P Q : Plane => sameDirection P.normal Q.normal) (boundingPlanes pts)
      have u3 := unique_covers (fun P Q : Plane => sameDirection P.normal Q.normal) (boundingPlanes pts)
        (fun P hP => (sameDirection_iff _ _).mpr ⟨(bounding_of_mem pts P hP).normal, 1, one_pos, by simp⟩)
        (fun P Q R => sameDirection_trans _ _ _)
      refine ⟨⟨fun P hP => (bounding_of_mem pts P (u1.subset hP)).toSupporting, u2, ?_⟩, fun P hP => bounding_of_mem pts P (u1.subset hP)⟩
      intro a ha b hb c hc hbe ho
      obtain ⟨P, hP, e⟩ := bounding_found pts a b c ha hb hc hbe ho
      obtain ⟨Q, hQ, hs⟩ := u3 P hP
      obtain ⟨k, hk, e'⟩ := same_bounding (bounding_of_mem pts P hP) (bounding_of_mem pts Q (u1.subset hQ)) hs
      exact ⟨Q, hQ, k, hk, fun x => by rw [e', e]⟩

/-! ### tilting a plane -/

theorem tilt (pts : List Pt) (L M : Pt → ℚ) (hL : ∀ q ∈ pts, 0 ≤ L q) (hM : ∀ q ∈ pts, L q = 0 → 0 ≤ M q) (hpos : ∃ q ∈ pts, 0 < L q) :
    ∃ t, ∃ p ∈ pts, 0 < L p ∧ M p = t * L p ∧ ∀ q ∈ pts, 0 ≤ M q - t * L q := by
  classical
  obtain ⟨q0, hq0, h0⟩ := hpos
  obtain ⟨p, hp, hmin⟩ := Finset.exists_min_image (pts.toFinset.filter fun q => 0 < L q) (fun q => M q / L q)
    ⟨q0, by simp [hq0, h0]⟩
  rw [Finset.mem_filter, List.mem_toFinset] at hp
  obtain ⟨hp, hp0⟩ := hp
  refine ⟨M p / L p, p, hp, hp0, by field_simp, ?_⟩
  intro q hq
  rcases (hL q hq).lt_or_eq with h | h
  · have := hmin q (by simp [hq, h])
    rw [le_div_iff₀ h] at this
    linarith
  · have := hM q hq h.symm
    rw [← h]; linarith

/-- a plane through three points that are not on a line, described by its normal -/
theorem FacePlanes.of_normal {pts : List Pt} {planes : List Plane} (h : FacePlanes pts planes) (n a b c : Pt) (ha : a ∈ pts) (hb : b ∈ pts)
    (hc : c ∈ pts) (nb : dot n (diff b a) = 0) (nc : dot n (diff c a) = 0) (hcol : cross (diff b a) (diff c a) ≠ 0)
    (hbe : ∀ q ∈ pts, 0 ≤ dot n (diff q a)) (ho : ∃ q ∈ pts, 0 < dot n (diff q a)) :
    ∃ P ∈ planes, ∃ k > 0, ∀ x, P.orient x = k * dot n (diff x a) := by
  have hn : n ≠ 0 := by
    rintro rfl
    obtain ⟨q, _, hq⟩ := ho
    simp [dot] at hq
  have hnn := dot_self_pos hn
  have par : cross n (cross (diff b a) (diff c a)) = 0 := by
    rw [cross_zero]
    generalize diff b a = u at *
    generalize diff c a = v at *
    simp only [dot, Tetra.cross, Matrix.cons_val_zero, Matrix.cons_val_one, Matrix.cons_val] at nb nc ⊢
    refine ⟨?_, ?_, ?_⟩
    · linear_combination u 0 * nc - v 0 * nb
    · linear_combination u 1 * nc - v 1 * nb
    · linear_combination u 2 * nc - v 2 * nb
  have pd := parallel par
  set m := cross (diff b a) (diff c a) with hm
  have key : ∀ x, dot n n * side a b c x = - (dot n m) * dot n (diff x a) := by
    intro x
    rw [side_dot, ← hm]
    have e : dot n n * dot m (diff a x) = dot n m * dot n (diff a x) := by
      have p0 := pd 0
      have p1 := pd 1
      have p2 := pd 2
      generalize dot n n = A at *
      generalize dot n m = B at *
      unfold dot
      linear_combination diff a x 0 * p0 + diff a x 1 * p1 + diff a x 2 * p2
    rw [e]
    unfold dot diff
    ring
  have hk : dot n m ≠ 0 := by
    intro e
    apply hcol
    funext d
    have := pd d
    rw [e, zero_mul] at this
    exact (mul_eq_zero.mp this).resolve_left hnn.ne'
  rcases lt_or_gt_of_ne hk with hneg | hpos
  · have k0 : ∀ x, side a b c x = (- dot n m / dot n n) * dot n (diff x a) := by
      intro x
      have := key x
      field_simp
      linarith
    have kp : 0 < - dot n m / dot n n := div_pos (by linarith) hnn
    obtain ⟨P, hP, k, hk', e⟩ := h.all a ha b hb c hc (fun q hq => by rw [k0]; exact mul_nonneg kp.le (hbe q hq))
      (by obtain ⟨q, hq, hq'⟩ := ho; exact ⟨q, hq, by rw [k0]; exact mul_pos kp hq'⟩)
    exact ⟨P, hP, k * (- dot n m / dot n n), mul_pos hk' kp, fun x => by rw [e, k0]; ring⟩
  · have k0 : ∀ x, side a c b x = (dot n m / dot n n) * dot n (diff x a) := by
      intro x
      have := key x
      rw [side_swap23]
      field_simp
      linarith
    have kp : 0 < dot n m / dot n n := div_pos (by linarith) hnn
    obtain ⟨P, hP, k, hk', e⟩ := h.all a ha c hc b hb (fun q hq => by rw [k0]; exact mul_nonneg kp.le (hbe q hq))
      (by obtain ⟨q, hq, hq'⟩ := ho; exact ⟨q, hq, by rw [k0]; exact mul_pos kp hq'⟩)
    exact ⟨P, hP, k * (dot n m / dot n n), mul_pos hk' kp, fun x => by rw [e, k0]; ring⟩

/-- there is a bounding plane -/
theorem FacePlanes.exists {pts : List Pt} {planes : List Plane} (h : FacePlanes pts planes)
    (hs : ∀ n : Pt, n ≠ 0 → ∀ a : Pt, ∃ q ∈ pts, dot n (diff q a) ≠ 0) : ∃ P, P ∈ planes := by
  classical
  obtain ⟨q0, hq0, _⟩ := hs ![1, 0, 0] (fun e => by simpa using congrFun e 0) 0
  obtain ⟨a0, ha0, m0⟩ := Finset.exists_min_image pts.toFinset (fun q => q 0) ⟨q0, List.mem_toFinset.mpr hq0⟩
  obtain ⟨a, ha, m1⟩ := Finset.exists_min_image (pts.toFinset.filter fun q => q 0 = a0 0) (fun q => q 1) ⟨a0, by simpa using ha0⟩
  simp only [Finset.mem_filter, List.mem_toFinset] at ha m1 m0 ha0
  obtain ⟨ha, e0⟩ := ha
  -- a plane through two points
  obtain ⟨t, p, hp, p1, p2, p3⟩ := tilt pts (fun q => q 0 - a 0) (fun q => q 1 - a 1) (fun q hq => by have := m0 q hq; linarith)
    (fun q hq e => by have := m1 q ⟨hq, by linarith⟩; linarith) (by
      obtain ⟨q, hq, e⟩ := hs ![1, 0, 0] (fun e => by simpa using congrFun e 0) a
      refine ⟨q, hq, lt_of_le_of_ne (by have := m0 q hq; linarith) fun e' => e ?_⟩
      simp only [dot, diff, Matrix.cons_val_zero, Matrix.cons_val_one, Matrix.cons_val]
      linarith)
  set n : Pt := ![-t, 1, 0] with hn
  have dn : ∀ q, dot n (diff q a) = (q 1 - a 1) - t * (q 0 - a 0) := by
    intro q
    simp only [hn, dot, diff, Matrix.cons_val_zero, Matrix.cons_val_one, Matrix.cons_val]
    ring
  have n0 : n ≠ 0 := fun e => by simpa [hn] using congrFun e 1
  have pos : ∀ m : Pt, m ≠ 0 → (∀ q ∈ pts, 0 ≤ dot m (diff q a)) → ∃ q ∈ pts, 0 < dot m (diff q a) := by
    intro m hm hb
    obtain ⟨q, hq, e⟩ := hs m hm a
    exact ⟨q, hq, lt_of_le_of_ne (hb q hq) e.symm⟩
  have hbe : ∀ q ∈ pts, 0 ≤ dot n (diff q a) := fun q hq => by rw [dn]; exact p3 q hq
  have np : dot n (diff p a) = 0 := by rw [dn]; linarith
  have u0 : diff p a ≠ 0 := fun e => by have := congrFun e 0; simp only [diff, Pi.zero_apply] at this; linarith
  by_cases hc : ∃ c ∈ pts, dot n (diff c a) = 0 ∧ cross (diff p a) (diff c a) ≠ 0
  · obtain ⟨c, hc, nc, hcol⟩ := hc
    obtain ⟨P, hP, _⟩ := h.of_normal n a p c ha hp hc np nc hcol hbe (pos n n0 hbe)
    exact ⟨P, hP⟩
  · push Not at hc
    generalize hu : diff p a = u at *
    have uu := dot_self_pos u0
    obtain ⟨t', c, hc', c1, c2, c3⟩ := tilt pts (fun q => dot n (diff q a)) (fun q => dot (cross n u) (diff q a)) hbe (fun q hq e => by
      have := parallel (hc q hq e)
      have e' : dot u u * dot (cross n u) (diff q a) = 0 := by
        have t0 := this 0
        have t1 := this 1
        have t2 := this 2
        generalize dot u u = A at *
        generalize dot u (diff q a) = B at *
        simp only [dot, Tetra.cross, Matrix.cons_val_zero, Matrix.cons_val_one, Matrix.cons_val]
        linear_combination (n 1 * u 2 - n 2 * u 1) * t0 + (n 2 * u 0 - n 0 * u 2) * t1 + (n 0 * u 1 - n 1 * u 0) * t2
      exact ((mul_eq_zero.mp e').resolve_left uu.ne').ge) (pos n n0 hbe)
    set m : Pt := fun d => cross n u d - t' * n d with hm
    have dm : ∀ q, dot m (diff q a) = dot (cross n u) (diff q a) - t' * dot n (diff q a) := by
      intro q; simp only [hm, dot]; ring
    have mb : ∀ q ∈ pts, 0 ≤ dot m (diff q a) := fun q hq => by rw [dm]; exact c3 q hq
    have m0 : m ≠ 0 := by
      intro e
      have e1 : dot m (cross n u) = dot n n * dot u u - dot n u * dot n u := by
        simp only [hm, dot, Tetra.cross, Matrix.cons_val_zero, Matrix.cons_val_one, Matrix.cons_val]
        ring
      rw [np, e] at e1
      have := mul_pos (dot_self_pos n0) uu
      simp only [dot, Pi.zero_apply] at e1
      simp only [dot] at this
      linarith
    obtain ⟨P, hP, _⟩ := h.of_normal m a p c ha hp hc' (by
        rw [dm, hu, np]
        simp only [dot, Tetra.cross, Matrix.cons_val_zero, Matrix.cons_val_one, Matrix.cons_val]
        ring) (by rw [dm, c2]; ring) (by
        rw [hu]
        intro e
        have := parallel e
        have e' : dot u u * dot n (diff c a) = dot u (diff c a) * dot n u := by
          have t0 := this 0
          have t1 := this 1
          have t2 := this 2
          generalize dot u u = A at *
          generalize dot u (diff c a) = B at *
          simp only [dot]
          linear_combination n 0 * t0 + n 1 * t1 + n 2 * t2
        rw [np, mul_zero] at e'
        rcases mul_eq_zero.mp e' with e' | e'
        · exact uu.ne' e'
        · exact c1.ne' e') mb (pos m m0 mb)
    exact ⟨P, hP⟩

end Brille.HullOf
