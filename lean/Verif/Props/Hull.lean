/-
C72: the constructor of a convex hull.
-/
import Verif.Proofs.HullArea
import Verif.Props.FaceEdit
import Verif.Props.ListUtil
import Verif.Props.IrCheck

namespace Brille.Props

open Brille.Spec Brille.Tetra Brille.Faces Brille.Cut Brille.SortFace Brille.Convex Brille.HullOf Brille.FaceEdit Brille.ListUtil

/-! ### the points in a plane -/

/-- the indices of the points in a plane -/
def row (pts : List Pt) (P : Plane) : Face := (List.range pts.length).filter fun i => decide (P.orient (pts.getD i 0) = 0)

theorem planesContaining_mem (planes : List Plane) (pts : List Pt) (i j : Nat) (hj : j < pts.length) (hi : i < planes.length) :
    i ∈ (planesContaining planes pts).getD j [] ↔ (planes[i]).orient (pts.getD j 0) = 0 := by
  have hj' : j < (planesContaining planes pts).length := by simpa [planesContaining] using hj
  rw [Convex.getD_lt _ _ hj', Convex.getD_lt _ _ hj]
  simp only [planesContaining, List.getElem_map, List.mem_filter, List.mem_range, hi, true_and, List.getElem?_eq_getElem hi, Option.map_some,
    Option.getD_some, decide_eq_true_eq]

theorem planesContaining_lt (planes : List Plane) (pts : List Pt) (l : List Nat) (hl : l ∈ planesContaining planes pts) (v : Nat) (hv : v ∈ l) :
    v < planes.length := by
  obtain ⟨d, _, rfl⟩ := List.mem_map.mp hl
  exact List.mem_range.mp (List.mem_filter.mp hv).1

theorem invert_planes (planes : List Plane) (pts : List Pt) (hne : planes ≠ []) (h : ∀ P ∈ planes, ∃ q ∈ pts, P.orient q = 0) :
    invertLists (planesContaining planes pts) = planes.map (row pts) := by
  have hpos := List.length_pos_of_ne_nil hne
  have hlen : (planesContaining planes pts).length = pts.length := by simp [planesContaining]
  obtain ⟨m1, m2, _⟩ := C41_all_present (planesContaining planes pts)
  have hmax : (allPresent (planesContaining planes pts)).2 + 1 = planes.length := by
    have up : (allPresent (planesContaining planes pts)).2 < planes.length := by
      rcases m2 with m2 | ⟨l, hl, m2⟩
      · omega
      · exact planesContaining_lt planes pts l hl _ m2
    obtain ⟨q, hq, e⟩ := h planes[planes.length - 1] (List.getElem_mem _)
    obtain ⟨j, hj, rfl⟩ := exists_index hq
    have := (planesContaining_mem planes pts (planes.length - 1) j hj (by omega)).mpr e
    have hj' : j < (planesContaining planes pts).length := by rw [hlen]; exact hj
    rw [Convex.getD_lt _ _ hj'] at this
    have := m1 _ (List.getElem_mem hj') _ this
    omega
  unfold invertLists
  rw [hmax]
  apply List.ext_getElem
  · simp
  · intro i h1 h2
    simp only [List.getElem_map, List.getElem_range]
    have hi : i < planes.length := by simpa using h2
    unfold invertRow row
    rw [hlen]
    apply List.filter_congr
    intro j hj
    rw [List.mem_range] at hj
    rw [decide_eq_decide]
    exact planesContaining_mem planes pts i j hj hi

theorem unique_nodup (pts : List Pt) (h : pts.Nodup) : Approx.unique (fun x y => !decide (x = y)) pts = pts := by
  obtain ⟨u1, u2, u3⟩ := C46_unique (fun x y : Pt => decide (x = y)) pts
  have u3 := u3 (by simp) (by intro x y z; simp only [decide_eq_true_eq]; exact Eq.trans)
  apply u1.eq_of_length_le
  apply (List.subperm_of_subset h ?_).length_le
  intro x hx
  obtain ⟨y, hy, e⟩ := u3 x hx
  rw [decide_eq_true_eq] at e
  rw [e]; exact hy

/-! ### points in convex position -/

theorem triangle_mem (S : Pt → Prop) (y a b c : Pt) (ha : S a) (hb : S b) (hc : S c) (α β γ : ℚ) (h1 : 0 ≤ α) (h2 : 0 ≤ β) (h3 : 0 ≤ γ)
    (hs : 0 < α + β + γ) (e : ∀ d, (α + β + γ) * y d = α * a d + β * b d + γ * c d) : real y ∈ Hull S := by
  have m : ∀ p, S p → real p ∈ Hull S := fun p hp => subset_convexHull ℝ _ ⟨p, hp, rfl⟩
  have hs' : (0 : ℝ) < (α : ℝ) + β + γ := by exact_mod_cast hs
  have := (convex_convexHull ℝ {x | ∃ p, S p ∧ x = real p}).sum_mem (t := Finset.univ) (w := ![(α : ℝ) / (α + β + γ), β / (α + β + γ), γ / (α + β + γ)])
    (z := ![real a, real b, real c]) (by
      intro i _
      have : (0 : ℝ) ≤ α := by exact_mod_cast h1
      have : (0 : ℝ) ≤ β := by exact_mod_cast h2
      have : (0 : ℝ) ≤ γ := by exact_mod_cast h3
      fin_cases i <;> simp <;> positivity) (by
      simp [Fin.sum_univ_three]
      field_simp) (by
      intro i _
      fin_cases i
      · exact m a ha
      · exact m b hb
      · exact m c hc)
  have e' : real y = ∑ i, (![(α : ℝ) / (α + β + γ), β / (α + β + γ), γ / (α + β + γ)] : Fin 3 → ℝ) i • (![real a, real b, real c] : Fin 3 → Fin 3 → ℝ) i := by
    funext d
    simp only [Fin.sum_univ_three, Matrix.cons_val_zero, Matrix.cons_val_one, Matrix.cons_val, Pi.add_apply, Pi.smul_apply, smul_eq_mul, real]
    have := e d
    have this' : ((α : ℝ) + β + γ) * (y d : ℝ) = α * a d + β * b d + γ * c d := by exact_mod_cast this
    field_simp
    linarith
  rw [e']
  exact this

theorem dot_interior (pts : List Pt) (n a : Pt) (hn : n ≠ 0) (h : ∀ q ∈ pts, 0 ≤ dot n (diff q a)) (x : Fin 3 → ℝ)
    (hx : x ∈ interior (Hull (· ∈ pts))) : 0 < (n 0 : ℝ) * (x 0 - a 0) + n 1 * (x 1 - a 1) + n 2 * (x 2 - a 2) := by
  have hs : Aff fun x : Fin 3 → ℝ => (n 0 : ℝ) * (x 0 - a 0) + n 1 * (x 1 - a 1) + n 2 * (x 2 - a 2) :=
    ⟨n 0, n 1, n 2, -((n 0 : ℝ) * a 0 + n 1 * a 1 + n 2 * a 2), fun x => by ring⟩
  refine aff_interior hs (Hull (· ∈ pts)) ?_ (real fun d => a d + n d) ?_ x hx
  · intro y hy
    refine Aff.hull hs _ ?_ y hy
    rintro _ ⟨q, hq, rfl⟩
    have := h q hq
    simp only [dot, diff] at this
    unfold real
    exact_mod_cast this
  · have := dot_self_pos hn
    have e : (n 0 : ℝ) * (real (fun d => a d + n d) 0 - a 0) + n 1 * (real (fun d => a d + n d) 1 - a 1) + n 2 * (real (fun d => a d + n d) 2 - a 2)
        = ((dot n n : ℚ) : ℝ) := by
      unfold real dot; push_cast; ring
    rw [e]; exact_mod_cast this

/-- in a plane with all points behind it, no point is among the others -/
theorem plane_extreme (pts : List Pt)
    (hcorner : ∀ p ∈ pts, real p ∈ Hull (fun q => q ∈ pts ∧ q ≠ p) → real p ∈ interior (Hull (· ∈ pts)))
    (P : Plane) (hP : Bounding pts P) (l : List Pt) (hl : ∀ p ∈ l, p ∈ pts ∧ P.orient p = 0) : Extreme l := by
  intro y hy a ha b hb c hc hya hyb hyc α β γ h1 h2 h3 hs e
  have := hcorner y (hl y hy).1 (triangle_mem _ y a b c ⟨(hl a ha).1, hya⟩ ⟨(hl b hb).1, hyb⟩ ⟨(hl c hc).1, hyc⟩ α β γ h1 h2 h3 hs e)
  have hn : (fun d => - P.normal d) ≠ 0 := by
    intro e
    apply hP.normal
    funext d
    have := congrFun e d
    simpa using this
  have pos := dot_interior pts (fun d => - P.normal d) P.a hn (fun q hq => by
    have := hP.behind q hq
    rw [orient_dot] at this
    simp only [dot, diff] at this ⊢
    linarith) (real y) this
  have z := (hl y hy).2
  rw [orient_dot] at z
  have e' : ((dot P.normal (diff P.a y) : ℚ) : ℝ) =
      ((- P.normal 0 : ℚ) : ℝ) * (real y 0 - P.a 0) + ((- P.normal 1 : ℚ) : ℝ) * (real y 1 - P.a 1) + ((- P.normal 2 : ℚ) : ℝ) * (real y 2 - P.a 2) := by
    unfold dot diff real; push_cast; ring
  rw [← e', z] at pos
  simp at pos

theorem not_flat (pts : List Pt) (h : (interior (Hull (· ∈ pts))).Nonempty) (n : Pt) (hn : n ≠ 0) (a : Pt) : ∃ q ∈ pts, dot n (diff q a) ≠ 0 := by
  by_contra hcon
  push Not at hcon
  obtain ⟨x, hx⟩ := h
  have h1 := dot_interior pts n a hn (fun q hq => (hcon q hq).ge) x hx
  have hn' : (fun d => - n d) ≠ 0 := by
    intro e
    apply hn
    funext d
    have := congrFun e d
    simpa using this
  have h2 := dot_interior pts (fun d => - n d) a hn' (fun q hq => by
    have := hcon q hq
    simp only [dot, diff] at this ⊢
    linarith) x hx
  push_cast at h2
  linarith

/-! ### the polygons -/

section

variable {pts : List Pt} (hn : pts.Nodup)
  (hcorner : ∀ p ∈ pts, real p ∈ Hull (fun q => q ∈ pts ∧ q ≠ p) → real p ∈ interior (Hull (· ∈ pts)))

theorem mem_row (P : Plane) (i : Nat) : i ∈ row pts P ↔ i < pts.length ∧ P.orient (pts.getD i 0) = 0 := by
  unfold row
  rw [List.mem_filter, List.mem_range, decide_eq_true_eq]

theorem row_nodup (P : Plane) : (row pts P).Nodup := List.nodup_range.filter _

theorem on_self (P : Plane) : P.orient P.a = 0 ∧ P.orient P.b = 0 ∧ P.orient P.c = 0 := by
  refine ⟨?_, ?_, ?_⟩ <;>
  · simp only [Plane.orient, orient3d, dot, Tetra.cross, diff, Matrix.cons_val_zero, Matrix.cons_val_one, Matrix.cons_val]
    ring

theorem row_three (P : Plane) (hP : Bounding pts P) : 3 ≤ (row pts P).length := by
  obtain ⟨i, hi, ei⟩ := exists_index hP.a
  obtain ⟨j, hj, ej⟩ := exists_index hP.b
  obtain ⟨k, hk, ek⟩ := exists_index hP.c
  obtain ⟨oa, ob, oc⟩ := on_self P
  have nz := hP.normal
  have hij : i ≠ j := by
    rintro rfl
    apply nz
    unfold Plane.normal
    rw [cross_zero, ← ei, ← ej]
    unfold diff
    refine ⟨by ring, by ring, by ring⟩
  have hik : i ≠ k := by
    rintro rfl
    apply nz
    unfold Plane.normal
    rw [cross_zero, ← ei, ← ek]
    unfold diff
    refine ⟨by ring, by ring, by ring⟩
  have hjk : j ≠ k := by
    rintro rfl
    apply nz
    unfold Plane.normal
    rw [cross_zero, ← ej, ← ek]
    unfold diff
    refine ⟨by ring, by ring, by ring⟩
  have : [i, j, k] ⊆ row pts P := by
    intro x hx
    simp only [List.mem_cons, List.not_mem_nil, or_false] at hx
    rcases hx with rfl | rfl | rfl <;> rw [mem_row]
    · exact ⟨hi, by rw [ei]; exact oa⟩
    · exact ⟨hj, by rw [ej]; exact ob⟩
    · exact ⟨hk, by rw [ek]; exact oc⟩
  have := (List.subperm_of_subset (by simp [hij, hik, hjk]) this).length_le
  simpa using this

include hn in
theorem row_points_nodup (P : Plane) : ((row pts P).map fun i => pts.getD i 0).Nodup := by
  refine List.Nodup.map_on ?_ (row_nodup P)
  intro i hi j hj e
  exact getD_inj hn ((mem_row P i).mp hi).1 ((mem_row P j).mp hj).1 e

theorem row_flat (P : Plane) : ∀ p ∈ (row pts P).map (fun i => pts.getD i 0), ∀ q ∈ (row pts P).map (fun i => pts.getD i 0),
    dot P.normal (diff p q) = 0 := by
  intro p hp q hq
  obtain ⟨i, hi, rfl⟩ := List.mem_map.mp hp
  obtain ⟨j, hj, rfl⟩ := List.mem_map.mp hq
  have h1 := ((mem_row P i).mp hi).2
  have h2 := ((mem_row P j).mp hj).2
  rw [orient_dot] at h1 h2
  simp only [dot, diff] at h1 h2 ⊢
  linarith

include hcorner in
theorem row_extreme (P : Plane) (hP : Bounding pts P) : Extreme ((row pts P).map fun i => pts.getD i 0) := by
  refine plane_extreme pts hcorner P hP _ ?_
  intro p hp
  obtain ⟨i, hi, rfl⟩ := List.mem_map.mp hp
  obtain ⟨h1, h2⟩ := (mem_row P i).mp hi
  exact ⟨HullOf.getD_mem h1, h2⟩

include hn hcorner

theorem row_area (P : Plane) (hP : Bounding pts P) : faceHasArea ((row pts P).map fun i => pts.getD i 0) = true :=
  has_area hP.normal (row_flat P) (row_extreme hcorner P hP) (row_points_nodup hn P) (by rw [List.length_map]; exact row_three P hP)

theorem row_sorted (P : Plane) (hP : Bounding pts P) : (SortFace.sortFace P (row pts P) pts).Perm (row pts P) ∧
    ∀ y z, (y, z) ∈ steps (SortFace.sortFace P (row pts P) pts) → ∀ w ∈ row pts P, w ≠ y → w ≠ z →
      0 < turn P.normal (pts.getD y 0) (pts.getD z 0) (pts.getD w 0) := by
  refine sortFace_convex P (row pts P) pts (row_nodup P) (row_three P hP) ⟨dot P.normal P.a, ?_⟩ ?_
  · intro i hi
    have := ((mem_row P i).mp hi).2
    rw [orient_dot] at this
    simp only [dot, diff] at this ⊢
    linarith
  · intro y hy
    obtain ⟨z, hz, hzy, hw⟩ := next_left hP.normal (row_flat P) (row_extreme hcorner P hP) (row_points_nodup hn P)
      (by rw [List.length_map]; have := row_three P hP; omega) (pts.getD y 0) (List.mem_map.mpr ⟨y, hy, rfl⟩)
    obtain ⟨k, hk, rfl⟩ := List.mem_map.mp hz
    refine ⟨k, hk, fun e => hzy (by rw [e]), fun w hw' h1 h2 => hw _ (List.mem_map.mpr ⟨w, hw', rfl⟩) ?_ ?_⟩
    · exact fun e => h1 (getD_inj hn ((mem_row P w).mp hw').1 ((mem_row P y).mp hy).1 e)
    · exact fun e => h2 (getD_inj hn ((mem_row P w).mp hw').1 ((mem_row P k).mp hk).1 e)

/-- the polygon of a bounding plane -/
theorem row_polygon (P : Plane) (hP : Bounding pts P) : Polygon pts P ((SortFace.sortFace P (row pts P) pts).map fun i => pts.getD i 0) := by
  obtain ⟨hperm, hleft⟩ := row_sorted hn hcorner P hP
  have hmem : ∀ i, i ∈ SortFace.sortFace P (row pts P) pts ↔ i ∈ row pts P := fun i => hperm.mem_iff
  refine ⟨?_, ?_, ?_, ?_⟩
  · exact (hperm.map _).nodup_iff.mpr (row_points_nodup hn P)
  · rw [List.length_map, hperm.length_eq]; exact row_three P hP
  · intro p
    rw [List.mem_map]
    constructor
    · rintro ⟨i, hi, rfl⟩
      obtain ⟨h1, h2⟩ := (mem_row P i).mp ((hmem i).mp hi)
      exact ⟨HullOf.getD_mem h1, h2⟩
    · rintro ⟨h1, h2⟩
      obtain ⟨i, hi, rfl⟩ := exists_index h1
      exact ⟨i, (hmem i).mpr ((mem_row P i).mpr ⟨hi, h2⟩), rfl⟩
  · intro y z he w hw h1 h2
    rw [steps_map] at he
    obtain ⟨⟨i, j⟩, hij, e⟩ := List.mem_map.mp he
    simp only [Prod.map, Prod.mk.injEq] at e
    obtain ⟨rfl, rfl⟩ := e
    obtain ⟨k, hk, rfl⟩ := List.mem_map.mp hw
    exact hleft i j hij k ((hmem k).mp hk) (fun e => h1 (by rw [e])) (fun e => h2 (by rw [e]))

end

/-! ### the faces found -/

/-- the faces of the planes -/
def facesAt (pts : List Pt) (planes : List Plane) : List Face := planes.map fun P => SortFace.sortFace P (row pts P) pts

theorem filter_range (q : Plane → Bool) : ∀ planes : List Plane,
    ((List.range planes.length).filter fun j => ((planes[j]?).map q).getD false).length = (planes.filter q).length
  | [] => rfl
  | P :: planes => by
    have ih := filter_range q planes
    rw [List.length_cons, List.range_succ_eq_map, List.filter_cons, List.filter_cons, List.filter_map]
    have e : (fun j => (((P :: planes)[j]?).map q).getD false) ∘ Nat.succ = fun j => ((planes[j]?).map q).getD false := by
      funext j; simp
    rw [e]
    by_cases h : q P = true
    · simp [h, ih]
    · simp [h, ih]

theorem search_spec (pts : List Pt) (hmany : pts.length.choose 3 < 2 ^ 32) (hin : (interior (Hull (· ∈ pts))).Nonempty)
    (cs : List Pt) (hcs : ∀ p ∈ cs, p ∈ pts) (hcF : ∀ planes, FacePlanes pts planes → FacePlanes cs planes)
    (hpol : ∀ P, Bounding pts P → Polygon cs P ((SortFace.sortFace P (row pts P) pts).map fun i => pts.getD i 0))
    (harea : ∀ P, Bounding pts P → faceHasArea ((row pts P).map fun i => pts.getD i 0) = true) :
    ∃ planes, FacePlanes cs planes ∧ (∀ P ∈ planes, Bounding pts P) ∧ planes ≠ [] ∧ search pts = some (facesAt pts planes) := by
  have hs := not_flat pts hin
  -- four points
  have h4 : ¬ pts.length < 4 := by
    intro h4
    have l3 : ∃ a b c : Pt, ∀ q ∈ pts, q = a ∨ q = b ∨ q = c := by
      match pts, h4 with
      | [], _ => exact ⟨0, 0, 0, by simp⟩
      | [a], _ => exact ⟨a, a, a, by simp⟩
      | [a, b], _ => exact ⟨a, b, b, by simp⟩
      | [a, b, c], _ => exact ⟨a, b, c, by simp⟩
    obtain ⟨a, b, c, hq⟩ := l3
    have flat : ∀ n : Pt, n ≠ 0 → dot n (diff b a) = 0 → dot n (diff c a) = 0 → False := by
      intro n hn' hb hc
      obtain ⟨q, hq', hne⟩ := hs n hn' a
      rcases hq q hq' with rfl | rfl | rfl
      · exact hne (by simp [dot, diff])
      · exact hne hb
      · exact hne hc
    by_cases hz : cross (diff b a) (diff c a) = 0
    · by_cases hu : diff b a = 0
      · by_cases hv : diff c a = 0
        · exact flat ![1, 0, 0] (fun e => by simpa using congrFun e 0) (by rw [hu]; simp [dot]) (by rw [hv]; simp [dot])
        · -- something across `c - a`
          have : ∃ n : Pt, n ≠ 0 ∧ dot n (diff c a) = 0 := by
            generalize diff c a = v at *
            by_cases h0 : v 0 = 0
            · exact ⟨![1, 0, 0], fun e => by simpa using congrFun e 0, by simp [dot, h0]⟩
            · refine ⟨![- v 1, v 0, 0], fun e => h0 (by simpa using congrFun e 1), ?_⟩
              simp only [dot, Matrix.cons_val_zero, Matrix.cons_val_one, Matrix.cons_val]; ring
          obtain ⟨n, h1, h2⟩ := this
          exact flat n h1 (by rw [hu]; simp [dot]) h2
      · have : ∃ n : Pt, n ≠ 0 ∧ dot n (diff b a) = 0 := by
          generalize diff b a = v at *
          by_cases h0 : v 0 = 0
          · exact ⟨![1, 0, 0], fun e => by simpa using congrFun e 0, by simp [dot, h0]⟩
          · refine ⟨![- v 1, v 0, 0], fun e => h0 (by simpa using congrFun e 1), ?_⟩
            simp only [dot, Matrix.cons_val_zero, Matrix.cons_val_one, Matrix.cons_val]; ring
        obtain ⟨n, h1, h2⟩ := this
        refine flat n h1 h2 ?_
        have pd := HullOf.parallel hz
        have uu := dot_self_pos hu
        have : dot (diff b a) (diff b a) * dot n (diff c a) = dot (diff b a) (diff c a) * dot n (diff b a) := by
          have t0 := pd 0
          have t1 := pd 1
          have t2 := pd 2
          generalize dot (diff b a) (diff b a) = A at *
          generalize dot (diff b a) (diff c a) = B at *
          simp only [dot]
          linear_combination n 0 * t0 + n 1 * t1 + n 2 * t2
        rw [h2, mul_zero] at this
        exact (mul_eq_zero.mp this).resolve_left uu.ne'
    · refine flat _ hz ?_ ?_ <;>
      · simp only [dot, Tetra.cross, Matrix.cons_val_zero, Matrix.cons_val_one, Matrix.cons_val]
        ring
  have hp : ∃ planes, hullPlanes pts = some planes := by
    unfold hullPlanes
    rw [if_neg h4, if_neg (by omega)]
    exact ⟨_, rfl⟩
  obtain ⟨planes, ep⟩ := hp
  obtain ⟨hF, hB⟩ := hullPlanes_spec pts planes ep
  obtain ⟨P0, hP0⟩ := hF.exists hs
  have hne : planes ≠ [] := List.ne_nil_of_mem hP0
  refine ⟨planes, hcF planes hF, hB, hne, ?_⟩
  have hg := fun P hP => hpol P (hB P hP)
  have hpoly := hull_polyhedron (hcF planes hF) hg
  have hinv := invert_planes planes pts hne fun P hP => ⟨P.a, (hB P hP).a, (on_self P).1⟩
  unfold search
  rw [ep]
  simp only
  rw [if_pos]
  · unfold polygonFaces
    simp only
    rw [hinv, if_neg (by simp)]
    rw [Option.some.injEq]
    unfold facesAt
    rw [List.filter_eq_self.mpr]
    · rw [← List.map_prod_left_eq_zip, List.map_map]
      rfl
    · rintro ⟨P, face⟩ hmem
      rw [← List.map_prod_left_eq_zip] at hmem
      obtain ⟨Q, hQ, e⟩ := List.mem_map.mp hmem
      simp only [Prod.mk.injEq] at e
      obtain ⟨rfl, rfl⟩ := e
      exact harea Q (hB Q hQ)
  · -- a corner is on three faces
    have hp0 := hg P0 hP0
    obtain ⟨p, hp⟩ := List.exists_mem_of_length_pos (lt_of_lt_of_le (by norm_num) hp0.three)
    have := three_at_corner hpoly _ (List.mem_map.mpr ⟨P0, hP0, rfl⟩) p hp
    rw [List.any_eq_true]
    refine ⟨_, List.mem_map.mpr ⟨p, hcs p ((hp0.mem p).mp hp).1, rfl⟩, ?_⟩
    rw [decide_eq_true_eq]
    have e1 : ∀ q : Plane → Bool, ((List.range planes.length).filter fun j => ((planes[j]?).map q).getD false).length = (planes.filter q).length := by
      intro q
      exact filter_range q planes
    rw [e1]
    refine lt_of_lt_of_le (by norm_num) (le_trans this ?_)
    rw [List.filter_map, List.length_map]
    apply le_of_eq
    congr 1
    apply List.filter_congr
    intro Q hQ
    simp only [Function.comp]
    rw [decide_eq_decide, (hg Q hQ).mem]
    exact ⟨fun h => h.2, fun h => ⟨((hp0.mem p).mp hp).1, h⟩⟩

theorem polygons_of_corners {v pts : List Pt} {F G : List Face} (e : corners v F = corners pts G) (hG : ∀ g ∈ G, ∀ i ∈ g, i < pts.length) :
    polygons v F = polygons pts G ∧ ∀ f ∈ F, ∀ i ∈ f, i < v.length := by
  have hp : ∀ (v : List Pt) (F : List Face), polygons v F = (corners v F).map fun f => f.map fun p => p.getD 0 := by
    intro v F
    unfold polygons corners
    rw [List.map_map]
    refine List.map_congr_left fun f _ => ?_
    rw [Function.comp_apply, List.map_map]
    refine List.map_congr_left fun i _ => ?_
    rw [Function.comp_apply, List.getD_eq_getElem?_getD]
  refine ⟨by rw [hp, hp, e], ?_⟩
  intro f hf i hi
  have h1 : (f.map fun i => v[i]?) ∈ corners v F := List.mem_map.mpr ⟨f, hf, rfl⟩
  rw [e] at h1
  obtain ⟨g, hg, eg⟩ := List.mem_map.mp h1
  have h2 : v[i]? ∈ f.map fun i => v[i]? := List.mem_map.mpr ⟨i, hi, rfl⟩
  rw [← eg] at h2
  obtain ⟨j, hj, ej⟩ := List.mem_map.mp h2
  rw [List.getElem?_eq_getElem (hG g hg j hj)] at ej
  exact (List.getElem?_eq_some_iff.mp ej.symm).1

theorem hull_spec (pts : List Pt) (hn : pts.Nodup) (hmany : pts.length.choose 3 < 2 ^ 32) (hin : (interior (Hull (· ∈ pts))).Nonempty)
    (cs : List Pt) (hcs : ∀ p ∈ cs, p ∈ pts) (hcF : ∀ planes, FacePlanes pts planes → FacePlanes cs planes)
    (hpol : ∀ P, Bounding pts P → Polygon cs P ((SortFace.sortFace P (row pts P) pts).map fun i => pts.getD i 0))
    (harea : ∀ P, Bounding pts P → faceHasArea ((row pts P).map fun i => pts.getD i 0) = true)
    (hlt : ∀ P, Bounding pts P → ∀ i ∈ SortFace.sortFace P (row pts P) pts, i < pts.length) :
    ∃ v faces, hull pts = some (v, faces) ∧ ConvexSolid v faces ∧ faces ≠ [] ∧ v.Sublist pts ∧ Hull (· ∈ v) = Hull (· ∈ pts) := by
  obtain ⟨planes, hF, hB, hne, hs⟩ := search_spec pts hmany hin cs hcs hcF hpol harea
  have hg := fun P hP => hpol P (hB P hP)
  have hpoly := hull_polyhedron hF hg
  have hU := unique_nodup pts hn
  have hv : ∀ f ∈ facesAt pts planes, ∀ i ∈ f, i < pts.length := by
    intro f hf i hi
    obtain ⟨P, hP, rfl⟩ := List.mem_map.mp hf
    exact hlt P (hB P hP) i hi
  have k1 := facesOf_spec (fun _ => facesAt pts planes) pts (by rw [hU]; exact hv) (Or.inl hn)
  rw [hU] at k1
  obtain ⟨c1, c2, c3⟩ := C37_finish_hull pts _ k1.2
  rw [k1.1] at c1
  obtain ⟨d1, d2⟩ := polygons_of_corners c1 hv
  have e : hull pts = some (hullOf (fun x y => decide (x = y)) (fun _ => facesAt pts planes) pts) := by
    unfold hull
    rw [hU, hs]
    rfl
  have e2 : polygons pts (facesAt pts planes) = planes.map fun P => (SortFace.sortFace P (row pts P) pts).map fun i => pts.getD i 0 := by
    unfold polygons facesAt
    rw [List.map_map]
    rfl
  rw [e2] at d1
  have hsolid : ConvexSolid (finishHull pts (facesOf (fun x y => decide (x = y)) (fun _ => facesAt pts planes) pts)).1
      (finishHull pts (facesOf (fun x y => decide (x = y)) (fun _ => facesAt pts planes) pts)).2 :=
    ⟨c2.nodup hn, d2, c3, by rw [d1]; exact hpoly⟩
  refine ⟨_, _, e, hsolid, ?_, c2, ?_⟩
  · intro h0
    rw [show (finishHull pts (facesOf (fun x y => decide (x = y)) (fun _ => facesAt pts planes) pts)).2 = [] from h0] at d1
    have : planes = [] := by simpa [polygons] using d1.symm
    exact hne this
  · apply subset_antisymm
    · refine convexHull_mono ?_
      rintro _ ⟨p, hp, rfl⟩
      exact ⟨p, c2.subset hp, rfl⟩
    · refine convexHull_min ?_ (convex_convexHull ℝ _)
      rintro _ ⟨p, hp, rfl⟩
      have := behind_hull hF hg hne p fun P hP => (hB P hP).behind p hp
      rw [← d1, ← hull_corners hsolid] at this
      exact this

/-- **C72 (partial).** The convex hull of given points that are not all in a plane, are all different, and of which each
is either a corner of their convex hull or in its inside: the constructor succeeds, and its faces are those of a convex
polyhedron, with the given corners in the order given as its vertices, which has exactly the points of the convex hull.
(Missing: points on the faces or edges of the hull, for which the constructor fails, see `C72_face_point_counterexample`
and `C72_edge_point_counterexample`, and repeated points, see `C37_hull_counterexample`.) -/
theorem C72_hull_partial (pts : List Pt) (hn : pts.Nodup) (hmany : pts.length.choose 3 < 2 ^ 32)
    (hin : (interior (Hull (· ∈ pts))).Nonempty)
    (hcorner : ∀ p ∈ pts, real p ∈ Hull (fun q => q ∈ pts ∧ q ≠ p) → real p ∈ interior (Hull (· ∈ pts))) :
    ∃ v faces, hull pts = some (v, faces) ∧ ConvexSolid v faces ∧ faces ≠ [] ∧ v.Sublist pts ∧ Hull (· ∈ v) = Hull (· ∈ pts) := by
  exact hull_spec pts hn hmany hin pts (fun _ h => h) (fun _ h => h) (fun P hP => row_polygon hn hcorner P hP) (fun P hP => row_area hn hcorner P hP)
    fun P hP i hi => ((mem_row P i).mp ((row_sorted hn hcorner P hP).1.mem_iff.mp hi)).1

/-! ### a case -/

theorem not_hull_of_dot (S : Pt → Prop) (p n : Pt) (h : ∀ q, S q → 0 < dot n (diff q p)) : real p ∉ Hull S := by
  intro hp
  have hs : Aff fun x : Fin 3 → ℝ => (n 0 : ℝ) * (x 0 - p 0) + n 1 * (x 1 - p 1) + n 2 * (x 2 - p 2) :=
    ⟨n 0, n 1, n 2, -((n 0 : ℝ) * p 0 + n 1 * p 1 + n 2 * p 2), fun x => by ring⟩
  have hcv : Convex ℝ {x : Fin 3 → ℝ | 0 < (n 0 : ℝ) * (x 0 - p 0) + n 1 * (x 1 - p 1) + n 2 * (x 2 - p 2)} := by
    intro x hx y hy a b ha hb hab
    simp only [Set.mem_ofPred_eq] at hx hy ⊢
    have e : (n 0 : ℝ) * ((a • x + b • y) 0 - p 0) + n 1 * ((a • x + b • y) 1 - p 1) + n 2 * ((a • x + b • y) 2 - p 2)
        = a * ((n 0 : ℝ) * (x 0 - p 0) + n 1 * (x 1 - p 1) + n 2 * (x 2 - p 2)) + b * ((n 0 : ℝ) * (y 0 - p 0) + n 1 * (y 1 - p 1) + n 2 * (y 2 - p 2)) := by
      have hb' : b = 1 - a := by linarith
      subst hb'
      simp only [Pi.add_apply, Pi.smul_apply, smul_eq_mul]
      ring
    rw [e]
    rcases ha.eq_or_lt with rfl | ha'
    · have : b = 1 := by linarith
      rw [this]; linarith
    · have := mul_pos ha' hx
      have := mul_nonneg hb hy.le
      linarith
  have := convexHull_min (s := {x | ∃ p, S p ∧ x = real p}) (t := {x : Fin 3 → ℝ | 0 < (n 0 : ℝ) * (x 0 - p 0) + n 1 * (x 1 - p 1) + n 2 * (x 2 - p 2)}) ?_ hcv hp
  · simp only [Set.mem_ofPred_eq, real, sub_self, mul_zero, add_zero] at this
    exact lt_irrefl _ this
  · rintro _ ⟨q, hq, rfl⟩
    have := h q hq
    simp only [dot, diff] at this
    simp only [Set.mem_ofPred_eq, real]
    exact_mod_cast this

/-- the corners of a cube, among them a point in its inside -/
def cubePoints : List Pt := [![0, 0, 0], ![2, 0, 0], ![1, 1, 1], ![2, 2, 0], ![0, 2, 0], ![0, 0, 2], ![2, 0, 2], ![2, 2, 2], ![0, 2, 2]]

theorem cube_inside : Metric.ball (real ![1, 1, 1]) 1 ⊆ Hull (· ∈ cubePoints) := by
  have hb := C67_box ![0, 0, 0] ![2, 2, 2] (by intro d; fin_cases d <;> decide)
  have hsub : Hull (· ∈ boxPoints ![0, 0, 0] ![2, 2, 2]) ⊆ Hull (· ∈ cubePoints) := by
    refine convexHull_mono ?_
    rintro _ ⟨p, hp, rfl⟩
    refine ⟨p, ?_, rfl⟩
    have : ∀ p ∈ boxPoints ![0, 0, 0] ![2, 2, 2], p ∈ cubePoints := by decide +kernel
    exact this p hp
  refine subset_trans ?_ hsub
  intro x hx
  rw [hull_first _ _ hb (by decide)]
  rw [Metric.mem_ball] at hx
  have hd : ∀ d : Fin 3, |x d - 1| < 1 := by
    intro d
    have := lt_of_le_of_lt (dist_le_pi_dist x (real ![1, 1, 1]) d) hx
    rw [Real.dist_eq] at this
    have e : real ![1, 1, 1] d = 1 := by fin_cases d <;> simp [real]
    rwa [e] at this
  have h0 := abs_lt.mp (hd 0)
  have h1 := abs_lt.mp (hd 1)
  have h2 := abs_lt.mp (hd 2)
  intro f hf
  simp only [boxFaces, List.mem_cons, List.not_mem_nil, or_false] at hf
  rcases hf with rfl | rfl | rfl | rfl | rfl | rfl <;>
  · simp [boxPoints, boxVertices, side, real]
    linarith

/-- the hypotheses of `C72_hull_partial` are met by the corners of a cube and a point inside -/
example : ∃ v faces, hull cubePoints = some (v, faces) ∧ ConvexSolid v faces ∧ faces ≠ [] ∧ v.Sublist cubePoints ∧
    Hull (· ∈ v) = Hull (· ∈ cubePoints) := by
  have hi : real ![1, 1, 1] ∈ interior (Hull (· ∈ cubePoints)) :=
    mem_interior.mpr ⟨_, cube_inside, Metric.isOpen_ball, Metric.mem_ball_self one_pos⟩
  refine C72_hull_partial cubePoints (by decide +kernel) (by decide) ⟨_, hi⟩ ?_
  intro p hp hh
  have : ∀ p ∈ cubePoints, p = ![1, 1, 1] ∨ ∃ n ∈ cubePoints, ∀ q ∈ cubePoints, q ≠ p → 0 < dot (diff n ![1, 1, 1]) (diff q p) := by
    decide +kernel
  rcases this p hp with rfl | ⟨n, _, hn⟩
  · exact hi
  · exact absurd hh (not_hull_of_dot _ p _ fun q hq => hn q hq.1 hq.2)

/-- … and the cube found is the one it should be -/
example : hull cubePoints = some ([![0, 0, 0], ![2, 0, 0], ![2, 2, 0], ![0, 2, 0], ![0, 0, 2], ![2, 0, 2], ![2, 2, 2], ![0, 2, 2]],
    [[0, 3, 2, 1], [0, 1, 5, 4], [0, 4, 7, 3], [1, 2, 6, 5], [2, 3, 7, 6], [4, 5, 6, 7]]) := by
  decide +kernel

/-! ### where it fails -/

/-- **C72.** A point inside one face: the constructor keeps it as a corner, and its faces are not those of a closed
surface (the step from `(4, 3, 0)` to `(6, 0, 0)` is not taken back on another face). -/
theorem C72_face_point_counterexample :
    ∃ v faces, hull [![9, 7, 0], ![5, 3, 0], ![6, 0, 0], ![2, 5, 0], ![4, 3, 0], ![5, 4, -1]] = some (v, faces) ∧ ¬ ConvexSolid v faces := by
  refine ⟨[![9, 7, 0], ![6, 0, 0], ![2, 5, 0], ![4, 3, 0], ![5, 4, -1]], [[0, 2, 3, 1], [0, 1, 4], [0, 4, 2], [1, 2, 4]], by decide +kernel, ?_⟩
  intro h
  have := h.convex.closed ![4, 3, 0] ![6, 0, 0] (by decide +kernel)
  revert this
  decide +kernel

/-- **C72.** A point on an edge, given between the two ends of the edge: the two faces at this edge are missing. With the
same points in another order all four faces are found. -/
theorem C72_edge_point_counterexample :
    (hull [![0, 0, 0], ![1, 0, 0], ![2, 0, 0], ![0, 2, 0], ![0, 0, 2]] =
      some ([![0, 0, 0], ![2, 0, 0], ![0, 2, 0], ![0, 0, 2]], [[0, 3, 2], [1, 2, 3]]) ∧
      ¬ ConvexSolid [![0, 0, 0], ![2, 0, 0], ![0, 2, 0], ![0, 0, 2]] [[0, 3, 2], [1, 2, 3]]) ∧
    ∃ v faces, hull [![0, 0, 0], ![2, 0, 0], ![0, 2, 0], ![0, 0, 2], ![1, 0, 0]] = some (v, faces) ∧ faces.length = 4 := by
  refine ⟨⟨by decide +kernel, ?_⟩, Option.isSome_iff_exists.mp (by decide +kernel : Option.isSome (hull _) = true) |>.elim fun c hc => ⟨c.1, c.2, hc, ?_⟩⟩
  · intro h
    have := h.convex.closed ![0, 0, 0] ![0, 0, 2] (by decide +kernel)
    revert this
    decide +kernel
  · have : (hull [![0, 0, 0], ![2, 0, 0], ![0, 2, 0], ![0, 0, 2], ![1, 0, 0]]).map (fun c => c.2.length) = some 4 := by decide +kernel
    rw [hc] at this
    simpa using this

end Brille.Props
