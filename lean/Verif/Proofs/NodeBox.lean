/-
The polyhedron of a node of the hybrid grid, the part of a convex polyhedron in it, and distances.
-/
import Verif.Model.TrellisBuild
import Verif.Props.Trellis
import Verif.Props.ConvexCutAll
import Verif.Props.Volume
import Verif.Spec.TrellisBuild

namespace Brille.Props

open Brille.TrellisBuild Brille.Spec Brille.Tetra Brille.Faces Brille.Cut Brille.Convex Brille.SortFace
open Brille.IrCheck (Poly facePlane)
open Brille.Trellis hiding Pt

/-! ### every convex polyhedron has four faces -/

theorem three_at_corner {faces : List (List Pt)} (h : ConvexPolyhedron faces) {p : Pt} (hp : IsCorner faces p) :
    ∃ f ∈ faces, ∃ g ∈ faces, ∃ k ∈ faces, p ∈ f ∧ p ∈ g ∧ p ∈ k ∧ f ≠ g ∧ f ≠ k ∧ g ≠ k := by
  obtain ⟨f, hf, hpf⟩ := hp
  obtain ⟨a, ha⟩ := exists_prev f p hpf
  obtain ⟨c, hc⟩ := exists_next f p hpf
  obtain ⟨g, hg, hga⟩ := List.mem_flatMap.mp (h.closed _ _ (List.mem_flatMap.mpr ⟨f, hf, ha⟩))
  obtain ⟨k, hk, hkc⟩ := List.mem_flatMap.mp (h.closed _ _ (List.mem_flatMap.mpr ⟨f, hf, hc⟩))
  have one := fun {f : List Pt} (hf : f ∈ faces) {a b : Pt} (h1 : (a, b) ∈ steps f) (h2 : (b, a) ∈ steps f) =>
    swap_other f (h.simple f hf).1 (h.simple f hf).2 (a, b) h1 h2
  have hfg : f ≠ g := by rintro rfl; exact one hf ha hga
  have hfk : f ≠ k := by rintro rfl; exact one hf hc hkc
  refine ⟨f, hf, g, hg, k, hk, hpf, (Convex.mem_of_step _ _ hga).1, (Convex.mem_of_step _ _ hkc).2, hfg, hfk, ?_⟩
  rintro rfl
  obtain ⟨q, hq, hqf⟩ := h.solid f hf
  obtain ⟨h1, h2⟩ := h.behind f hf a p c ha hc q hq
  have h3 := (h.behind g hg c p a hkc hga q hq).1
  have : side c p a q = - side a p c q := by unfold side; ring
  exact hqf (h2.mp (by linarith))

/-- a convex polyhedron has at least four faces -/
theorem four_faces {v : List Pt} {faces : List Face} (h : ConvexSolid v faces) (hne : faces ≠ []) : 4 ≤ faces.length := by
  have hc := h.convex
  obtain ⟨f, hf⟩ := List.exists_mem_of_ne_nil _ (polygons_ne (v := v) hne)
  obtain ⟨p, hp, hpf⟩ := hc.solid f hf
  obtain ⟨g, hg, k, hk, l, hl, pg, pk, pl, n1, n2, n3⟩ := three_at_corner hc hp
  have hnot : ∀ g, p ∈ g → f ≠ g := by rintro g hg rfl; exact hpf hg
  have hnd : [f, g, k, l].Nodup := by simp [hnot _ pg, hnot _ pk, hnot _ pl, n1, n2, n3]
  have := (List.subperm_of_subset hnd (l₂ := polygons v faces) (by
    intro x hx
    simp only [List.mem_cons, List.not_mem_nil, or_false] at hx
    rcases hx with rfl | rfl | rfl | rfl <;> assumption)).length_le
  simpa [polygons] using this

/-! ### the polyhedron of a node -/

/-- the corners of the box with the numbers used in `trellis_node_faces` -/
theorem node_corners (t : Grid) (i : Nat) (hi : i < t.nodeCount) :
    ∃ lo hi : Pt, (∀ d, (t.knots d)[t.idx2sub i d]? = some (lo d) ∧ (t.knots d)[t.idx2sub i d + 1]? = some (hi d)) ∧
      ∃ c : Nat → Nat, t.nodeFaces i = Faces.boxFaces.map (List.map c) ∧
        ∀ j < 8, t.intersections[c j]? = some ((boxPoints lo hi).getD j 0) := by
  obtain ⟨lo, hi', h, e⟩ := C28_node_faces t i hi
  refine ⟨lo, hi', h, ?_⟩
  simp only [Grid.nodeFaces, Spec.boxFaces, List.map_cons, List.map_nil, List.cons.injEq, and_true] at e
  refine ⟨fun j => ((t.nodeFaces i).flatten).getD ([1, 6, 5, 0, 2, 10, 14, 3].getD j 0) 0, ?_, ?_⟩
  · simp [Grid.nodeFaces, Faces.boxFaces]
  · intro j hj
    simp only [Grid.nodeFaces, List.flatten_cons]
    obtain ⟨⟨e3, e0, e4, e7⟩, ⟨-, e2, e1, -⟩, ⟨-, -, e5, -⟩, ⟨-, -, e6, -⟩, -⟩ := e
    have hl : ∀ k < 8, (boxPoints lo hi').getD k 0 = boxVertices lo hi' k := by
      intro k hk; simp [boxPoints, hk]
    rw [hl j hj]
    have key : ∀ k : Fin 8, ∀ b : Fin 3 → ℚ, (∀ d, boxCorner lo hi' k d = b d) → boxCorner lo hi' k = b := fun k b h => funext h
    interval_cases j
    · refine Eq.trans e0 (congrArg some (key _ _ fun d => ?_)); fin_cases d <;> rfl
    · refine Eq.trans e1 (congrArg some (key _ _ fun d => ?_)); fin_cases d <;> rfl
    · refine Eq.trans e2 (congrArg some (key _ _ fun d => ?_)); fin_cases d <;> rfl
    · refine Eq.trans e3 (congrArg some (key _ _ fun d => ?_)); fin_cases d <;> rfl
    · refine Eq.trans e4 (congrArg some (key _ _ fun d => ?_)); fin_cases d <;> rfl
    · refine Eq.trans e5 (congrArg some (key _ _ fun d => ?_)); fin_cases d <;> rfl
    · refine Eq.trans e6 (congrArg some (key _ _ fun d => ?_)); fin_cases d <;> rfl
    · refine Eq.trans e7 (congrArg some (key _ _ fun d => ?_)); fin_cases d <;> rfl

theorem node_point {t : Grid} {c : Nat → Nat} {lo hi : Pt} (hc : ∀ j < 8, t.intersections[c j]? = some ((boxPoints lo hi).getD j 0))
    (j : Nat) (hj : j < 8) : t.intersections.getD (c j) 0 = (boxPoints lo hi).getD j 0 := by
  rw [List.getD_eq_getElem?_getD, hc j hj, Option.getD_some]

theorem node_planes {t : Grid} {i : Nat} {c : Nat → Nat} {lo hi : Pt} (hf : t.nodeFaces i = Faces.boxFaces.map (List.map c))
    (hc : ∀ j < 8, t.intersections[c j]? = some ((boxPoints lo hi).getD j 0)) :
    (nodePoly t i).2.map (facePlane (nodePoly t i).1) = Faces.boxFaces.map (facePlane (boxPoints lo hi)) := by
  unfold nodePoly
  simp only [hf]
  have k := node_point hc
  simp only [Faces.boxFaces, List.map_cons, List.map_nil, facePlane, List.getD_cons_zero, List.getD_cons_succ]
  rw [k 0 (by norm_num), k 1 (by norm_num), k 2 (by norm_num), k 3 (by norm_num), k 4 (by norm_num), k 5 (by norm_num), k 6 (by norm_num),
    k 7 (by norm_num)]

theorem node_volume {t : Grid} {i : Nat} {c : Nat → Nat} {lo hi : Pt} (hf : t.nodeFaces i = Faces.boxFaces.map (List.map c))
    (hc : ∀ j < 8, t.intersections[c j]? = some ((boxPoints lo hi).getD j 0)) :
    IrCheck.volume (nodePoly t i) = Faces.volume Faces.boxFaces fun j => (boxPoints lo hi).getD j 0 := by
  unfold nodePoly IrCheck.volume Faces.volume
  simp only [hf]
  have k := node_point hc
  simp only [Faces.boxFaces, List.map_cons, List.map_nil, fanSum, List.length_cons, List.length_nil]
  norm_num [List.range'_succ]
  simp only [← List.getD_eq_getElem?_getD]
  rw [k 0 (by norm_num), k 1 (by norm_num), k 2 (by norm_num), k 3 (by norm_num), k 4 (by norm_num), k 5 (by norm_num), k 6 (by norm_num),
    k 7 (by norm_num)]

theorem node_contains {t : Grid} {i : Nat} {c : Nat → Nat} {lo hi : Pt} (hf : t.nodeFaces i = Faces.boxFaces.map (List.map c))
    (hc : ∀ j < 8, t.intersections[c j]? = some ((boxPoints lo hi).getD j 0)) (p : Pt) :
    contains (nodePoly t i).2 (fun j => (nodePoly t i).1.getD j 0) p = contains Faces.boxFaces (fun j => (boxPoints lo hi).getD j 0) p := by
  unfold nodePoly contains
  simp only [hf]
  have k := node_point hc
  simp only [Faces.boxFaces, List.map_cons, List.map_nil, List.getD_cons_zero, List.getD_cons_succ, List.all_cons, List.all_nil]
  rw [k 0 (by norm_num), k 1 (by norm_num), k 2 (by norm_num), k 3 (by norm_num), k 4 (by norm_num), k 5 (by norm_num), k 6 (by norm_num),
    k 7 (by norm_num)]

/-! ### the planes of a box -/

theorem box_set (lo hi : Pt) (h : ∀ d, lo d < hi d) : Hull (· ∈ boxPoints lo hi) = Box lo hi := by
  ext x; exact box_hull lo hi h x

theorem box_inside (lo hi : Pt) (h : ∀ d, lo d < hi d) (x : Fin 3 → ℝ) :
    (∀ P ∈ Faces.boxFaces.map (facePlane (boxPoints lo hi)), 0 ≤ side (real P.a) (real P.b) (real P.c) x) ↔ x ∈ Box lo hi := by
  rw [← box_set lo hi h, hull_first _ _ (C67_box lo hi h) (by decide)]
  simp only [List.forall_mem_map]
  rfl

theorem box_within (mn mx : Pt) (h : ∀ d, mn d < mx d) (x : Fin 3 → ℝ) :
    (∀ P ∈ Faces.boxFaces.map (facePlane (boxPoints mn mx)), 0 < side (real P.a) (real P.b) (real P.c) x) ↔ x ∈ OpenBox mn mx := by
  have hd : ∀ d, (0 : ℝ) < mx d - mn d := fun d => by
    have : (mn d : ℝ) < mx d := by exact_mod_cast h d
    linarith
  have h01 := mul_pos (hd 0) (hd 1)
  have h12 := mul_pos (hd 1) (hd 2)
  have h02 := mul_pos (hd 0) (hd 2)
  have pm : ∀ k y : ℝ, 0 < k → (0 < k * y ↔ 0 < y) := fun k y hk => mul_pos_iff_of_pos_left hk
  have e : ∀ i, i < 8 → (boxPoints mn mx).getD i 0 = boxVertices mn mx i := by
    intro i hi
    rw [getD_lt _ _ (by simpa [boxPoints] using hi)]
    simp [boxPoints]
  simp only [List.forall_mem_map, Faces.boxFaces, List.forall_mem_cons, List.not_mem_nil, false_implies, implies_true, and_true, facePlane,
    List.getD_cons_zero, List.getD_cons_succ]
  rw [e 3 (by norm_num), e 0 (by norm_num), e 4 (by norm_num), e 2 (by norm_num), e 1 (by norm_num), e 5 (by norm_num), e 7 (by norm_num), e 6 (by norm_num)]
  have k0 : side (real (boxVertices mn mx 3)) (real (boxVertices mn mx 0)) (real (boxVertices mn mx 4)) x =
      ((mx 0 - mn 0) * (mx 2 - mn 2)) * (x 1 - mn 1) := by
    simp [side, real, boxVertices]; ring
  have k1 : side (real (boxVertices mn mx 3)) (real (boxVertices mn mx 2)) (real (boxVertices mn mx 1)) x =
      ((mx 1 - mn 1) * (mx 2 - mn 2)) * (x 0 - mn 0) := by
    simp [side, real, boxVertices]; ring
  have k2 : side (real (boxVertices mn mx 0)) (real (boxVertices mn mx 1)) (real (boxVertices mn mx 5)) x =
      ((mx 0 - mn 0) * (mx 1 - mn 1)) * (x 2 - mn 2) := by
    simp [side, real, boxVertices]; ring
  have k3 : side (real (boxVertices mn mx 3)) (real (boxVertices mn mx 7)) (real (boxVertices mn mx 6)) x =
      ((mx 0 - mn 0) * (mx 1 - mn 1)) * (mx 2 - x 2) := by
    simp [side, real, boxVertices]; ring
  have k4 : side (real (boxVertices mn mx 7)) (real (boxVertices mn mx 4)) (real (boxVertices mn mx 5)) x =
      ((mx 1 - mn 1) * (mx 2 - mn 2)) * (mx 0 - x 0) := by
    simp [side, real, boxVertices]; ring
  have k5 : side (real (boxVertices mn mx 2)) (real (boxVertices mn mx 6)) (real (boxVertices mn mx 5)) x =
      ((mx 0 - mn 0) * (mx 2 - mn 2)) * (mx 1 - x 1) := by
    simp [side, real, boxVertices]; ring
  rw [k0, k1, k2, k3, k4, k5, pm _ _ h02, pm _ _ h12, pm _ _ h01, pm _ _ h01, pm _ _ h12, pm _ _ h02]
  simp only [sub_pos, OpenBox, Set.mem_ofPred_eq, Fin.forall_fin_succ, Fin.isValue, IsEmpty.forall_iff, and_true, Fin.succ_zero_eq_one, Fin.succ_one_eq_two]
  tauto

theorem box_normals (lo hi : Pt) (h : ∀ d, lo d < hi d) (P : Plane) (hP : P ∈ Faces.boxFaces.map (facePlane (boxPoints lo hi))) :
    P.normal ≠ 0 := by
  intro h0
  have hx : real (fun d => (lo d + hi d) / 2) ∈ OpenBox lo hi := by
    intro d
    have : (lo d : ℝ) < hi d := by exact_mod_cast h d
    simp only [real]
    push_cast
    constructor <;> linarith
  have := (box_within lo hi h _).mpr hx P hP
  rw [← real_orient, orient_normal, h0] at this
  simp [dot] at this

end Brille.Props
