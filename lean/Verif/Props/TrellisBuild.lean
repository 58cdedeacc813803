/-
C74: the types of the nodes of the hybrid grid and their parts of the polyhedron.
-/
import Verif.Proofs.NodeFar
import Verif.Props.TrellisKnots
import Mathlib.Analysis.Convex.Topology

namespace Brille.Props

open Brille.TrellisBuild Brille.Spec Brille.Tetra Brille.Cut Brille.SortFace Brille.Zone
open Brille.IrCheck (Poly facePlane)
open Brille.Faces (contains)
open Brille.Trellis hiding Pt

/-- What the type of a node with the box from `lo` to `hi` and its part of the polyhedron `P` should be: the node is used exactly if the inner
points of its box include points of the polyhedron; it is a cube exactly if all its points are points of the polyhedron and the origin is not
one of them, unless all are to be divided into tetrahedra; and the part of one that is used is a convex polyhedron with exactly the points
which the box and the polyhedron share. -/
structure NodeFits (always : Bool) (P : Poly) (lo hi : Pt) (ty : NodeType) (part : Poly) : Prop where
  used : (ty = .cube ∨ ty = .poly) ↔ (Hull (· ∈ P.1) ∩ OpenBox lo hi).Nonempty
  cube : ty = .cube ↔ always = false ∧ Box lo hi ⊆ Hull (· ∈ P.1) ∧ (0 : Fin 3 → ℝ) ∉ Box lo hi
  part : ty = .cube ∨ ty = .poly → part.2 ≠ [] ∧ ConvexSolid part.1 part.2 ∧ Hull (· ∈ part.1) = Hull (· ∈ P.1) ∩ Box lo hi

theorem open_closed (lo hi : Pt) : OpenBox lo hi ⊆ Box lo hi := fun _ h d => ⟨(h d).1.le, (h d).2.le⟩

theorem centre_open (lo hi : Pt) (h : ∀ d, lo d < hi d) : real (fun d => (lo d + hi d) / 2) ∈ OpenBox lo hi := by
  intro d
  have : (lo d : ℝ) < hi d := by exact_mod_cast h d
  simp only [real]
  push_cast
  constructor <;> linarith

theorem real_zero : real (0 : Pt) = 0 := by funext d; simp [real]

theorem knots_lt {longest : ℚ} {values knots : List ℚ} (hk : EqualKnots longest values knots) {i j : Nat} {a b : ℚ} (hij : i < j)
    (ha : knots[i]? = some a) (hb : knots[j]? = some b) : a < b := by
  obtain ⟨l1, rfl⟩ := List.getElem?_eq_some_iff.mp ha
  obtain ⟨l2, rfl⟩ := List.getElem?_eq_some_iff.mp hb
  exact List.pairwise_iff_getElem.mp hk.increasing _ _ l1 l2 hij

/-- **C74 (one node).** The classification of a node of a grid of equal knots, for a convex polyhedron, does not throw and gives the type and the
part described by `NodeFits`. -/
theorem C74_classify (always : Bool) (P : Poly) (h : ConvexSolid P.1 P.2) (hne : P.2 ≠ []) (t : Grid) (longest : ℚ) (values : Fin 3 → List ℚ)
    (hk : ∀ d, EqualKnots longest (values d) (t.knots d)) (i : Nat) (hi : i < t.nodeCount) (lo hi' : Pt)
    (hb : ∀ d, (t.knots d)[t.idx2sub i d]? = some (lo d) ∧ (t.knots d)[t.idx2sub i d + 1]? = some (hi' d)) :
    ∃ ty part, classify always P t i = some (ty, part) ∧ NodeFits always P lo hi' ty part := by
  have hlt : ∀ d, lo d < hi' d := fun d => knots_lt (hk d) (Nat.lt_succ_self _) (hb d).1 (hb d).2
  have hcen := centre_open lo hi' hlt
  unfold classify
  split
  · rename_i ha
    have hap := assumed_apart hi hk hb ha
    refine ⟨_, _, rfl, ⟨?_, ?_, ?_⟩⟩
    · simp only [reduceCtorEq, or_self, false_iff, Set.not_nonempty_iff_eq_empty]
      exact Set.subset_empty_iff.mp (hap ▸ Set.inter_subset_inter_right _ (open_closed lo hi'))
    · simp only [reduceCtorEq, false_iff]
      rintro ⟨-, hsub, -⟩
      have hx := open_closed _ _ hcen
      have : real (fun d => (lo d + hi' d) / 2) ∈ Hull (· ∈ P.1) ∩ Box lo hi' := ⟨hsub hx, hx⟩
      rw [hap] at this
      exact this
    · simp
  · obtain ⟨lo2, hi2, hb2, c, hf, hc⟩ := node_corners t i hi
    have e1 : lo2 = lo := funext fun d => Option.some.inj ((hb2 d).1.symm.trans (hb d).1)
    have e2 : hi2 = hi' := funext fun d => Option.some.inj ((hb2 d).2.symm.trans (hb d).2)
    subst e1 e2
    have hbox := C67_box lo2 hi2 hlt
    have hbs := box_set lo2 hi2 hlt
    obtain ⟨v', f', hcut, hpart, -⟩ := C67_cut_any (Faces.boxFaces.map (facePlane (boxPoints lo2 hi2))) P.1 P.2 h hne
    have hleft := C67_left_iff _ (box_normals lo2 hi2 hlt) P.1 P.2 h hne v' f' hcut
    simp only [box_within lo2 hi2 hlt, box_inside lo2 hi2 hlt] at hleft hpart
    have hint : IrCheck.intersection P (nodePoly t i) = some (v', f') := by
      unfold IrCheck.intersection; rw [node_planes hf hc, hcut]
    have hset : f' ≠ [] → Hull (· ∈ v') = Hull (· ∈ P.1) ∩ Box lo2 hi2 := fun hn => Set.ext fun x => (hpart hn).2 x
    have hvol : 0 < IrCheck.volume (nodePoly t i) := by
      rw [node_volume hf hc]; exact C69_positive _ _ hbox (by decide)
    have hwhole : IrCheck.volume (nodePoly t i) = IrCheck.volume (v', f') ↔ Box lo2 hi2 ⊆ Hull (· ∈ P.1) := by
      rw [node_volume hf hc]
      by_cases hn : f' = []
      · have h0 : IrCheck.volume (v', f') = 0 := by rw [hn]; simp [IrCheck.volume, Faces.volume]
        rw [h0]
        refine ⟨fun hc' => absurd hc' (C69_positive _ _ hbox (by decide)).ne', fun hsub => ?_⟩
        exact absurd hn (hleft.mpr ⟨_, hsub (open_closed _ _ hcen), hcen⟩)
      · have hsub : Hull (· ∈ v') ⊆ Hull (· ∈ boxPoints lo2 hi2) := by
          rw [hset hn, hbs]; exact Set.inter_subset_right
        have := (C69_part v' (boxPoints lo2 hi2) f' Faces.boxFaces (hpart hn).1 hbox hn (by decide) hsub).2
        rw [hset hn, hbs, Set.inter_eq_right] at this
        rw [← this]
        exact eq_comm
    have hgamma : contains (nodePoly t i).2 (fun j => (nodePoly t i).1.getD j 0) 0 = true ↔ (0 : Fin 3 → ℝ) ∈ Box lo2 hi2 := by
      rw [node_contains hf hc, C67_contains _ _ hbox (by decide), real_zero, hbs]
    have hnull : (f'.length < 4 ∨ IrCheck.volume (v', f') ≤ 0) ↔ f' = [] := by
      constructor
      · intro hlow
        by_contra hn
        rcases hlow with hl | hl
        · have := four_faces (hpart hn).1 hn; omega
        · exact absurd (C69_positive _ _ (hpart hn).1 hn) (not_lt.mpr hl)
      · rintro rfl; left; simp
    unfold examine
    rw [hint]
    simp only [Option.map_some]
    have hused : (Hull (· ∈ P.1) ∩ OpenBox lo2 hi2).Nonempty ↔ f' ≠ [] := hleft.symm
    split
    · rename_i hcube
      simp only [Bool.and_eq_true, Bool.not_eq_true', decide_eq_true_eq] at hcube
      obtain ⟨⟨hal, hw⟩, hg⟩ := hcube
      have hsub := hwhole.mp hw
      have hn : f' ≠ [] := hleft.mpr ⟨_, hsub (open_closed _ _ hcen), hcen⟩
      refine ⟨_, _, rfl, ⟨?_, ?_, fun _ => ⟨hn, (hpart hn).1, hset hn⟩⟩⟩
      · rw [hused]; simp [hn]
      · refine ⟨fun _ => ⟨hal, hsub, fun h0 => ?_⟩, fun _ => rfl⟩
        rw [hgamma.mpr h0] at hg; exact absurd hg (by simp)
    · rename_i hcube
      have hnc : ¬ (always = false ∧ Box lo2 hi2 ⊆ Hull (· ∈ P.1) ∧ (0 : Fin 3 → ℝ) ∉ Box lo2 hi2) := by
        rintro ⟨hal, hsub, h0⟩
        apply hcube
        simp only [Bool.and_eq_true, Bool.not_eq_true', decide_eq_true_eq]
        refine ⟨⟨hal, hwhole.mpr hsub⟩, ?_⟩
        rw [← Bool.not_eq_true, hgamma]; exact h0
      split
      · rename_i hlow
        have hn := hnull.mp hlow
        refine ⟨_, _, rfl, ⟨?_, ?_, by simp⟩⟩
        · rw [hused]; simp [hn]
        · simp only [reduceCtorEq, false_iff]; exact hnc
      · rename_i hlow
        have hn : f' ≠ [] := fun hc' => hlow (hnull.mpr hc')
        refine ⟨_, _, rfl, ⟨?_, ?_, fun _ => ⟨hn, (hpart hn).1, hset hn⟩⟩⟩
        · rw [hused]; simp [hn]
        · simp only [reduceCtorEq, false_iff]; exact hnc

/-- a convex polyhedron has an extent along every axis -/
theorem solid_extent {v : List Pt} {faces : List Faces.Face} (h : ConvexSolid v faces) (hne : faces ≠ []) (d : Fin 3) :
    ∃ p ∈ v, ∃ q ∈ v, p d < q d := by
  by_contra hn
  push Not at hn
  obtain ⟨x0, hx0⟩ := solid_interior h hne
  have hv := points_of_faces h hne
  obtain ⟨p, hp⟩ := List.exists_mem_of_ne_nil _ hv
  have hall : ∀ x ∈ Hull (· ∈ v), x d = (p d : ℝ) := by
    intro x hx
    have hc : Convex ℝ {x : Fin 3 → ℝ | x d = (p d : ℝ)} := by
      intro y hy z hz s t _ _ hst
      simp only [Set.mem_ofPred_eq, Pi.add_apply, Pi.smul_apply, smul_eq_mul] at hy hz ⊢
      rw [hy, hz, ← add_mul, hst, one_mul]
    refine convexHull_min ?_ hc hx
    rintro _ ⟨q, hq, rfl⟩
    show ((q d : ℚ) : ℝ) = p d
    exact_mod_cast le_antisymm (hn p hp q hq) (hn q hq p hp)
  have ho : IsOpen ((fun x : Fin 3 → ℝ => x d) '' interior (Hull (· ∈ v))) := isOpenMap_eval d _ isOpen_interior
  have hs : (fun x : Fin 3 → ℝ => x d) '' interior (Hull (· ∈ v)) = {(p d : ℝ)} := by
    apply Set.eq_singleton_iff_unique_mem.mpr
    refine ⟨⟨x0, hx0, hall _ (interior_subset hx0)⟩, ?_⟩
    rintro _ ⟨x, hx, rfl⟩
    exact hall x (interior_subset hx)
  rw [hs] at ho
  exact not_isOpen_singleton _ ho

theorem mapM_each {α β : Type} (f : α → Option β) : ∀ l : List α, (∀ x ∈ l, ∃ y, f x = some y) →
    ∃ ys, l.mapM f = some ys ∧ ys.length = l.length ∧ ∀ (k : Nat) (x : α), l[k]? = some x → ∃ y, ys[k]? = some y ∧ f x = some y
  | [], _ => ⟨[], rfl, rfl, by simp⟩
  | a :: l, h => by
    obtain ⟨b, hb⟩ := h a (by simp)
    obtain ⟨ys, e, hl, hk⟩ := mapM_each f l fun x hx => h x (by simp [hx])
    refine ⟨b :: ys, by simp [List.mapM_cons, hb, e], by simp [hl], ?_⟩
    intro k x hx
    cases k with
    | zero => simp only [List.getElem?_cons_zero, Option.some.injEq] at hx ⊢; exact ⟨b, rfl, hx ▸ hb⟩
    | succ k => simp only [List.getElem?_cons_succ] at hx ⊢; exact hk k x hx

/-- **C74 (grid).** For every convex polyhedron and every positive edge length the construction does not throw; it makes the knots of C73, and a type
and a part of the polyhedron for every node, as described by `NodeFits`. -/
theorem C74_build (always : Bool) (turns : Nat) (edge : ℚ) (P : Poly) (h : ConvexSolid P.1 P.2) (hne : P.2 ≠ []) (hedge : 0 < edge)
    (hturns : ∀ d : Fin 3, (⌈(largest P.1 d - least P.1 d) / edge⌉ : ℤ) ≤ turns) :
    ∃ t parts, build always turns edge P = some (t, parts) ∧ (∀ d, EqualKnots edge (P.1.map fun p => p d) (t.knots d)) ∧
      t.types.length = t.nodeCount ∧ parts.length = t.nodeCount ∧
      ∀ (sub : Fin 3 → Nat) (lo hi : Pt), (∀ d, (t.knots d)[sub d]? = some (lo d) ∧ (t.knots d)[sub d + 1]? = some (hi d)) →
        ∃ ty part, t.types[t.sub2idx sub]? = some ty ∧ parts[t.sub2idx sub]? = some part ∧ NodeFits always P lo hi ty part := by
  obtain ⟨t, ht, hk, -⟩ := C73_grid turns edge P.1 hedge (solid_extent h hne) hturns
  have hcl : ∀ i ∈ List.range t.nodeCount, ∃ y, classify always P t i = some y := by
    intro i hi
    rw [List.mem_range] at hi
    obtain ⟨lo, hi', hb, -⟩ := node_corners t i hi
    obtain ⟨ty, part, e, -⟩ := C74_classify always P h hne t edge _ hk i hi lo hi' hb
    exact ⟨_, e⟩
  obtain ⟨nodes, hm, hl, hn⟩ := mapM_each (classify always P t) _ hcl
  rw [List.length_range] at hl
  refine ⟨{ t with types := nodes.map Prod.fst }, nodes.map Prod.snd, ?_, hk, by simpa [Grid.nodeCount] using hl, by simpa [Grid.nodeCount] using hl, ?_⟩
  · unfold build; rw [ht]; simp [hm]
  · intro sub lo hi' hb
    have hs : ∀ d, sub d < t.size d := by
      intro d
      obtain ⟨l, -⟩ := List.getElem?_eq_some_iff.mp (hb d).2
      have l' : sub d + 1 < (t.knots d).length := l
      rw [Grid.size]; omega
    have hlt := sub2idx_lt t sub hs
    obtain ⟨ty, part, e, hfit⟩ := C74_classify always P h hne t edge _ hk _ hlt lo hi' (by rw [idx2sub_sub2idx t sub hs]; exact hb)
    obtain ⟨y, hy, ey⟩ := hn (t.sub2idx sub) (t.sub2idx sub) (by rw [List.getElem?_range hlt])
    rw [e] at ey
    obtain rfl := Option.some.inj ey
    refine ⟨ty, part, ?_, ?_, hfit⟩
    · show (nodes.map Prod.fst)[t.sub2idx sub]? = _
      rw [List.getElem?_map, hy]; rfl
    · show (nodes.map Prod.snd)[t.sub2idx sub]? = _
      rw [List.getElem?_map, hy]; rfl

/-! ### examples -/

/-- a bar three times as long as wide, with the origin at a corner -/
def bar : Poly := (boxPoints ![0, 0, 0] ![3, 1, 1], Faces.boxFaces)

/-- a tetrahedron away from the origin -/
def tetrahedron : Poly := ([![1, 1, 1], ![3, 1, 1], ![1, 3, 1], ![1, 1, 3]], [[0, 2, 1], [0, 1, 3], [0, 3, 2], [1, 2, 3]])

theorem tetrahedron_solid : ConvexSolid tetrahedron.1 tetrahedron.2 where
  distinct := by decide +kernel
  valid := by decide +kernel
  used := by decide +kernel
  convex := by refine convex_of_check _ ?_ ?_ ?_ ?_ ?_ ?_ <;> decide +kernel

set_option maxRecDepth 100000 in
/-- the first node of the bar has the origin in it and is divided into tetrahedra, the two others are cubes -/
example : ConvexSolid bar.1 bar.2 ∧ (∀ d : Fin 3, (⌈(largest bar.1 d - least bar.1 d) / 1⌉ : ℤ) ≤ (3 : Nat)) ∧
    (build false 3 1 bar).map (fun r => r.1.types) = some [.poly, .cube, .cube] :=
  ⟨C67_box _ _ (by decide), by decide +kernel, by decide +kernel⟩

set_option maxRecDepth 100000 in
/-- four of the eight nodes of the tetrahedron only touch it, or not even that -/
example : ConvexSolid tetrahedron.1 tetrahedron.2 ∧ (∀ d : Fin 3, (⌈(largest tetrahedron.1 d - least tetrahedron.1 d) / 1⌉ : ℤ) ≤ (2 : Nat)) ∧
    (build false 2 1 tetrahedron).map (fun r => (r.1.types, r.2.map fun p => p.1.length)) =
      some ([.poly, .poly, .poly, .foundNull, .poly, .foundNull, .foundNull, .foundNull], [7, 4, 4, 0, 4, 0, 0, 0]) :=
  ⟨tetrahedron_solid, by decide +kernel, by decide +kernel⟩

end Brille.Props
