/-
Cutting a convex polyhedron with any planes at all: also those which leave nothing, or touch it in a face, an edge or a corner.
-/
import Verif.Props.ConvexCut
import Verif.Props.IrCheck

namespace Brille.Props

open Brille.Spec Brille.Tetra Brille.Faces Brille.FaceEdit Brille.Cut Brille.Convex Brille.SortFace

/-! ### a plane that touches a convex polyhedron from behind -/

section
variable {faces : List (List Pt)} (h : ConvexPolyhedron faces) {s : Pt → ℚ} (hs : Affine s)
include h hs

/-- a face with three corners in a plane which the polyhedron does not cross lies in the plane -/
theorem touching_flat (hle : ∀ p, IsCorner faces p → s p ≤ 0) {f : List Pt} (hf : f ∈ faces)
    (h3 : 3 ≤ (f.filter fun p => decide (s p = 0)).length) (p : Pt) (hp : p ∈ f) : s p = 0 := by
  by_contra hne
  have hneg : s p < 0 := lt_of_le_of_ne (hle p ⟨f, hf, hp⟩) hne
  obtain ⟨z, hz⟩ := List.exists_mem_of_length_pos (lt_of_lt_of_le (by norm_num) h3)
  obtain ⟨hz1, hz2⟩ := List.mem_filter.mp hz
  obtain ⟨n1, nk, m1, ml, hM⟩ := mixed_face h hs hf ⟨z, hz1, (by simpa using hz2 : s z = 0).ge⟩ ⟨p, hp, hneg⟩
  have := (List.subperm_of_subset ((h.simple f hf).1.filter fun p => decide (s p = 0)) (l₂ := [n1, nk]) (by
    intro q hq
    obtain ⟨q1, q2⟩ := List.mem_filter.mp hq
    rcases mixed_zero h hs hf hM q q1 (by simpa using q2) with rfl | rfl <;> simp)).length_le
  simp only [List.length_cons, List.length_nil] at this
  omega

/-- only one face does so -/
theorem touching_one (hle : ∀ p, IsCorner faces p → s p ≤ 0) (hout : ∃ p, IsCorner faces p ∧ s p < 0) {f g : List Pt}
    (hf : f ∈ faces) (hg : g ∈ faces) (hf3 : 3 ≤ (f.filter fun p => decide (s p = 0)).length)
    (hg3 : 3 ≤ (g.filter fun p => decide (s p = 0)).length) : g = f := by
  by_contra hne
  obtain ⟨p, hp, hpf⟩ := h.apart g hg f hf hne
  obtain ⟨b, hb⟩ := List.exists_mem_of_length_pos (lt_of_lt_of_le (by norm_num) (h.simple f hf).2)
  obtain ⟨a, ha⟩ := exists_prev f b hb
  obtain ⟨c, hc⟩ := exists_next f b hb
  obtain ⟨i, _, hi⟩ := hout
  have F := touching_flat h hs hle hf hf3
  have := Brille.Convex.coplanar (fun x => - s x) (affine_neg hs) i (by simpa using hi) a b c p
    (by simp [F a (Convex.mem_of_step f _ ha).1]) (by simp [F b hb]) (by simp [F c (Convex.mem_of_step f _ hc).2])
    (by simp [touching_flat h hs hle hg hg3 p hp])
  exact hpf ((h.behind f hf a b c ha hc p ⟨g, hg, hp⟩).2.mp this)

end

theorem length_le_one {α : Type} (l : List α) (hn : l.Nodup) (h : ∀ x ∈ l, ∀ y ∈ l, x = y) : l.length ≤ 1 := by
  rcases l with _ | ⟨a, _ | ⟨b, l⟩⟩
  · simp
  · simp
  · exfalso
    have := h a (by simp) b (by simp)
    subst this
    simp at hn

theorem map_inj_mem {α β : Type} (u : α → β) : ∀ f g : List α, (∀ i ∈ f, ∀ j ∈ g, u i = u j → i = j) → f.map u = g.map u → f = g
  | [], [], _, _ => rfl
  | [], _ :: _, _, e => by simp at e
  | _ :: _, [], _, e => by simp at e
  | a :: f, b :: g, h, e => by
    simp only [List.map_cons, List.cons.injEq] at e
    rw [h a (by simp) b (by simp) e.1, map_inj_mem u f g (fun i hi j hj => h i (by simp [hi]) j (by simp [hj])) e.2]

/-- two faces or fewer make no solid: `remove_dangling_faces` removes them -/
theorem dangling_few (faces : List Face) (h : faces.length ≤ 2) : removeDangling (faces.length + 1) faces = some [] := by
  have hv : (dangleStep faces).2 = [] := by
    unfold dangleStep
    split
    · rename_i hl
      exact List.length_eq_zero_iff.mp (by show faces.length = 0; omega)
    · simp only [List.filter_eq_nil_iff, List.mem_map]
      rintro g ⟨f, _, rfl⟩
      have : (f.filter fun x => decide (faceCount faces x > 2)) = [] := by
        rw [List.filter_eq_nil_iff]
        intro x _
        have := List.countP_le_length (p := fun f => decide (x ∈ f)) (l := faces)
        simp only [faceCount, gt_iff_lt, decide_eq_true_eq, not_lt]
        omega
      rw [this]; simp
  rcases faces with _ | ⟨f, t⟩
  · rfl
  · show (if (dangleStep (f :: t)).1 then removeDangling (t.length + 1) (dangleStep (f :: t)).2 else some (dangleStep (f :: t)).2) = _
    rw [hv]
    split
    · rfl
    · rfl

theorem removePoints_length (keep : List Bool) (points : List Pt) (faces : List Face) (hk : false ∈ keep) :
    (removePoints keep points faces).2.length =
      (faces.filter fun f => decide (3 ≤ (f.filter fun x => keep.getD x false).length)).length := by
  unfold removePoints
  rw [if_pos hk]
  simp only [List.filter_map, List.length_map]
  congr 1
  refine List.filter_congr fun f _ => ?_
  simp only [Function.comp_apply, List.length_map]
  rw [← decide_not]
  congr 1
  simp

theorem cleanUp_few (keep : List Bool) (v : List Pt) (f : List Face) (hk : false ∈ keep)
    (h : (f.filter fun f => decide (3 ≤ (f.filter fun x => keep.getD x false).length)).length ≤ 2) :
    ∃ w, cleanUp keep v f = some (w, []) := by
  have hl := removePoints_length keep v f hk
  unfold cleanUp
  simp only
  set R := removePoints keep v f with hR
  set F := (removeMiddles R.1 R.2).filter (fun face => !decide (((ListUtil.unique face).getD []).length < 3)) with hF
  have hFl : F.length ≤ 2 := by
    have h1 : F.length ≤ (removeMiddles R.1 R.2).length := List.length_filter_le _ _
    have h2 : (removeMiddles R.1 R.2).length ≤ R.2.length := by
      unfold removeMiddles
      exact (List.length_filter_le _ _).trans (by simp)
    omega
  rw [dangling_few F hFl]
  simp only
  have : (removeFaceless R.1 ([] : List Face)).2 = [] := by
    unfold removeFaceless
    simp only
    split <;> simp
  exact ⟨(removeFaceless R.1 ([] : List Face)).1, congrArg some (Prod.ext rfl this)⟩

theorem faces_nodup {v : List Pt} {faces : List Face} (hS : Surface v faces) : faces.Nodup := by
  refine ((List.nodup_flatMap.mp hS.once).2).imp_of_mem ?_
  intro f g hf _ hd e
  subst e
  have h3 := (hS.simple f hf).2
  have : 0 < (steps f).length := by rw [Convex.steps_length]; omega
  obtain ⟨x, hx⟩ := List.exists_mem_of_length_pos this
  exact hd hx hx

/-- **C67 (nothing is left).** Of a convex polyhedron with no vertex strictly behind the plane, which need only touch it, nothing is
left: the call does not throw and the result has no faces. -/
theorem C67_nothing_left (sort : Plane → Face → List Pt → Face) (P : Plane) (v : List Pt) (faces : List Face) (h : ConvexSolid v faces)
    (hle : ∀ p ∈ v, side P.a P.b P.c p ≤ 0) (hout : ∃ p ∈ v, side P.a P.b P.c p < 0) :
    ∃ w, oneCut sort P v faces = some (w, []) := by
  have hS := convex_surface h
  simp only [← orient_eq] at hle hout
  unfold oneCut
  split
  · exact ⟨v, rfl⟩
  simp only
  have hkf : false ∈ inside P v := by
    obtain ⟨p, hp, h⟩ := hout
    exact List.mem_map.mpr ⟨p, hp, by simpa using h⟩
  rw [if_neg (by simpa using hkf)]
  split
  · exact ⟨v, rfl⟩
  have w0 : Woven P v faces [] (fun _ => none) { keep := inside P v, v := v, f := faces, newFace := [], count := 0 } := by
    refine ⟨rfl, ⟨[], by simp, rfl⟩, ?_, by simp, by simp, by simp, ?_, hS.distinct, by simp, by simp, by simp⟩
    · simp only
      conv_lhs => rw [← List.map_id faces]
      apply List.map_congr_left
      intro f _
      exact (weave_none f).symm
    · intro k h1 h2
      simp only at h2
      omega
  have hmem : ∀ x ∈ cutEdges (inside P v) (edgesPerFace faces), Leaves P v x.2.2 ∧ x.2.1 ≠ x.1 ∧ (∃ h1 : x.1 < faces.length,
      ∃ h2 : x.2.1 < faces.length, x.2.2 ∈ steps faces[x.1] ∧ x.2.2.swap ∈ steps faces[x.2.1]) ∧ x.2.2.2 < v.length := by
    intro x hx
    obtain ⟨m1, m2, m3, m4, m5, m6, m7, m8⟩ := mem_cutEdges _ _ _ hx
    rw [edges_length] at m4 m5
    rw [getD_edges _ _ m4] at m7
    rw [getD_edges _ _ m5] at m8
    have l := Convex.mem_of_step _ _ m7
    have l1 := hS.valid _ (List.getElem_mem m4) _ l.1
    have l2 := hS.valid _ (List.getElem_mem m4) _ l.2
    rw [List.getD_eq_getElem?_getD, inside_get P v _ l1] at m2
    rw [List.getD_eq_getElem?_getD, inside_get P v _ l2] at m3
    simp only [Option.getD_some, decide_eq_false_iff_not, decide_eq_true_eq, ge_iff_le, not_le] at m2 m3
    exact ⟨⟨m2, m3⟩, m6, ⟨m4, m5, m7, m8⟩, l2⟩
  obtain ⟨st, ins, done, hfold, hw, hdone⟩ := fold_woven P v faces hS (cutEdges (inside P v) (edgesPerFace faces)) [] _ _ w0
    (by simp) (by
      intro x hx
      obtain ⟨m1, m2, m3, _⟩ := hmem x hx
      exact ⟨m1, by simp, m2, m3⟩) (cutEdges_nodup _ faces hS.once)
  have hz : ∀ e ∈ done, P.orient (v.getD e.2 0) = 0 := by
    intro e he
    rw [hdone] at he
    simp only [List.not_mem_nil, false_or] at he
    obtain ⟨x, hx, rfl⟩ := List.mem_map.mp he
    obtain ⟨m1, _, _, m4⟩ := hmem x hx
    refine le_antisymm ?_ m1.2
    rw [getD_lt v 0 m4]
    exact hle _ (List.getElem_mem _)
  have hins : ins = fun _ => none := by
    funext e
    cases hk : ins e with
    | none => rfl
    | some k =>
      obtain ⟨_, _, hd⟩ := hw.hins e k hk
      rcases hd with hd | hd
      · rw [(hw.zero e hd (hz e hd)).1] at hk; cases hk
      · have := (hw.zero _ hd (hz _ hd)).2
        rw [Prod.swap_swap, hk] at this; cases this
  obtain ⟨new, hv, hnew⟩ := hw.v
  have hnil : new = [] := by
    rcases new with _ | ⟨a, t⟩
    · rfl
    · obtain ⟨e, _, he⟩ := hw.new v.length le_rfl (by rw [hv]; simp)
      rw [hins] at he; cases he
  have hf : st.f = faces := by
    rw [hw.f, hins]
    conv_rhs => rw [← List.map_id faces]
    exact List.map_congr_left fun f _ => weave_none f
  have hcount : st.count = 0 := by rw [← hnew, hnil]; rfl
  rw [hfold]
  simp only
  rw [hw.keep, if_neg (by simpa using hkf), hcount, List.replicate_zero, List.append_nil]
  refine cleanUp_few _ _ _ hkf ?_
  rw [hf]
  -- the faces that are left
  have hfew : (faces.filter fun f => decide (3 ≤ (f.filter fun x => (inside P v).getD x false).length)).length ≤ 1 := by
    have hlen : ∀ f ∈ faces, (f.filter fun x => (inside P v).getD x false).length =
        ((f.map fun i => v.getD i 0).filter fun p => decide (P.orient p = 0)).length := by
      intro f hf
      rw [List.filter_map, List.length_map]
      congr 1
      refine List.filter_congr fun i hi => ?_
      have l := hS.valid f hf i hi
      rw [List.getD_eq_getElem?_getD, inside_get P v _ l, Option.getD_some, Function.comp_apply]
      have := hle _ (List.getElem_mem l)
      rw [← getD_lt v 0 l] at this
      rw [decide_eq_decide]
      exact ⟨fun h => le_antisymm this h, fun h => h.ge⟩
    have hs : Affine P.orient := by rw [orient_fun]; exact affine_side _ _ _
    refine length_le_one _ ((faces_nodup hS).filter _) fun f hf g hg => ?_
    obtain ⟨f1, f2⟩ := List.mem_filter.mp hf
    obtain ⟨g1, g2⟩ := List.mem_filter.mp hg
    rw [decide_eq_true_eq, hlen _ f1] at f2
    rw [decide_eq_true_eq, hlen _ g1] at g2
    have e := touching_one h.convex hs (fun p hp => hle p ((corner_iff h p).mp hp))
      (by obtain ⟨p, hp, h0⟩ := hout; exact ⟨p, (corner_iff h p).mpr hp, h0⟩)
      (List.mem_map.mpr ⟨g, g1, rfl⟩) (List.mem_map.mpr ⟨f, f1, rfl⟩) g2 f2
    refine map_inj_mem (fun i => v.getD i 0) f g (fun i hi j hj => getD_inj h.distinct (hS.valid f f1 i hi) (hS.valid g g1 j hj)) e
  split
  · rw [List.filter_append, List.length_append]
    have : ∀ x : Face, ([x].filter fun f => decide (3 ≤ (f.filter fun x => (inside P v).getD x false).length)).length ≤ 1 :=
      fun x => (List.length_filter_le _ _).trans (by simp)
    have := this (sort P st.newFace st.v)
    omega
  · omega

theorem noneBeyond_flat (P : Plane) (v : List Pt) (faces : List Face) (h : ConvexSolid v faces) (hne : v ≠ [])
    (h0 : ∀ p ∈ v, P.orient p = 0) : noneBeyond P v faces = false := by
  by_contra hc
  rw [Bool.not_eq_false] at hc
  unfold noneBeyond at hc
  simp only [List.all_eq_true, decide_eq_true_eq] at hc
  have hall : ∀ i < v.length, faceIndex P v faces < faces.length ∧ i ∈ faces.getD (faceIndex P v faces) [] := by
    intro i hi
    by_contra hn
    have := hc i (List.mem_filter.mpr ⟨List.mem_range.mpr hi, by
      by_cases h1 : faceIndex P v faces < faces.length
      · have h2 : i ∉ faces.getD (faceIndex P v faces) [] := fun h => hn ⟨h1, h⟩
        rw [decide_eq_false h2]; simp
      · simp [h1]⟩)
    rw [getD_lt v 0 hi, h0 _ (List.getElem_mem _)] at this
    exact lt_irrefl _ this
  have hpos : 0 < v.length := List.length_pos_iff.mpr hne
  have hm := (hall 0 hpos).1
  obtain ⟨p, hp, hpf⟩ := h.convex.solid _ (List.mem_map.mpr ⟨_, List.getElem_mem hm, rfl⟩)
  obtain ⟨i, hi, rfl⟩ := List.getElem_of_mem ((corner_iff h p).mp hp)
  have := (hall i hi).2
  rw [getD_lt _ _ hm] at this
  exact hpf (List.mem_map.mpr ⟨i, this, getD_lt v 0 hi⟩)

theorem side_convex (a b c : Fin 3 → ℝ) : Convex ℝ {x : Fin 3 → ℝ | side a b c x ≤ 0} := by
  intro y hy z hz s t hs ht hst
  simp only [Set.mem_ofPred_eq] at hy hz ⊢
  have : side a b c (s • y + t • z) = s * side a b c y + t * side a b c z := by
    have : t = 1 - s := by linarith
    subst this
    simp only [side, Pi.add_apply, Pi.smul_apply, smul_eq_mul]; ring
  rw [this]
  exact add_nonpos (mul_nonpos_of_nonneg_of_nonpos hs hy) (mul_nonpos_of_nonneg_of_nonpos ht hz)

theorem hull_nonpos {v : List Pt} (P : Plane) (h : ∀ p ∈ v, side P.a P.b P.c p ≤ 0) (x : Fin 3 → ℝ) (hx : x ∈ Hull (· ∈ v)) :
    side (real P.a) (real P.b) (real P.c) x ≤ 0 := by
  refine convexHull_min ?_ (side_convex _ _ _) hx
  rintro _ ⟨p, hp, rfl⟩
  show side (real P.a) (real P.b) (real P.c) (real p) ≤ 0
  rw [← real_orient, orient_eq]
  exact_mod_cast h p hp

theorem points_of_faces {v : List Pt} {faces : List Face} (h : ConvexSolid v faces) (hne : faces ≠ []) : v ≠ [] := by
  rintro rfl
  obtain ⟨f, hf⟩ := List.exists_mem_of_ne_nil _ hne
  have h3 := ((convex_surface h).simple f hf).2
  obtain ⟨i, hi⟩ := List.exists_mem_of_length_pos (lt_of_lt_of_le (by norm_num) h3)
  simpa using h.valid f hf i hi

/-- **C67 (any plane).** A cut of a convex polyhedron with any plane does not throw.  Either it leaves a convex polyhedron with exactly the
points that are not beyond the plane, or nothing, and then none of the points was strictly behind it. -/
theorem C67_one_cut_any (P : Plane) (v : List Pt) (faces : List Face) (h : ConvexSolid v faces) (hne : faces ≠ []) :
    ∃ v' f', oneCut sortFace P v faces = some (v', f') ∧
      (f' ≠ [] → ConvexSolid v' f' ∧
        ∀ x : Fin 3 → ℝ, x ∈ Hull (· ∈ v') ↔ x ∈ Hull (· ∈ v) ∧ 0 ≤ side (real P.a) (real P.b) (real P.c) x) ∧
      (f' = [] → ∀ x ∈ Hull (· ∈ v), side (real P.a) (real P.b) (real P.c) x ≤ 0) := by
  by_cases hin : ∃ p ∈ v, 0 < side P.a P.b P.c p
  · obtain ⟨v', f', e, hc, hm⟩ := C67_one_cut P v faces h hin
    refine ⟨v', f', e, fun _ => ⟨hc, hm⟩, fun hf => ?_⟩
    exfalso
    obtain ⟨p, hp, h0⟩ := hin
    refine faces_of_point hc (real p) ((hm _).mpr ⟨subset_convexHull ℝ _ ⟨p, hp, rfl⟩, ?_⟩) hf
    rw [← real_orient, orient_eq]
    exact_mod_cast h0.le
  · push Not at hin
    by_cases hout : ∃ p ∈ v, side P.a P.b P.c p < 0
    · obtain ⟨w, e⟩ := C67_nothing_left sortFace P v faces h hin hout
      exact ⟨w, [], e, fun hc => absurd rfl hc, fun _ => hull_nonpos P hin⟩
    · push Not at hout
      have h0 : ∀ p ∈ v, P.orient p = 0 := fun p hp => by rw [orient_eq]; exact le_antisymm (hin p hp) (hout p hp)
      have e : oneCut sortFace P v faces = some (v, faces) := by
        unfold oneCut
        rw [noneBeyond_flat P v faces h (points_of_faces h hne) h0]
        simp only [Bool.false_eq_true, if_false]
        rw [if_pos]
        intro hc
        obtain ⟨p, hp, hf⟩ := List.mem_map.mp hc
        rw [h0 p hp] at hf
        simp at hf
      refine ⟨v, faces, e, fun _ => ⟨h, fun x => ⟨fun hx => ⟨hx, ?_⟩, fun hx => hx.1⟩⟩, fun hc => absurd hc hne⟩
      have := hull_nonpos (v := v) ⟨P.b, P.a, P.c⟩ (fun p hp => by
        have := hout p hp
        rw [show side P.b P.a P.c p = - side P.a P.b P.c p by unfold side; ring]
        linarith) x hx
      rw [show side (real P.b) (real P.a) (real P.c) x = - side (real P.a) (real P.b) (real P.c) x by unfold side; ring] at this
      linarith

/-- a polyhedron without faces stays so -/
theorem oneCut_empty (sort : Plane → Face → List Pt → Face) (P : Plane) (v : List Pt) : ∃ w, oneCut sort P v [] = some (w, []) := by
  unfold oneCut
  split
  · exact ⟨v, rfl⟩
  simp only
  split
  · exact ⟨v, rfl⟩
  rename_i hk
  split
  · exact ⟨v, rfl⟩
  have he : intersections P v (cutEdges (inside P v) (edgesPerFace [])) = [] := by
    have : cutEdges (inside P v) (edgesPerFace []) = [] := by
      simp only [cutEdges, edgesPerFace, List.map_nil, List.length_nil, List.range_zero, List.flatMap_nil, ite_self]
      simp
    rw [this]; rfl
  rw [he, List.foldlM_nil]
  show ∃ w, (if ¬ false ∈ inside P v then some (v, []) else cleanUp (inside P v ++ List.replicate 0 true) v []) = some (w, [])
  rw [if_neg hk]
  exact cleanUp_few _ _ _ (by simpa using hk) (by simp)

theorem cut_empty (sort : Plane → Face → List Pt → Face) (planes : List Plane) : ∀ v : List Pt,
    ∃ w, cut sort planes v [] = some (w, []) := by
  induction planes with
  | nil => exact fun v => ⟨v, rfl⟩
  | cons P planes ih =>
    intro v
    obtain ⟨w, e⟩ := oneCut_empty sort P v
    obtain ⟨w', e'⟩ := ih w
    refine ⟨w', ?_⟩
    unfold cut at e' ⊢
    rw [List.foldlM_cons, e]
    exact e'

/-- **C67 (any planes).** Cutting a convex polyhedron with any planes, in any order and wherever they are, does not throw.  Either the
result is a convex polyhedron with exactly the points that are not beyond any plane, or it has no faces, and then no point of the
polyhedron was strictly behind all of them. -/
theorem C67_cut_any (planes : List Plane) (v : List Pt) (faces : List Face) (h : ConvexSolid v faces) (hne : faces ≠ []) :
    ∃ v' f', cut sortFace planes v faces = some (v', f') ∧
      (f' ≠ [] → ConvexSolid v' f' ∧ ∀ x : Fin 3 → ℝ, x ∈ Hull (· ∈ v') ↔
        x ∈ Hull (· ∈ v) ∧ ∀ P ∈ planes, 0 ≤ side (real P.a) (real P.b) (real P.c) x) ∧
      (f' = [] → ∀ x ∈ Hull (· ∈ v), ∃ P ∈ planes, side (real P.a) (real P.b) (real P.c) x ≤ 0) := by
  induction planes generalizing v faces with
  | nil => exact ⟨v, faces, rfl, fun _ => ⟨h, fun x => by simp⟩, fun hc => absurd hc hne⟩
  | cons P planes ih =>
    obtain ⟨v1, f1, e1, c1, n1⟩ := C67_one_cut_any P v faces h hne
    have step : cut sortFace (P :: planes) v faces = cut sortFace planes v1 f1 := by
      unfold cut
      rw [List.foldlM_cons, e1]
      rfl
    rw [step]
    by_cases hf1 : f1 = []
    · subst hf1
      obtain ⟨w, e⟩ := cut_empty sortFace planes v1
      exact ⟨w, [], e, fun hc => absurd rfl hc, fun _ x hx => ⟨P, by simp, n1 rfl x hx⟩⟩
    · obtain ⟨h1, m1⟩ := c1 hf1
      obtain ⟨v2, f2, e2, c2, n2⟩ := ih v1 f1 h1 hf1
      refine ⟨v2, f2, e2, fun hf => ?_, fun hf x hx => ?_⟩
      · obtain ⟨h2, m2⟩ := c2 hf
        refine ⟨h2, fun x => ?_⟩
        rw [m2, m1]
        simp only [List.mem_cons, forall_eq_or_imp]
        tauto
      · by_cases h0 : 0 ≤ side (real P.a) (real P.b) (real P.c) x
        · obtain ⟨Q, hQ, hs⟩ := n2 hf x ((m1 x).mpr ⟨hx, h0⟩)
          exact ⟨Q, by simp [hQ], hs⟩
        · exact ⟨P, by simp, (not_le.mp h0).le⟩

theorem solid_interior {v : List Pt} {faces : List Face} (h : ConvexSolid v faces) (hne : faces ≠ []) :
    (interior (Hull (· ∈ v))).Nonempty := by
  have : Hull (· ∈ v) = Hull (IsCorner (polygons v faces)) := by
    congr 1
    funext p
    exact propext (corner_iff h p).symm
  rw [this]
  exact hull_interior h.convex (polygons_ne hne)

theorem positive_somewhere (P : Plane) (hP : P.normal ≠ 0) : ∃ c : Fin 3 → ℝ, 0 < side (real P.a) (real P.b) (real P.c) c := by
  refine ⟨real fun d => P.a d - P.normal d, ?_⟩
  rw [← real_orient]
  have : P.orient (fun d => P.a d - P.normal d) = P.normal 0 * P.normal 0 + P.normal 1 * P.normal 1 + P.normal 2 * P.normal 2 := by
    rw [orient_normal]; simp only [dot, diff]; ring
  rw [this]
  have h : P.normal 0 ≠ 0 ∨ P.normal 1 ≠ 0 ∨ P.normal 2 ≠ 0 := by
    by_contra hn
    push Not at hn
    refine hP (funext fun d => ?_)
    fin_cases d
    · exact hn.1
    · exact hn.2.1
    · exact hn.2.2
  have a0 := mul_self_nonneg (P.normal 0); have a1 := mul_self_nonneg (P.normal 1); have a2 := mul_self_nonneg (P.normal 2)
  have : 0 < P.normal 0 * P.normal 0 + P.normal 1 * P.normal 1 + P.normal 2 * P.normal 2 := by
    rcases h with h | h | h
    · linarith [mul_self_pos.mpr h]
    · linarith [mul_self_pos.mpr h]
    · linarith [mul_self_pos.mpr h]
  exact_mod_cast this

/-- **C67 (when something is left).** For planes with a normal something is left if and only if some point of the polyhedron is strictly
behind all of them. -/
theorem C67_left_iff (planes : List Plane) (hp : ∀ P ∈ planes, P.normal ≠ 0) (v : List Pt) (faces : List Face) (h : ConvexSolid v faces)
    (hne : faces ≠ []) (v' : List Pt) (f' : List Face) (hcut : cut sortFace planes v faces = some (v', f')) :
    f' ≠ [] ↔ ∃ x ∈ Hull (· ∈ v), ∀ P ∈ planes, 0 < side (real P.a) (real P.b) (real P.c) x := by
  obtain ⟨w, g, e, hc, hn⟩ := C67_cut_any planes v faces h hne
  rw [hcut] at e
  obtain ⟨rfl, rfl⟩ := (Prod.mk.injEq ..).mp (Option.some.inj e)
  constructor
  · intro hf
    obtain ⟨hc', hm⟩ := hc hf
    obtain ⟨x, hx⟩ := solid_interior hc' hf
    refine ⟨x, ((hm x).mp (interior_subset hx)).1, fun P hP => ?_⟩
    obtain ⟨c, hc0⟩ := positive_somewhere P (hp P hP)
    exact aff_interior (aff_side _ _ _) (Hull (· ∈ v')) (fun y hy => ((hm y).mp hy).2 P hP) c hc0 x hx
  · rintro ⟨x, hx, hpos⟩ hf
    obtain ⟨P, hP, h0⟩ := hn hf x hx
    exact absurd (hpos P hP) (not_lt.mpr h0)

/-! ### examples -/

/-- the plane in which the cube has the face with the least first coordinate, with the cube beyond it -/
def touching : Plane := ⟨![-1, 0, 0], ![-1, 1, 0], ![-1, 0, 1]⟩

/-- the plane touches the cube: four vertices are on it and none is strictly behind it; nothing is left -/
example : ConvexSolid (boxPoints ![-1, -1, -1] ![1, 1, 1]) boxFaces ∧
    (∀ p ∈ boxPoints ![-1, -1, -1] ![1, 1, 1], side touching.a touching.b touching.c p ≤ 0) ∧
    (∃ p ∈ boxPoints ![-1, -1, -1] ![1, 1, 1], side touching.a touching.b touching.c p < 0) ∧
    (∃ p ∈ boxPoints ![-1, -1, -1] ![1, 1, 1], side touching.a touching.b touching.c p = 0) ∧
    (oneCut sortFace touching (boxPoints ![-1, -1, -1] ![1, 1, 1]) boxFaces).map (·.2) = some [] :=
  ⟨C67_box _ _ (by decide), by decide +kernel, by decide +kernel, by decide +kernel, by decide +kernel⟩

/-- two planes, the second of which touches what the first one leaves along an edge -/
example : (cut sortFace [⟨![0, 0, 0], ![0, 1, 0], ![0, 0, 1]⟩, ⟨![0, 1, 0], ![-1, 2, 0], ![0, 1, 1]⟩]
    (boxPoints ![-1, -1, -1] ![1, 1, 1]) boxFaces).map (·.2.length) = some 6 ∧
    (cut sortFace [⟨![0, 0, 0], ![0, 1, 0], ![0, 0, 1]⟩, ⟨![0, 1, 0], ![0, 1, 1], ![-1, 2, 0]⟩]
    (boxPoints ![-1, -1, -1] ![1, 1, 1]) boxFaces).map (·.2) = some [] := by
  decide +kernel

end Brille.Props
