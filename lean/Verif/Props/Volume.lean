/-
The volume computed from the faces of a convex polyhedron is its volume.
-/
import Verif.Proofs.Volume
import Verif.Props.ConvexCut
import Mathlib.MeasureTheory.Measure.Lebesgue.Basic

namespace Brille.Props

open Brille.Spec Brille.Tetra Brille.Faces Brille.Cut Brille.Convex

theorem convex_closed {v : List Pt} {faces : List Face} (h : ConvexSolid v faces) : Closed faces := by
  have S := convex_surface h
  intro a b
  by_cases hab : (a, b) ∈ faces.flatMap steps
  · rw [List.count_eq_one_of_mem S.once hab, List.count_eq_one_of_mem S.once (S.closed _ _ hab)]
  · have hba : (b, a) ∉ faces.flatMap steps := fun hc => hab (S.closed _ _ hc)
    rw [List.count_eq_zero_of_not_mem hab, List.count_eq_zero_of_not_mem hba]

theorem hull_corners {v : List Pt} {faces : List Face} (h : ConvexSolid v faces) : Hull (· ∈ v) = Hull (IsCorner (polygons v faces)) := by
  congr 1
  funext p
  exact propext (corner_iff h p).symm

theorem polygons_ne {v : List Pt} {faces : List Face} (hne : faces ≠ []) : polygons v faces ≠ [] := by
  unfold polygons
  rwa [ne_eq, List.map_eq_nil_iff]

/-- the sum over the tetrahedra of a point within -/
theorem tetras_sum {v : List Pt} {faces : List Face} (h : ConvexSolid v faces) (c : Pt) :
    ((tetras (polygons v faces)).map fun t => side (at' t.1 0) (at' t.1 (t.2 + 1)) (at' t.1 (t.2 + 2)) c).sum =
      6 * Faces.volume faces (fun i => v.getD i 0) := by
  rw [C36_volume_from_any_point faces (convex_closed h) (fun i => v.getD i 0) c, tetras, polygons, List.flatMap_map, List.map_flatMap]
  have h3 : ∀ f ∈ faces, 3 ≤ f.length := fun f hf => ((convex_surface h).simple f hf).2
  clear h
  induction faces with
  | nil => simp
  | cons f faces ih =>
    have ih := ih fun f hf => h3 f (List.mem_cons_of_mem _ hf)
    rw [List.flatMap_cons, List.sum_append, ih, List.map_cons, List.sum_cons, mul_add]
    congr 1
    rw [List.map_map, List.length_map, ← List.sum_map_mul_left]
    congr 1
    apply List.map_congr_left
    intro i hi
    rw [List.mem_range] at hi
    have hf := h3 f List.mem_cons_self
    have e : ∀ k, k < f.length → at' (f.map fun i => v.getD i 0) k = v.getD (f.getD k 0) 0 := by
      intro k hk
      rw [at', Convex.getD_lt _ 0 (by rw [List.length_map]; exact hk), List.getElem_map, Convex.getD_lt f 0 hk]
    simp only [Function.comp]
    rw [e 0 (by omega), e (i + 1) (by omega), e (i + 2) (by omega)]
    simp only [side, triple]
    ring

theorem measure_unit {v : List Pt} {faces : List Face} (h : ConvexSolid v faces) (hne : faces ≠ []) :
    MeasureTheory.volume (Hull (· ∈ v)) = ENNReal.ofReal ((6 * Faces.volume faces (fun i => v.getD i 0) : ℚ) : ℝ) * unitVolume := by
  obtain ⟨c, hc⟩ := inner h.convex
  rw [hull_corners h, hull_volume h.convex c hc (polygons_ne hne), tetras_sum h c]

theorem unit_sixth : unitVolume = ENNReal.ofReal (1 / 6) := by
  have h := measure_unit (C67_box ![0, 0, 0] ![1, 1, 1] (by intro d; fin_cases d <;> simp)) (by simp [boxFaces])
  have hv : Faces.volume boxFaces (fun i => (boxPoints ![0, 0, 0] ![1, 1, 1]).getD i 0) = 1 := by decide +kernel
  have hb : Hull (· ∈ boxPoints ![0, 0, 0] ![1, 1, 1]) = Set.Icc (0 : Fin 3 → ℝ) 1 := by
    ext x
    rw [box_hull _ _ (by intro d; fin_cases d <;> simp), Set.mem_Icc, Pi.le_def, Pi.le_def, ← forall_and]
    refine forall_congr' fun d => ?_
    fin_cases d <;> simp
  rw [hb, hv, Real.volume_Icc_pi] at h
  simp only [Pi.one_apply, Pi.zero_apply, sub_zero, ENNReal.ofReal_one, Finset.prod_const_one, mul_one] at h
  have h6 : ENNReal.ofReal ((6 : ℚ) : ℝ) = 6 := by norm_num
  rw [h6] at h
  have hm : (ENNReal.ofReal (1 / 6)) * 6 = 1 := by
    rw [← h6, ← ENNReal.ofReal_mul (by norm_num)]; norm_num
  calc unitVolume = (ENNReal.ofReal (1 / 6) * 6) * unitVolume := by rw [hm, one_mul]
    _ = ENNReal.ofReal (1 / 6) * (6 * unitVolume) := by rw [mul_assoc]
    _ = ENNReal.ofReal (1 / 6) := by rw [← h, mul_one]

/-- **C69.** The volume computed for a convex polyhedron is the volume of the set of its points: its Lebesgue measure. -/
theorem C69_volume (v : List Pt) (faces : List Face) (h : ConvexSolid v faces) (hne : faces ≠ []) :
    MeasureTheory.volume (Hull (· ∈ v)) = ENNReal.ofReal (Faces.volume faces (fun i => v.getD i 0) : ℝ) := by
  rw [measure_unit h hne, unit_sixth]
  have h0 : 0 ≤ 6 * Faces.volume faces (fun i => v.getD i 0) := by
    obtain ⟨c, hc⟩ := inner h.convex
    rw [← tetras_sum h c]
    apply List.sum_nonneg
    intro y hy
    obtain ⟨t, ht, rfl⟩ := List.mem_map.mp hy
    obtain ⟨hf, hi⟩ := (mem_tetras t).mp ht
    exact (in_order h.convex c hc hf _ _ (by omega) (by omega) (by omega)).le
  rw [← ENNReal.ofReal_mul (by exact_mod_cast h0)]
  congr 1
  push_cast
  ring

/-- **C69.** The volume computed for a convex polyhedron is positive. -/
theorem C69_positive (v : List Pt) (faces : List Face) (h : ConvexSolid v faces) (hne : faces ≠ []) :
    0 < Faces.volume faces (fun i => v.getD i 0) := by
  obtain ⟨c, hc⟩ := inner h.convex
  have e := tetras_sum h c
  have pos : ∀ t ∈ tetras (polygons v faces), 0 < side (at' t.1 0) (at' t.1 (t.2 + 1)) (at' t.1 (t.2 + 2)) c := by
    intro t ht
    obtain ⟨hf, hi⟩ := (mem_tetras t).mp ht
    exact in_order h.convex c hc hf _ _ (by omega) (by omega) (by omega)
  obtain ⟨f, hf⟩ := List.exists_mem_of_ne_nil _ (polygons_ne (v := v) hne)
  have h3 := (h.convex.simple f hf).2
  have ht : (f, 0) ∈ tetras (polygons v faces) := (mem_tetras _).mpr ⟨hf, by simp only; omega⟩
  have hle := List.single_le_sum (l := (tetras (polygons v faces)).map fun t => side (at' t.1 0) (at' t.1 (t.2 + 1)) (at' t.1 (t.2 + 2)) c)
    (by
      intro y hy
      obtain ⟨t, ht, rfl⟩ := List.mem_map.mp hy
      exact (pos t ht).le) _ (List.mem_map.mpr ⟨(f, 0), ht, rfl⟩)
  have := pos _ ht
  rw [e] at hle
  linarith

/-- **C69.** Of two convex polyhedra one of which is part of the other, the part has at most the volume of the whole, and the same
volume only if it is the whole. -/
theorem C69_part (v w : List Pt) (f g : List Face) (hv : ConvexSolid v f) (hw : ConvexSolid w g) (hf : f ≠ []) (hg : g ≠ [])
    (hsub : Hull (· ∈ v) ⊆ Hull (· ∈ w)) : Faces.volume f (fun i => v.getD i 0) ≤ Faces.volume g (fun i => w.getD i 0) ∧
      (Faces.volume f (fun i => v.getD i 0) = Faces.volume g (fun i => w.getD i 0) ↔ Hull (· ∈ v) = Hull (· ∈ w)) := by
  have h := MeasureTheory.measure_mono (μ := MeasureTheory.volume) hsub
  rw [C69_volume v f hv hf, C69_volume w g hw hg] at h
  have hv0 : (0 : ℝ) ≤ Faces.volume f (fun i => v.getD i 0) := by exact_mod_cast (C69_positive v f hv hf).le
  have hw0 : (0 : ℝ) ≤ Faces.volume g (fun i => w.getD i 0) := by exact_mod_cast (C69_positive w g hw hg).le
  have := (ENNReal.ofReal_le_ofReal_iff hw0).mp h
  refine ⟨by exact_mod_cast this, fun e => ?_, fun e => ?_⟩
  · refine Set.Subset.antisymm hsub ?_
    have hcw := hull_compact (v := w)
    have hcv := hull_compact (v := v)
    refine covered _ _ (convex_convexHull ℝ _) ?_ hcv.isClosed ?_
    · rw [hull_corners hw]
      exact hull_interior hw.convex (polygons_ne hg)
    · rw [MeasureTheory.measure_sdiff hsub hcv.measurableSet.nullMeasurableSet hcv.measure_lt_top.ne,
        C69_volume v f hv hf, C69_volume w g hw hg, e, tsub_self]
  · have h1 := C69_volume v f hv hf
    rw [e, C69_volume w g hw hg] at h1
    have := (ENNReal.ofReal_eq_ofReal_iff hw0 hv0).mp h1
    exact_mod_cast this.symm

/-- the plane seen from the other side -/
def turned (P : Plane) : Plane := ⟨P.a, P.c, P.b⟩

/-- **C69.** A plane with vertices on both sides divides a convex polyhedron into two: the volumes computed for what is left by the
cut and by the cut from the other side add up to the volume of the whole. -/
theorem C69_cut_adds (P : Plane) (v : List Pt) (faces : List Face) (h : ConvexSolid v faces) (hin : ∃ p ∈ v, 0 < side P.a P.b P.c p)
    (hout : ∃ p ∈ v, side P.a P.b P.c p < 0) :
    ∃ v1 f1 v2 f2, oneCut SortFace.sortFace P v faces = some (v1, f1) ∧ oneCut SortFace.sortFace (turned P) v faces = some (v2, f2) ∧
      0 < Faces.volume f1 (fun i => v1.getD i 0) ∧ 0 < Faces.volume f2 (fun i => v2.getD i 0) ∧
      Faces.volume f1 (fun i => v1.getD i 0) + Faces.volume f2 (fun i => v2.getD i 0) = Faces.volume faces (fun i => v.getD i 0) := by
  obtain ⟨v1, f1, e1, c1, m1⟩ := C67_one_cut P v faces h hin
  obtain ⟨v2, f2, e2, c2, m2⟩ := C67_one_cut (turned P) v faces h (by
    obtain ⟨p, hp, h0⟩ := hout
    refine ⟨p, hp, ?_⟩
    simp only [turned]
    rw [side_swap23]
    linarith)
  have sw : ∀ x : Fin 3 → ℝ, side (real (turned P).a) (real (turned P).b) (real (turned P).c) x = - side (real P.a) (real P.b) (real P.c) x := by
    intro x
    simp only [turned]
    unfold side; ring
  have ne : ∀ {v' : List Pt} {f' : List Face}, ConvexSolid v' f' → (∃ x, x ∈ Hull (· ∈ v')) → f' ≠ [] := by
    rintro v' f' hc ⟨x, hx⟩ rfl
    have hv : v' = [] := by
      rcases v' with _ | ⟨a, l⟩
      · rfl
      · obtain ⟨f, hf, _⟩ := hc.used 0 (by simp)
        simp at hf
    subst hv
    simp [Hull] at hx
  obtain ⟨p, hp, hp0⟩ := hin
  obtain ⟨q, hq, hq0⟩ := hout
  have cor : ∀ p ∈ v, real p ∈ Hull (· ∈ v) := fun p hp => subset_convexHull ℝ _ ⟨p, hp, rfl⟩
  have n1 : f1 ≠ [] := ne c1 ⟨real p, (m1 _).mpr ⟨cor p hp, by rw [side_real]; exact_mod_cast hp0.le⟩⟩
  have n2 : f2 ≠ [] := ne c2 ⟨real q, (m2 _).mpr ⟨cor q hq, by
    rw [sw, side_real]
    have : ((side P.a P.b P.c q : ℚ) : ℝ) < 0 := by exact_mod_cast hq0
    linarith⟩⟩
  have n0 : faces ≠ [] := ne h ⟨real p, cor p hp⟩
  have p1 := C69_positive v1 f1 c1 n1
  have p2 := C69_positive v2 f2 c2 n2
  refine ⟨v1, f1, v2, f2, e1, e2, p1, p2, ?_⟩
  have hun : Hull (· ∈ v) = Hull (· ∈ v1) ∪ Hull (· ∈ v2) := by
    ext x
    rw [Set.mem_union, m1, m2, sw]
    constructor
    · intro hx
      rcases le_total 0 (side (real P.a) (real P.b) (real P.c) x) with h0 | h0
      · exact Or.inl ⟨hx, h0⟩
      · exact Or.inr ⟨hx, by linarith⟩
    · rintro (h0 | h0) <;> exact h0.1
  have hnull : MeasureTheory.AEDisjoint MeasureTheory.volume (Hull (· ∈ v1)) (Hull (· ∈ v2)) := by
    refine MeasureTheory.measure_mono_null ?_ ((aff_side (real P.a) (real P.b) (real P.c)).null (real p) (real q) ?_)
    · rintro x ⟨h1, h2⟩
      have h1 := ((m1 x).mp h1).2
      have h2 := ((m2 x).mp h2).2
      rw [sw] at h2
      simp only [Set.mem_ofPred_eq]
      linarith
    · rw [side_real, side_real]
      intro e
      have e : side P.a P.b P.c p = side P.a P.b P.c q := by exact_mod_cast e
      linarith
  have hm := C69_volume v faces h n0
  rw [hun, MeasureTheory.measure_union₀ hull_compact.measurableSet.nullMeasurableSet hnull, C69_volume v1 f1 c1 n1, C69_volume v2 f2 c2 n2,
    ← ENNReal.ofReal_add (by exact_mod_cast p1.le) (by exact_mod_cast p2.le)] at hm
  have := (ENNReal.ofReal_eq_ofReal_iff (by exact_mod_cast (add_pos p1 p2).le) (by exact_mod_cast (C69_positive v faces h n0).le)).mp hm
  exact_mod_cast this

-- a box, and a plane that cuts a corner off it
example : ConvexSolid (boxPoints ![0, 0, 0] ![1, 2, 3]) Faces.boxFaces := C67_box _ _ (by intro d; fin_cases d <;> simp)
example : MeasureTheory.volume (Hull (· ∈ boxPoints ![0, 0, 0] ![1, 2, 3])) = ENNReal.ofReal 6 := by
  rw [C69_volume _ _ (C67_box _ _ (by intro d; fin_cases d <;> simp)) (by simp [Faces.boxFaces]),
    show Faces.volume Faces.boxFaces (fun i => (boxPoints ![0, 0, 0] ![1, 2, 3]).getD i 0) = 6 by decide +kernel]
  norm_num
example : (∃ p ∈ boxPoints ![0, 0, 0] ![1, 2, 3], 0 < side ![1, 0, 0] ![0, 1, 0] ![0, 0, 1] p) ∧
    ∃ p ∈ boxPoints ![0, 0, 0] ![1, 2, 3], side ![1, 0, 0] ![0, 1, 0] ![0, 0, 1] p < 0 := by decide +kernel

end Brille.Props
