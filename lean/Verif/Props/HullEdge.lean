/-
C72, continued: the constructor of a convex hull for points of which some are on the edges of the hull.
-/
import Verif.Proofs.HullEdges
import Verif.Props.Hull
import Verif.Props.Wedge

namespace Brille.Props

open Brille.Spec Brille.Tetra Brille.Faces Brille.Cut Brille.SortFace Brille.Convex Brille.HullOf Brille.FaceEdit Brille.ListUtil

/-- two planes through a point in different directions, with all points on one side of each: a corner or a point of an edge -/
def AtEdge (pts : List Pt) (p : Pt) : Prop := ∃ n m : Pt, cross n m ≠ 0 ∧ ∀ q ∈ pts, dot n q ≤ dot n p ∧ dot m q ≤ dot m p

/-- of the points in a face, the first three given are not in line (unless all are: then it is no face) -/
def WellBegun (pts : List Pt) : Prop :=
  ∀ (n : Pt) (k : ℚ), (∀ q ∈ pts, dot n q ≤ k) → ∀ a b c rest, (pts.filter fun q => decide (dot n q = k)) = a :: b :: c :: rest →
    cross (diff b a) (diff c a) = 0 → ∀ q ∈ pts, dot n q = k → cross (diff b a) (diff q a) = 0

/-! ### the points that are not between others -/

open Classical in
/-- the points that are not between two others -/
noncomputable def ends (pts : List Pt) : List Pt := pts.filter fun p => decide (∀ u ∈ pts, ∀ v ∈ pts, ¬ Between p u v)

theorem mem_ends (pts : List Pt) (p : Pt) : p ∈ ends pts ↔ p ∈ pts ∧ ∀ u ∈ pts, ∀ v ∈ pts, ¬ Between p u v := by
  classical
  unfold ends
  rw [List.mem_filter, decide_eq_true_eq]

/-- an affine function has its maximum at such a point -/
theorem max_at_end (pts : List Pt) (hne : pts ≠ []) (f : Pt → ℚ) (hf : ∀ p u v : Pt, ∀ t : ℚ, (∀ d, p d = (1 - t) * u d + t * v d) → f p = (1 - t) * f u + t * f v) :
    ∃ q ∈ ends pts, ∀ p ∈ pts, f p ≤ f q := by
  classical
  obtain ⟨p0, hp0⟩ := List.exists_mem_of_ne_nil _ hne
  obtain ⟨q, hq, hmax⟩ := Finset.exists_max_image pts.toFinset (fun p => toLex (f p, dot p p)) ⟨p0, List.mem_toFinset.mpr hp0⟩
  rw [List.mem_toFinset] at hq
  have hm : ∀ p ∈ pts, f p < f q ∨ (f p = f q ∧ dot p p ≤ dot q q) := by
    intro p hp
    have := hmax p (List.mem_toFinset.mpr hp)
    rw [Prod.Lex.toLex_le_toLex] at this
    simpa using this
  have hle : ∀ p ∈ pts, f p ≤ f q := by
    intro p hp
    rcases hm p hp with h | h
    · exact h.le
    · exact h.1.le
  refine ⟨q, (mem_ends _ _).mpr ⟨hq, ?_⟩, hle⟩
  rintro u hu v hv ⟨huv, t, t0, t1, e⟩
  have e1 := hf q u v t e
  have hu' := hle u hu
  have hv' := hle v hv
  have s0 : 0 < 1 - t := by linarith
  have fu : f u = f q := by
    by_contra hc
    have := mul_lt_mul_of_pos_left (lt_of_le_of_ne hu' hc) s0
    have := mul_le_mul_of_nonneg_left hv' t0.le
    linarith
  have fv : f v = f q := by
    by_contra hc
    have := mul_lt_mul_of_pos_left (lt_of_le_of_ne hv' hc) t0
    have := mul_le_mul_of_nonneg_left hu' s0.le
    linarith
  have du : dot u u ≤ dot q q := by
    rcases hm u hu with h | h
    · exact absurd fu h.ne
    · exact h.2
  have dv : dot v v ≤ dot q q := by
    rcases hm v hv with h | h
    · exact absurd fv h.ne
    · exact h.2
  have key : dot q q = (1 - t) * dot u u + t * dot v v - t * (1 - t) * dot (diff u v) (diff u v) := by
    simp only [dot, diff, e]; ring
  have pos := mul_pos (mul_pos t0 s0) (dot_self_pos (diff_ne huv))
  have m1 := mul_le_mul_of_nonneg_left du s0.le
  have m2 := mul_le_mul_of_nonneg_left dv t0.le
  linarith

theorem orient_affine (P : Plane) (p u v : Pt) (t : ℚ) (e : ∀ d, p d = (1 - t) * u d + t * v d) :
    P.orient p = (1 - t) * P.orient u + t * P.orient v := by
  simp only [orient_dot, dot, diff, e]; ring

theorem ends_planes (pts : List Pt) (planes : List Plane) (h : FacePlanes pts planes) : FacePlanes (ends pts) planes := by
  refine ⟨?_, h.apart, ?_⟩
  · intro P hP
    have b := h.bounding P hP
    refine ⟨b.normal, fun q hq => b.behind q ((mem_ends _ _).mp hq).1, ?_⟩
    obtain ⟨q0, hq0, h0⟩ := b.off
    obtain ⟨q, hq, hmax⟩ := max_at_end pts (List.ne_nil_of_mem hq0) P.orient (orient_affine P)
    exact ⟨q, hq, lt_of_lt_of_le h0 (hmax q0 hq0)⟩
  · intro a ha b hb c hc hbe ho
    obtain ⟨q0, hq0, h0⟩ := ho
    have pa := ((mem_ends _ _).mp ha).1
    refine h.all a pa b ((mem_ends _ _).mp hb).1 c ((mem_ends _ _).mp hc).1 ?_ ⟨q0, ((mem_ends _ _).mp hq0).1, h0⟩
    obtain ⟨q, hq, hmax⟩ := max_at_end pts (List.ne_nil_of_mem pa) (fun x => - side a b c x) (by
      intro p u v t e
      simp only [side, e]; ring)
    intro x hx
    have := hmax x hx
    have := hbe q hq
    linarith

/-! ### the points in a plane -/

theorem row_points (pts : List Pt) (P : Plane) : (row pts P).map (fun i => pts.getD i 0) = pts.filter fun q => decide (P.orient q = 0) := by
  have e : (List.range pts.length).map (fun i => pts.getD i 0) = pts := by
    apply List.ext_getElem
    · simp
    · intro i h1 h2
      rw [List.getElem_map, List.getElem_range, Convex.getD_lt _ _ h2]
  conv_rhs => rw [← e, List.filter_map]
  rfl

section

variable {pts : List Pt} (hn : pts.Nodup) (hedge : ∀ p ∈ pts, real p ∈ interior (Hull (· ∈ pts)) ∨ AtEdge pts p)

theorem plane_not_inside (P : Plane) (hP : Supporting pts P) (y : Pt) (hy : P.orient y = 0) : real y ∉ interior (Hull (· ∈ pts)) := by
  intro this
  have hn : (fun d => - P.normal d) ≠ 0 := by
    intro e
    apply hP.normal
    funext d
    have := congrFun e d
    simpa using this
  have pos := dot_interior pts (fun d => - P.normal d) P.a hn (fun q hq => by
    have := hP.behind q hq
    rw [orient_dot] at this
    simp only [dot, diff] at this ⊢
    linarith) (real y) this
  rw [orient_dot] at hy
  have e' : ((dot P.normal (diff P.a y) : ℚ) : ℝ) =
      ((- P.normal 0 : ℚ) : ℝ) * (real y 0 - P.a 0) + ((- P.normal 1 : ℚ) : ℝ) * (real y 1 - P.a 1) + ((- P.normal 2 : ℚ) : ℝ) * (real y 2 - P.a 2) := by
    unfold dot diff real; push_cast; ring
  rw [← e', hy] at pos
  simp at pos

/-- three points of the plane are not in line -/
theorem row_triangle (P : Plane) (hP : Bounding pts P) (z : Pt) (hz : z ≠ 0)
    (hflat : ∀ p ∈ (row pts P).map (fun i => pts.getD i 0), ∀ q ∈ (row pts P).map (fun i => pts.getD i 0), dot z (diff p q) = 0) :
    ∃ a ∈ (row pts P).map (fun i => pts.getD i 0), ∃ b ∈ (row pts P).map (fun i => pts.getD i 0), ∃ c ∈ (row pts P).map (fun i => pts.getD i 0),
      turn z a b c ≠ 0 := by
  obtain ⟨oa, ob, oc⟩ := on_self P
  have m : ∀ q ∈ pts, P.orient q = 0 → q ∈ (row pts P).map (fun i => pts.getD i 0) := by
    intro q hq h
    rw [row_points, List.mem_filter, decide_eq_true_eq]
    exact ⟨hq, h⟩
  have ma := m _ hP.a oa
  have mb := m _ hP.b ob
  have mc := m _ hP.c oc
  refine ⟨_, ma, _, mb, _, mc, fun h => hP.normal ?_⟩
  have := cross_of_turn hz (hflat _ mb _ ma) (hflat _ mc _ ma) h
  unfold Plane.normal
  rw [cross_zero] at this ⊢
  simp only [diff] at this ⊢
  obtain ⟨h0, h1, h2⟩ := this
  refine ⟨by linarith, by linarith, by linarith⟩

/-- not all points are in line with two of them -/
theorem some_turn {n : Pt} {l : List Pt} (hn : n ≠ 0) (hflat : ∀ p ∈ l, ∀ q ∈ l, dot n (diff p q) = 0)
    (hcol : ∃ a ∈ l, ∃ b ∈ l, ∃ c ∈ l, turn n a b c ≠ 0) (y z : Pt) (hy : y ∈ l) (hz : z ∈ l) (hzy : z ≠ y) : ∃ w ∈ l, turn n y z w ≠ 0 := by
  by_contra hcon
  push Not at hcon
  obtain ⟨a, ha, b, hb, c, hc, hne⟩ := hcol
  apply hne
  obtain ⟨α, hα⟩ := on_line hn (hflat z hz y hy) (hflat a ha y hy) hzy (hcon a ha)
  obtain ⟨β, hβ⟩ := on_line hn (hflat z hz y hy) (hflat b hb y hy) hzy (hcon b hb)
  obtain ⟨γ, hγ⟩ := on_line hn (hflat z hz y hy) (hflat c hc y hy) hzy (hcon c hc)
  simp only [turn, dot, Tetra.cross, diff, Matrix.cons_val_zero, Matrix.cons_val_one, Matrix.cons_val, hα, hβ, hγ]
  ring

include hedge

theorem row_next (P : Plane) (hP : Bounding pts P) (z : Pt) (hz : z ≠ 0)
    (hflat : ∀ p ∈ (row pts P).map (fun i => pts.getD i 0), ∀ q ∈ (row pts P).map (fun i => pts.getD i 0), dot z (diff p q) = 0)
    (y : Pt) (hy : y ∈ (row pts P).map (fun i => pts.getD i 0)) :
    ∃ a ∈ (row pts P).map (fun i => pts.getD i 0), a ≠ y ∧ (∀ w ∈ (row pts P).map (fun i => pts.getD i 0), 0 ≤ turn z y a w) ∧
      (∃ w ∈ (row pts P).map (fun i => pts.getD i 0), 0 < turn z y a w) ∧
      ∀ w ∈ (row pts P).map (fun i => pts.getD i 0), turn z y a w = 0 → 0 ≤ dot (diff w y) (diff w a) := by
  have hcol := row_triangle P hP z hz hflat
  have hsub : ∀ q ∈ (row pts P).map (fun i => pts.getD i 0), q ∈ pts ∧ P.orient q = 0 := by
    intro q hq
    rw [row_points, List.mem_filter, decide_eq_true_eq] at hq
    exact hq
  obtain ⟨n, m, hnm, hs⟩ := (hedge y (hsub y hy).1).resolve_left (plane_not_inside P hP.toSupporting y (hsub y hy).2)
  have hm : ∃ m : Pt, cross z m ≠ 0 ∧ ∀ q ∈ pts, dot m q ≤ dot m y := by
    by_cases h1 : cross z n = 0
    · refine ⟨m, fun h2 => hnm ?_, fun q hq => (hs q hq).2⟩
      have zz := dot_self_pos hz
      have p1 := HullOf.parallel h1
      have p2 := HullOf.parallel h2
      have : ∀ d, dot z z * dot z z * cross n m d = 0 := by
        intro d
        have a0 := p1 0
        have a1 := p1 1
        have a2 := p1 2
        have b0 := p2 0
        have b1 := p2 1
        have b2 := p2 2
        generalize dot z z = A at *
        generalize dot z n = B at *
        generalize dot z m = C at *
        fin_cases d
        · show A * A * (n 1 * m 2 - n 2 * m 1) = 0
          linear_combination A * m 2 * a1 + B * z 1 * b2 - A * m 1 * a2 - B * z 2 * b1
        · show A * A * (n 2 * m 0 - n 0 * m 2) = 0
          linear_combination A * m 0 * a2 + B * z 2 * b0 - A * m 2 * a0 - B * z 0 * b2
        · show A * A * (n 0 * m 1 - n 1 * m 0) = 0
          linear_combination A * m 1 * a0 + B * z 0 * b1 - A * m 0 * a1 - B * z 1 * b0
      funext d
      exact (mul_eq_zero.mp (this d)).resolve_left (mul_pos zz zz).ne'
    · exact ⟨n, h1, fun q hq => (hs q hq).1⟩
  obtain ⟨m, hm, hs⟩ := hm
  obtain ⟨a, ha, hay, h1, h2⟩ := weak_next hz hm _ hflat hcol y hy (fun w hw => by
    have := hs w (hsub w hw).1
    simp only [dot, diff] at this ⊢
    linarith)
  obtain ⟨w, hw, hne⟩ := some_turn hz hflat hcol y a hy ha hay
  exact ⟨a, ha, hay, h1, ⟨w, hw, lt_of_le_of_ne (h1 w hw) (Ne.symm hne)⟩, h2⟩

include hn

theorem row_area_edge (hbegin : WellBegun pts) (P : Plane) (hP : Bounding pts P) : faceHasArea ((row pts P).map fun i => pts.getD i 0) = true := by
  have hk : ∀ q, P.orient q = 0 ↔ dot P.normal q = dot P.normal P.a := by
    intro q
    rw [orient_dot]
    simp only [dot, diff]
    constructor <;> intro h <;> linarith
  have h3 : 3 ≤ ((row pts P).map fun i => pts.getD i 0).length := by rw [List.length_map]; exact row_three P hP
  obtain ⟨p0, p1, p2, l', hL⟩ : ∃ p0 p1 p2 l', ((row pts P).map fun i => pts.getD i 0) = p0 :: p1 :: p2 :: l' := by
    match (row pts P).map fun i => pts.getD i 0, h3 with
    | p0 :: p1 :: p2 :: l', _ => exact ⟨p0, p1, p2, l', rfl⟩
  have m0 : p0 ∈ (row pts P).map fun i => pts.getD i 0 := by rw [hL]; simp
  have m1 : p1 ∈ (row pts P).map fun i => pts.getD i 0 := by rw [hL]; simp
  have hnd := row_points_nodup hn P
  refine has_area_weak hP.normal (row_flat P) hnd p0 p1 p2 l' hL ?_ ?_
  · intro hc
    have hf : (pts.filter fun q => decide (dot P.normal q = dot P.normal P.a)) = p0 :: p1 :: p2 :: l' := by
      rw [← hL, row_points]
      refine List.filter_congr fun q _ => ?_
      rw [decide_eq_decide]
      exact (hk q).symm
    have hall := hbegin P.normal (dot P.normal P.a) (fun q hq => by
      have := hP.behind q hq
      rw [orient_dot] at this
      simp only [dot, diff] at this ⊢
      linarith) p0 p1 p2 l' hf hc
    have hne : p1 ≠ p0 := by
      rintro rfl
      rw [hL] at hnd
      simp at hnd
    obtain ⟨w, hw, ht⟩ := some_turn hP.normal (row_flat P) (row_triangle P hP _ hP.normal (row_flat P)) p0 p1 m0 m1 hne
    apply ht
    rw [row_points, List.mem_filter, decide_eq_true_eq] at hw
    unfold turn
    rw [hall w hw.1 ((hk w).mp hw.2)]
    simp [dot]
  · intro z hz hflat y hy
    obtain ⟨a, ha, hay, h1, h2, _⟩ := row_next hedge P hP z hz hflat y hy
    exact ⟨a, ha, hay, h1, h2⟩

theorem row_corners (P : Plane) (hP : Bounding pts P) : (SortFace.sortFace P (row pts P) pts).Nodup ∧ 3 ≤ (SortFace.sortFace P (row pts P) pts).length ∧
    (∀ i, i ∈ SortFace.sortFace P (row pts P) pts ↔ i ∈ row pts P ∧ Corner (fun i => pts.getD i 0) (row pts P) i) ∧
    ∀ y z, (y, z) ∈ steps (SortFace.sortFace P (row pts P) pts) → ∀ w ∈ SortFace.sortFace P (row pts P) pts, w ≠ y → w ≠ z →
      0 < turn P.normal (pts.getD y 0) (pts.getD z 0) (pts.getD w 0) := by
  refine sortFace_corners P (row pts P) pts (row_nodup P) (row_three P hP) ⟨dot P.normal P.a, ?_⟩ hP.normal ?_ ?_
  · intro i hi
    have := ((mem_row P i).mp hi).2
    rw [orient_dot] at this
    simp only [dot, diff] at this ⊢
    linarith
  · intro i hi j hj e
    exact getD_inj hn ((mem_row P i).mp hi).1 ((mem_row P j).mp hj).1 e
  · intro y hy
    obtain ⟨a, ha, hay, h1, ⟨w, hw, hpos⟩, h2⟩ := row_next hedge P hP P.normal hP.normal (row_flat P) (pts.getD y 0) (List.mem_map.mpr ⟨y, hy, rfl⟩)
    obtain ⟨k, hk, rfl⟩ := List.mem_map.mp ha
    obtain ⟨j, hj, rfl⟩ := List.mem_map.mp hw
    exact ⟨k, hk, fun e => hay (by rw [e]), fun w hw => h1 _ (List.mem_map.mpr ⟨w, hw, rfl⟩), ⟨j, hj, hpos⟩,
      fun w hw => h2 _ (List.mem_map.mpr ⟨w, hw, rfl⟩)⟩

theorem row_polygon_edge (P : Plane) (hP : Bounding pts P) :
    Polygon (ends pts) P ((SortFace.sortFace P (row pts P) pts).map fun i => pts.getD i 0) := by
  obtain ⟨c1, c2, c3, c4⟩ := row_corners hn hedge P hP
  refine ⟨?_, by rw [List.length_map]; exact c2, ?_, ?_⟩
  · refine List.Nodup.map_on ?_ c1
    intro i hi j hj e
    exact getD_inj hn ((mem_row P i).mp ((c3 i).mp hi).1).1 ((mem_row P j).mp ((c3 j).mp hj).1).1 e
  · intro p
    rw [List.mem_map, mem_ends]
    constructor
    · rintro ⟨i, hi, rfl⟩
      obtain ⟨hr, hc⟩ := (c3 i).mp hi
      obtain ⟨h1, h2⟩ := (mem_row P i).mp hr
      refine ⟨⟨HullOf.getD_mem h1, ?_⟩, h2⟩
      intro u hu v hv hb
      -- the two others are in the plane
      obtain ⟨j, hj, rfl⟩ := exists_index hu
      obtain ⟨k, hk, rfl⟩ := exists_index hv
      have hb' := hb
      obtain ⟨_, t, t0, t1, e⟩ := hb'
      have ea := orient_affine P _ _ _ t e
      rw [h2] at ea
      have bu := hP.behind _ hu
      have bv := hP.behind _ hv
      have s0 : 0 < 1 - t := by linarith
      have m1 := mul_nonneg s0.le bu
      have m2 := mul_nonneg t0.le bv
      have z1 : (1 - t) * P.orient (pts.getD j 0) = 0 := by linarith
      have z2 : t * P.orient (pts.getD k 0) = 0 := by linarith
      exact hc j ((mem_row P j).mpr ⟨hj, (mul_eq_zero.mp z1).resolve_left s0.ne'⟩) k
        ((mem_row P k).mpr ⟨hk, (mul_eq_zero.mp z2).resolve_left t0.ne'⟩) hb
    · rintro ⟨⟨h1, h2⟩, h3⟩
      obtain ⟨i, hi, rfl⟩ := exists_index h1
      refine ⟨i, (c3 i).mpr ⟨(mem_row P i).mpr ⟨hi, h3⟩, ?_⟩, rfl⟩
      intro u hu v hv
      exact h2 _ (HullOf.getD_mem ((mem_row P u).mp hu).1) _ (HullOf.getD_mem ((mem_row P v).mp hv).1)
  · intro y z he w hw h1 h2
    rw [steps_map] at he
    obtain ⟨⟨i, j⟩, hij, e⟩ := List.mem_map.mp he
    simp only [Prod.map, Prod.mk.injEq] at e
    obtain ⟨rfl, rfl⟩ := e
    obtain ⟨k, hk, rfl⟩ := List.mem_map.mp hw
    exact c4 i j hij k hk (fun e => h1 (by rw [e])) (fun e => h2 (by rw [e]))

end

/-- **C72 (partial), with points on edges.** The convex hull of given points that are not all in a plane, are all different, and
of which each is a corner of their convex hull, on one of its edges, or in its inside, in an order such that the first three
points of no face are in line: the constructor succeeds, and its faces are those of a convex polyhedron, with given points in
the order given as its vertices, which has exactly the points of the convex hull. (Missing: points inside a face and faces that
begin with three points in line, for which the constructor fails, see `C72_face_point_counterexample` and
`C72_edge_point_counterexample`, and repeated points, see `C37_hull_counterexample`.) -/
theorem C72_hull_edges_partial (pts : List Pt) (hn : pts.Nodup) (hmany : pts.length.choose 3 < 2 ^ 32)
    (hin : (interior (Hull (· ∈ pts))).Nonempty) (hedge : ∀ p ∈ pts, real p ∈ interior (Hull (· ∈ pts)) ∨ AtEdge pts p)
    (hbegin : WellBegun pts) :
    ∃ v faces, hull pts = some (v, faces) ∧ ConvexSolid v faces ∧ faces ≠ [] ∧ v.Sublist pts ∧ Hull (· ∈ v) = Hull (· ∈ pts) :=
  hull_spec pts hn hmany hin (ends pts) (fun _ hp => ((mem_ends _ _).mp hp).1) (fun planes h => ends_planes pts planes h)
    (fun P hP => row_polygon_edge hn hedge P hP) (fun P hP => row_area_edge hn hedge hbegin P hP)
    fun P hP i hi => ((mem_row P i).mp (((row_corners hn hedge P hP).2.2.1 i).mp hi).1).1

/-! ### a case -/

/-- a way to see that the first three points of no face are in line: three points in line are followed by points in line with them,
or by points in a plane of which a further point comes before -/
def begunCheck (pts : List Pt) : Bool :=
  let g := fun i => pts.getD i 0
  (List.range pts.length).all fun i => (List.range pts.length).all fun j => (List.range pts.length).all fun k => (List.range pts.length).all fun l =>
    !(decide (i < j) && decide (j < k) && decide (k < l)) || decide (cross (diff (g j) (g i)) (diff (g k) (g i)) ≠ 0) ||
      decide (cross (diff (g j) (g i)) (diff (g l) (g i)) = 0) ||
      (List.range k).any fun m => decide (m ≠ i) && decide (m ≠ j) && decide (orient3d (g i) (g j) (g l) (g m) = 0)

theorem wellBegun_of_check (pts : List Pt) (h : begunCheck pts = true) : WellBegun pts := by
  intro n e hle a b c rest hf hcol q hq hqe
  set g : Nat → Pt := fun i => pts.getD i 0 with hg
  -- the indices
  have hr : (pts.filter fun q => decide (dot n q = e)) = ((List.range pts.length).filter fun i => decide (dot n (g i) = e)).map g := by
    have e' : (List.range pts.length).map g = pts := by
      apply List.ext_getElem
      · simp
      · intro i h1 h2
        rw [List.getElem_map, List.getElem_range]
        exact Convex.getD_lt _ _ h2
    conv_lhs => rw [← e', List.filter_map]
    rfl
  rw [hr] at hf
  set I := (List.range pts.length).filter fun i => decide (dot n (g i) = e) with hI
  have hsort : I.Pairwise (· < ·) := (List.pairwise_lt_range (n := pts.length)).filter _
  have hmem : ∀ i, i ∈ I ↔ i < pts.length ∧ dot n (g i) = e := by
    intro i
    rw [hI, List.mem_filter, List.mem_range, decide_eq_true_eq]
  obtain ⟨i, j, k, J, hIJ⟩ : ∃ i j k J, I = i :: j :: k :: J := by
    match I, hf with
    | i :: j :: k :: J, _ => exact ⟨i, j, k, J, rfl⟩
  rw [hIJ] at hf hsort hmem
  simp only [List.map_cons, List.cons.injEq] at hf
  obtain ⟨ei, ej, ek, _⟩ := hf
  have mi := (hmem i).mp (by simp)
  have mj := (hmem j).mp (by simp)
  have mk := (hmem k).mp (by simp)
  obtain ⟨l, hl, el⟩ := exists_index hq
  have ml : l ∈ i :: j :: k :: J := (hmem l).mpr ⟨hl, by show dot n (pts.getD l 0) = e; rw [el]; exact hqe⟩
  rw [List.pairwise_cons, List.pairwise_cons, List.pairwise_cons] at hsort
  obtain ⟨s1, s2, s3, _⟩ := hsort
  have hij : i < j := s1 j (by simp)
  have hjk : j < k := s2 k (by simp)
  rw [← ei, ← ej, ← ek] at hcol
  rw [← el] at hqe
  rw [← ei, ← ej, ← el]
  simp only [List.mem_cons] at ml
  rcases ml with rfl | rfl | rfl | ml
  · funext d; fin_cases d <;> simp [Tetra.cross, diff, hg]
  · funext d; fin_cases d <;> simp [Tetra.cross, diff, hg] <;> ring
  · exact hcol
  · have hkl : k < l := s3 l ml
    unfold begunCheck at h
    simp only [List.all_eq_true, List.mem_range] at h
    have := h i mi.1 j mj.1 k mk.1 l hl
    simp only [Bool.or_eq_true, Bool.not_eq_true', Bool.and_eq_false_iff, decide_eq_false_iff_not, decide_eq_true_eq, List.any_eq_true, List.mem_range,
      Bool.and_eq_true] at this
    rcases this with ((this | this) | this) | ⟨m, hmk, ⟨m1, m2⟩, m3⟩
    · omega
    · exact absurd hcol this
    · exact this
    · by_contra hne
      -- the further point is in the plane
      have hgm : dot n (g m) = e := by
        have d1 : dot n (diff (g j) (g i)) = 0 := by
          have := mi.2; have := mj.2; simp only [dot, diff] at *; linarith
        have d2 : dot n (diff (g l) (g i)) = 0 := by
          have hle' : dot n (g l) = e := by show dot n (pts.getD l 0) = e; exact hqe
          have := mi.2; simp only [dot, diff] at *; linarith
        have key : dot (cross (diff (g j) (g i)) (diff (g l) (g i))) (diff (g m) (g i)) = 0 := by
          simp only [orient3d, dot, Tetra.cross, diff, Matrix.cons_val_zero, Matrix.cons_val_one, Matrix.cons_val] at m3 ⊢
          linarith
        have par : cross n (cross (diff (g j) (g i)) (diff (g l) (g i))) = 0 := by
          generalize diff (g j) (g i) = u at *
          generalize diff (g l) (g i) = v at *
          rw [cross_zero]
          simp only [dot, Tetra.cross, Matrix.cons_val_zero, Matrix.cons_val_one, Matrix.cons_val] at d1 d2 ⊢
          refine ⟨?_, ?_, ?_⟩
          · linear_combination u 0 * d2 - v 0 * d1
          · linear_combination u 1 * d2 - v 1 * d1
          · linear_combination u 2 * d2 - v 2 * d1
        have kk := dot_self_pos hne
        have par' : cross (cross (diff (g j) (g i)) (diff (g l) (g i))) n = 0 := by
          rw [cross_zero] at par ⊢
          obtain ⟨a0, a1, a2⟩ := par
          refine ⟨by linarith, by linarith, by linarith⟩
        have pd := HullOf.parallel par'
        generalize cross (diff (g j) (g i)) (diff (g l) (g i)) = w at *
        have : dot w w * dot n (diff (g m) (g i)) = 0 := by
          have p0 := pd 0
          have p1 := pd 1
          have p2 := pd 2
          have : dot w w * dot n (diff (g m) (g i)) = dot w n * dot w (diff (g m) (g i)) := by
            generalize dot w w = A at *
            generalize dot w n = B at *
            simp only [dot]
            linear_combination (diff (g m) (g i) 0) * p0 + (diff (g m) (g i) 1) * p1 + (diff (g m) (g i) 2) * p2
          rw [this, key, mul_zero]
        have := (mul_eq_zero.mp this).resolve_left kk.ne'
        have hi2 := mi.2
        simp only [dot, diff] at *
        linarith
      have hm := (hmem m).mpr ⟨by omega, hgm⟩
      simp only [List.mem_cons] at hm
      rcases hm with hm | hm | hm | hm
      · exact m1 hm
      · exact m2 hm
      · omega
      · have := s3 m hm
        omega

/-- a box and the middles of four of its edges -/
def boxMiddles : List Pt := [![0, 0, 0], ![0, 1, 0], ![0, 1, 1], ![0, 0, 1], ![1, 0, 0], ![1, 1, 0], ![1, 1, 1], ![1, 0, 1],
  ![0, 0, -1], ![0, 1, -1], ![1, 0, -1], ![1, 1, -1]]

/-- the hypotheses of `C72_hull_edges_partial` are met by the corners of a box and the middles of four edges, as they come from
the combination of a cube with its mirror image -/
example : ∃ v faces, hull boxMiddles = some (v, faces) ∧ ConvexSolid v faces ∧ faces ≠ [] ∧ v.Sublist boxMiddles ∧
    Hull (· ∈ v) = Hull (· ∈ boxMiddles) := by
  refine C72_hull_edges_partial boxMiddles (by decide +kernel) (by decide) ?_ ?_ (wellBegun_of_check _ (by decide +kernel))
  · refine ⟨real ![1 / 2, 1 / 2, 0], mem_interior.mpr ⟨Metric.ball (real ![1 / 2, 1 / 2, 0]) (1 / 2), ?_, Metric.isOpen_ball,
      Metric.mem_ball_self (by norm_num)⟩⟩
    intro x hx
    have hsub : Hull (· ∈ boxPoints ![0, 0, -1] ![1, 1, 1]) ⊆ Hull (· ∈ boxMiddles) := by
      refine convexHull_mono ?_
      rintro _ ⟨p, hp, rfl⟩
      refine ⟨p, ?_, rfl⟩
      have : ∀ p ∈ boxPoints ![0, 0, -1] ![1, 1, 1], p ∈ boxMiddles := by decide +kernel
      exact this p hp
    apply hsub
    rw [box_hull _ _ (by decide +kernel)]
    rw [Metric.mem_ball] at hx
    intro d
    have := lt_of_le_of_lt (dist_le_pi_dist x (real ![1 / 2, 1 / 2, 0]) d) hx
    rw [Real.dist_eq, abs_lt] at this
    fin_cases d <;> simp [real] at this ⊢ <;> constructor <;> linarith [this.1, this.2]
  · intro p hp
    right
    have : ∀ p ∈ boxMiddles, ∃ s ∈ [(1 : ℚ), -1], ∃ t ∈ [(1 : ℚ), -1], ∀ q ∈ boxMiddles, s * q 0 ≤ s * p 0 ∧ t * q 1 ≤ t * p 1 := by decide +kernel
    obtain ⟨s, hs, t, ht, h⟩ := this p hp
    refine ⟨![s, 0, 0], ![0, t, 0], fun e => ?_, fun q hq => ?_⟩
    · have e2 := congrFun e 2
      simp only [List.mem_cons, List.not_mem_nil, or_false] at hs ht
      rcases hs with rfl | rfl <;> rcases ht with rfl | rfl <;> simp [Tetra.cross] at e2
    · have := h q hq
      simpa [dot] using this

/-! ### the hulls taken in the search for an irreducible zone -/

/-- With this constructor of convex hulls, the hulls taken in the search for an irreducible zone (C71) are right where the points of the
polyhedron and of the image of its mirror image are as `C72_hull_edges_partial` asks for. -/
theorem C72_search_hulls (S : Wedge.Setup) (hS : S.hull = hull) (choices : List (List Pt))
    (h : ∀ P, Tried S choices P → ∀ r ∈ IrCheck.operations S.timeReversal S.R,
      let pts := Wedge.combineVertices P (IrCheck.apply S.B r (Wedge.mirror P))
      pts.Nodup ∧ pts.length.choose 3 < 2 ^ 32 ∧ (interior (Hull (· ∈ pts))).Nonempty ∧
        (∀ p ∈ pts, real p ∈ interior (Hull (· ∈ pts)) ∨ AtEdge pts p) ∧ WellBegun pts) : HullsRight S choices := by
  intro _ P hP _ _ r hr c hc _
  obtain ⟨h1, h2, h3, h4, h5⟩ := h P hP r hr
  obtain ⟨v, faces, e, hs, _, _, hh⟩ := C72_hull_edges_partial _ h1 h2 h3 h4 h5
  rw [hS, e] at hc
  obtain rfl := Option.some.inj hc
  exact ⟨hs, hh⟩

end Brille.Props
