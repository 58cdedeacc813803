/-
C71: what the search for an irreducible Brillouin zone ensures when it succeeds.
-/
import Verif.Model.Wedge
import Verif.Props.IrCheck
import Verif.Props.ConvexCutAll
import Verif.Props.MoveInto

namespace Brille.Props

open Brille.Spec Brille.Tetra Brille.Faces Brille.Cut Brille.Convex Brille.IrCheck Brille.Sym Brille.Wedge MeasureTheory

/-- a part of a set that goes outwards from the origin up to the surface of the set -/
def Conical (Z C : Set (Fin 3 → ℝ)) : Prop := ∀ x ∈ C, ∀ t : ℝ, 1 ≤ t → t • x ∈ Z → t • x ∈ C

section Conical
variable (near : ℚ → ℚ → Bool) (hnear : ∀ a b, near a b = true → a = b) (B : Fin 3 → Pt) (hB : (Matrix.of B).det ≠ 0)
  (timeReversal : Bool) (R : List Op) (hR : PointGroup (operations timeReversal R)) (v w : List Pt) (f g : List Face)
  (hw : ConvexSolid w g)
  (hother : (∃ r ∈ operations timeReversal R, Matrix.of r = -1) → ∃ r ∈ operations timeReversal R, Matrix.of r ≠ 1 ∧ Matrix.of r ≠ -1)
  (hcheck : check near B timeReversal R (v, f) (w, g) = some true)
include hnear hB hR hw hother hcheck

/-- a polyhedron that has the origin and passes the test is a cone within the zone -/
theorem check_conical (hg : g ≠ []) (hv : ConvexSolid v f) (hf : f ≠ []) (hsub : Hull (· ∈ w) ⊆ Hull (· ∈ v))
    (hinv : ∀ r ∈ operations timeReversal R, ∀ x ∈ Hull (· ∈ v), ∀ y, Carries (Matrix.of B) r x y → y ∈ Hull (· ∈ v))
    (h0 : (0 : Fin 3 → ℝ) ∈ Hull (· ∈ w)) : Conical (Hull (· ∈ v)) (Hull (· ∈ w)) := by
  intro x hx t ht htx
  by_contra hn
  set C := Hull (· ∈ w) with hC
  set Z := Hull (· ∈ v) with hZ
  have cC : Convex ℝ C := convex_convexHull ℝ _
  have cZ : Convex ℝ Z := convex_convexHull ℝ _
  have clC : IsClosed C := hull_compact.isClosed
  obtain ⟨i0, hi0⟩ := solid_interior hw hg
  have tpos : 0 < t := by linarith
  have t1 : 1 < t := by
    rcases ht.lt_or_eq with h | h
    · exact h
    · exfalso; rw [← h, one_smul] at hn; exact hn hx
  -- points in the interior close to `x`, stretched, are outside
  have hcont : Filter.Tendsto (fun s : ℝ => (1 - s) • (t • x) + s • i0) (nhds 0) (nhds (t • x)) := by
    have : Continuous fun s : ℝ => (1 - s) • (t • x) + s • i0 := by fun_prop
    simpa using this.tendsto 0
  have hev := hcont.eventually (clC.isOpen_compl.mem_nhds hn)
  obtain ⟨ε, hε, hball⟩ := Metric.eventually_nhds_iff.mp hev
  set s := min (ε / 2) (1 / 2) with hs
  have s0 : 0 < s := lt_min (by linarith) (by norm_num)
  have s1 : s ≤ 1 / 2 := min_le_right _ _
  have sε : s ≤ ε / 2 := min_le_left _ _
  have hout : (1 - s) • (t • x) + s • i0 ∉ C := hball (by rw [Real.dist_eq, sub_zero, abs_of_pos s0]; linarith)
  have hyZ : (1 - s) • (t • x) + s • i0 ∈ Z := cZ htx (hsub (interior_subset hi0)) (by linarith) s0.le (by ring)
  set y := (1 - s) • (t • x) + s • i0 with hy
  have hscale : ∀ a ∈ interior C, t⁻¹ • a ∈ interior C := by
    intro a ha
    have := cC.combo_interior_self_mem_interior (a := t⁻¹) (b := 1 - t⁻¹) ha h0 (by positivity)
      (by rw [sub_nonneg]; exact inv_le_one_of_one_le₀ ht) (by ring)
    simpa using this
  have hz : t⁻¹ • y ∈ interior C := by
    have := cC.combo_self_interior_mem_interior (a := 1 - s) (b := s) hx (hscale i0 hi0) (by linarith) s0 (by ring)
    have e : t⁻¹ • y = (1 - s) • x + s • (t⁻¹ • i0) := by
      rw [hy, smul_add, smul_smul, smul_smul, smul_smul, smul_smul]
      congr 2
      · field_simp
      · ring
    rwa [e]
  -- an image of the polyhedron has the stretched point
  obtain ⟨r, hr, y', hy', hc⟩ := C70_fills near hnear B hB timeReversal R hR v w f g hw hother hcheck hg hv hf hsub hinv y hyZ
  rw [carries_iff B hB] at hc
  have h1 : Matrix.of r ≠ 1 := by
    intro e
    rw [realOp_one B hB r e, Matrix.one_mulVec] at hc
    exact hout (hc ▸ hy')
  have cI : Convex ℝ ((realOp B r).mulVec '' C) := by
    rw [hC, ← apply_hull B hB r (w, g)]
    exact convex_convexHull ℝ _
  have hzI : t⁻¹ • y ∈ (realOp B r).mulVec '' C := by
    have := cI (Set.mem_image_of_mem _ hy') (Set.mem_image_of_mem _ h0) (a := t⁻¹) (b := 1 - t⁻¹) (by positivity)
      (by rw [sub_nonneg]; exact inv_le_one_of_one_le₀ ht) (by ring)
    rwa [← hc, Matrix.mulVec_zero, smul_zero, add_zero] at this
  have hint : (interior ((realOp B r).mulVec '' C)).Nonempty := ⟨_, realOp_interior B hB hR r hr _ i0 hi0⟩
  have hcl : t⁻¹ • y ∈ closure (interior ((realOp B r).mulVec '' C)) := by
    rw [cI.closure_interior_eq_closure_of_nonempty_interior hint]
    exact subset_closure hzI
  obtain ⟨p, hp1, hp2⟩ := mem_closure_iff.mp hcl _ isOpen_interior hz
  exact interiors_apart near hnear B hB timeReversal R hR v w f g hw hother hcheck r hr h1 p hp1 hp2

end Conical

/-- the plane of a face, as an affine function that is not negative in the polyhedron -/
def faceSide (v : List Pt) (f : Face) (x : Fin 3 → ℝ) : ℝ :=
  side (real (v.getD (f.getD 0 0) 0)) (real (v.getD (f.getD 1 0) 0)) (real (v.getD (f.getD 2 0) 0)) x

theorem faceSide_aff (v : List Pt) (f : Face) : Aff (faceSide v f) := aff_side _ _ _

theorem faceSide_normal (v : List Pt) (f : Face) (x : Fin 3 → ℝ) :
    faceSide v f x = faceSide v f 0 - ∑ d, (faceNormal v f d : ℝ) * x d := by
  simp only [faceSide, side, faceNormal, Tetra.cross, diff, Fin.sum_univ_three, real, Matrix.cons_val_zero, Matrix.cons_val_one,
    Matrix.cons_val, Pi.zero_apply]
  push_cast
  ring

theorem faceSide_real (v : List Pt) (f : Face) (p : Pt) : faceSide v f (real p) =
    ((side (v.getD (f.getD 0 0) 0) (v.getD (f.getD 1 0) 0) (v.getD (f.getD 2 0) 0) p : ℚ) : ℝ) := side_real ..

theorem faceSide_pos {v : List Pt} {faces : List Face} (h : ConvexSolid v faces) (f : Face) (hf : f ∈ faces) (x : Fin 3 → ℝ)
    (hx : x ∈ interior (Hull (· ∈ v))) : 0 < faceSide v f x := by
  obtain ⟨c, hc⟩ := inner h.convex
  obtain ⟨s1, s2⟩ := first_steps h f hf
  have hpos := hc _ (List.mem_map.mpr ⟨f, hf, rfl⟩) _ _ _ s1 s2
  refine aff_interior (faceSide_aff v f) _ (fun y hy => ?_) (real c) ?_ x hx
  · exact (hull_first v faces h (List.ne_nil_of_mem hf) y).mp hy f hf
  · rw [faceSide_real]; exact_mod_cast hpos

/-- the corners of a face are in its plane -/
theorem faceSide_corner {v : List Pt} {faces : List Face} (h : ConvexSolid v faces) (f : Face) (hf : f ∈ faces) (i : Nat) (hi : i ∈ f) :
    faceSide v f (real (v.getD i 0)) = 0 := by
  obtain ⟨s1, s2⟩ := first_steps h f hf
  have hm : (f.map fun i => v.getD i 0) ∈ polygons v faces := List.mem_map.mpr ⟨f, hf, rfl⟩
  have hp : v.getD i 0 ∈ f.map fun i => v.getD i 0 := List.mem_map.mpr ⟨i, hi, rfl⟩
  rw [faceSide_real]
  exact_mod_cast (h.convex.behind _ hm _ _ _ s1 s2 (v.getD i 0) ⟨_, hm, hp⟩).2.mpr hp

theorem face_length {v : List Pt} {faces : List Face} (h : ConvexSolid v faces) (f : Face) (hf : f ∈ faces) : 3 ≤ f.length :=
  ((convex_surface h).simple f hf).2

theorem face_vertex {v : List Pt} {faces : List Face} (h : ConvexSolid v faces) (f : Face) (hf : f ∈ faces) (i : Nat) (hi : i ∈ f) :
    v.getD i 0 ∈ v := by
  rw [getD_lt v 0 (h.valid f hf i hi)]; exact List.getElem_mem _

theorem vertex_hull {v : List Pt} (p : Pt) (hp : p ∈ v) : real p ∈ Hull (· ∈ v) := subset_convexHull ℝ _ ⟨p, hp, rfl⟩

/-- an affine function at the mean of the corners of a face -/
theorem face_mean {s : (Fin 3 → ℝ) → ℝ} (hs : Aff s) (v : List Pt) (f : Face) (hf : 0 < f.length) :
    s (real (facePoint v f)) * f.length = (f.map fun i => s (real (v.getD i 0))).sum := by
  obtain ⟨n0, n1, n2, k, e⟩ := hs
  have hl : (f.length : ℝ) ≠ 0 := by exact_mod_cast hf.ne'
  have hsum : ∀ l : List Nat, (l.map fun i => s (real (v.getD i 0))).sum =
      n0 * ((l.map fun i => v.getD i 0 0).sum : ℚ) + n1 * ((l.map fun i => v.getD i 0 1).sum : ℚ) +
        n2 * ((l.map fun i => v.getD i 0 2).sum : ℚ) + k * l.length := by
    intro l
    induction l with
    | nil => simp
    | cons a l ih =>
      rw [List.map_cons, List.sum_cons, ih, e]
      simp only [List.map_cons, List.sum_cons, real, List.length_cons, Rat.cast_add, Nat.cast_add, Nat.cast_one]
      ring
  rw [hsum, e]
  simp only [real, facePoint, Rat.cast_div, Rat.cast_natCast]
  field_simp

theorem facePoint_plane {v : List Pt} {faces : List Face} (h : ConvexSolid v faces) (f : Face) (hf : f ∈ faces) :
    faceSide v f (real (facePoint v f)) = 0 := by
  have h3 := face_length h f hf
  have e := face_mean (faceSide_aff v f) v f (by omega)
  have : (f.map fun i => faceSide v f (real (v.getD i 0))).sum = 0 := by
    apply List.sum_eq_zero
    intro y hy
    obtain ⟨i, hi, rfl⟩ := List.mem_map.mp hy
    exact faceSide_corner h f hf i hi
  rw [this] at e
  rcases mul_eq_zero.mp e with h0 | h0
  · exact h0
  · exfalso
    have : f.length = 0 := by exact_mod_cast h0
    omega

theorem sum_zero (l : List ℝ) (h : ∀ x ∈ l, 0 ≤ x) (h0 : l.sum = 0) (x : ℝ) (hx : x ∈ l) : x = 0 := by
  induction l with
  | nil => simp at hx
  | cons a l ih =>
    rw [List.sum_cons] at h0
    have ha := h a (by simp)
    have hl : 0 ≤ l.sum := List.sum_nonneg fun y hy => h y (by simp [hy])
    rcases List.mem_cons.mp hx with rfl | hx
    · linarith
    · exact ih (fun y hy => h y (by simp [hy])) (by linarith) hx

theorem facePoint_hull {v : List Pt} {faces : List Face} (h : ConvexSolid v faces) (f : Face) (hf : f ∈ faces) :
    real (facePoint v f) ∈ Hull (· ∈ v) := by
  rw [hull_first v faces h (List.ne_nil_of_mem hf)]
  intro F hF
  have h3 := face_length h f hf
  have e := face_mean (faceSide_aff v F) v f (by omega)
  have : 0 ≤ (f.map fun i => faceSide v F (real (v.getD i 0))).sum := by
    apply List.sum_nonneg
    intro y hy
    obtain ⟨i, hi, rfl⟩ := List.mem_map.mp hy
    exact (hull_first v faces h (List.ne_nil_of_mem hF) _).mp (vertex_hull _ (face_vertex h f hf i hi)) F hF
  rw [← e] at this
  have hl : (0 : ℝ) < f.length := by exact_mod_cast (by omega : 0 < f.length)
  exact nonneg_of_mul_nonneg_left this hl

/-- the test whether a point is on the surface of the zone, bz.cpp 29 -/
theorem on_plane {v : List Pt} {faces : List Face} (h : ConvexSolid v faces) (f : Face) (hf : f ∈ faces) (p : Pt) :
    dot (faceNormal v f) (diff p (facePoint v f)) = 0 ↔ faceSide v f (real p) = 0 := by
  have e1 := facePoint_plane h f hf
  rw [faceSide_normal] at e1 ⊢
  have : ((dot (faceNormal v f) (diff p (facePoint v f)) : ℚ) : ℝ) =
      ∑ d, (faceNormal v f d : ℝ) * real p d - ∑ d, (faceNormal v f d : ℝ) * real (facePoint v f) d := by
    simp only [dot, diff, Fin.sum_univ_three, real]
    push_cast
    ring
  constructor
  · intro h0
    rw [h0] at this
    push_cast at this
    linarith
  · intro h0
    have : ((dot (faceNormal v f) (diff p (facePoint v f)) : ℚ) : ℝ) = 0 := by rw [this]; linarith
    exact_mod_cast this

section Faces
variable {v w : List Pt} {f g : List Face} (hv : ConvexSolid v f) (hf : f ≠ []) (hw : ConvexSolid w g) (hg : g ≠ [])
  (hsub : Hull (· ∈ w) ⊆ Hull (· ∈ v)) (h0 : (0 : Fin 3 → ℝ) ∈ Hull (· ∈ w)) (hcone : Conical (Hull (· ∈ v)) (Hull (· ∈ w)))

include hv hf hw hsub h0 hcone in
/-- a face of a cone within the zone is on the surface of the zone or in a plane through the origin -/
theorem face_through (F : Face) (hF : F ∈ g) (hoff : ∀ G ∈ f, faceSide v G (real (facePoint w F)) ≠ 0) : faceSide w F 0 = 0 := by
  set x := real (facePoint w F) with hx
  have hxw : x ∈ Hull (· ∈ w) := facePoint_hull hw F hF
  have hpos : ∀ G ∈ f, 0 < faceSide v G x := fun G hG =>
    lt_of_le_of_ne ((hull_first v f hv hf x).mp (hsub hxw) G hG) (hoff G hG).symm
  have hev : ∀ᶠ t in nhds (1 : ℝ), ∀ G ∈ {G | G ∈ f}, 0 < faceSide v G (t • x) := by
    rw [Filter.eventually_all_finite (List.finite_toSet f)]
    intro G hG
    have hc : Continuous fun t : ℝ => faceSide v G (t • x) := by
      obtain ⟨n0, n1, n2, k, e⟩ := faceSide_aff v G
      simp only [e, Pi.smul_apply, smul_eq_mul]
      fun_prop
    refine hc.tendsto 1 |>.eventually (lt_mem_nhds ?_)
    rw [one_smul]
    exact hpos G hG
  obtain ⟨ε, hε, hball⟩ := Metric.eventually_nhds_iff.mp hev
  have hin : (1 + ε / 2) • x ∈ Hull (· ∈ v) := by
    rw [hull_first v f hv hf]
    intro G hG
    exact (hball (y := 1 + ε / 2) (by rw [Real.dist_eq, add_sub_cancel_left, abs_of_pos (by linarith)]; linarith) G hG).le
  have hmem := hcone x hxw (1 + ε / 2) (by linarith) hin
  have h1 := (hull_first w g hw (List.ne_nil_of_mem hF) _).mp hmem F hF
  have h2 := (hull_first w g hw (List.ne_nil_of_mem hF) _).mp h0 F hF
  have h3 := facePoint_plane hw F hF
  have e : (1 + ε / 2) • x = (1 + ε / 2) • x + (-(ε / 2)) • (0 : Fin 3 → ℝ) := by simp
  change 0 ≤ faceSide w F _ at h1
  change 0 ≤ faceSide w F _ at h2
  rw [e, (faceSide_aff w F).comb _ _ _ _ (by ring), h3] at h1
  nlinarith

include hv hf hw hg hsub in
/-- a face in the surface of the zone does not restrict the zone -/
theorem face_surface (F : Face) (hF : F ∈ g) (G : Face) (hG : G ∈ f) (hon : faceSide v G (real (facePoint w F)) = 0) (x : Fin 3 → ℝ)
    (hx : x ∈ Hull (· ∈ v)) : 0 ≤ faceSide w F x := by
  have h3 := face_length hw F hF
  have hcorner : ∀ i ∈ F, faceSide v G (real (w.getD i 0)) = 0 := by
    have e := face_mean (faceSide_aff v G) w F (by omega)
    rw [hon, zero_mul] at e
    intro i hi
    refine sum_zero _ ?_ e.symm _ (List.mem_map.mpr ⟨i, hi, rfl⟩)
    intro y hy
    obtain ⟨j, hj, rfl⟩ := List.mem_map.mp hy
    exact (hull_first v f hv hf _).mp (hsub (vertex_hull _ (face_vertex hw F hF j hj))) G hG
  have hk : ∀ k < 3, faceSide v G (real (w.getD (F.getD k 0) 0)) = 0 := by
    intro k hk
    apply hcorner
    rw [getD_lt F 0 (by omega)]
    exact List.getElem_mem _
  obtain ⟨i, hi⟩ := solid_interior hw hg
  have p1 := faceSide_pos hw F hF i hi
  have p2 := faceSide_pos hv G hG i (interior_mono hsub hi)
  have p3 := (hull_first v f hv hf x).mp hx G hG
  have e := side_four (real (v.getD (G.getD 0 0) 0)) (real (v.getD (G.getD 1 0) 0)) (real (v.getD (G.getD 2 0) 0))
    (real (w.getD (F.getD 0 0) 0)) (real (w.getD (F.getD 1 0) 0)) (real (w.getD (F.getD 2 0) 0)) i x
  change faceSide w F i * faceSide v G x = _ * faceSide v G _ + _ * faceSide v G _ + _ * faceSide v G _ + faceSide w F x * faceSide v G i at e
  rw [hk 0 (by omega), hk 1 (by omega), hk 2 (by omega)] at e
  have : 0 ≤ faceSide w F x * faceSide v G i := by
    have := mul_nonneg p1.le p3
    change 0 ≤ _ * faceSide v G x at this
    linarith
  exact nonneg_of_mul_nonneg_left this p2

omit v w f g in
theorem offSurface_mem (first : Poly) (l : List Face) (left res : List (Pt × Pt)) (h : offSurface first l left = some res) (x : Pt × Pt) :
    x ∈ res ↔ x ∈ left ∧ ∀ G ∈ l, dot (faceNormal first.1 G) (diff x.2 (facePoint first.1 G)) ≠ 0 := by
  induction l generalizing left with
  | nil => simp only [offSurface, Option.some.injEq] at h; simp [h]
  | cons G l ih =>
    simp only [offSurface] at h
    split at h
    · simp at h
    · rw [ih _ h, List.mem_filter]
      simp only [decide_eq_true_eq, List.mem_cons, forall_eq_or_imp, and_assoc]

omit v w f g in
theorem pairWith_none (n : List Pt) (i : Nat) (js : List Nat) (flags : List Bool × List Bool)
    (h : ∀ j ∈ js, opposite (n.getD i 0) (n.getD j 0) = false) : pairWith n i js flags = flags := by
  induction js with
  | nil => rfl
  | cons j js ih =>
    rw [pairWith, h j (by simp), Bool.and_false]
    exact ih fun k hk => h k (by simp [hk])

omit v w f g in
theorem pairs_none (n : List Pt) (h : ∀ a ∈ n, ∀ b ∈ n, opposite a b = false) :
    Wedge.pairs n = (List.replicate n.length true, List.replicate n.length true) := by
  have hj : ∀ j, j < n.length → n.getD j 0 ∈ n := fun j hj => by rw [getD_lt n 0 hj]; exact List.getElem_mem _
  have key : ∀ (l : List Nat) (flags : List Bool × List Bool), (∀ i ∈ l, i < n.length) →
      l.foldl (fun flags i => if flags.1.getD i false then pairWith n i ((List.range n.length).drop (i + 1)) flags else flags) flags =
        flags := by
    intro l
    induction l with
    | nil => intros; rfl
    | cons i l ih =>
      intro flags hl
      rw [List.foldl_cons]
      have e : (if flags.1.getD i false then pairWith n i ((List.range n.length).drop (i + 1)) flags else flags) = flags := by
        split
        · refine pairWith_none n i _ flags fun j hj' => h _ (hj i (hl i (by simp))) _ (hj j ?_)
          exact List.mem_range.mp (List.mem_of_mem_drop hj')
        · rfl
      rw [e]
      exact ih flags fun k hk => hl k (by simp [hk])
  refine key _ _ fun i hi => ?_
  have := List.mem_range.mp hi
  omega

include hv hf hw hg hsub h0 hcone in
/-- the normals found for a cone within the zone describe it: of the points of the zone it has those with no negative product with any
of the normals -/
theorem wedge_normals (N : List Pt) (h : wedgeNormals (v, f) (w, g) = some N) (x : Fin 3 → ℝ) (hx : x ∈ Hull (· ∈ v)) :
    x ∈ Hull (· ∈ w) ↔ ∀ n ∈ N, 0 ≤ ∑ d, (n d : ℝ) * x d := by
  unfold wedgeNormals at h
  rw [Option.map_eq_some_iff] at h
  obtain ⟨left, hleft, hN⟩ := h
  have hmem : ∀ a : Pt, a ∈ left.map (·.1) ↔ ∃ F ∈ g, a = faceNormal w F ∧ ∀ G ∈ f, faceSide v G (real (facePoint w F)) ≠ 0 := by
    intro a
    rw [List.mem_map]
    constructor
    · rintro ⟨y, hy, rfl⟩
      obtain ⟨h1, h2⟩ := (offSurface_mem _ _ _ _ hleft y).mp hy
      obtain ⟨F, hF, rfl⟩ := List.mem_map.mp h1
      exact ⟨F, hF, rfl, fun G hG => fun e => h2 G hG ((on_plane hv G hG _).mpr e)⟩
    · rintro ⟨F, hF, rfl, h2⟩
      refine ⟨(faceNormal w F, facePoint w F), (offSurface_mem _ _ _ _ hleft _).mpr ⟨List.mem_map.mpr ⟨F, hF, rfl⟩, ?_⟩, rfl⟩
      intro G hG e
      exact h2 G hG ((on_plane hv G hG _).mp e)
  have hprod : ∀ F ∈ g, (∀ G ∈ f, faceSide v G (real (facePoint w F)) ≠ 0) → ∀ y, faceSide w F y = -∑ d, (faceNormal w F d : ℝ) * y d := by
    intro F hF hoff y
    rw [faceSide_normal, face_through hv hf hw hsub h0 hcone F hF hoff]
    ring
  have hopp : ∀ a ∈ left.map (·.1), ∀ b ∈ left.map (·.1), opposite a b = false := by
    intro a ha b hb
    obtain ⟨F, hF, rfl, hF'⟩ := (hmem a).mp ha
    obtain ⟨G, hG, rfl, hG'⟩ := (hmem b).mp hb
    unfold opposite
    rw [decide_eq_false_iff_not]
    rintro ⟨hc, hd⟩
    obtain ⟨i, hi⟩ := solid_interior hw hg
    have p1 := faceSide_pos hw F hF i hi
    have p2 := faceSide_pos hw G hG i hi
    rw [hprod F hF hF'] at p1
    rw [hprod G hG hG'] at p2
    generalize faceNormal w F = a at *
    generalize faceNormal w G = b at *
    have c0 : (a 1 : ℝ) * b 2 - a 2 * b 1 = 0 := by
      have := congrFun hc 0
      simp only [Tetra.cross, Matrix.cons_val_zero, Pi.zero_apply] at this
      exact_mod_cast this
    have c1 : (a 2 : ℝ) * b 0 - a 0 * b 2 = 0 := by
      have := congrFun hc 1
      simp only [Tetra.cross, Matrix.cons_val_one, Pi.zero_apply] at this
      exact_mod_cast this
    have c2 : (a 0 : ℝ) * b 1 - a 1 * b 0 = 0 := by
      have := congrFun hc 2
      simp only [Tetra.cross, Matrix.cons_val, Pi.zero_apply] at this
      exact_mod_cast this
    have hd' : (a 0 : ℝ) * b 0 + a 1 * b 1 + a 2 * b 2 < 0 := by
      simp only [dot] at hd
      exact_mod_cast hd
    rw [Fin.sum_univ_three] at p1 p2
    have e : ((a 0 : ℝ) * i 0 + a 1 * i 1 + a 2 * i 2) * (a 0 * b 0 + a 1 * b 1 + a 2 * b 2) =
        (b 0 * i 0 + b 1 * i 1 + b 2 * i 2) * (a 0 * a 0 + a 1 * a 1 + a 2 * a 2) := by
      linear_combination (a 2 * i 1 - a 1 * i 2) * c0 + (a 0 * i 2 - a 2 * i 0) * c1 + (a 1 * i 0 - a 0 * i 1) * c2
    have q1 := mul_pos_of_neg_of_neg (neg_pos.mp p1) hd'
    have q2 : 0 ≤ (a 0 : ℝ) * a 0 + a 1 * a 1 + a 2 * a 2 := by
      nlinarith [mul_self_nonneg (a 0 : ℝ), mul_self_nonneg (a 1 : ℝ), mul_self_nonneg (a 2 : ℝ)]
    have q3 := mul_nonneg p2.le q2
    linarith
  have hN' : N = (left.map (·.1)).map fun x d => - x d := by
    rw [← hN]
    simp only
    split
    · rename_i hc
      rw [pairs_none _ hopp, List.count_replicate_self] at hc
      rw [List.eq_nil_of_length_eq_zero hc.2]
      rfl
    · rfl
  rw [hull_first w g hw hg, hN']
  constructor
  · intro hall n hn
    obtain ⟨a, ha, rfl⟩ := List.mem_map.mp hn
    obtain ⟨F, hF, rfl, hF'⟩ := (hmem a).mp ha
    have := hall F hF
    change 0 ≤ faceSide w F x at this
    rw [hprod F hF hF'] at this
    simpa using this
  · intro hall F hF
    change 0 ≤ faceSide w F x
    by_cases hF' : ∀ G ∈ f, faceSide v G (real (facePoint w F)) ≠ 0
    · rw [hprod F hF hF']
      have := hall _ (List.mem_map.mpr ⟨_, (hmem _).mpr ⟨F, hF, rfl, hF'⟩, rfl⟩)
      simpa using this
    · push Not at hF'
      obtain ⟨G, hG, hon⟩ := hF'
      exact face_surface hv hf hw hg hsub F hF G hG hon x hx

end Faces

/-- the circumstances of a search: comparisons are exact, the operations are a group, and the first zone is a convex polyhedron which the
operations and the inversion map to itself -/
structure Circumstances (S : Setup) : Prop where
  near : ∀ a b, S.near a b = true ↔ a = b
  nearDefault : ∀ a b, S.nearDefault a b = true ↔ a = b
  basis : (Matrix.of S.B).det ≠ 0
  group : PointGroup (operations S.timeReversal S.R)
  solid : ConvexSolid S.first.1 S.first.2
  faces : S.first.2 ≠ []
  symmetric : ∀ x ∈ Hull (· ∈ S.first.1), -x ∈ Hull (· ∈ S.first.1)
  invariant : ∀ r ∈ operations S.timeReversal S.R, ∀ x ∈ Hull (· ∈ S.first.1), ∀ y, Carries (Matrix.of S.B) r x y → y ∈ Hull (· ∈ S.first.1)

/-- a convex part of the first zone that has the origin -/
structure Part (S : Setup) (P : Poly) : Prop where
  solid : ConvexSolid P.1 P.2
  faces : P.2 ≠ []
  sub : Hull (· ∈ P.1) ⊆ Hull (· ∈ S.first.1)
  zero : (0 : Fin 3 → ℝ) ∈ Hull (· ∈ P.1)

/-- what holds of the polyhedron throughout the search -/
def Reach (S : Setup) (P : Poly) : Prop :=
  P.2 = [] ∨ Part S P ∧ (hasInversion S = true → Conical (Hull (· ∈ S.first.1)) (Hull (· ∈ P.1)))

/-- a polyhedron that the attempts of a search make, before it is combined with an image: the first zone, or what is left of it by the cuts
of one attempt -/
def Tried (S : Setup) (choices : List (List Pt)) (P : Poly) : Prop :=
  P = S.first ∨ ∃ cutting ∈ choices, cut SortFace.sortFace (cutting.map fun n => Zone.planePoints (fun d => -1 * n d) 0) S.first.1 S.first.2 = some P

/-- the convex hulls with the right volume that are taken of a polyhedron and the images of its mirror image are convex hulls -/
def HullOk (S : Setup) (P : Poly) : Prop :=
  ∀ r ∈ operations S.timeReversal S.R, ∀ c, S.hull (combineVertices P (apply S.B r (Wedge.mirror P))) = some c → IrCheck.volume c = goal S →
    ConvexSolid c.1 c.2 ∧ Hull (· ∈ c.1) = Hull (· ∈ combineVertices P (apply S.B r (Wedge.mirror P)))

/-- the convex hulls taken in a search which are accepted are convex hulls; none is taken if there is an inversion -/
def HullsRight (S : Setup) (choices : List (List Pt)) : Prop :=
  hasInversion S = false → ∀ P, Tried S choices P → Part S P → 2 * IrCheck.volume P = goal S → HullOk S P

/-- the polyhedron of a search: one that an attempt made, or one with the right volume -/
def Known (S : Setup) (choices : List (List Pt)) (P : Poly) : Prop :=
  hasInversion S = false → IrCheck.volume P = goal S ∨ Tried S choices P

section Search
variable {S : Setup} (h : Circumstances S)

include h in
theorem goal_pos : 0 < goal S := by
  obtain ⟨e, he, _⟩ := h.group.one
  have hl : (0 : ℚ) < (operations S.timeReversal S.R).length := by exact_mod_cast List.length_pos_of_mem he
  exact div_pos (C69_positive _ _ h.solid h.faces) hl

include h in
theorem zone_origin : (0 : Fin 3 → ℝ) ∈ Hull (· ∈ S.first.1) := by
  obtain ⟨x, hx⟩ := solid_interior h.solid h.faces
  have hx := interior_subset hx
  have hc : Convex ℝ (Hull (· ∈ S.first.1)) := convex_convexHull ℝ _
  have := hc hx (h.symmetric x hx) (by norm_num : (0 : ℝ) ≤ 1 / 2) (by norm_num : (0 : ℝ) ≤ 1 / 2) (by norm_num)
  have e : ((1 / 2 : ℝ) • x + (1 / 2 : ℝ) • -x) = 0 := by module
  rwa [e] at this

include h in
theorem volume_faces (P : Poly) (hv : IrCheck.volume P = goal S) : P.2 ≠ [] := by
  intro h0
  have := goal_pos h
  rw [← hv, IrCheck.volume, h0] at this
  simp [Faces.volume] at this

include h in
theorem first_reach : Reach S S.first :=
  Or.inr ⟨⟨h.solid, h.faces, subset_rfl, zone_origin h⟩, fun _ _ _ _ _ hx => hx⟩

omit h in
/-- the planes the polyhedron is cut with go through the origin -/
theorem plane_scale (n : Pt) (t : ℝ) (x : Fin 3 → ℝ) :
    side (real (Zone.planePoints n 0).a) (real (Zone.planePoints n 0).b) (real (Zone.planePoints n 0).c) (t • x) =
      t * side (real (Zone.planePoints n 0).a) (real (Zone.planePoints n 0).b) (real (Zone.planePoints n 0).c) x := by
  have : real (Zone.planePoints n 0).a = 0 := by
    funext d; simp [real, Zone.planePoints]
  rw [this]
  simp only [side, Pi.smul_apply, smul_eq_mul, Pi.zero_apply]
  ring

omit h in
theorem plane_origin (n : Pt) :
    side (real (Zone.planePoints n 0).a) (real (Zone.planePoints n 0).b) (real (Zone.planePoints n 0).c) 0 = 0 := by
  have := plane_scale n 0 0
  simpa using this

include h in
theorem cut_reach (ns : List Pt) (P : Poly) (hc : cut SortFace.sortFace (ns.map fun n => Zone.planePoints (fun d => -1 * n d) 0) S.first.1 S.first.2 = some P) :
    Reach S P := by
  obtain ⟨v', f', e, h1, _⟩ := C67_cut_any (ns.map fun n => Zone.planePoints (fun d => -1 * n d) 0) S.first.1 S.first.2 h.solid h.faces
  rw [hc] at e
  obtain rfl := Option.some.inj e
  by_cases hf : f' = []
  · exact Or.inl hf
  · obtain ⟨hs, hm⟩ := h1 hf
    refine Or.inr ⟨⟨hs, hf, fun x hx => ((hm x).mp hx).1, (hm 0).mpr ⟨zone_origin h, fun Q hQ => ?_⟩⟩, fun _ x hx t ht htx => ?_⟩
    · obtain ⟨n, _, rfl⟩ := List.mem_map.mp hQ
      rw [plane_origin]
    · refine (hm _).mpr ⟨htx, fun Q hQ => ?_⟩
      have := ((hm x).mp hx).2 Q hQ
      obtain ⟨n, _, rfl⟩ := List.mem_map.mp hQ
      rw [plane_scale]
      exact mul_nonneg (by linarith) this

include h in
/-- the division of a cone within the zone by a plane through the origin -/
theorem split_part (P : Poly) (hP : Part S P) (hcone : Conical (Hull (· ∈ S.first.1)) (Hull (· ∈ P.1))) (hne : IrCheck.volume P ≠ goal S)
    (ns : List Pt) (Q : Poly) (n : Pt) (hs : split S P ns = some (some (Q, n))) :
    IrCheck.volume Q = goal S ∧ Part S Q ∧ Conical (Hull (· ∈ S.first.1)) (Hull (· ∈ Q.1)) ∧
      ∀ x, x ∈ Hull (· ∈ Q.1) ↔ x ∈ Hull (· ∈ P.1) ∧ 0 ≤ ∑ d, ((- n d : ℚ) : ℝ) * x d := by
  induction ns with
  | nil => simp [split] at hs
  | cons m ns ih =>
    rw [split] at hs
    split at hs
    · simp at hs
    · rename_i part he
      split at hs
      · rename_i hnear
        simp only [Option.some.injEq, Prod.mk.injEq] at hs
        obtain ⟨rfl, rfl⟩ := hs
        have hvol := (h.near _ _).mp hnear
        have hQ := volume_faces h part hvol
        obtain ⟨v', f', e, h1, _⟩ := C67_one_cut_any (Zone.planePoints m 0) P.1 P.2 hP.solid hP.faces
        rw [he] at e
        obtain rfl := Option.some.inj e
        obtain ⟨hsol, hm⟩ := h1 hQ
        have hm0 : m ≠ 0 := by
          rintro rfl
          apply hne
          have hz : ∀ x, side (real (Zone.planePoints 0 0).a) (real (Zone.planePoints 0 0).b) (real (Zone.planePoints 0 0).c) x = 0 := by
            intro x
            simp only [side, real, Zone.planePoints, Tetra.cross]
            simp
            ring
          have heq : Hull (· ∈ v') = Hull (· ∈ P.1) := by
            ext x
            rw [hm x, hz]
            simp
          rw [← hvol]
          have a := C69_volume v' f' hsol hQ
          have b := C69_volume P.1 P.2 hP.solid hP.faces
          rw [heq, b, ENNReal.ofReal_eq_ofReal_iff (by exact_mod_cast (C69_positive _ _ hP.solid hP.faces).le)
            (by exact_mod_cast (C69_positive _ _ hsol hQ).le)] at a
          exact_mod_cast a
        obtain ⟨k, hk, hside⟩ := plane_side m hm0 0
        have hside' : ∀ x : Fin 3 → ℝ, 0 ≤ side (real (Zone.planePoints m 0).a) (real (Zone.planePoints m 0).b) (real (Zone.planePoints m 0).c) x ↔
            0 ≤ ∑ d, ((- m d : ℚ) : ℝ) * x d := by
          intro x
          rw [hside]
          have e : ∑ d, (m d : ℝ) * (((0 : Pt) d : ℝ) - x d) = ∑ d, ((- m d : ℚ) : ℝ) * x d := by
            refine Finset.sum_congr rfl fun d _ => ?_
            push_cast
            simp
          rw [e]
          exact mul_nonneg_iff_of_pos_left hk
        refine ⟨hvol, ⟨hsol, hQ, fun x hx => hP.sub ((hm x).mp hx).1, (hm 0).mpr ⟨hP.zero, by rw [plane_origin]⟩⟩, ?_, fun x => ?_⟩
        · intro x hx t ht htx
          obtain ⟨a, b⟩ := (hm x).mp hx
          refine (hm _).mpr ⟨hcone x a t ht htx, ?_⟩
          rw [plane_scale]
          exact mul_nonneg (by linarith) b
        · rw [hm x, hside']
      · exact ih hs

omit h in
/-- the points whose hull is taken when a polyhedron is combined with the image of its mirror image -/
theorem combine_mem (P that : Poly) (p : Pt) : p ∈ combineVertices P that ↔ p ∈ P.1 ∨ p ∈ that.1 := by
  rw [← List.mem_append]
  unfold combineVertices
  generalize P.1 ++ that.1 = pts
  generalize combine P.2 that.2 P.1.length = fs
  have hrefl : ∀ x : Pt, decide (x = x) = true := by simp
  have htrans : ∀ x y z : Pt, decide (x = y) = true → decide (y = z) = true → decide (x = z) = true := by
    intro x y z h1 h2
    simp only [decide_eq_true_eq] at *
    exact h1.trans h2
  unfold FaceEdit.removeDuplicates
  simp only
  split
  · constructor
    · intro hp
      exact (FaceEdit.extract_sublist _ _).subset hp
    · intro hp
      obtain ⟨i, hi, e⟩ := List.mem_iff_getElem.mp hp
      obtain ⟨a, b, k, h1, h2, _, h4⟩ := FaceEdit.removeDuplicates_index (fun x y : Pt => decide (x = y)) hrefl htrans pts i hi
      rw [List.getElem?_eq_getElem hi, e] at h1
      obtain rfl := Option.some.inj h1
      have : p = b := by simpa using h2
      rw [this]
      exact List.mem_of_getElem? h4
  · rfl

include h in
theorem mirrored_part (P : Poly) (hP : Part S P) (hH : HullOk S P) (ops : List Op) (hops : ∀ r ∈ ops, r ∈ operations S.timeReversal S.R) (valid : List Poly)
    (hm : mirrored S P ops = some valid) (c : Poly) (hc : c ∈ valid) : IrCheck.volume c = goal S ∧ Part S c := by
  induction ops generalizing valid with
  | nil => simp only [mirrored, Option.some.injEq] at hm; subst hm; simp at hc
  | cons r ops ih =>
    rw [mirrored] at hm
    split at hm
    · rename_i c' valid' e1 e2
      have hrest := ih (fun s hs => hops s (by simp [hs])) valid' e2
      obtain rfl := Option.some.inj hm
      split at hc
      · rename_i hnear
        rcases List.mem_cons.mp hc with rfl | hc
        · have hvol := (h.near _ _).mp hnear
          have hf := volume_faces h c hvol
          obtain ⟨hs, he⟩ := hH r (hops r (by simp)) _ e1 hvol
          refine ⟨hvol, hs, hf, ?_, ?_⟩
          · rw [he]
            refine convexHull_min ?_ (convex_convexHull ℝ _)
            rintro _ ⟨p, hp, rfl⟩
            rcases (combine_mem _ _ p).mp hp with hp | hp
            · exact hP.sub (vertex_hull p hp)
            · simp only [apply, Wedge.mirror, List.mem_map] at hp
              obtain ⟨_, ⟨q, hq, rfl⟩, rfl⟩ := hp
              have hneg : real (fun d => -1 * q d) ∈ Hull (· ∈ S.first.1) := by
                have : real (fun d => -1 * q d) = -real q := by funext d; simp [real]
                rw [this]
                exact h.symmetric _ (hP.sub (vertex_hull q hq))
              exact h.invariant r (hops r (by simp)) _ hneg _ ((carries_iff S.B h.basis r _ _).mpr (realOp_point S.B h.basis r _).symm)
          · rw [he]
            refine convexHull_mono ?_ hP.zero
            rintro _ ⟨p, hp, rfl⟩
            exact ⟨p, (combine_mem _ _ p).mpr (Or.inl hp), rfl⟩
        · exact hrest hc
      · exact hrest hc
    · simp at hm

variable {choices : List (List Pt)} (hH : HullsRight S choices)

include h hH in
theorem mirroring_spec (st st' : Wedge.St) (hr : Reach S st.ir) (hk : Known S choices st.ir) (hm : checkMirroring S st = some st') :
    Reach S st'.ir ∧ Known S choices st'.ir ∧ st'.normals = st.normals ∧ (hasInversion S = true → st'.ir = st.ir ∧ st'.noMirror = true) ∧
      (IrCheck.volume st'.ir = goal S → st'.noMirror = true) ∧ (IrCheck.volume st.ir = goal S → st'.ir = st.ir) ∧
      (∀ st'', checkMirroring S { st' with normals := st''.normals } = some st'' → st''.ir = st'.ir) := by
  have hg := goal_pos h
  have hself : S.near (goal S) (goal S) = true := (h.near _ _).mpr rfl
  have hdouble : ∀ P : Poly, IrCheck.volume P = goal S → S.near (goal S) (2 * IrCheck.volume P) = false := by
    intro P hP
    by_contra hc
    rw [Bool.not_eq_false, h.near, hP] at hc
    linarith
  unfold checkMirroring at hm
  by_cases hi : hasInversion S = true
  · rw [if_pos hi] at hm
    obtain rfl := Option.some.inj hm
    refine ⟨hr, hk, rfl, fun _ => ⟨rfl, rfl⟩, fun _ => rfl, fun _ => rfl, fun st'' e => ?_⟩
    rw [checkMirroring, if_pos hi] at e
    rw [← Option.some.inj e]
  · rw [if_neg hi] at hm
    simp only at hm
    by_cases hn : S.near (goal S) (2 * IrCheck.volume st.ir) = true
    · rw [if_pos hn] at hm
      have hne : IrCheck.volume st.ir ≠ goal S := by
        intro e
        rw [hdouble _ e] at hn
        simp at hn
      split at hm
      · simp at hm
      · rename_i c rest he
        obtain rfl := Option.some.inj hm
        have hpart : Part S st.ir := by
          rcases hr with hr | hr
          · exfalso
            rw [h.near] at hn
            rw [IrCheck.volume, hr] at hn
            simp [Faces.volume] at hn
            linarith
          · exact hr.1
        have hi' : hasInversion S = false := by simpa using hi
        have hok : HullOk S st.ir := hH hi' _ ((hk hi').resolve_left hne) hpart ((h.near _ _).mp hn).symm
        obtain ⟨hv, hp⟩ := mirrored_part h _ hpart hok _ (fun r hr => hr) _ he c (by simp)
        refine ⟨Or.inr ⟨hp, fun e => absurd e hi⟩, fun _ => Or.inl hv, rfl, fun e => absurd e hi, fun _ => hself, fun e => absurd e hne, fun st'' e => ?_⟩
        rw [checkMirroring, if_neg hi] at e
        simp only [hdouble c hv, Bool.false_eq_true, if_false] at e
        rw [← Option.some.inj e]
      · rename_i he
        obtain rfl := Option.some.inj hm
        refine ⟨hr, hk, rfl, fun e => absurd e hi, fun e => absurd e hne, fun _ => rfl, fun st'' e => ?_⟩
        rw [checkMirroring, if_neg hi] at e
        simp only [hn, if_true, he] at e
        rw [← Option.some.inj e]
    · rw [if_neg hn] at hm
      obtain rfl := Option.some.inj hm
      refine ⟨hr, hk, rfl, fun e => absurd e hi, fun e => (h.near _ _).mpr e.symm, fun _ => rfl, fun st'' e => ?_⟩
      rw [checkMirroring, if_neg hi] at e
      simp only [hn] at e
      rw [← Option.some.inj e]

omit h in
theorem checkIr_some (st st' : Wedge.St) (ok : Bool) (hc : checkIr S st = some (ok, st')) :
    checkMirroring S st = some st' ∧ check S.near S.B S.timeReversal S.R S.first st'.ir = some ok := by
  unfold checkIr at hc
  split at hc
  · simp at hc
  · rename_i st1 he
    rw [Option.map_eq_some_iff] at hc
    obtain ⟨a, h1, h2⟩ := hc
    obtain ⟨rfl, rfl⟩ := (Prod.mk.injEq ..).mp h2
    exact ⟨he, h1⟩

/-- what is known of the members after a successful attempt -/
structure Found (S : Setup) (st : Wedge.St) : Prop where
  check : check S.near S.B S.timeReversal S.R S.first st.ir = some true
  part : Part S st.ir
  normals : ∀ x ∈ Hull (· ∈ S.first.1), x ∈ Hull (· ∈ st.ir.1) ↔ ∀ n ∈ st.normals, 0 ≤ ∑ d, (n d : ℝ) * x d
  noMirror : st.noMirror = true

include h in
theorem check_volume (P : Poly) (hc : check S.near S.B S.timeReversal S.R S.first P = some true) : IrCheck.volume P = goal S :=
  (h.near _ _).mp (check_true hc).1

include h in
theorem check_part (P : Poly) (hr : Reach S P) (hc : check S.near S.B S.timeReversal S.R S.first P = some true) : Part S P := by
  rcases hr with hr | hr
  · exact absurd hr (volume_faces h P (check_volume h P hc))
  · exact hr.1

variable (hother : (∃ r ∈ operations S.timeReversal S.R, Matrix.of r = -1) →
  ∃ r ∈ operations S.timeReversal S.R, Matrix.of r ≠ 1 ∧ Matrix.of r ≠ -1)

omit h in
theorem inversion_ops (hi : inversion ∈ operations S.timeReversal S.R) : hasInversion S = true := by
  unfold hasInversion
  unfold operations at hi
  split at hi
  · rename_i ht; simp [ht]
  · simp [hi]

include h in
theorem divide_spec (oneAxis : Bool) (st st' : Wedge.St) (hi : hasInversion S = true) (hr : Reach S st.ir) (hd : divide S oneAxis st = some st') :
    st' = st ∨ (IrCheck.volume st.ir ≠ goal S ∧ IrCheck.volume st'.ir = goal S ∧ Reach S st'.ir ∧
      ∀ x ∈ Hull (· ∈ S.first.1), x ∈ Hull (· ∈ st'.ir.1) ↔ ∀ n ∈ st'.normals, 0 ≤ ∑ d, (n d : ℝ) * x d) := by
  unfold divide at hd
  simp only at hd
  split at hd
  · rename_i hcond
    have hg := goal_pos h
    have hne : IrCheck.volume st.ir ≠ goal S := by
      intro e
      rw [e] at hcond
      simp only [gt_iff_lt, lt_self_iff_false, decide_false, Bool.false_and, Bool.false_or, h.nearDefault] at hcond
      linarith
    have hpos : IrCheck.volume st.ir ≠ 0 := by
      intro e
      rw [e] at hcond
      simp only [Bool.or_eq_true, Bool.and_eq_true, decide_eq_true_eq, h.nearDefault] at hcond
      rcases hcond with h1 | h1
      · linarith [h1.1]
      · linarith
    obtain ⟨hP, hcone⟩ : Part S st.ir ∧ Conical (Hull (· ∈ S.first.1)) (Hull (· ∈ st.ir.1)) := by
      rcases hr with hr | hr
      · exfalso
        apply hpos
        rw [IrCheck.volume, hr]
        simp [Faces.volume]
      · exact ⟨hr.1, hr.2 hi⟩
    split at hd
    · simp at hd
    · rename_i wg hwg
      have hnormals := wedge_normals h.solid h.faces hP.solid hP.faces hP.sub hP.zero hcone wg hwg
      have result : ∀ ns Q n, split S st.ir ns = some (some (Q, n)) → IrCheck.volume Q = goal S ∧ Reach S Q ∧
          ∀ x ∈ Hull (· ∈ S.first.1), x ∈ Hull (· ∈ Q.1) ↔ ∀ m ∈ wg ++ [fun d => -n d], 0 ≤ ∑ d, (m d : ℝ) * x d := by
        intro ns Q n hs
        obtain ⟨h1, h2, h3, h4⟩ := split_part h _ hP hcone hne ns Q n hs
        refine ⟨h1, Or.inr ⟨h2, fun _ => h3⟩, fun x hx => ?_⟩
        rw [h4 x, hnormals x hx]
        simp only [List.mem_append, List.mem_singleton, or_imp, forall_and, forall_eq]
      split at hd
      · simp at hd
      · rename_i part hs
        rcases part with _ | ⟨Q, n⟩
        · simp only at hd
          split at hd
          · split at hd
            · simp at hd
            · rename_i Q n hs2
              obtain rfl := Option.some.inj hd
              obtain ⟨a, b, c⟩ := result _ _ _ hs2
              exact Or.inr ⟨hne, a, b, c⟩
            · exact Or.inl (Option.some.inj hd).symm
          · exact Or.inl (Option.some.inj hd).symm
        · simp only at hd
          obtain ⟨a, b, c⟩ := result _ _ _ hs
          have hnn : S.near (IrCheck.volume Q) (IrCheck.volume st.ir) = false := by
            by_contra hcn
            rw [Bool.not_eq_false, h.near, a] at hcn
            exact hne hcn.symm
          rw [hnn] at hd
          simp only [Bool.false_eq_true, if_false] at hd
          obtain rfl := Option.some.inj hd
          exact Or.inr ⟨hne, a, b, c⟩
  · exact Or.inl (Option.some.inj hd).symm

include h hother hH in
/-- an attempt that succeeds -/
theorem brute_spec (oneAxis : Bool) (cutting : List Pt) (hcut : cutting ∈ choices) (st st' : Wedge.St) (ok : Bool) (hr : Reach S st.ir)
    (hk : Known S choices st.ir) (hb : bruteForce S oneAxis cutting st = some (ok, st')) :
    Reach S st'.ir ∧ Known S choices st'.ir ∧ (ok = true → Found S st') := by
  unfold bruteForce at hb
  simp only at hb
  split at hb
  · simp at hb
  · rename_i ir0 hir
    have hr0 : Reach S ir0 := by
      split at hir
      · rw [← Option.some.inj hir]; exact hr
      · exact cut_reach h cutting _ hir
    have hk0 : Known S choices ir0 := by
      split at hir
      · rw [← Option.some.inj hir]; exact hk
      · exact fun _ => Or.inr (Or.inr ⟨cutting, hcut, hir⟩)
    split at hb
    · simp at hb
    · rename_i ok1 st1 hc1
      obtain ⟨m1, k1⟩ := checkIr_some _ _ _ hc1
      obtain ⟨r1, q1, n1, i1, v1, e1, a1⟩ := mirroring_spec h hH { st with ir := ir0 } st1 hr0 hk0 m1
      split at hb
      · simp at hb
      · rename_i st2 hst2
        split at hb
        · simp at hb
        · rename_i st3 hst3
          obtain ⟨m3, k3⟩ := checkIr_some _ _ _ hb
          rcases ok1 with _ | _
          · -- the first test failed
            simp only [Bool.false_eq_true, if_false] at hst2
            obtain rfl := Option.some.inj hst2
            have same : st3 = st1 → Reach S st'.ir ∧ Known S choices st'.ir ∧ (ok = true → Found S st') := by
              rintro rfl
              obtain ⟨r3, q3, n3, _⟩ := mirroring_spec h hH _ _ r1 q1 m3
              have e := a1 st' (by rw [n3]; exact m3)
              refine ⟨r3, q3, fun hok => ?_⟩
              rw [e, k1] at k3
              rw [hok] at k3
              simp at k3
            split at hst3
            · rename_i hmem
              have hi := inversion_ops (of_decide_eq_true hmem)
              rcases divide_spec h oneAxis st1 st3 hi r1 hst3 with hs | ⟨_, hv, hr3, hn⟩
              · exact same hs
              · obtain ⟨r3, q3, n3, i3, v3, e3, _⟩ := mirroring_spec h hH _ _ hr3 (fun e => by rw [hi] at e; simp at e) m3
                refine ⟨r3, q3, fun hok => ?_⟩
                rw [hok] at k3
                refine ⟨k3, check_part h _ r3 k3, ?_, (i3 hi).2⟩
                rw [(i3 hi).1, n3]
                exact hn
            · exact same (Option.some.inj hst3).symm
          · -- the first test passed
            simp only [if_true, Option.map_eq_some_iff] at hst2
            obtain ⟨N, hN, rfl⟩ := hst2
            have hp := check_part h _ r1 k1
            have hv := check_volume h _ k1
            have hcone := check_conical S.near (fun a b => (h.near a b).mp) S.B h.basis S.timeReversal S.R h.group S.first.1 st1.ir.1 S.first.2
              st1.ir.2 hp.solid hother k1 hp.faces h.solid h.faces hp.sub h.invariant hp.zero
            have hnormals := wedge_normals h.solid h.faces hp.solid hp.faces hp.sub hp.zero hcone N hN
            have hst : st3 = { st1 with normals := N } := by
              split at hst3
              · rename_i hmem
                have hi := inversion_ops (of_decide_eq_true hmem)
                rcases divide_spec h oneAxis { st1 with normals := N } st3 hi r1 hst3 with hs | ⟨hne, _⟩
                · exact hs
                · exact absurd hv hne
              · exact (Option.some.inj hst3).symm
            subst hst
            obtain ⟨r3, q3, n3, _, v3, e3, _⟩ := mirroring_spec h hH { st1 with normals := N } _ r1 q1 m3
            have e := e3 hv
            refine ⟨r3, q3, fun hok => ?_⟩
            rw [hok] at k3
            refine ⟨k3, check_part h _ r3 k3, ?_, v3 (by rw [e]; exact hv)⟩
            rw [e, n3]
            exact hnormals

include h hother hH in
theorem attempts_spec (oneAxis : Bool) (left : List (List Pt)) (hl : ∀ c ∈ left, c ∈ choices) (st st' : Wedge.St) (hr : Reach S st.ir)
    (hk : Known S choices st.ir) (ha : attempts S oneAxis left st = some (true, st')) : Found S st' := by
  induction left generalizing st with
  | nil => simp [attempts] at ha
  | cons c left ih =>
    rw [attempts] at ha
    split at ha
    · simp at ha
    · rename_i st1 hb
      have := (brute_spec h hH hother oneAxis c (hl c (by simp)) st st1 true hr hk hb).2.2 rfl
      simp only [Option.some.injEq, Prod.mk.injEq, true_and] at ha
      rwa [← ha]
    · rename_i st1 hb
      obtain ⟨r1, k1, _⟩ := brute_spec h hH hother oneAxis c (hl c (by simp)) st st1 false hr hk hb
      exact ih (fun d hd => hl d (by simp [hd])) st1 r1 k1 ha

end Search

/-- an irreducible Brillouin zone: a convex part of the first zone with the share of the volume that one operation has, such that no
operation but the identity carries more than a null set of it to itself and the operations together carry it to all of the zone; and the
normals describe it within the zone -/
structure Irreducible (S : Setup) (st : Wedge.St) : Prop where
  solid : ConvexSolid st.ir.1 st.ir.2
  part : Hull (· ∈ st.ir.1) ⊆ Hull (· ∈ S.first.1)
  share : volume (Hull (· ∈ S.first.1)) = (operations S.timeReversal S.R).length * volume (Hull (· ∈ st.ir.1))
  apart : ∀ r ∈ operations S.timeReversal S.R, Matrix.of r ≠ 1 →
    volume {x | x ∈ Hull (· ∈ st.ir.1) ∧ ∃ y ∈ Hull (· ∈ st.ir.1), Carries (Matrix.of S.B) r y x} = 0
  fills : ∀ x ∈ Hull (· ∈ S.first.1), ∃ r ∈ operations S.timeReversal S.R, ∃ y ∈ Hull (· ∈ st.ir.1), Carries (Matrix.of S.B) r y x
  normals : ∀ x ∈ Hull (· ∈ S.first.1), x ∈ Hull (· ∈ st.ir.1) ↔ ∀ n ∈ st.normals, 0 ≤ ∑ d, (n d : ℝ) * x d
  noMirror : st.noMirror = true

theorem share_of_volume {S : Setup} (h : Circumstances S) (P : Poly) (hs : ConvexSolid P.1 P.2) (hf : P.2 ≠ [])
    (hv : IrCheck.volume P = goal S) :
    volume (Hull (· ∈ S.first.1)) = (operations S.timeReversal S.R).length * volume (Hull (· ∈ P.1)) := by
  obtain ⟨e, he, _⟩ := h.group.one
  have hl : ((operations S.timeReversal S.R).length : ℚ) ≠ 0 := by exact_mod_cast (List.length_pos_of_mem he).ne'
  rw [C69_volume _ _ hs hf, C69_volume _ _ h.solid h.faces, ← ENNReal.ofReal_natCast, ← ENNReal.ofReal_mul (by positivity)]
  congr 1
  have : ((operations S.timeReversal S.R).length : ℚ) * IrCheck.volume P = IrCheck.volume S.first := by
    rw [hv, goal]; field_simp
  exact_mod_cast this.symm

/-- **C71 (what the search finds).** Whatever planes are tried, if the lattice is not triclinic and the construction succeeds then it has
found an irreducible Brillouin zone, and normals that describe it within the first zone; provided that the convex hulls which the search
takes and accepts are convex hulls. -/
theorem C71_search (S : Setup) (h : Circumstances S)
    (hother : (∃ r ∈ operations S.timeReversal S.R, Matrix.of r = -1) →
      ∃ r ∈ operations S.timeReversal S.R, Matrix.of r ≠ 1 ∧ Matrix.of r ≠ -1)
    (oneAxis : Bool) (choices : List (List Pt)) (hH : HullsRight S choices) (st : Wedge.St)
    (hc : construct S false oneAxis choices = some st) : Irreducible S st := by
  unfold construct at hc
  simp only [Bool.false_eq_true, if_false] at hc
  split at hc
  · rename_i st1 ha
    obtain rfl := Option.some.inj hc
    have hF := attempts_spec h hH hother oneAxis choices (fun _ hc => hc) _ _ (first_reach h) (fun _ => Or.inr (Or.inl rfl)) ha
    have hn : ∀ a b, S.near a b = true → a = b := fun a b => (h.near a b).mp
    exact ⟨hF.part.solid, hF.part.sub, share_of_volume h _ hF.part.solid hF.part.faces (check_volume h _ hF.check),
      C70_apart S.near hn S.B h.basis S.timeReversal S.R h.group S.first.1 st1.ir.1 S.first.2 st1.ir.2 hF.part.solid hother hF.check,
      C70_fills S.near hn S.B h.basis S.timeReversal S.R h.group S.first.1 st1.ir.1 S.first.2 st1.ir.2 hF.part.solid hother hF.check
        hF.part.faces h.solid h.faces hF.part.sub h.invariant, hF.normals, hF.noMirror⟩
  · simp at hc

/-- **C71 (with inversion).** With time reversal, or with the inversion among the operations, no convex hull is taken. -/
theorem C71_search_inversion (S : Setup) (h : Circumstances S) (hi : hasInversion S = true)
    (hother : (∃ r ∈ operations S.timeReversal S.R, Matrix.of r = -1) →
      ∃ r ∈ operations S.timeReversal S.R, Matrix.of r ≠ 1 ∧ Matrix.of r ≠ -1)
    (oneAxis : Bool) (choices : List (List Pt)) (st : Wedge.St) (hc : construct S false oneAxis choices = some st) : Irreducible S st :=
  C71_search S h hother oneAxis choices (fun e => by rw [hi] at e; simp at e) st hc

theorem wedgeLoop_check (near : ℚ → ℚ → Bool) (B : Fin 3 → Pt) (timeReversal : Bool) (R : List Op) (first : Poly) (ns : List Pt)
    (last : Pt × Poly) (n : Pt) (P : Poly) (hw : wedgeLoop near B timeReversal R first ns last = some (true, n, P)) :
    check near B timeReversal R first P = some true := by
  induction ns generalizing last with
  | nil => simp [wedgeLoop] at hw
  | cons m ns ih =>
    rw [wedgeLoop] at hw
    split at hw
    · simp at hw
    · rename_i ir he
      split at hw
      · simp at hw
      · rename_i hc
        simp only [Option.some.injEq, Prod.mk.injEq, true_and] at hw
        rw [← hw.2]; exact hc
      · exact ih _ hw

theorem op_of_one (r : Op) (h : Matrix.of r = 1) : r = Mot.idMat := by
  funext i j
  have := congrFun (congrFun h i) j
  simpa [Mot.idMat, Matrix.one_apply] using this

theorem id_one : Matrix.of (Mot.idMat : Op) = 1 := by decide

theorem inversion_neg : Matrix.of (inversion : Op) = -1 := by decide

/-- **C71 (triclinic lattices).** For a triclinic lattice, whose only operations are the identity and possibly the inversion, the
construction always succeeds, and finds an irreducible Brillouin zone. -/
theorem C71_triclinic (S : Setup) (h : Circumstances S)
    (hops : (operations S.timeReversal S.R).Perm (if hasInversion S then [Mot.idMat, inversion] else [Mot.idMat]))
    (oneAxis : Bool) (choices : List (List Pt)) : ∃ st, construct S true oneAxis choices = some st ∧ Irreducible S st := by
  have hid : ∀ x, Carries (Matrix.of S.B) Mot.idMat x x := by
    intro x
    rw [carries_iff S.B h.basis, realOp_one S.B h.basis _ id_one, Matrix.one_mulVec]
  unfold construct
  simp only [if_true]
  by_cases hi : hasInversion S = true
  · rw [if_pos hi] at hops
    simp only [hi, Bool.not_true, Bool.false_eq_true, if_false]
    obtain ⟨n, w, g, e, hn0, hw, hm, hcover, hboth⟩ := C70_triclinic S.near (fun a => (h.near a a).mpr rfl) S.B S.timeReversal S.R hops
      S.first.1 S.first.2 h.solid h.faces h.symmetric
    rw [e]
    have hinv : inversion ∈ operations S.timeReversal S.R := hops.mem_iff.mpr (by simp)
    have hone : Mot.idMat ∈ operations S.timeReversal S.R := hops.mem_iff.mpr (by simp)
    have hneg : ∀ x y, Carries (Matrix.of S.B) inversion x y ↔ y = -x := by
      intro x y
      rw [carries_iff S.B h.basis, realOp_neg S.B h.basis _ inversion_neg, Matrix.neg_mulVec, Matrix.one_mulVec]
    have hg : g ≠ [] := by
      rcases hcover _ (zone_origin h) with hx | hx
      · exact faces_of_point hw _ hx
      · exact faces_of_point hw _ hx
    have hcheck := wedgeLoop_check _ _ _ _ _ _ _ _ _ e
    refine ⟨_, rfl, hw, fun x hx => ((hm x).mp hx).1, share_of_volume h (w, g) hw hg (check_volume h _ hcheck), ?_, ?_, ?_, rfl⟩
    · intro r hr h1
      rcases List.mem_cons.mp (hops.mem_iff.mp hr) with rfl | hr
      · exact absurd id_one h1
      · obtain rfl := List.mem_singleton.mp hr
        have haff : Aff fun x => ∑ d, (n d : ℝ) * x d := ⟨n 0, n 1, n 2, 0, fun x => by simp only [Fin.sum_univ_three]; ring⟩
        have hplane : volume {x : Fin 3 → ℝ | ∑ d, (n d : ℝ) * x d = 0} = 0 := by
          refine haff.null 0 (real n) ?_
          intro he
          apply hn0
          simp only [Fin.sum_univ_three, Pi.zero_apply, real, mul_zero, add_zero] at he
          have hq : n 0 * n 0 + n 1 * n 1 + n 2 * n 2 = 0 := by exact_mod_cast he.symm
          have h0 := mul_self_nonneg (n 0)
          have h1 := mul_self_nonneg (n 1)
          have h2 := mul_self_nonneg (n 2)
          funext d
          fin_cases d
          · exact mul_self_eq_zero.mp (by simp only [Fin.zero_eta] at *; linarith)
          · exact mul_self_eq_zero.mp (by simp only [Fin.mk_one] at *; linarith)
          · exact mul_self_eq_zero.mp (by simp only [Fin.reduceFinMk] at *; linarith)
        refine measure_mono_null ?_ hplane
        rintro x ⟨hx, y, hy, hc⟩
        rw [hneg] at hc
        refine hboth x hx ?_
        rw [hc, neg_neg]; exact hy
    · intro x hx
      rcases hcover x hx with hx | hx
      · exact ⟨_, hone, x, hx, hid x⟩
      · exact ⟨_, hinv, -x, hx, (hneg _ _).mpr (neg_neg x).symm⟩
    · intro x hx
      rw [hm x]
      simp [hx]
  · rw [if_neg hi] at hops
    simp only [hi, Bool.not_false, if_true]
    have hv : IrCheck.volume S.first = goal S := by
      rw [goal, hops.length_eq]; simp
    refine ⟨_, rfl, h.solid, subset_rfl, share_of_volume h _ h.solid h.faces hv, ?_, ?_, ?_, rfl⟩
    · intro r hr h1
      obtain rfl := List.mem_singleton.mp (hops.mem_iff.mp hr)
      exact absurd id_one h1
    · intro x hx
      exact ⟨Mot.idMat, hops.mem_iff.mpr (by simp), x, hx, hid x⟩
    · intro x hx
      simp [hx]

/-- **C71 (every point is moved into the irreducible zone).** With the irreducible zone and the normals found, `ir_moveinto` refuses only
what `moveinto` refuses, and every point it returns is in the irreducible zone. -/
theorem C71_ir_moveinto (S : Setup) (h : Circumstances S) (st : Wedge.St) (hst : Irreducible S st) (c : Centring) (z : Move.Zone)
    (inside : Prim.OnLattice → Pt → Bool)
    (hinside : ∀ q, inside .standard q = contains S.first.2 (fun i => S.first.1.getD i 0) (cartesian S.B q)) (Q : Pt) :
    let wedge := Move.insideWedge (fun x => decide (0 ≤ x)) (fun x => decide (x ≤ 0)) st.noMirror
      fun p => st.normals.map fun n => dot n (cartesian S.B p)
    let ops := operations S.timeReversal S.R
    (Move.irMoveinto (letter c) z inside wedge ops Q = none ↔ Move.moveinto (letter c) z inside .standard Q = none) ∧
    ∀ p tau, Move.irMoveinto (letter c) z inside wedge ops Q = some (p, tau) →
      contains st.ir.2 (fun i => st.ir.1.getD i 0) (cartesian S.B p.q) = true := by
  intro wedge ops
  have hin : ∀ q, inside .standard q = true ↔ real (cartesian S.B q) ∈ Hull (· ∈ S.first.1) := by
    intro q
    rw [hinside, C67_contains _ _ h.solid h.faces]
  have hwedge : ∀ q, wedge q = true ↔ ∀ n ∈ st.normals, 0 ≤ ∑ d, (n d : ℝ) * real (cartesian S.B q) d := by
    intro q
    have hd : ∀ n : Pt, (0 ≤ ∑ d, (n d : ℝ) * real (cartesian S.B q) d) ↔ 0 ≤ dot n (cartesian S.B q) := by
      intro n
      simp only [Fin.sum_univ_three, real, dot]
      exact_mod_cast Iff.rfl
    simp only [hd]
    show Move.insideWedge _ _ _ _ _ = true ↔ _
    unfold Move.insideWedge
    rw [hst.noMirror]
    cases st.normals with
    | nil => simp
    | cons a l => simp
  have hcarry : ∀ (r : Op) (q : Pt), Carries (Matrix.of S.B) r (real (cartesian S.B q))
      (real (cartesian S.B fun i => r 0 i * q 0 + r 1 i * q 1 + r 2 i * q 2)) := by
    intro r q
    refine ⟨real q, ?_, ?_⟩
    · funext d
      simp only [real, cartesian, inBasis, Fin.sum_univ_three, Matrix.of_apply]
      push_cast; ring
    · funext d
      simp only [real, cartesian, inBasis, Fin.sum_univ_three, Matrix.of_apply]
      push_cast; ring
  obtain ⟨o, ho, ho1⟩ := h.group.one
  have hid : Mot.idMat ∈ ops := by
    rw [← op_of_one o ho1]; exact ho
  have hfaces : st.ir.2 ≠ [] := by
    obtain ⟨_, _, y, hy, _⟩ := hst.fills 0 (zone_origin h)
    exact faces_of_point hst.solid y hy
  refine ⟨C34_complete c z inside wedge ops (fun q hq => ?_) h.group.inv Q, fun p tau hp => ?_⟩
  · rw [hin] at hq
    obtain ⟨r, hr, y, hy, hc⟩ := hst.fills _ hq
    obtain ⟨s, hs, e⟩ := h.group.inv r hr
    refine ⟨s, hs, ?_⟩
    have hy' : real (cartesian S.B fun i => s 0 i * q 0 + s 1 i * q 1 + s 2 i * q 2) = y := by
      rw [(carries_iff S.B h.basis s _ _).mp (hcarry s q), (carries_iff S.B h.basis r y _).mp hc, Matrix.mulVec_mulVec,
        realOp_mul S.B h.basis s r o (by rw [ho1, e]), realOp_one S.B h.basis o ho1, Matrix.one_mulVec]
    rw [hwedge, hy']
    exact (hst.normals y (hst.part hy)).mp hy
  · rw [C67_contains _ _ hst.solid hfaces]
    have h1 := (C34_ir_moveinto c z inside wedge ops hid Q p tau hp).1
    have h2 := C34_stays_in_zone c z inside wedge ops hid Q p tau (fun r hr q hq => by
      rw [hin] at hq ⊢
      exact h.invariant r hr _ hq _ (hcarry r q)) hp
    exact (hst.normals _ ((hin _).mp h2)).mpr ((hwedge _).mp h1)

/-! Cases that meet the hypotheses: the cube with side two, the reciprocal lattice of basis `cubicBasis`. -/

/-- the group mmm: the operations of mm2 and the inversion -/
def groupMmm : List Op := groupMm2 ++ groupMm2.map fun r i j => -r i j

def cubeSetup (R : List Op) (hull : List Pt → Option Poly) : Setup :=
  { near := exactly, nearDefault := exactly, B := cubicBasis, timeReversal := false, R := R,
    first := (boxPoints ![-1, -1, -1] ![1, 1, 1], boxFaces), hull := hull }

theorem cube_circumstances (R : List Op) (hR : PointGroup R)
    (hd : ∀ r ∈ R, ∃ a b c : ℤ, (a = 1 ∨ a = -1) ∧ (b = 1 ∨ b = -1) ∧ (c = 1 ∨ c = -1) ∧ r = diagonalOp a b c)
    (hull : List Pt → Option Poly) : Circumstances (cubeSetup R hull) := by
  have hmn : ∀ d : Fin 3, (![-1, -1, -1] : Pt) d < (![1, 1, 1] : Pt) d := by decide +kernel
  have hsq : ∀ a : ℤ, (a = 1 ∨ a = -1) → ∀ x : ℝ, -1 ≤ x → x ≤ 1 → -1 ≤ (a : ℝ) * x ∧ (a : ℝ) * x ≤ 1 := by
    rintro a (rfl | rfl) x h1 h2
    · simp [h1, h2]
    · push_cast; constructor <;> linarith
  refine ⟨by simp [cubeSetup, exactly], by simp [cubeSetup, exactly], cubic_det, hR, C67_box _ _ hmn, (by decide : boxFaces ≠ []), ?_, ?_⟩
  · intro x hx
    simp only [cubeSetup] at hx ⊢
    rw [box_hull _ _ hmn] at hx ⊢
    intro d
    have := hx d
    fin_cases d <;> simp at this ⊢ <;> constructor <;> linarith [this.1, this.2]
  · intro r hr x hx y hc
    simp only [cubeSetup] at hx hc ⊢
    obtain ⟨a, b, c, ha, hb, hcc, rfl⟩ := hd r hr
    obtain ⟨e0, e1, e2⟩ := cubic_carries a b c x y hc
    rw [box_hull _ _ hmn] at hx ⊢
    have h0 := hx 0
    have h1 := hx 1
    have h2 := hx 2
    simp at h0 h1 h2
    intro d
    fin_cases d
    · simpa [e0] using hsq a ha _ h0.1 h0.2
    · simpa [e1] using hsq b hb _ h1.1 h1.2
    · simpa [e2] using hsq c hcc _ h2.1 h2.2

theorem mm2_diagonal : ∀ r ∈ groupMm2, ∃ a b c : ℤ, (a = 1 ∨ a = -1) ∧ (b = 1 ∨ b = -1) ∧ (c = 1 ∨ c = -1) ∧ r = diagonalOp a b c := by
  intro r hr
  simp only [groupMm2, List.mem_cons, List.not_mem_nil, or_false] at hr
  rcases hr with rfl | rfl | rfl | rfl <;> exact ⟨_, _, _, by decide, by decide, by decide, rfl⟩

theorem mmm_diagonal : ∀ r ∈ groupMmm, ∃ a b c : ℤ, (a = 1 ∨ a = -1) ∧ (b = 1 ∨ b = -1) ∧ (c = 1 ∨ c = -1) ∧ r = diagonalOp a b c := by
  intro r hr
  rcases List.mem_append.mp hr with hr | hr
  · exact mm2_diagonal r hr
  · obtain ⟨s, hs, rfl⟩ := List.mem_map.mp hr
    obtain ⟨a, b, c, ha, hb, hc, rfl⟩ := mm2_diagonal s hs
    refine ⟨-a, -b, -c, by omega, by omega, by omega, ?_⟩
    funext i j
    fin_cases i <;> fin_cases j <;> simp [diagonalOp]

theorem groupMmm_group : PointGroup groupMmm where
  distinct := by decide +kernel
  one := by decide +kernel
  mul := by decide +kernel
  inv := by decide +kernel

set_option maxRecDepth 100000 in
/-- two cuts leave a quarter of the cube, which is irreducible for the group mm2 -/
example : ∃ st, construct (cubeSetup groupMm2 fun _ => none) false false [[![1, 0, 0], ![0, 1, 0]]] = some st ∧
    Irreducible (cubeSetup groupMm2 fun _ => none) st := by
  have hs : (construct (cubeSetup groupMm2 fun _ => none) false false [[![1, 0, 0], ![0, 1, 0]]]).isSome = true := by decide +kernel
  obtain ⟨st, e⟩ := Option.isSome_iff_exists.mp hs
  refine ⟨st, e, C71_search _ (cube_circumstances _ groupMm2_group mm2_diagonal _) ?_ _ _ (by intro _ P _ _ _ r _ c hc; simp [cubeSetup] at hc) _ e⟩
  intro _
  exact ⟨diagonalOp (-1) (-1) 1, by decide +kernel, by decide +kernel, by decide +kernel⟩

set_option maxRecDepth 100000 in
/-- for the group mmm the quarter is halved once more, after an attempt that fails -/
example : ∃ st, construct (cubeSetup groupMmm fun _ => none) false false [[![1, 0, 0]], [![1, 0, 0], ![0, 1, 0]]] = some st ∧
    Irreducible (cubeSetup groupMmm fun _ => none) st := by
  have hs : (construct (cubeSetup groupMmm fun _ => none) false false [[![1, 0, 0]], [![1, 0, 0], ![0, 1, 0]]]).isSome = true := by
    decide +kernel
  obtain ⟨st, e⟩ := Option.isSome_iff_exists.mp hs
  refine ⟨st, e, C71_search_inversion _ (cube_circumstances _ groupMmm_group mmm_diagonal _) (by decide +kernel) ?_ _ _ _ e⟩
  intro _
  exact ⟨diagonalOp (-1) (-1) 1, by decide +kernel, by decide +kernel, by decide +kernel⟩

/-- the hull of points of a quarter of the cube which have its corners -/
def quarterHull (pts : List Pt) : Option Poly :=
  if (∀ p ∈ boxPoints ![0, 0, -1] ![1, 1, 1], p ∈ pts) ∧
      ∀ p ∈ pts, contains boxFaces (fun i => (boxPoints ![0, 0, -1] ![1, 1, 1]).getD i 0) p = true
  then some (boxPoints ![0, 0, -1] ![1, 1, 1], boxFaces) else some ([], [])

theorem quarterHull_hull (pts : List Pt) (c : Poly) (h : quarterHull pts = some c) (hc : c.2 ≠ []) :
    ConvexSolid c.1 c.2 ∧ Hull (· ∈ c.1) = Hull (· ∈ pts) := by
  have hmn : ∀ d : Fin 3, (![0, 0, -1] : Pt) d < (![1, 1, 1] : Pt) d := by decide +kernel
  have hs := C67_box _ _ hmn
  unfold quarterHull at h
  split at h
  · rename_i hp
    obtain rfl := Option.some.inj h
    refine ⟨hs, subset_antisymm (convexHull_mono ?_) (convexHull_min ?_ (convex_convexHull ℝ _))⟩
    · rintro _ ⟨p, h1, rfl⟩
      exact ⟨p, hp.1 p h1, rfl⟩
    · rintro _ ⟨p, h1, rfl⟩
      exact (C67_contains _ _ hs (by decide) p).mp (hp.2 p h1)
  · rw [← Option.some.inj h] at hc
    exact absurd rfl hc

theorem quarterHull_right (choices : List (List Pt)) : HullsRight (cubeSetup groupMm2 quarterHull) choices := by
  intro _ P _ _ _ r _ c hc hv
  refine quarterHull_hull _ c hc ?_
  exact volume_faces (cube_circumstances _ groupMm2_group mm2_diagonal quarterHull) c hv

set_option maxRecDepth 100000 in
/-- three cuts leave an eighth of the cube, too small for the group mm2: it is combined with a mirror image -/
example : ∃ st, construct (cubeSetup groupMm2 quarterHull) false false [[![1, 0, 0], ![0, 1, 0], ![0, 0, 1]]] = some st ∧
    Irreducible (cubeSetup groupMm2 quarterHull) st := by
  have hs : (construct (cubeSetup groupMm2 quarterHull) false false [[![1, 0, 0], ![0, 1, 0], ![0, 0, 1]]]).isSome = true := by
    decide +kernel
  obtain ⟨st, e⟩ := Option.isSome_iff_exists.mp hs
  refine ⟨st, e, C71_search _ (cube_circumstances _ groupMm2_group mm2_diagonal _) ?_ _ _ (quarterHull_right _) _ e⟩
  intro _
  exact ⟨diagonalOp (-1) (-1) 1, by decide +kernel, by decide +kernel, by decide +kernel⟩

/-- the inversion alone -/
example : ∃ st, construct (cubeSetup [Mot.idMat, inversion] fun _ => none) true true [] = some st ∧
    Irreducible (cubeSetup [Mot.idMat, inversion] fun _ => none) st := by
  have hg : PointGroup [Mot.idMat, inversion] := ⟨by decide +kernel, by decide +kernel, by decide +kernel, by decide +kernel⟩
  refine C71_triclinic _ (cube_circumstances _ hg ?_ _) (by decide +kernel) _ _
  intro r hr
  simp only [List.mem_cons, List.not_mem_nil, or_false] at hr
  rcases hr with rfl | rfl
  · exact ⟨1, 1, 1, by decide, by decide, by decide, by decide⟩
  · exact ⟨-1, -1, -1, by decide, by decide, by decide, by decide⟩

/-- all of this together: after the search every point that can be moved into the cube is moved into the quarter found -/
example (Q : Pt) (z : Move.Zone) (st : Wedge.St)
    (e : construct (cubeSetup groupMm2 quarterHull) false false [[![1, 0, 0], ![0, 1, 0], ![0, 0, 1]]] = some st) :
    let wedge := Move.insideWedge (fun x => decide (0 ≤ x)) (fun x => decide (x ≤ 0)) st.noMirror
      fun p => st.normals.map fun n => dot n (cartesian cubicBasis p)
    Move.irMoveinto .P z (fun _ q => contains boxFaces (fun i => (boxPoints ![-1, -1, -1] ![1, 1, 1]).getD i 0) (cartesian cubicBasis q))
      wedge groupMm2 Q = none ↔
    Move.moveinto .P z (fun _ q => contains boxFaces (fun i => (boxPoints ![-1, -1, -1] ![1, 1, 1]).getD i 0) (cartesian cubicBasis q))
      .standard Q = none := by
  have hC := cube_circumstances _ groupMm2_group mm2_diagonal quarterHull
  have hst := C71_search _ hC (fun _ => ⟨diagonalOp (-1) (-1) 1, by decide +kernel, by decide +kernel, by decide +kernel⟩) _ _ (quarterHull_right _) _ e
  exact (C71_ir_moveinto _ hC st hst .P z _ (fun _ => rfl) Q).1

end Brille.Props
