/-
Tetrahedra that contain the same point, and spheres around them.
-/
import Verif.Spec.Mesh
import Verif.Proofs.Triangulable
import Verif.Props.ConvexCutAll
import Mathlib.Analysis.InnerProductSpace.PiL2
import Mathlib.Topology.Instances.Real.Lemmas

namespace Brille.Props

open Brille.Spec Brille.Tetra Brille.Mesh MeasureTheory

/-! ### a tetrahedron as a polyhedron -/

def fourFaces : List (List Nat) := [[0, 1, 2], [0, 2, 3], [1, 0, 3], [1, 3, 2]]

def fourCorners (p : Fin 4 → Pt) : List Pt := [p 0, p 1, p 2, p 3]

def unitCorner : Fin 4 → Pt := ![![1, 0, 0], ![0, 1, 0], ![0, 0, 1], ![0, 0, 0]]

theorem unit_corners : ConvexPolyhedron (polygons (fourCorners unitCorner) fourFaces) := by
  refine convex_of_check _ ?_ ?_ ?_ ?_ ?_ ?_ <;> decide +kernel

theorem tet_solid (p : Fin 4 → Pt) (hp : 0 < vol6 p) : ConvexSolid (fourCorners p) fourFaces := by
  let φ : Pt → Pt := fun x d => p 3 d + x 0 * (p 0 d - p 3 d) + x 1 * (p 1 d - p 3 d) + x 2 * (p 2 d - p 3 d)
  have hs : ∀ a b c x, side (φ a) (φ b) (φ c) (φ x) = vol6 p * side a b c x := by
    intro a b c x
    simp only [side, φ, vol6]
    ring
  have hφ : Function.Injective φ := by
    intro a b e
    have h0 : ∀ u v, side u v a b = 0 := by
      intro u v
      have := hs u v a b
      rw [e] at this
      have z : side (φ u) (φ v) (φ b) (φ b) = 0 := by unfold side; ring
      rw [z] at this
      exact (mul_eq_zero.mp this.symm).resolve_left hp.ne'
    have h1 := h0 (fun d => b d + if d = 0 then 1 else 0) (fun d => b d + if d = 1 then 1 else 0)
    have h2 := h0 (fun d => b d + if d = 0 then 1 else 0) (fun d => b d + if d = 2 then 1 else 0)
    have h3 := h0 (fun d => b d + if d = 1 then 1 else 0) (fun d => b d + if d = 2 then 1 else 0)
    simp [side] at h1 h2 h3
    funext d
    fin_cases d
    · simp; linarith
    · simp; linarith
    · simp; linarith
  have hb : fourCorners p = (fourCorners unitCorner).map φ := by
    have e : ∀ j, p j = φ (unitCorner j) := by
      intro j; funext d
      fin_cases j <;> simp [φ, unitCorner]
    simp only [fourCorners, List.map_cons, List.map_nil, ← e]
  have hlt : ∀ f ∈ fourFaces, ∀ i ∈ f, i < 4 := by decide
  have hpol : polygons (fourCorners p) fourFaces = (polygons (fourCorners unitCorner) fourFaces).map (List.map φ) := by
    unfold polygons
    rw [List.map_map]
    refine List.map_congr_left fun f hf => ?_
    rw [Function.comp_apply, List.map_map]
    refine List.map_congr_left fun i hi => ?_
    have l := hlt f hf i hi
    rw [Function.comp_apply, hb, Convex.getD_lt _ _ (by rw [List.length_map]; simpa [fourCorners] using l),
      Convex.getD_lt _ _ (by simpa [fourCorners] using l), List.getElem_map]
  refine ⟨?_, ?_, ?_, ?_⟩
  · rw [hb]
    refine List.Nodup.map hφ ?_
    decide +kernel
  · intro f hf i hi
    simpa [fourCorners] using hlt f hf i hi
  · have : (fourCorners p).length = 4 := by simp [fourCorners]
    rw [this]
    decide
  · rw [hpol]
    exact convex_map φ hφ _ hp hs _ unit_corners

theorem tet_hull (p : Fin 4 → Pt) : Hull (· ∈ fourCorners p) = convexHull ℝ (Set.range fun j => real (p j)) := by
  unfold Hull
  congr 1
  ext y
  simp only [fourCorners, Set.mem_ofPred_eq, Set.mem_range, List.mem_cons, List.not_mem_nil, or_false]
  constructor
  · rintro ⟨q, rfl | rfl | rfl | rfl, rfl⟩
    exacts [⟨0, rfl⟩, ⟨1, rfl⟩, ⟨2, rfl⟩, ⟨3, rfl⟩]
  · rintro ⟨j, rfl⟩
    refine ⟨p j, ?_, rfl⟩
    fin_cases j <;> simp

theorem inTet_iff (p : Fin 4 → Pt) (hp : vol6 p ≠ 0) (x : Pt) : InTet p x ↔ real x ∈ Hull (· ∈ fourCorners p) := by
  rw [tet_hull]
  refine ⟨?_, inTet_of_hull p hp x⟩
  rintro ⟨w, hw, h1, hx⟩
  have e : real x = ∑ j, (w j : ℝ) • real (p j) := by
    funext d
    rw [Finset.sum_apply]
    simp only [real, Pi.smul_apply, smul_eq_mul]
    rw [hx d]
    push_cast
    rfl
  rw [e]
  refine (convex_convexHull ℝ _).sum_mem (fun j _ => by exact_mod_cast hw j) (by exact_mod_cast h1) fun j _ => subset_convexHull ℝ _ ⟨j, rfl⟩

theorem hull_closed (v : List Pt) : IsClosed (Hull (· ∈ v)) := by
  have hf : Set.Finite {x : Fin 3 → ℝ | ∃ p, p ∈ v ∧ x = real p} := by
    refine (v.map real).finite_toSet.subset ?_
    rintro x ⟨p, hp, rfl⟩
    exact List.mem_map.mpr ⟨p, hp, rfl⟩
  exact hf.isClosed_convexHull ℝ

theorem real_dense : DenseRange real := by
  have h : DenseRange (fun (p : Fin 3 → ℚ) (d : Fin 3) => ((p d : ℚ) : ℝ)) := by
    refine DenseRange.piMap (f := fun _ : Fin 3 => (Rat.cast : ℚ → ℝ)) fun _ => Rat.denseRange_cast
  exact h

/-- **a common interior point**: of the closed convex sets that cover the points of a solid near one of its points, one contains that point
and has an interior point in common with the solid -/
theorem common_interior (H : Set (Fin 3 → ℝ)) (hc : Convex ℝ H) (hi : (interior H).Nonempty) {ι : Type} (S : Finset ι) (C : ι → Set (Fin 3 → ℝ))
    (hcl : ∀ j ∈ S, IsClosed (C j)) (hcv : ∀ j ∈ S, Convex ℝ (C j)) (hcov : ∀ q : Pt, real q ∈ H → ∃ j ∈ S, real q ∈ C j)
    (x : Fin 3 → ℝ) (hx : x ∈ H) : ∃ j ∈ S, x ∈ C j ∧ (interior H ∩ interior (C j)).Nonempty := by
  classical
  by_contra hn
  push Not at hn
  let N : Set (Fin 3 → ℝ) := (⋃ j ∈ S.filter fun j => x ∉ C j, C j)ᶜ
  have hN : IsOpen N := by
    rw [isOpen_compl_iff]
    exact (S.filter fun j => x ∉ C j).finite_toSet.isClosed_biUnion fun j hj => hcl j (Finset.mem_filter.mp hj).1
  have hxN : x ∈ N := by
    simp only [N, Set.mem_compl_iff, Set.mem_iUnion, not_exists]
    intro j hj
    exact (Finset.mem_filter.mp hj).2
  have hxc : x ∈ closure (interior H) := by
    rw [hc.closure_interior_eq_closure_of_nonempty_interior hi]
    exact subset_closure hx
  obtain ⟨y, hyN, hyH⟩ := mem_closure_iff.mp hxc N hN hxN
  let V : Set (Fin 3 → ℝ) := interior H ∩ N
  have hV : IsOpen V := isOpen_interior.inter hN
  have hVn : V.Nonempty := ⟨y, hyH, hyN⟩
  let U : Set (Fin 3 → ℝ) := ⋃ j ∈ S.filter fun j => x ∈ C j, C j
  have hU : IsClosed U := (S.filter fun j => x ∈ C j).finite_toSet.isClosed_biUnion fun j hj => hcl j (Finset.mem_filter.mp hj).1
  have hVU : V ⊆ U := by
    refine (real_dense.open_subset_closure_inter hV).trans (closure_minimal ?_ hU)
    rintro _ ⟨hz, q, rfl⟩
    obtain ⟨j, hj, hq⟩ := hcov q (interior_subset hz.1)
    have hxj : x ∈ C j := by
      by_contra hxj
      refine hz.2 ?_
      simp only [Set.mem_iUnion]
      exact ⟨j, Finset.mem_filter.mpr ⟨hj, hxj⟩, hq⟩
    simp only [U, Set.mem_iUnion]
    exact ⟨j, Finset.mem_filter.mpr ⟨hj, hxj⟩, hq⟩
  have hVF : V ⊆ ⋃ j ∈ S.filter fun j => x ∈ C j, frontier (C j) := by
    intro z hz
    have := hVU hz
    simp only [U, Set.mem_iUnion] at this ⊢
    obtain ⟨j, hj, hzj⟩ := this
    refine ⟨j, hj, ?_⟩
    rw [frontier, (hcl j (Finset.mem_filter.mp hj).1).closure_eq]
    refine ⟨hzj, fun hzi => ?_⟩
    have := hn j (Finset.mem_filter.mp hj).1 (Finset.mem_filter.mp hj).2
    exact this.subset ⟨hz.1, hzi⟩
  have h0 : volume V = 0 := by
    refine measure_mono_null hVF ?_
    refine (measure_biUnion_null_iff (S.filter fun j => x ∈ C j).countable_toSet).mpr fun j hj => ?_
    exact (hcv j (Finset.mem_filter.mp hj).1).addHaar_frontier volume
  exact (hV.measure_pos volume hVn).ne' h0

/-! ### spheres -/

theorem euclid_dist (a b : Fin 3 → ℝ) : euclid a b = dist (WithLp.toLp 2 a) (WithLp.toLp 2 b) := by
  rw [EuclideanSpace.dist_eq]
  unfold euclid
  congr 1
  refine Finset.sum_congr rfl fun d _ => ?_
  simp [Real.dist_eq, sq_abs]

theorem distance_eq (a b : Pt) : distance a b = euclid (real a) (real b) := by
  unfold distance euclid
  congr 1
  rw [Fin.sum_univ_three]
  simp only [dot, diff, real]
  push_cast
  ring

theorem ball_of_hull (p : Fin 4 → Pt) (c : Fin 3 → ℝ) (r : ℝ) (h : ∀ j, euclid (real (p j)) c ≤ r) (y : Fin 3 → ℝ)
    (hy : y ∈ Hull (· ∈ fourCorners p)) : euclid y c ≤ r := by
  rw [tet_hull] at hy
  have hc : Convex ℝ {y : Fin 3 → ℝ | euclid y c ≤ r} := by
    have := (convex_closedBall (WithLp.toLp 2 c : EuclideanSpace ℝ (Fin 3)) r).is_linear_preimage
      (f := fun y : Fin 3 → ℝ => (WithLp.toLp 2 y : EuclideanSpace ℝ (Fin 3))) ⟨fun _ _ => rfl, fun _ _ => rfl⟩
    refine (congrArg (Convex ℝ) ?_).mp this
    ext y
    simp only [Set.mem_preimage, Metric.mem_closedBall, Set.mem_ofPred_eq, euclid_dist]
  refine convexHull_min ?_ hc hy
  rintro _ ⟨j, rfl⟩
  exact h j

theorem euclid_triangle (a b c : Fin 3 → ℝ) : euclid a b ≤ euclid c a + euclid c b := by
  rw [euclid_dist, euclid_dist, euclid_dist, dist_comm (WithLp.toLp 2 c) (WithLp.toLp 2 a)]
  exact dist_triangle _ _ _

end Brille.Props
