/-
C70: what the test of a trial irreducible Brillouin zone ensures.
-/
import Verif.Spec.IrZone
import Verif.Proofs.IrCheck
import Verif.Props.Volume
import Verif.Props.Zone
import Verif.Props.RotationOrder
import Mathlib.Analysis.Convex.Measure
import Mathlib.MeasureTheory.Group.Measure
import Mathlib.MeasureTheory.Measure.Haar.Unique

namespace Brille.Props

open Brille.Spec Brille.Tetra Brille.Faces Brille.Cut Brille.Convex Brille.IrCheck Brille.Sym MeasureTheory

/-- the matrix of an operation in the Cartesian frame, with real entries -/
noncomputable def realOp (B : Fin 3 → Pt) (r : Op) : Matrix (Fin 3) (Fin 3) ℝ := (opMatrix B r).map (Rat.cast : ℚ → ℝ)

theorem realOp_point (B : Fin 3 → Pt) (hB : (Matrix.of B).det ≠ 0) (r : Op) (p : Pt) :
    (realOp B r).mulVec (real p) = real (rotate B r p) := by
  rw [rotate_eq B hB]
  funext i
  simp only [realOp, Matrix.mulVec, dotProduct, Fin.sum_univ_three, Matrix.map_apply, real]
  push_cast
  rfl

theorem realOp_det (B : Fin 3 → Pt) (hB : (Matrix.of B).det ≠ 0) (r : Op) : (realOp B r).det = ((Matrix.of r).det : ℝ) := by
  have : (realOp B r).det = (((opMatrix B r).det : ℚ) : ℝ) := (RingHom.map_det (Rat.castHom ℝ) (opMatrix B r)).symm
  rw [this, opMatrix_det B hB]
  push_cast
  rfl

theorem realOp_mul (B : Fin 3 → Pt) (hB : (Matrix.of B).det ≠ 0) (r s t : Op) (ht : Matrix.of t = Matrix.of s * Matrix.of r) :
    realOp B r * realOp B s = realOp B t := by
  have e := opMatrix_mul B hB r s
  rw [← ht, Equiv.symm_apply_apply] at e
  unfold realOp
  rw [← e]
  exact (Matrix.map_mul (L := opMatrix B r) (M := opMatrix B s) (f := Rat.castHom ℝ)).symm

theorem realOp_one (B : Fin 3 → Pt) (hB : (Matrix.of B).det ≠ 0) (r : Op) (hr : Matrix.of r = 1) : realOp B r = 1 := by
  unfold realOp
  rw [opMatrix_one B hB r hr]
  exact Matrix.map_one _ Rat.cast_zero Rat.cast_one

theorem realOp_neg (B : Fin 3 → Pt) (hB : (Matrix.of B).det ≠ 0) (r : Op) (hr : Matrix.of r = -1) : realOp B r = -1 := by
  unfold realOp
  rw [opMatrix_neg B hB r hr, Matrix.map_neg _ (fun a => Rat.cast_neg a), Matrix.map_one _ Rat.cast_zero Rat.cast_one]

theorem carries_iff (B : Fin 3 → Pt) (hB : (Matrix.of B).det ≠ 0) (r : Op) (x y : Fin 3 → ℝ) :
    Carries (Matrix.of B) r x y ↔ y = (realOp B r).mulVec x := by
  set C : Matrix (Fin 3) (Fin 3) ℝ := ((Matrix.of B).map (Rat.cast : ℚ → ℝ)).transpose with hC
  have hdet : C.det ≠ 0 := by
    rw [hC, Matrix.det_transpose]
    have : ((Matrix.of B).map (Rat.cast : ℚ → ℝ)).det = (((Matrix.of B).det : ℚ) : ℝ) := (RingHom.map_det (Rat.castHom ℝ) (Matrix.of B)).symm
    rw [this]; exact_mod_cast hB
  have hu : IsUnit C.det := hdet.isUnit
  have hb : ∀ h, inBasis (Matrix.of B) h = C.mulVec h := by
    intro h; funext d
    simp only [inBasis, hC, Matrix.mulVec, dotProduct, Matrix.transpose_apply, Matrix.map_apply]
    exact Finset.sum_congr rfl fun k _ => mul_comm _ _
  have hr : ∀ h : Fin 3 → ℝ, (fun i => ∑ j, (r j i : ℝ) * h j) = (((Matrix.of r).map (Int.cast : ℤ → ℝ)).transpose).mulVec h := by
    intro h; funext d
    simp only [Matrix.mulVec, dotProduct, Matrix.transpose_apply, Matrix.map_apply, Matrix.of_apply]
  have hM : realOp B r * C = C * ((Matrix.of r).map (Int.cast : ℤ → ℝ)).transpose := by
    have hu' : IsUnit (Matrix.of B).transpose.det := by rw [Matrix.det_transpose]; exact hB.isUnit
    have e : opMatrix B r * (Matrix.of B).transpose = (Matrix.of B).transpose * ((Matrix.of r).map (Int.cast : ℤ → ℚ)).transpose := by
      unfold opMatrix
      rw [Matrix.nonsing_inv_mul_cancel_right _ _ hu']
    have e2 := congrArg (fun M : Matrix (Fin 3) (Fin 3) ℚ => M.map (Rat.castHom ℝ)) e
    simp only [Matrix.map_mul] at e2
    have e3 : ((Matrix.of r).map (Int.cast : ℤ → ℝ)).transpose = (((Matrix.of r).map (Int.cast : ℤ → ℚ)).transpose).map (Rat.castHom ℝ) := by
      ext i j; simp
    rw [e3]
    exact e2
  constructor
  · rintro ⟨h, rfl, rfl⟩
    rw [hb, hb, hr, Matrix.mulVec_mulVec, Matrix.mulVec_mulVec, hM]
  · rintro rfl
    refine ⟨C⁻¹.mulVec x, ?_, ?_⟩
    · rw [hb, Matrix.mulVec_mulVec, Matrix.mul_nonsing_inv _ hu, Matrix.one_mulVec]
    · rw [hb, hr, Matrix.mulVec_mulVec, ← hM, Matrix.mulVec_mulVec, Matrix.mul_assoc, Matrix.mul_nonsing_inv _ hu, Matrix.mul_one]

/-- the points of the polyhedron after an operation -/
theorem apply_hull (B : Fin 3 → Pt) (hB : (Matrix.of B).det ≠ 0) (r : Op) (P : Poly) :
    Hull (· ∈ (apply B r P).1) = (realOp B r).mulVec '' Hull (· ∈ P.1) := by
  have e : (realOp B r).mulVec '' Hull (· ∈ P.1) = (Matrix.toLin' (realOp B r)) '' Hull (· ∈ P.1) := by
    ext x; simp
  rw [e, Hull, Hull, LinearMap.image_convexHull]
  congr 1
  ext x
  simp only [Set.mem_ofPred_eq, Set.mem_image, Matrix.toLin'_apply, apply, List.mem_map]
  constructor
  · rintro ⟨_, ⟨q, hq, rfl⟩, rfl⟩
    exact ⟨real q, ⟨q, hq, rfl⟩, realOp_point B hB r q⟩
  · rintro ⟨_, ⟨q, hq, rfl⟩, rfl⟩
    exact ⟨_, ⟨q, hq, rfl⟩, realOp_point B hB r q⟩

/-- an affine function that is nowhere negative on a set vanishes in its interior only if it vanishes everywhere -/
theorem aff_interior {s : (Fin 3 → ℝ) → ℝ} (hs : Aff s) (H : Set (Fin 3 → ℝ)) (h0 : ∀ x ∈ H, 0 ≤ s x) (c : Fin 3 → ℝ) (hc : 0 < s c)
    (x : Fin 3 → ℝ) (hx : x ∈ interior H) : 0 < s x := by
  by_contra hn
  have hz : s x = 0 := le_antisymm (not_lt.mp hn) (h0 x (interior_subset hx))
  have hcont : Filter.Tendsto (fun t : ℝ => x + t • (x - c)) (nhds 0) (nhds x) := by
    have : Continuous fun t : ℝ => x + t • (x - c) := by fun_prop
    simpa using this.tendsto 0
  have hev := hcont.eventually (mem_interior_iff_mem_nhds.mp hx)
  obtain ⟨ε, hε, hball⟩ := Metric.eventually_nhds_iff.mp hev
  have hin : x + (ε / 2) • (x - c) ∈ H := hball (by rw [Real.dist_eq, sub_zero, abs_of_pos (by linarith)]; linarith)
  have e : x + (ε / 2) • (x - c) = (1 + ε / 2) • x + (-(ε / 2)) • c := by module
  have := h0 _ hin
  rw [e, hs.comb _ _ _ _ (by ring), hz] at this
  nlinarith

theorem null_of_interior (S : Set (Fin 3 → ℝ)) (hc : Convex ℝ S) (hcl : IsClosed S) (h : interior S = ∅) : volume S = 0 := by
  have := hc.addHaar_frontier volume
  rwa [frontier, hcl.closure_eq, h, Set.sdiff_empty] at this

theorem faces_of_point {v : List Pt} {f : List Face} (hc : ConvexSolid v f) (x : Fin 3 → ℝ) (hx : x ∈ Hull (· ∈ v)) : f ≠ [] := by
  rintro rfl
  have hv : v = [] := by
    rcases v with _ | ⟨a, l⟩
    · rfl
    · obtain ⟨f, hf, _⟩ := hc.used 0 (by simp)
      simp at hf
  subst hv
  simp [Hull] at hx

/-- **C70 (intersections are found).** If the interiors of two convex polyhedra have a point in common then `intersects` says so, whatever
the tolerance as long as no positive volume counts as zero. -/
theorem C70_intersects (near : ℚ → ℚ → Bool) (hnear : ∀ a, 0 < a → near a 0 = false) (v w : List Pt) (f g : List Face)
    (hv : ConvexSolid v f) (hw : ConvexSolid w g) (x : Fin 3 → ℝ) (hx : x ∈ interior (Hull (· ∈ v))) (hy : x ∈ interior (Hull (· ∈ w))) :
    intersects near (v, f) (w, g) = some true := by
  have hg := faces_of_point hw x (interior_subset hy)
  have hf := faces_of_point hv x (interior_subset hx)
  have hin : ∀ P ∈ g.map (facePlane w), 0 < side (real P.a) (real P.b) (real P.c) x := by
    intro P hP
    obtain ⟨face, hface, rfl⟩ := List.mem_map.mp hP
    obtain ⟨c, hc⟩ := inner hw.convex
    obtain ⟨s1, s2⟩ := first_steps hw face hface
    refine aff_interior (aff_side _ _ _) (Hull (· ∈ w)) ?_ (real c) ?_ x hy
    · intro y hy'
      exact (hull_first w g hw hg y).mp hy' face hface
    · rw [side_real]
      exact_mod_cast hc _ (List.mem_map.mpr ⟨face, hface, rfl⟩) _ _ _ s1 s2
  obtain ⟨v', f', e, hc, hm⟩ := C67_cut (g.map (facePlane w)) v f hv ⟨x, interior_subset hx, hin⟩
  have hne := faces_of_point hc x ((hm x).mpr ⟨interior_subset hx, fun P hP => (hin P hP).le⟩)
  have p1 := C69_positive v' f' hc hne
  have p2 := C69_positive v f hv hf
  have p3 := C69_positive w g hw hg
  unfold intersects IrCheck.intersection
  simp only
  rw [e, Option.map_some]
  congr 1
  rw [hnear]
  · rfl
  · exact div_pos p1 (add_pos p2 p3)

theorem none_intersects (near : ℚ → ℚ → Bool) (B : Fin 3 → Pt) (ir : Poly) (L : List Op) (h : noneIntersects near B ir L = some true) :
    ∀ r ∈ L, intersects near ir (apply B r ir) = some false := by
  induction L with
  | nil => simp
  | cons a L ih =>
    unfold noneIntersects at h
    intro r hr
    split at h
    · simp at h
    · simp at h
    · rename_i e
      rcases List.mem_cons.mp hr with rfl | hr
      · exact e
      · exact ih h r hr

/-- an operation of a finite group has finite order -/
theorem group_order {R : List Op} (hR : PointGroup R) (r : Op) (hr : r ∈ R) : ∃ k, 0 < k ∧ Matrix.of r ^ k = 1 := by
  have hpow : ∀ n : Nat, ∃ t ∈ R, Matrix.of t = Matrix.of r ^ n := by
    intro n
    induction n with
    | zero => obtain ⟨e, he, h1⟩ := hR.one; exact ⟨e, he, by rw [h1, pow_zero]⟩
    | succ n ih =>
      obtain ⟨t, ht, e⟩ := ih
      obtain ⟨u, hu, e'⟩ := hR.mul t ht r hr
      exact ⟨u, hu, by rw [e', e, pow_succ]⟩
  choose t ht he using hpow
  obtain ⟨s, _, hs⟩ := hR.inv r hr
  have hunit : IsUnit (Matrix.of r) := IsUnit.of_mul_eq_one _ hs
  have hnot : ¬ Function.Injective t := by
    intro hinj
    have : (Set.range t).Finite := (List.finite_toSet R).subset (by rintro _ ⟨n, rfl⟩; exact ht n)
    exact Set.infinite_range_of_injective hinj this
  unfold Function.Injective at hnot
  push Not at hnot
  obtain ⟨i, j, hij, hne⟩ := hnot
  have e : Matrix.of r ^ i = Matrix.of r ^ j := by rw [← he i, ← he j, hij]
  rcases lt_or_gt_of_ne hne with h | h
  · refine ⟨j - i, by omega, ?_⟩
    have : Matrix.of r ^ i * Matrix.of r ^ (j - i) = Matrix.of r ^ i * 1 := by
      rw [← pow_add, mul_one, e]; congr 1; omega
    exact (hunit.pow i).mul_left_cancel this
  · refine ⟨i - j, by omega, ?_⟩
    have : Matrix.of r ^ j * Matrix.of r ^ (i - j) = Matrix.of r ^ j * 1 := by
      rw [← pow_add, mul_one, ← e]; congr 1; omega
    exact (hunit.pow j).mul_left_cancel this

/-- all operations but the identity and the inversion are looked at -/
theorem order_one {R : List Op} (hR : PointGroup R) (r : Op) (hr : r ∈ R) :
    r ∈ higher R 1 ∨ Matrix.of r = 1 ∨ Matrix.of r = -1 := by
  obtain ⟨k, hk, e⟩ := group_order hR r hr
  obtain ⟨hd, ho, _, _⟩ := C14_rotation_order r k hk e
  by_cases h1 : rotationOrder r = 1
  · right
    rw [h1] at ho
    have := ho.2.1
    rw [pow_one] at this
    rcases hd with hd | hd
    · rw [hd, one_smul] at this; exact Or.inl this
    · rw [hd, neg_one_smul] at this
      exact Or.inr (by rw [← this, neg_neg])
  · left
    have := ho.1
    unfold higher
    refine List.mem_filter.mpr ⟨hr, ?_⟩
    rw [decide_eq_true_eq]
    have : 1 < rotationOrder r := by omega
    exact_mod_cast this

theorem op_det {R : List Op} (hR : PointGroup R) (r : Op) (hr : r ∈ R) : |((Matrix.of r).det : ℝ)| = 1 := by
  obtain ⟨k, hk, e⟩ := group_order hR r hr
  obtain ⟨hd, _⟩ := C14_rotation_order r k hk e
  rcases hd with hd | hd <;> rw [hd] <;> norm_num

theorem realOp_volume (B : Fin 3 → Pt) (hB : (Matrix.of B).det ≠ 0) {R : List Op} (hR : PointGroup R) (r : Op) (hr : r ∈ R)
    (S : Set (Fin 3 → ℝ)) : volume ((realOp B r).mulVec '' S) = volume S := by
  have e : (realOp B r).mulVec '' S = (Matrix.toLin' (realOp B r)) '' S := by
    ext x; simp
  rw [e, Measure.addHaar_image_linearMap, LinearMap.det_toLin', realOp_det B hB, op_det hR r hr, ENNReal.ofReal_one, one_mul]

theorem check_true {near : ℚ → ℚ → Bool} {B : Fin 3 → Pt} {timeReversal : Bool} {R : List Op} {first ir : Poly}
    (h : check near B timeReversal R first ir = some true) :
    near (IrCheck.volume ir) (IrCheck.volume first / (operations timeReversal R).length) = true ∧
      ∀ r ∈ higher (operations timeReversal R) 1, intersects near ir (apply B r ir) = some false := by
  unfold check at h
  simp only at h
  split at h
  · simp at h
  · rename_i hn
    exact ⟨by simpa using hn, none_intersects near B ir _ h⟩

theorem realOp_interior (B : Fin 3 → Pt) (hB : (Matrix.of B).det ≠ 0) {R : List Op} (hR : PointGroup R) (r : Op) (hr : r ∈ R)
    (S : Set (Fin 3 → ℝ)) (x : Fin 3 → ℝ) (hx : x ∈ interior S) : (realOp B r).mulVec x ∈ interior ((realOp B r).mulVec '' S) := by
  have hd : LinearMap.det (Matrix.toLin' (realOp B r)) ≠ 0 := by
    rw [LinearMap.det_toLin', realOp_det B hB]
    intro h0
    have := op_det hR r hr
    rw [h0] at this; simp at this
  let g := (LinearMap.equivOfDetNeZero (Matrix.toLin' (realOp B r)) hd).toContinuousLinearEquiv
  have hgx : ∀ y, g y = (realOp B r).mulVec y := fun y => by
    show (Matrix.toLin' (realOp B r)) y = _
    simp
  have e : (realOp B r).mulVec '' S = g.toHomeomorph '' S := by
    ext y; simp [hgx]
  rw [e, ← Homeomorph.image_interior]
  exact ⟨x, hx, hgx x⟩

section
variable (near : ℚ → ℚ → Bool) (hnear : ∀ a b, near a b = true → a = b) (B : Fin 3 → Pt) (hB : (Matrix.of B).det ≠ 0)
  (timeReversal : Bool) (R : List Op) (hR : PointGroup (operations timeReversal R)) (v w : List Pt) (f g : List Face)
  (hw : ConvexSolid w g)
  (hother : (∃ r ∈ operations timeReversal R, Matrix.of r = -1) → ∃ r ∈ operations timeReversal R, Matrix.of r ≠ 1 ∧ Matrix.of r ≠ -1)
  (hcheck : check near B timeReversal R (v, f) (w, g) = some true)
include hnear hB hR hw hother hcheck

/-- the interiors of the polyhedron and its images are disjoint -/
theorem interiors_apart (r : Op) (hr : r ∈ operations timeReversal R) (h1 : Matrix.of r ≠ 1) (x : Fin 3 → ℝ)
    (hx : x ∈ interior (Hull (· ∈ w))) (hy : x ∈ interior ((realOp B r).mulVec '' Hull (· ∈ w))) : False := by
  have hn : ∀ a, 0 < a → near a 0 = false := by
    intro a ha
    by_contra hc
    rw [Bool.not_eq_false] at hc
    exact ha.ne' (hnear a 0 hc)
  have rest : ∀ r ∈ operations timeReversal R, r ∈ higher (operations timeReversal R) 1 → ∀ x ∈ interior (Hull (· ∈ w)),
      x ∈ interior ((realOp B r).mulVec '' Hull (· ∈ w)) → False := by
    intro r hr hh x hx hy
    have e := (check_true hcheck).2 r hh
    have hd : (Matrix.of r).det ≠ 0 := by
      intro h0
      have := op_det hR r hr
      rw [h0] at this; simp at this
    have hc := apply_convex B hB r hd w g hw
    rw [← apply_hull B hB r (w, g)] at hy
    have := C70_intersects near hn w (apply B r (w, g)).1 g (apply B r (w, g)).2 hw hc x hx hy
    rw [show ((apply B r (w, g)).1, (apply B r (w, g)).2) = apply B r (w, g) from rfl, e] at this
    simp at this
  rcases order_one hR r hr with hh | hh | hh
  · exact rest r hr hh x hx hy
  · exact h1 hh
  · obtain ⟨s, hs, hs1, hs2⟩ := hother ⟨r, hr, hh⟩
    have hsh : s ∈ higher (operations timeReversal R) 1 := by
      rcases order_one hR s hs with h | h | h
      · exact h
      · exact absurd h hs1
      · exact absurd h hs2
    -- the centre is inside
    have hneg : -x ∈ interior (Hull (· ∈ w)) := by
      have := realOp_interior B hB hR r hr _ x hy
      rw [← Set.image_comp, realOp_neg B hB r hh] at this
      have e : ((-1 : Matrix (Fin 3) (Fin 3) ℝ).mulVec ∘ (-1 : Matrix (Fin 3) (Fin 3) ℝ).mulVec) = id := by
        funext z
        simp [Matrix.neg_mulVec]
      rw [e, Set.image_id, Matrix.neg_mulVec, Matrix.one_mulVec] at this
      exact this
    have h0 : (0 : Fin 3 → ℝ) ∈ interior (Hull (· ∈ w)) := by
      have hc : Convex ℝ (interior (Hull (· ∈ w))) := (convex_convexHull ℝ _).interior
      have := hc hx hneg (by norm_num : (0 : ℝ) ≤ 1 / 2) (by norm_num : (0 : ℝ) ≤ 1 / 2) (by norm_num)
      have e : ((1 / 2 : ℝ) • x + (1 / 2 : ℝ) • -x) = 0 := by module
      rwa [e] at this
    refine rest s hs hsh 0 h0 ?_
    have := realOp_interior B hB hR s hs _ 0 h0
    rwa [Matrix.mulVec_zero] at this

/-- two images overlap in a null set only -/
theorem images_null (r s : Op) (hr : r ∈ operations timeReversal R) (hs : s ∈ operations timeReversal R) (hrs : r ≠ s) :
    volume ((realOp B r).mulVec '' Hull (· ∈ w) ∩ (realOp B s).mulVec '' Hull (· ∈ w)) = 0 := by
  have hc : ∀ t, Convex ℝ ((realOp B t).mulVec '' Hull (· ∈ w)) := by
    intro t
    rw [← apply_hull B hB t (w, g)]
    exact convex_convexHull ℝ _
  have hcl : ∀ t, IsClosed ((realOp B t).mulVec '' Hull (· ∈ w)) := by
    intro t
    rw [← apply_hull B hB t (w, g)]
    exact hull_compact.isClosed
  refine null_of_interior _ ((hc r).inter (hc s)) ((hcl r).inter (hcl s)) ?_
  rw [interior_inter]
  by_contra hne
  obtain ⟨x, hx, hy⟩ := Set.nonempty_iff_ne_empty.mpr hne
  -- carry back by the inverse of `s`
  obtain ⟨i, hi, ei⟩ := hR.inv s hs
  obtain ⟨t, ht, et⟩ := hR.mul r hr i hi
  have ei' : Matrix.of i * Matrix.of s = 1 := mul_eq_one_comm.mp ei
  have his : realOp B i * realOp B s = 1 := by
    obtain ⟨e, _, he⟩ := hR.one
    rw [realOp_mul B hB i s e (by rw [he, ei]), realOp_one B hB e he]
  have hir : realOp B i * realOp B r = realOp B t := realOp_mul B hB i r t et
  have h1 := realOp_interior B hB hR i hi _ x hx
  have h2 := realOp_interior B hB hR i hi _ x hy
  have comp : ∀ M N : Matrix (Fin 3) (Fin 3) ℝ, M.mulVec ∘ N.mulVec = (M * N).mulVec := by
    intro M N; funext z; simp [Matrix.mulVec_mulVec]
  rw [← Set.image_comp, comp, hir] at h1
  rw [← Set.image_comp, comp, his] at h2
  have e1 : ((1 : Matrix (Fin 3) (Fin 3) ℝ).mulVec : (Fin 3 → ℝ) → (Fin 3 → ℝ)) = id := by funext z; simp
  rw [e1, Set.image_id] at h2
  refine interiors_apart near hnear B hB timeReversal R hR v w f g hw hother hcheck t ht ?_ _ h2 h1
  intro e
  rw [et] at e
  have : Matrix.of r = Matrix.of s := by
    calc Matrix.of r = Matrix.of r * (Matrix.of i * Matrix.of s) := by rw [ei', mul_one]
      _ = Matrix.of s := by rw [← mul_assoc, e, one_mul]
  exact hrs (Matrix.of.injective this)

/-- **C70 (no equivalent points).** A polyhedron that passes the test has, apart from a set of volume zero, no two points that an
operation of the group carries to one another. -/
theorem C70_apart (r : Op) (hr : r ∈ operations timeReversal R) (h1 : Matrix.of r ≠ 1) :
    volume {x | x ∈ Hull (· ∈ w) ∧ ∃ y ∈ Hull (· ∈ w), Carries (Matrix.of B) r y x} = 0 := by
  obtain ⟨e, he, e1⟩ := hR.one
  have := images_null near hnear B hB timeReversal R hR v w f g hw hother hcheck e r he hr (by rintro rfl; exact h1 e1)
  refine measure_mono_null ?_ this
  rintro x ⟨hx, y, hy, hc⟩
  rw [carries_iff B hB] at hc
  refine ⟨⟨x, hx, ?_⟩, ⟨y, hy, hc.symm⟩⟩
  rw [realOp_one B hB e e1, Matrix.one_mulVec]

/-- **C70 (the zone is filled).** A convex polyhedron that is part of the first Brillouin zone and passes the test fills the zone: the
operations carry it to every point. -/
theorem C70_fills (hg : g ≠ []) (hv : ConvexSolid v f) (hf : f ≠ []) (hsub : Hull (· ∈ w) ⊆ Hull (· ∈ v))
    (hinv : ∀ r ∈ operations timeReversal R, ∀ x ∈ Hull (· ∈ v), ∀ y, Carries (Matrix.of B) r x y → y ∈ Hull (· ∈ v))
    (x : Fin 3 → ℝ) (hx : x ∈ Hull (· ∈ v)) :
    ∃ r ∈ operations timeReversal R, ∃ y ∈ Hull (· ∈ w), Carries (Matrix.of B) r y x := by
  set L := operations timeReversal R with hL
  have hvol := hnear _ _ (check_true hcheck).1
  have hmeas : ∀ r ∈ L, MeasurableSet ((realOp B r).mulVec '' Hull (· ∈ w)) := by
    intro r _
    rw [← apply_hull B hB r (w, g)]
    exact hull_compact.measurableSet
  have hpair : L.Pairwise fun r s => volume ((realOp B r).mulVec '' Hull (· ∈ w) ∩ (realOp B s).mulVec '' Hull (· ∈ w)) = 0 :=
    hR.distinct.pairwise_of_forall_ne fun r hr s hs hne =>
      images_null near hnear B hB timeReversal R hR v w f g hw hother hcheck r s hr hs hne
  have hsum := measure_list (fun r => (realOp B r).mulVec '' Hull (· ∈ w)) L hmeas hpair
  have hconst : L.map (fun r => volume ((realOp B r).mulVec '' Hull (· ∈ w))) = L.map fun _ => volume (Hull (· ∈ w)) :=
    List.map_congr_left fun r hr => realOp_volume B hB hR r hr _
  have hlen : 0 < L.length := by
    obtain ⟨e, he, _⟩ := hR.one
    exact List.length_pos_of_mem he
  have htot : volume (⋃ r ∈ L, (realOp B r).mulVec '' Hull (· ∈ w)) = volume (Hull (· ∈ v)) := by
    rw [hsum, hconst, List.map_const', List.sum_replicate, C69_volume w g hw hg, C69_volume v f hv hf, nsmul_eq_mul,
      ← ENNReal.ofReal_natCast, ← ENNReal.ofReal_mul (by positivity)]
    congr 1
    have hl : (L.length : ℚ) ≠ 0 := by exact_mod_cast hlen.ne'
    have : (L.length : ℚ) * Faces.volume g (fun i => w.getD i 0) = Faces.volume f (fun i => v.getD i 0) := by
      have e : Faces.volume g (fun i => w.getD i 0) = Faces.volume f (fun i => v.getD i 0) / L.length := hvol
      rw [e]; field_simp
    exact_mod_cast this
  have hU : (⋃ r ∈ L, (realOp B r).mulVec '' Hull (· ∈ w)) ⊆ Hull (· ∈ v) := by
    intro y hy
    simp only [Set.mem_iUnion] at hy
    obtain ⟨r, hr, z, hz, rfl⟩ := hy
    exact hinv r hr z (hsub hz) _ ((carries_iff B hB r _ _).mpr rfl)
  have hclosed : IsClosed (⋃ r ∈ L, (realOp B r).mulVec '' Hull (· ∈ w)) := by
    refine (List.finite_toSet L).isClosed_biUnion fun r _ => ?_
    rw [← apply_hull B hB r (w, g)]
    exact hull_compact.isClosed
  have hcov : Hull (· ∈ v) ⊆ ⋃ r ∈ L, (realOp B r).mulVec '' Hull (· ∈ w) := by
    refine covered _ _ (convex_convexHull ℝ _) ?_ hclosed ?_
    · rw [hull_corners hv]
      exact hull_interior hv.convex (polygons_ne hf)
    · rw [measure_sdiff hU hclosed.measurableSet.nullMeasurableSet ?_, htot, tsub_self]
      rw [htot]
      exact hull_compact.measure_lt_top.ne
  have := hcov hx
  simp only [Set.mem_iUnion] at this
  obtain ⟨r, hr, y, hy, e⟩ := this
  exact ⟨r, hr, y, hy, (carries_iff B hB r _ _).mpr e.symm⟩

end

/-- **C70 (every point is equivalent to one of the irreducible zone).** For every point the containment test of the zone accepts there
is an operation after which the containment test of the polyhedron that passed the check accepts it. -/
theorem C70_reaches (near : ℚ → ℚ → Bool) (hnear : ∀ a b, near a b = true → a = b) (B : Fin 3 → Pt) (hB : (Matrix.of B).det ≠ 0)
    (timeReversal : Bool) (R : List Op) (hR : PointGroup (operations timeReversal R)) (v w : List Pt) (f g : List Face)
    (hw : ConvexSolid w g)
    (hother : (∃ r ∈ operations timeReversal R, Matrix.of r = -1) → ∃ r ∈ operations timeReversal R, Matrix.of r ≠ 1 ∧ Matrix.of r ≠ -1)
    (hcheck : check near B timeReversal R (v, f) (w, g) = some true) (hg : g ≠ []) (hv : ConvexSolid v f) (hf : f ≠ [])
    (hsub : Hull (· ∈ w) ⊆ Hull (· ∈ v))
    (hinv : ∀ r ∈ operations timeReversal R, ∀ x ∈ Hull (· ∈ v), ∀ y, Carries (Matrix.of B) r x y → y ∈ Hull (· ∈ v)) (q : Pt)
    (hq : contains f (fun i => v.getD i 0) q = true) :
    ∃ r ∈ operations timeReversal R, contains g (fun i => w.getD i 0) (rotate B r q) = true := by
  rw [C67_contains v f hv hf] at hq
  obtain ⟨r, hr, y, hy, hc⟩ := C70_fills near hnear B hB timeReversal R hR v w f g hw hother hcheck hg hv hf hsub hinv _ hq
  obtain ⟨s, hs, e⟩ := hR.inv r hr
  refine ⟨s, hs, ?_⟩
  rw [C67_contains w g hw hg, ← realOp_point B hB, (carries_iff B hB r y _).mp hc, Matrix.mulVec_mulVec]
  obtain ⟨o, _, ho⟩ := hR.one
  rw [realOp_mul B hB s r o (by rw [ho, e]), realOp_one B hB o ho, Matrix.one_mulVec]
  exact hy

/-- the first Brillouin zone is invariant under every integer matrix that keeps lengths and has an inverse with this property -/
theorem zone_invariant (B : Fin 3 → Pt) (hB : (Matrix.of B).det ≠ 0) (r s : Op) (hrs : Matrix.of s * Matrix.of r = 1)
    (hiso : ∀ x y, Carries (Matrix.of B) r x y → distance2 y 0 = distance2 x 0) (x y : Fin 3 → ℝ)
    (hx : x ∈ FirstZone (Matrix.of B)) (hc : Carries (Matrix.of B) r x y) : y ∈ FirstZone (Matrix.of B) := by
  intro i _
  -- the lattice point is the image of another
  have hl : ∀ j : Fin 3 → ℤ, real (latticePoint (Matrix.of B) j) = inBasis (Matrix.of B) fun k => (j k : ℝ) := by
    intro j; funext d
    simp only [real, latticePoint, inBasis]
    push_cast
    rfl
  set j : Fin 3 → ℤ := fun k => ∑ m, s m k * i m with hj
  have hcj : Carries (Matrix.of B) r (real (latticePoint (Matrix.of B) j)) (real (latticePoint (Matrix.of B) i)) := by
    refine ⟨fun k => (j k : ℝ), hl j, ?_⟩
    rw [hl i]
    congr 1
    funext k
    have e : ∑ m, r m k * j m = i k := by
      have h1 : ∀ a b, ∑ m, s a m * r m b = if a = b then 1 else 0 := by
        intro a b
        have := congrFun (congrFun hrs a) b
        rw [Matrix.mul_apply, Matrix.one_apply] at this
        exact this
      calc ∑ m, r m k * j m = ∑ m, ∑ n, i n * (s n m * r m k) := by
            refine Finset.sum_congr rfl fun m _ => ?_
            rw [hj]; simp only
            rw [Finset.mul_sum]
            exact Finset.sum_congr rfl fun n _ => by ring
        _ = ∑ n, i n * ∑ m, s n m * r m k := by
            rw [Finset.sum_comm]
            exact Finset.sum_congr rfl fun n _ => by rw [Finset.mul_sum]
        _ = i k := by
            simp only [h1]
            simp
    simp only
    rw [← e]
    push_cast
    rfl
  have hlin : Carries (Matrix.of B) r (x - real (latticePoint (Matrix.of B) j)) (y - real (latticePoint (Matrix.of B) i)) := by
    rw [carries_iff B hB] at hc hcj ⊢
    rw [hc, hcj, Matrix.mulVec_sub]
  have hd : ∀ a b : Fin 3 → ℝ, distance2 a b = distance2 (a - b) 0 := by
    intro a b; simp [distance2]
  rw [hiso x y hc, hd y, hiso _ _ hlin, ← hd]
  exact hx j trivial

/-- **C70 (the first Brillouin zone is filled).** If the first polyhedron is the first Brillouin zone, the operations form a group of
isometries, and the second polyhedron is convex, part of the zone and passes the test, then the operations carry it to every point of
the zone. -/
theorem C70_first_zone (near : ℚ → ℚ → Bool) (hnear : ∀ a b, near a b = true → a = b) (B : Fin 3 → Pt) (hB : (Matrix.of B).det ≠ 0)
    (timeReversal : Bool) (R : List Op) (hR : PointGroup (operations timeReversal R))
    (hiso : ∀ r ∈ operations timeReversal R, ∀ x y, Carries (Matrix.of B) r x y → distance2 y 0 = distance2 x 0)
    (hother : (∃ r ∈ operations timeReversal R, Matrix.of r = -1) → ∃ r ∈ operations timeReversal R, Matrix.of r ≠ 1 ∧ Matrix.of r ≠ -1)
    (v w : List Pt) (f g : List Face) (hv : ConvexSolid v f) (hf : f ≠ []) (hzone : Hull (· ∈ v) = FirstZone (Matrix.of B))
    (hw : ConvexSolid w g) (hg : g ≠ []) (hsub : Hull (· ∈ w) ⊆ Hull (· ∈ v))
    (hcheck : check near B timeReversal R (v, f) (w, g) = some true) (x : Fin 3 → ℝ) (hx : x ∈ FirstZone (Matrix.of B)) :
    ∃ r ∈ operations timeReversal R, ∃ y ∈ Hull (· ∈ w), Carries (Matrix.of B) r y x := by
  refine C70_fills near hnear B hB timeReversal R hR v w f g hw hother hcheck hg hv hf hsub ?_ x (by rw [hzone]; exact hx)
  intro r hr y hy z hc
  rw [hzone] at hy ⊢
  obtain ⟨s, _, e⟩ := hR.inv r hr
  exact zone_invariant B hB r s (mul_eq_one_comm.mp e) (hiso r hr) y z hy hc

/-! ### examples -/

/-- twice the cubic lattice, whose first zone is the cube from -1 to 1 -/
def cubicBasis : Fin 3 → Pt := ![![2, 0, 0], ![0, 2, 0], ![0, 0, 2]]

/-- a diagonal operation -/
def diagonalOp (a b c : ℤ) : Op := ![![a, 0, 0], ![0, b, 0], ![0, 0, c]]

/-- the group mm2: two mirrors and the rotation by a half -/
def groupMm2 : List Op := [diagonalOp 1 1 1, diagonalOp (-1) 1 1, diagonalOp 1 (-1) 1, diagonalOp (-1) (-1) 1]

/-- the exact comparison -/
def exactly (a b : ℚ) : Bool := decide (a = b)

theorem groupMm2_group : PointGroup groupMm2 where
  distinct := by decide +kernel
  one := by decide +kernel
  mul := by decide +kernel
  inv := by decide +kernel

theorem cubic_det : (Matrix.of cubicBasis).det ≠ 0 := by
  rw [← basis_det]; decide +kernel

set_option maxRecDepth 100000 in
/-- a quarter of the cube passes the test for the group of four operations; another quarter, which the mirrors cut, and a half do
not -/
theorem quarter_check : check exactly cubicBasis false groupMm2 (boxPoints ![-1, -1, -1] ![1, 1, 1], boxFaces)
      (boxPoints ![0, 0, -1] ![1, 1, 1], boxFaces) = some true ∧
    check exactly cubicBasis false groupMm2 (boxPoints ![-1, -1, -1] ![1, 1, 1], boxFaces)
      (boxPoints ![-1, -1, 0] ![0, 1, 1], boxFaces) = some false ∧
    check exactly cubicBasis false groupMm2 (boxPoints ![-1, -1, -1] ![1, 1, 1], boxFaces)
      (boxPoints ![0, -1, -1] ![1, 1, 1], boxFaces) = some false := by decide +kernel

/-- the diagonal operations of the example in coordinates -/
theorem cubic_carries (a b c : ℤ) (x y : Fin 3 → ℝ) (h : Carries (Matrix.of cubicBasis) (diagonalOp a b c) x y) :
    y 0 = a * x 0 ∧ y 1 = b * x 1 ∧ y 2 = c * x 2 := by
  obtain ⟨k, rfl, rfl⟩ := h
  refine ⟨?_, ?_, ?_⟩ <;> simp [inBasis, cubicBasis, diagonalOp, Fin.sum_univ_three, Matrix.of_apply] <;> ring

/-- all hypotheses of the theorems hold for the quarter of the cube: every point of the cube is carried into it -/
example (q : Pt) (hq : contains boxFaces (fun i => (boxPoints ![-1, -1, -1] ![1, 1, 1]).getD i 0) q = true) :
    ∃ r ∈ groupMm2, contains boxFaces (fun i => (boxPoints ![0, 0, -1] ![1, 1, 1]).getD i 0) (rotate cubicBasis r q) = true := by
  have hmn : ∀ d : Fin 3, (![-1, -1, -1] : Pt) d < (![1, 1, 1] : Pt) d := by decide +kernel
  have hmn' : ∀ d : Fin 3, (![0, 0, -1] : Pt) d < (![1, 1, 1] : Pt) d := by decide +kernel
  refine C70_reaches exactly (fun a b h => by simpa [exactly] using h) cubicBasis cubic_det false groupMm2 groupMm2_group _ _ _ _
    (C67_box _ _ hmn') ?_ quarter_check.1 (by decide) (C67_box _ _ hmn) (by decide) ?_ ?_ q hq
  · intro _
    exact ⟨diagonalOp (-1) (-1) 1, by decide +kernel, by decide +kernel, by decide +kernel⟩
  · intro x hx
    rw [box_hull _ _ hmn'] at hx
    rw [box_hull _ _ hmn]
    intro d
    have := hx d
    fin_cases d <;> simp at this ⊢ <;> constructor <;> linarith [this.1, this.2]
  · intro r hr x hx y hc
    have hr' : ∃ a b : ℤ, (a = 1 ∨ a = -1) ∧ (b = 1 ∨ b = -1) ∧ r = diagonalOp a b 1 := by
      simp only [operations, groupMm2, Bool.false_eq_true, if_false, List.mem_cons, List.not_mem_nil, or_false] at hr
      rcases hr with rfl | rfl | rfl | rfl
      · exact ⟨1, 1, Or.inl rfl, Or.inl rfl, rfl⟩
      · exact ⟨-1, 1, Or.inr rfl, Or.inl rfl, rfl⟩
      · exact ⟨1, -1, Or.inl rfl, Or.inr rfl, rfl⟩
      · exact ⟨-1, -1, Or.inr rfl, Or.inr rfl, rfl⟩
    obtain ⟨a, b, ha, hb, rfl⟩ := hr'
    obtain ⟨e0, e1, e2⟩ := cubic_carries a b 1 x y hc
    rw [box_hull _ _ hmn] at hx ⊢
    intro d
    have h0 := hx 0
    have h1 := hx 1
    have h2 := hx 2
    simp at h0 h1 h2
    rcases ha with rfl | rfl <;> rcases hb with rfl | rfl <;> fin_cases d <;> simp [e0, e1, e2] <;> constructor <;>
      linarith [h0.1, h0.2, h1.1, h1.2, h2.1, h2.2]

set_option maxRecDepth 100000 in
/-- **C70 (the hypothesis on the inversion is needed).** If the inversion is the only operation besides the identity then only the volume
is looked at: the middle half of the cube passes, and no operation carries it to the top of the cube. -/
theorem C70_inversion_counterexample :
    check exactly cubicBasis true [diagonalOp 1 1 1] (boxPoints ![-1, -1, -1] ![1, 1, 1], boxFaces)
      (boxPoints ![-1, -1, -1 / 2] ![1, 1, 1 / 2], boxFaces) = some true ∧
    contains boxFaces (fun i => (boxPoints ![-1, -1, -1] ![1, 1, 1]).getD i 0) ![0, 0, 1] = true ∧
    ∀ r ∈ operations true [diagonalOp 1 1 1],
      contains boxFaces (fun i => (boxPoints ![-1, -1, -1 / 2] ![1, 1, 1 / 2]).getD i 0) (rotate cubicBasis r ![0, 0, 1]) = false := by
  decide +kernel

/-- **C70 (triclinic lattices).** For a first zone with inversion symmetry and the inversion as the only operation besides the identity,
the search never fails or throws: it takes half of the zone, the part on one side of a plane through the centre, whose normal it
stores.  So of each point and its inverse one is in the half, and both only in the plane. -/
theorem C70_triclinic (near : ℚ → ℚ → Bool) (hnear : ∀ a, near a a = true) (B : Fin 3 → Pt) (timeReversal : Bool) (R : List Op)
    (hops : (operations timeReversal R).Perm [Mot.idMat, inversion]) (v : List Pt) (f : List Face) (hv : ConvexSolid v f) (hf : f ≠ [])
    (hsym : ∀ x ∈ Hull (· ∈ v), -x ∈ Hull (· ∈ v)) :
    ∃ n w g, wedgeTriclinic near B timeReversal R (v, f) = some (true, n, w, g) ∧ n ≠ 0 ∧ ConvexSolid w g ∧
      (∀ x, x ∈ Hull (· ∈ w) ↔ x ∈ Hull (· ∈ v) ∧ 0 ≤ ∑ d, (n d : ℝ) * x d) ∧
      (∀ x ∈ Hull (· ∈ v), x ∈ Hull (· ∈ w) ∨ -x ∈ Hull (· ∈ w)) ∧
      ∀ x, x ∈ Hull (· ∈ w) → -x ∈ Hull (· ∈ w) → ∑ d, (n d : ℝ) * x d = 0 := by
  obtain ⟨face, rest, rfl⟩ := List.exists_cons_of_ne_nil hf
  set n := faceNormal v face with hn
  obtain ⟨c, hc⟩ := inner hv.convex
  have hface : face ∈ face :: rest := by simp
  obtain ⟨s1, s2⟩ := first_steps hv face hface
  have hpos := hc _ (List.mem_map.mpr ⟨face, hface, rfl⟩) _ _ _ s1 s2
  have e : side (v.getD (face.getD 0 0) 0) (v.getD (face.getD 1 0) 0) (v.getD (face.getD 2 0) 0) c =
      dot n (v.getD (face.getD 0 0) 0) - dot n c := by
    simp only [hn, faceNormal, dot, Tetra.cross, diff, side, Matrix.cons_val_zero, Matrix.cons_val_one, Matrix.cons_val]
    ring
  rw [e] at hpos
  have hn0 : n ≠ 0 := by
    intro h0; rw [h0] at hpos; simp [dot] at hpos
  have hneg : (fun d => -1 * n d) ≠ (0 : Pt) := by
    intro h0; apply hn0
    funext d
    have := congrFun h0 d
    simpa using this
  obtain ⟨k, hk, hside⟩ := plane_side (fun d => -1 * n d) hneg 0
  set P := Zone.planePoints (fun d => -1 * n d) 0 with hP
  have hside' : ∀ x : Fin 3 → ℝ, side (real P.a) (real P.b) (real P.c) x = k * ∑ d, (n d : ℝ) * x d := by
    intro x
    rw [hside]
    congr 1
    refine Finset.sum_congr rfl fun d _ => ?_
    push_cast
    simp
  -- both sides of the plane
  have hc0 : real c ∈ Hull (· ∈ v) := by
    rw [hull_corners hv]; exact center_mem hv.convex c hc (polygons_ne hf)
  have hvert : v.getD (face.getD 0 0) 0 ∈ v := by
    have h3 := ((convex_surface hv).simple face hface).2
    have hm : face.getD 0 0 ∈ face := by
      rw [getD_lt face 0 (by omega)]; exact List.getElem_mem _
    rw [getD_lt v 0 (hv.valid face hface _ hm)]; exact List.getElem_mem _
  have hin : ∃ p ∈ v, 0 < side P.a P.b P.c p := by
    by_contra hno
    push Not at hno
    have hle : ∀ x ∈ Hull (· ∈ v), 0 ≤ -(∑ d, (n d : ℝ) * x d) := by
      intro x hx
      refine Aff.hull (s := fun x => -(∑ d, (n d : ℝ) * x d)) ⟨-n 0, -n 1, -n 2, 0, fun x => by simp only [Fin.sum_univ_three]; ring⟩
        _ ?_ x hx
      rintro _ ⟨p, hp, rfl⟩
      have h1 := hno p hp
      have h2 : side (real P.a) (real P.b) (real P.c) (real p) ≤ 0 := by rw [side_real]; exact_mod_cast h1
      rw [hside'] at h2
      have := nonpos_of_mul_nonpos_right h2 hk
      linarith
    have hz : ∀ x ∈ Hull (· ∈ v), ∑ d, (n d : ℝ) * x d = 0 := by
      intro x hx
      have h1 := hle x hx
      have h2 := hle (-x) (hsym x hx)
      simp only [Pi.neg_apply, mul_neg, Finset.sum_neg_distrib] at h2
      linarith
    have z1 := hz _ hc0
    have z2 := hz _ (subset_convexHull ℝ _ ⟨_, hvert, rfl⟩)
    simp only [Fin.sum_univ_three, real] at z1 z2
    have hpr : (0 : ℝ) < ((dot n (v.getD (face.getD 0 0) 0) - dot n c : ℚ) : ℝ) := by exact_mod_cast hpos
    simp only [dot] at hpr
    push_cast at hpr
    linarith
  obtain ⟨w, g, e1, hw, hm⟩ := C67_one_cut P v (face :: rest) hv hin
  have hm' : ∀ x, x ∈ Hull (· ∈ w) ↔ x ∈ Hull (· ∈ v) ∧ 0 ≤ ∑ d, (n d : ℝ) * x d := by
    intro x
    rw [hm x, hside', mul_nonneg_iff_of_pos_left hk]
  have hcover : ∀ x ∈ Hull (· ∈ v), x ∈ Hull (· ∈ w) ∨ -x ∈ Hull (· ∈ w) := by
    intro x hx
    rcases le_total 0 (∑ d, (n d : ℝ) * x d) with h | h
    · exact Or.inl ((hm' x).mpr ⟨hx, h⟩)
    · refine Or.inr ((hm' _).mpr ⟨hsym x hx, ?_⟩)
      simp only [Pi.neg_apply, mul_neg, Finset.sum_neg_distrib]
      linarith
  have hboth : ∀ x, x ∈ Hull (· ∈ w) → -x ∈ Hull (· ∈ w) → ∑ d, (n d : ℝ) * x d = 0 := by
    intro x h1 h2
    have h1 := ((hm' _).mp h1).2
    have h2 := ((hm' _).mp h2).2
    simp only [Pi.neg_apply, mul_neg, Finset.sum_neg_distrib] at h2
    linarith
  have hg : g ≠ [] := by
    rcases hcover _ hc0 with h | h
    · exact faces_of_point hw _ h
    · exact faces_of_point hw _ h
  -- the volume
  have hvol : Faces.volume g (fun i => w.getD i 0) = Faces.volume (face :: rest) (fun i => v.getD i 0) / 2 := by
    have hun : Hull (· ∈ v) = Hull (· ∈ w) ∪ -Hull (· ∈ w) := by
      ext x
      simp only [Set.mem_union, Set.mem_neg]
      constructor
      · exact hcover x
      · rintro (h | h)
        · exact ((hm' x).mp h).1
        · have := hsym _ ((hm' _).mp h).1
          rwa [neg_neg] at this
    have hplane : volume {x : Fin 3 → ℝ | ∑ d, (n d : ℝ) * x d = 0} = 0 := by
      have haff : Aff fun x => ∑ d, (n d : ℝ) * x d := ⟨n 0, n 1, n 2, 0, fun x => by simp only [Fin.sum_univ_three]; ring⟩
      refine haff.null (real (v.getD (face.getD 0 0) 0)) (real c) ?_
      intro he
      have hpr : (0 : ℝ) < ((dot n (v.getD (face.getD 0 0) 0) - dot n c : ℚ) : ℝ) := by exact_mod_cast hpos
      simp only [Fin.sum_univ_three, real] at he
      simp only [dot] at hpr
      push_cast at hpr
      linarith
    have hnull : volume (Hull (· ∈ w) ∩ -Hull (· ∈ w)) = 0 := by
      refine measure_mono_null ?_ hplane
      rintro x ⟨h1, h2⟩
      exact hboth x h1 h2
    have hmeas : MeasurableSet (Hull (· ∈ w)) := hull_compact.measurableSet
    have h1 : volume (Hull (· ∈ v)) = volume (Hull (· ∈ w)) + volume (Hull (· ∈ w)) := by
      rw [hun, measure_union₀ hmeas.neg.nullMeasurableSet hnull, Measure.measure_neg]
    rw [C69_volume w g hw hg, C69_volume v _ hv hf] at h1
    have hw0 := C69_positive w g hw hg
    have hv0 := C69_positive v _ hv hf
    rw [← ENNReal.ofReal_add (by exact_mod_cast hw0.le) (by exact_mod_cast hw0.le), ENNReal.ofReal_eq_ofReal_iff (by exact_mod_cast hv0.le)
      (by have : (0 : ℝ) ≤ (Faces.volume g (fun i => w.getD i 0) : ℝ) := by exact_mod_cast hw0.le
          linarith)] at h1
    have h2 : Faces.volume (face :: rest) (fun i => v.getD i 0) = Faces.volume g (fun i => w.getD i 0) + Faces.volume g (fun i => w.getD i 0) := by
      exact_mod_cast h1
    rw [h2]; ring
  -- the test
  have hhigh : higher (operations timeReversal R) 1 = [] := by
    have hp : (higher (operations timeReversal R) 1).Perm (higher [Mot.idMat, inversion] 1) := hops.filter _
    have : higher [Mot.idMat, inversion] 1 = [] := by decide +kernel
    rw [this] at hp
    exact hp.eq_nil
  have hcheck : check near B timeReversal R (v, face :: rest) (w, g) = some true := by
    unfold check
    simp only [hhigh, hops.length_eq, IrCheck.volume]
    rw [if_neg, noneIntersects]
    rw [hvol]
    have : ((([Mot.idMat, inversion] : List Op).length : Nat) : ℚ) = 2 := by norm_num
    rw [this, hnear]
    simp
  refine ⟨n, w, g, ?_, hn0, hw, hm', hcover, hboth⟩
  unfold wedgeTriclinic
  rw [List.map_cons, List.cons_append]
  unfold wedgeLoop
  rw [← hn, ← hP]
  simp only [e1, hcheck]

/-- the cube meets the hypotheses -/
example : (operations true [diagonalOp 1 1 1]).Perm [Mot.idMat, inversion] ∧
    ConvexSolid (boxPoints ![-1, -1, -1] ![1, 1, 1]) boxFaces ∧
    ∀ x ∈ Hull (· ∈ boxPoints ![-1, -1, -1] ![1, 1, 1]), -x ∈ Hull (· ∈ boxPoints ![-1, -1, -1] ![1, 1, 1]) := by
  have hmn : ∀ d : Fin 3, (![-1, -1, -1] : Pt) d < (![1, 1, 1] : Pt) d := by decide +kernel
  refine ⟨by decide +kernel, C67_box _ _ hmn, fun x hx => ?_⟩
  rw [box_hull _ _ hmn] at hx ⊢
  intro d
  have := hx d
  fin_cases d <;> simp at this ⊢ <;> constructor <;> linarith [this.1, this.2]

end Brille.Props
