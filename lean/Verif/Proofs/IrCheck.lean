/- Applying an operation to a convex polyhedron. -/
import Verif.Model.IrCheck
import Verif.Props.ConvexCut
import Verif.Proofs.Volume
import Mathlib.LinearAlgebra.Matrix.NonsingularInverse
import Mathlib.LinearAlgebra.Matrix.ToLin

namespace Brille.Convex

open Brille.Spec Brille.Tetra Brille.Faces Brille.Cut Brille.SortFace Brille.IrCheck

/-- the steps of a polygon without repeated corners -/
theorem steps_nodup {α : Type} (f : List α) (h : f.Nodup) : (steps f).Nodup := by
  have : (steps f).map Prod.fst = f := by
    rw [steps, List.map_fst_zip (by rw [List.length_rotate])]
  rw [← this] at h
  exact h.of_map

/-- the image of a convex polyhedron under a map that multiplies volumes by a negative number, with the faces turned round -/
theorem convex_mirror {ι : Type} (L : List ι) (F G : ι → List Pt) (φ : Pt → Pt) (hφ : Function.Injective φ) (k : ℚ) (hk : k < 0)
    (hs : ∀ a b c x, side (φ a) (φ b) (φ c) (φ x) = k * side a b c x) (hF : ∀ x ∈ L, ∀ y ∈ L, F x = F y → x = y)
    (hperm : ∀ x ∈ L, (G x).Perm ((F x).map φ)) (hsteps : ∀ x ∈ L, (steps (G x)).Perm ((steps (F x)).map fun e => (φ e.2, φ e.1)))
    (h : ConvexPolyhedron (L.map F)) : ConvexPolyhedron (L.map G) := by
  have mem : ∀ x ∈ L, ∀ p, p ∈ G x ↔ ∃ q ∈ F x, p = φ q := by
    intro x hx p
    rw [(hperm x hx).mem_iff, List.mem_map]
    constructor
    · rintro ⟨q, a, b⟩; exact ⟨q, a, b.symm⟩
    · rintro ⟨q, a, b⟩; exact ⟨q, a, b.symm⟩
  have cor : ∀ p, IsCorner (L.map G) p ↔ ∃ q, IsCorner (L.map F) q ∧ p = φ q := by
    intro p
    constructor
    · rintro ⟨g, hg, hp⟩
      obtain ⟨x, hx, rfl⟩ := List.mem_map.mp hg
      obtain ⟨q, hq, rfl⟩ := (mem x hx p).mp hp
      exact ⟨q, ⟨F x, List.mem_map.mpr ⟨x, hx, rfl⟩, hq⟩, rfl⟩
    · rintro ⟨q, ⟨f, hf, hq⟩, rfl⟩
      obtain ⟨x, hx, rfl⟩ := List.mem_map.mp hf
      exact ⟨G x, List.mem_map.mpr ⟨x, hx, rfl⟩, (mem x hx _).mpr ⟨q, hq, rfl⟩⟩
  have st : ((L.map G).flatMap steps).Perm (((L.map F).flatMap steps).map fun e => (φ e.2, φ e.1)) := by
    rw [List.flatMap_map, List.flatMap_map, List.map_flatMap]
    exact List.Perm.flatMap_left L hsteps
  have sinj : Function.Injective fun e : Pt × Pt => (φ e.2, φ e.1) := by
    rintro ⟨a, b⟩ ⟨c, d⟩ e
    simp only [Prod.mk.injEq] at e
    rw [hφ e.1, hφ e.2]
  refine ⟨?_, ?_, ?_, ?_, ?_, ?_⟩
  · intro g hg
    obtain ⟨x, hx, rfl⟩ := List.mem_map.mp hg
    obtain ⟨h1, h2⟩ := h.simple (F x) (List.mem_map.mpr ⟨x, hx, rfl⟩)
    exact ⟨(hperm x hx).nodup_iff.mpr (h1.map hφ), by rw [(hperm x hx).length_eq, List.length_map]; exact h2⟩
  · exact st.nodup_iff.mpr (h.once.map sinj)
  · intro a b hab
    rw [st.mem_iff] at hab ⊢
    obtain ⟨⟨c, d⟩, hcd, e⟩ := List.mem_map.mp hab
    simp only [Prod.mk.injEq] at e
    exact List.mem_map.mpr ⟨(d, c), h.closed c d hcd, by simp [e.1, e.2]⟩
  · intro g hg a b c hab hbc p hp
    obtain ⟨x, hx, rfl⟩ := List.mem_map.mp hg
    obtain ⟨q, hq, rfl⟩ := (cor p).mp hp
    rw [(hsteps x hx).mem_iff] at hab hbc
    obtain ⟨⟨b', a'⟩, h1, e1⟩ := List.mem_map.mp hab
    obtain ⟨⟨c', b''⟩, h2, e2⟩ := List.mem_map.mp hbc
    simp only [Prod.mk.injEq] at e1 e2
    obtain ⟨rfl, rfl⟩ := e1
    obtain ⟨e2, rfl⟩ := e2
    have := hφ e2
    subst this
    obtain ⟨b1, b2⟩ := h.behind (F x) (List.mem_map.mpr ⟨x, hx, rfl⟩) c' b'' a' h2 h1 q hq
    have e : k * side a' b'' c' q = (-k) * side c' b'' a' q := by unfold side; ring
    rw [hs, e]
    refine ⟨mul_nonneg (by linarith) b1, ?_⟩
    rw [mul_eq_zero, or_iff_right (neg_ne_zero.mpr hk.ne), b2, mem x hx]
    constructor
    · intro hm; exact ⟨q, hm, rfl⟩
    · rintro ⟨q', hq', e⟩; rwa [hφ e]
  · intro g hg
    obtain ⟨x, hx, rfl⟩ := List.mem_map.mp hg
    obtain ⟨q, hq, hqf⟩ := h.solid (F x) (List.mem_map.mpr ⟨x, hx, rfl⟩)
    refine ⟨φ q, (cor _).mpr ⟨q, hq, rfl⟩, ?_⟩
    rw [mem x hx]
    rintro ⟨q', hq', e⟩
    exact hqf (by rwa [hφ e])
  · intro g hg g' hg' hne
    obtain ⟨x, hx, rfl⟩ := List.mem_map.mp hg
    obtain ⟨y, hy, rfl⟩ := List.mem_map.mp hg'
    obtain ⟨q, hq, hqf⟩ := h.apart (F x) (List.mem_map.mpr ⟨x, hx, rfl⟩) (F y) (List.mem_map.mpr ⟨y, hy, rfl⟩)
      (fun e => hne (by rw [hF x hx y hy e]))
    refine ⟨φ q, (mem x hx _).mpr ⟨q, hq, rfl⟩, ?_⟩
    rw [mem y hy]
    rintro ⟨q', hq', e⟩
    exact hqf (by rwa [hφ e])

theorem swap12_perm (face : Face) (h3 : 3 ≤ face.length) : (swap12 face).Perm face := by
  match face, h3 with
  | a :: b :: c :: l, _ =>
    show (a :: c :: b :: l).Perm _
    exact (List.Perm.swap b c l).cons a

theorem plane_swap12 (v : List Pt) (face : Face) (h3 : 3 ≤ face.length) : facePlane v (swap12 face) =
    ⟨v.getD (face.getD 0 0) 0, v.getD (face.getD 2 0) 0, v.getD (face.getD 1 0) 0⟩ := by
  match face, h3 with
  | a :: b :: c :: l, _ => rfl

open Brille.Props in
/-- the corners of a face of a mirrored polyhedron, brought into order, run round it the other way -/
theorem mirrored_face {v : List Pt} {faces : List Face} (h : ConvexSolid v faces) (φ : Pt → Pt) (k : ℚ) (hk : k < 0)
    (hs : ∀ a b c x, side (φ a) (φ b) (φ c) (φ x) = k * side a b c x) (rotated : List Pt)
    (hr : ∀ i, rotated.getD i 0 = φ (v.getD i 0)) (face : Face) (hf : face ∈ faces) :
    (sortFace (facePlane rotated (swap12 face)) (swap12 face) rotated).Perm face ∧
    (steps (sortFace (facePlane rotated (swap12 face)) (swap12 face) rotated)).Perm ((steps face).map Prod.swap) := by
  obtain ⟨hn, h3⟩ := (convex_surface h).simple face hf
  obtain ⟨c, hc⟩ := inner h.convex
  have hg : face.map (fun i => v.getD i 0) ∈ polygons v faces := List.mem_map.mpr ⟨face, hf, rfl⟩
  have hp := swap12_perm face h3
  set P := facePlane rotated (swap12 face) with hP
  have hor : ∀ q, P.orient (φ q) = -k * side (v.getD (face.getD 0 0) 0) (v.getD (face.getD 1 0) 0) (v.getD (face.getD 2 0) 0) q := by
    intro q
    rw [orient_eq, hP, plane_swap12 rotated face h3]
    rw [hr, hr, hr, hs, side_swap23]; ring
  obtain ⟨s1, s2⟩ := first_steps h face hf
  have hin : 0 < P.orient (φ c) := by
    rw [hor]; exact mul_pos (by linarith) (hc _ hg _ _ _ s1 s2)
  have hon : ∀ i ∈ face, P.orient (φ (v.getD i 0)) = 0 := by
    intro i hi
    rw [hor, ((h.convex.behind _ hg _ _ _ s1 s2 _ ⟨_, hg, List.mem_map.mpr ⟨i, hi, rfl⟩⟩).2).mpr (List.mem_map.mpr ⟨i, hi, rfl⟩), mul_zero]
  have hdot : ∀ x, P.orient x = dot P.normal P.a - dot P.normal x := by
    intro x
    simp only [Plane.orient, Plane.normal, orient3d, dot, Tetra.cross, diff, Matrix.cons_val_zero, Matrix.cons_val_one, Matrix.cons_val]
    ring
  have hnn : 0 < dot P.normal P.normal := by
    have h0 : P.normal 0 ≠ 0 ∨ P.normal 1 ≠ 0 ∨ P.normal 2 ≠ 0 := by
      by_contra hno
      push Not at hno
      rw [hdot] at hin
      simp [dot, hno.1, hno.2.1, hno.2.2] at hin
    unfold dot
    rcases h0 with h0 | h0 | h0
    · have := mul_self_pos.mpr h0; nlinarith [mul_self_nonneg (P.normal 1), mul_self_nonneg (P.normal 2)]
    · have := mul_self_pos.mpr h0; nlinarith [mul_self_nonneg (P.normal 0), mul_self_nonneg (P.normal 2)]
    · have := mul_self_pos.mpr h0; nlinarith [mul_self_nonneg (P.normal 0), mul_self_nonneg (P.normal 1)]
  have stp : ∀ y z, (z, y) ∈ steps face → (v.getD z 0, v.getD y 0) ∈ steps (face.map fun i => v.getD i 0) := by
    intro y z hz
    rw [steps_map]; exact List.mem_map.mpr ⟨_, hz, rfl⟩
  have left : ∀ y z, (z, y) ∈ steps face → ∀ w ∈ face, w ≠ y → w ≠ z →
      0 < turn P.normal (rotated.getD y 0) (rotated.getD z 0) (rotated.getD w 0) := by
    intro y z hz w hw wy wz
    obtain ⟨mz, my⟩ := mem_of_step face _ hz
    rw [hr, hr, hr]
    have e := normal_turn P (φ (v.getD y 0)) (φ (v.getD z 0)) (φ (v.getD w 0)) (φ c) (hon y my) (hon z mz) (hon w hw)
    have iv : ∀ i ∈ face, i < v.length := h.valid face hf
    have E := edge_side h.convex c hc hg (v.getD z 0) (v.getD y 0) (v.getD w 0) (stp y z hz) (List.mem_map.mpr ⟨w, hw, rfl⟩)
      (fun e => wz (getD_inj h.distinct (iv w hw) (iv z mz) e)) (fun e => wy (getD_inj h.distinct (iv w hw) (iv y my) e))
    have : 0 < dot P.normal P.normal * side (φ (v.getD y 0)) (φ (v.getD z 0)) (φ (v.getD w 0)) (φ c) := by
      refine mul_pos hnn ?_
      rw [hs, side_swap12]
      have := mul_pos (neg_pos.mpr hk) E
      linarith
    rw [e] at this
    exact (mul_pos_iff_of_pos_right hin).mp this
  obtain ⟨q1, q2⟩ := sortFace_convex P (swap12 face) rotated (hp.nodup_iff.mpr hn) (by rw [hp.length_eq]; exact h3)
    ⟨dot P.normal P.a, fun i hi => by
      have := hon i (hp.mem_iff.mp hi)
      rw [← hr, hdot] at this; linarith⟩
    (by
      intro y hy
      obtain ⟨z, hz⟩ := exists_prev face y (hp.mem_iff.mp hy)
      have hne : z ≠ y := by
        intro e; subst e
        exact swap_other face hn h3 _ hz hz
      exact ⟨z, hp.mem_iff.mpr (mem_of_step face _ hz).1, hne, fun w hw => left y z hz w (hp.mem_iff.mp hw)⟩)
  have q3 := q1.trans hp
  refine ⟨q3, ?_⟩
  have sn := q3.nodup_iff.mpr hn
  refine (List.subperm_of_subset (steps_nodup _ sn) ?_).perm_of_length_le ?_
  · rintro ⟨y, z⟩ hyz
    obtain ⟨my, mz⟩ := mem_of_step _ _ hyz
    have my := q3.mem_iff.mp my
    have mz := q3.mem_iff.mp mz
    have zy : z ≠ y := by
      intro e; subst e
      exact swap_other _ sn (by rw [q3.length_eq]; exact h3) _ hyz hyz
    obtain ⟨z', hz'⟩ := exists_prev face y my
    have zy' : z' ≠ y := by
      intro e; subst e
      exact swap_other face hn h3 _ hz' hz'
    have : z = z' := by
      by_contra hne
      have a1 := left y z' hz' z mz zy hne
      have a2 := q2 y z hyz z' (hp.mem_iff.mpr (mem_of_step face _ hz').1) zy' (Ne.symm hne)
      have : turn P.normal (rotated.getD y 0) (rotated.getD z 0) (rotated.getD z' 0) =
          - turn P.normal (rotated.getD y 0) (rotated.getD z' 0) (rotated.getD z 0) := by
        simp only [turn, dot, Tetra.cross, diff, Matrix.cons_val_zero, Matrix.cons_val_one, Matrix.cons_val]; ring
      linarith
    subst this
    exact List.mem_map.mpr ⟨_, hz', rfl⟩
  · rw [List.length_map, steps_length, steps_length, q3.length_eq]

/-! ### operations as linear maps -/

/-- the matrix of an operation in the Cartesian frame -/
noncomputable def opMatrix (B : Fin 3 → Pt) (r : Op) : Matrix (Fin 3) (Fin 3) ℚ :=
  (Matrix.of B).transpose * ((Matrix.of r).map (Int.cast : ℤ → ℚ)).transpose * (Matrix.of B).transpose⁻¹

theorem basis_det (B : Fin 3 → Pt) : dot (B 0) (cross (B 1) (B 2)) = (Matrix.of B).det := by
  rw [Matrix.det_fin_three]
  simp only [dot, Tetra.cross, Matrix.of_apply, Matrix.cons_val_zero, Matrix.cons_val_one, Matrix.cons_val]
  ring

theorem cartesian_eq (B : Fin 3 → Pt) (h : Pt) : cartesian B h = (Matrix.of B).transpose.mulVec h := by
  funext d
  simp only [cartesian, Matrix.mulVec, dotProduct, Fin.sum_univ_three, Matrix.transpose_apply, Matrix.of_apply]
  ring

theorem relative_eq (B : Fin 3 → Pt) (hB : (Matrix.of B).det ≠ 0) (x : Pt) : relative B x = (Matrix.of B).transpose⁻¹.mulVec x := by
  have hu : IsUnit (Matrix.of B).transpose.det := by rw [Matrix.det_transpose]; exact hB.isUnit
  have e : cartesian B (relative B x) = x := by
    rw [← basis_det] at hB
    funext d
    simp only [cartesian, relative, Matrix.cons_val_zero, Matrix.cons_val_one, Matrix.cons_val]
    field_simp
    simp only [dot, Tetra.cross, Matrix.cons_val_zero, Matrix.cons_val_one, Matrix.cons_val]
    fin_cases d <;> simp only [Fin.zero_eta, Fin.mk_one, Fin.reduceFinMk] <;> ring
  rw [cartesian_eq] at e
  conv_rhs => rw [← e]
  rw [Matrix.mulVec_mulVec, Matrix.nonsing_inv_mul _ hu, Matrix.one_mulVec]

theorem rotate_eq (B : Fin 3 → Pt) (hB : (Matrix.of B).det ≠ 0) (r : Op) (x : Pt) : rotate B r x = (opMatrix B r).mulVec x := by
  unfold rotate opMatrix
  rw [cartesian_eq, relative_eq B hB, ← Matrix.mulVec_mulVec, ← Matrix.mulVec_mulVec]
  congr 1
  funext i
  simp only [Matrix.mulVec, dotProduct, Fin.sum_univ_three, Matrix.transpose_apply, Matrix.map_apply, Matrix.of_apply]

theorem opMatrix_det (B : Fin 3 → Pt) (hB : (Matrix.of B).det ≠ 0) (r : Op) : (opMatrix B r).det = ((Matrix.of r).det : ℚ) := by
  have hu : IsUnit (Matrix.of B).transpose.det := by rw [Matrix.det_transpose]; exact hB.isUnit
  unfold opMatrix
  rw [Matrix.det_mul, Matrix.det_mul, mul_comm, ← mul_assoc, ← Matrix.det_mul, Matrix.nonsing_inv_mul _ hu, Matrix.det_one, one_mul,
    Matrix.det_transpose]
  exact (RingHom.map_det (Int.castRingHom ℚ) (Matrix.of r)).symm

theorem opMatrix_mul (B : Fin 3 → Pt) (hB : (Matrix.of B).det ≠ 0) (r s : Op) :
    opMatrix B r * opMatrix B s = opMatrix B (Matrix.of.symm (Matrix.of s * Matrix.of r)) := by
  have hu : IsUnit (Matrix.of B).transpose.det := by rw [Matrix.det_transpose]; exact hB.isUnit
  have e : ((Matrix.of (Matrix.of.symm (Matrix.of s * Matrix.of r))).map (Int.cast : ℤ → ℚ)).transpose =
      ((Matrix.of r).map (Int.cast : ℤ → ℚ)).transpose * ((Matrix.of s).map (Int.cast : ℤ → ℚ)).transpose := by
    rw [← Matrix.transpose_mul]
    congr 1
    exact Matrix.map_mul (L := Matrix.of s) (M := Matrix.of r) (f := Int.castRingHom ℚ)
  unfold opMatrix
  rw [e]
  simp only [Matrix.mul_assoc]
  rw [Matrix.nonsing_inv_mul_cancel_left _ _ hu]

theorem opMatrix_one (B : Fin 3 → Pt) (hB : (Matrix.of B).det ≠ 0) (r : Op) (hr : Matrix.of r = 1) : opMatrix B r = 1 := by
  have hu : IsUnit (Matrix.of B).transpose.det := by rw [Matrix.det_transpose]; exact hB.isUnit
  unfold opMatrix
  rw [hr]
  have : ((1 : Matrix (Fin 3) (Fin 3) ℤ).map (Int.cast : ℤ → ℚ)) = 1 := Matrix.map_one _ Int.cast_zero Int.cast_one
  rw [this, Matrix.transpose_one, Matrix.mul_one, Matrix.mul_nonsing_inv _ hu]

theorem opMatrix_neg (B : Fin 3 → Pt) (hB : (Matrix.of B).det ≠ 0) (r : Op) (hr : Matrix.of r = -1) : opMatrix B r = -1 := by
  have hu : IsUnit (Matrix.of B).transpose.det := by rw [Matrix.det_transpose]; exact hB.isUnit
  unfold opMatrix
  rw [hr]
  have : ((-1 : Matrix (Fin 3) (Fin 3) ℤ).map (Int.cast : ℤ → ℚ)) = -1 := by
    rw [Matrix.map_neg _ (fun a => Int.cast_neg a), Matrix.map_one _ Int.cast_zero Int.cast_one]
  rw [this, Matrix.transpose_neg, Matrix.transpose_one, Matrix.mul_neg, Matrix.mul_one, Matrix.neg_mul, Matrix.mul_nonsing_inv _ hu]

theorem side_mulVec {K : Type} [CommRing K] (M : Matrix (Fin 3) (Fin 3) K) (a b c x : Fin 3 → K) :
    side (M.mulVec a) (M.mulVec b) (M.mulVec c) (M.mulVec x) = M.det * side a b c x := by
  rw [Matrix.det_fin_three]
  simp only [side, Matrix.mulVec, dotProduct, Fin.sum_univ_three]
  ring

theorem triple_mulVec (M : Matrix (Fin 3) (Fin 3) ℚ) (a b c : Pt) :
    dot (M.mulVec a) (Tetra.cross (M.mulVec b) (M.mulVec c)) = M.det * dot a (Tetra.cross b c) := by
  rw [Matrix.det_fin_three]
  simp only [dot, Tetra.cross, Matrix.mulVec, dotProduct, Fin.sum_univ_three, Matrix.cons_val_zero, Matrix.cons_val_one, Matrix.cons_val]
  ring

theorem diff_mulVec (M : Matrix (Fin 3) (Fin 3) ℚ) (a b : Pt) : diff (M.mulVec a) (M.mulVec b) = M.mulVec (diff a b) := by
  have : ∀ u w : Pt, diff u w = u - w := fun u w => rfl
  rw [this, this, Matrix.mulVec_sub]

/-! ### the polyhedron after an operation -/

open Brille.Props in
/-- applying an operation to a convex polyhedron gives a convex polyhedron -/
theorem apply_convex (B : Fin 3 → Pt) (hB : (Matrix.of B).det ≠ 0) (r : Op) (hr : (Matrix.of r).det ≠ 0) (v : List Pt) (faces : List Face)
    (h : ConvexSolid v faces) : ConvexSolid (apply B r (v, faces)).1 (apply B r (v, faces)).2 := by
  set M := opMatrix B r with hM
  have hφ : rotate B r = M.mulVec := funext fun x => rotate_eq B hB r x
  have hdet : M.det = ((Matrix.of r).det : ℚ) := opMatrix_det B hB r
  have hd0 : M.det ≠ 0 := by rw [hdet]; exact_mod_cast hr
  have hinj : Function.Injective M.mulVec := Matrix.mulVec_injective_of_isUnit ((Matrix.isUnit_iff_isUnit_det M).mpr hd0.isUnit)
  have hs : ∀ a b c x, side (M.mulVec a) (M.mulVec b) (M.mulVec c) (M.mulVec x) = M.det * side a b c x := side_mulVec M
  have hg : ∀ i, (v.map M.mulVec).getD i 0 = M.mulVec (v.getD i 0) := by
    intro i
    rw [List.getD_eq_getElem?_getD, List.getElem?_map, List.getD_eq_getElem?_getD]
    cases v[i]? with
    | none => simp
    | some p => rfl
  have hnorm : ∀ f ∈ faces, 0 < dot (faceNormal v f) (faceNormal v f) := by
    intro f hf
    obtain ⟨c, hc⟩ := inner h.convex
    obtain ⟨s1, s2⟩ := first_steps h f hf
    have hp := hc _ (List.mem_map.mpr ⟨f, hf, rfl⟩) _ _ _ s1 s2
    have e : side (v.getD (f.getD 0 0) 0) (v.getD (f.getD 1 0) 0) (v.getD (f.getD 2 0) 0) c =
        dot (faceNormal v f) (diff (v.getD (f.getD 0 0) 0) c) := by
      simp only [faceNormal, dot, Tetra.cross, diff, side, Matrix.cons_val_zero, Matrix.cons_val_one, Matrix.cons_val]
      ring
    rw [e] at hp
    generalize faceNormal v f = n at hp
    have h0 : n 0 ≠ 0 ∨ n 1 ≠ 0 ∨ n 2 ≠ 0 := by
      by_contra hno
      push Not at hno
      simp [dot, hno.1, hno.2.1, hno.2.2] at hp
    unfold dot
    rcases h0 with h0 | h0 | h0
    · have := mul_self_pos.mpr h0; nlinarith [mul_self_nonneg (n 1), mul_self_nonneg (n 2)]
    · have := mul_self_pos.mpr h0; nlinarith [mul_self_nonneg (n 0), mul_self_nonneg (n 2)]
    · have := mul_self_pos.mpr h0; nlinarith [mul_self_nonneg (n 0), mul_self_nonneg (n 1)]
  have hsign : ∀ f, dot (M.mulVec (faceNormal v f)) (faceNormal (v.map M.mulVec) f) = M.det * dot (faceNormal v f) (faceNormal v f) := by
    intro f
    conv_lhs => arg 2; unfold faceNormal
    rw [hg, hg, hg, diff_mulVec, diff_mulVec, triple_mulVec]
    rfl
  have hpoly : ∀ L : List Face, polygons (v.map M.mulVec) L = (polygons v L).map (List.map M.mulVec) := by
    intro L
    unfold polygons
    rw [List.map_map]
    refine List.map_congr_left fun f _ => ?_
    rw [Function.comp, List.map_map]
    exact List.map_congr_left fun i _ => hg i
  have hnd : (v.map M.mulVec).Nodup := h.distinct.map hinj
  rcases lt_or_gt_of_ne hd0 with hneg | hpos
  · have key : ∀ f ∈ faces, applyFace B r v (v.map M.mulVec) f =
        sortFace (facePlane (v.map M.mulVec) (swap12 f)) (swap12 f) (v.map M.mulVec) := by
      intro f hf
      unfold applyFace
      simp only [hφ]
      rw [if_pos]
      rw [hsign]
      exact mul_neg_of_neg_of_pos hneg (hnorm f hf)
    have hperm := fun f hf => mirrored_face h M.mulVec M.det hneg hs (v.map M.mulVec) hg f hf
    have e : apply B r (v, faces) = (v.map M.mulVec, faces.map (applyFace B r v (v.map M.mulVec))) := by
      unfold apply; simp only [hφ]
    rw [e]
    refine ⟨hnd, ?_, ?_, ?_⟩
    · intro g hg' i hi
      obtain ⟨f, hf, rfl⟩ := List.mem_map.mp hg'
      rw [key f hf, (hperm f hf).1.mem_iff] at hi
      rw [List.length_map]; exact h.valid f hf i hi
    · intro i hi
      simp only [List.length_map] at hi
      obtain ⟨f, hf, hif⟩ := h.used i hi
      exact ⟨_, List.mem_map.mpr ⟨f, hf, rfl⟩, by rw [key f hf, (hperm f hf).1.mem_iff]; exact hif⟩
    · have := convex_mirror faces (fun f => f.map fun i => v.getD i 0)
        (fun f => (applyFace B r v (v.map M.mulVec) f).map fun i => (v.map M.mulVec).getD i 0) M.mulVec hinj M.det hneg hs ?_ ?_ ?_ h.convex
      · unfold polygons
        rw [List.map_map]
        exact this
      · intro x hx y hy e
        have hl : x.length = y.length := by simpa using congrArg List.length e
        refine List.ext_getElem hl fun i h1 h2 => ?_
        have := congrArg (fun l => l[i]?) e
        simp only [List.getElem?_map, List.getElem?_eq_getElem h1, List.getElem?_eq_getElem h2, Option.map_some, Option.some.injEq] at this
        exact getD_inj h.distinct (h.valid x hx _ (List.getElem_mem _)) (h.valid y hy _ (List.getElem_mem _)) this
      · intro f hf
        rw [key f hf]
        refine ((hperm f hf).1.map _).trans ?_
        rw [List.map_map]
        exact List.Perm.of_eq (List.map_congr_left fun i _ => hg i)
      · intro f hf
        rw [key f hf, steps_map, steps_map, List.map_map]
        refine ((hperm f hf).2.map _).trans ?_
        rw [List.map_map]
        refine List.Perm.of_eq (List.map_congr_left fun e _ => ?_)
        simp only [Function.comp, Prod.map, Prod.swap, hg]
  · have key : ∀ f ∈ faces, applyFace B r v (v.map M.mulVec) f = f := by
      intro f hf
      unfold applyFace
      simp only [hφ]
      rw [if_neg]
      rw [hsign]
      exact not_lt.mpr (mul_pos hpos (hnorm f hf)).le
    have e : apply B r (v, faces) = (v.map M.mulVec, faces) := by
      unfold apply; simp only [hφ]
      rw [List.map_congr_left key, List.map_id']
    rw [e]
    refine ⟨hnd, ?_, ?_, ?_⟩
    · intro f hf i hi
      rw [List.length_map]; exact h.valid f hf i hi
    · intro i hi
      simp only [List.length_map] at hi
      exact h.used i hi
    · rw [hpoly]
      exact convex_map M.mulVec hinj M.det hpos hs _ h.convex

end Brille.Convex
