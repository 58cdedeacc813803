/- The polygons of the points in the bounding planes are the faces of a convex polyhedron. -/
import Verif.Proofs.HullPlanes

namespace Brille.HullOf

open Brille.Spec Brille.Tetra Brille.Faces Brille.Cut Brille.SortFace Brille.Convex Brille.Props

/-- the points in a plane as a polygon around which one turns left -/
structure Polygon (pts : List Pt) (P : Plane) (g : List Pt) : Prop where
  nodup : g.Nodup
  three : 3 ≤ g.length
  mem : ∀ p, p ∈ g ↔ p ∈ pts ∧ P.orient p = 0
  left : ∀ y z, (y, z) ∈ steps g → ∀ w ∈ g, w ≠ y → w ≠ z → 0 < turn P.normal y z w

theorem third {α : Type} [DecidableEq α] (g : List α) (hn : g.Nodup) (h3 : 3 ≤ g.length) (y z : α) : ∃ w ∈ g, w ≠ y ∧ w ≠ z := by
  by_contra hcon
  push Not at hcon
  have : g ⊆ [y, z] := by
    intro w hw
    by_cases e : w = y
    · simp [e]
    · simp [hcon w hw e]
  have := (List.subperm_of_subset hn this).length_le
  simp at this; omega

theorem Polygon.ne {pts : List Pt} {P : Plane} {g : List Pt} (h : Polygon pts P g) {y z : Pt} (he : (y, z) ∈ steps g) : y ≠ z := by
  rintro rfl
  obtain ⟨w, hw, h1, h2⟩ := third g h.nodup h.three y y
  have := h.left y y he w hw h1 h2
  have e : turn P.normal y y w = 0 := by
    simp only [turn, dot, Tetra.cross, diff, Matrix.cons_val_zero, Matrix.cons_val_one, Matrix.cons_val]; ring
  linarith

section

variable {pts : List Pt} {planes : List Plane} (h : FacePlanes pts planes)
include h

/-- two of the planes that share three points off a line are the same -/
theorem same_plane {P Q : Plane} (hP : P ∈ planes) (hQ : Q ∈ planes) (y z w : Pt) (hy : P.orient y = 0) (hz : P.orient z = 0)
    (hw : P.orient w = 0) (hy' : Q.orient y = 0) (hz' : Q.orient z = 0) (hw' : Q.orient w = 0) (ht : turn P.normal y z w ≠ 0) : P = Q := by
  by_contra hne
  have bP := h.bounding P hP
  have bQ := h.bounding Q hQ
  have nP := dot_self_pos bP.normal
  have nQ := dot_self_pos bQ.normal
  have tP := fun q => normal_turn P y z w q hy hz hw
  have tQ := fun q => normal_turn Q y z w q hy' hz' hw'
  set A := dot P.normal P.normal
  set B := dot Q.normal Q.normal
  set s := turn P.normal y z w
  set t := turn Q.normal y z w
  have e : ∀ q, B * s * P.orient q = A * t * Q.orient q := by
    intro q
    linear_combination A * tQ q - B * tP q
  obtain ⟨q, hq, hq0⟩ := bP.off
  have hq1 := bQ.behind q hq
  have eq := e q
  have hl : B * s * P.orient q ≠ 0 := mul_ne_zero (mul_ne_zero nQ.ne' ht) hq0.ne'
  have hq2 : 0 < Q.orient q := by
    refine lt_of_le_of_ne hq1 fun e' => hl ?_
    rw [eq, ← e', mul_zero]
  have ht' : t ≠ 0 := by
    intro e'; apply hl; rw [eq, e']; ring
  have hst : 0 < s * t := by
    by_contra hc
    have h1 : s * t < 0 := lt_of_le_of_ne (not_lt.mp hc) (mul_ne_zero ht ht')
    have h2 : B * s * P.orient q * t = A * t * Q.orient q * t := by rw [eq]
    have h3 : 0 < A * Q.orient q * (t * t) := mul_pos (mul_pos nP hq2) (mul_self_pos.mpr ht')
    have h4 : 0 < B * P.orient q * -(s * t) := mul_pos (mul_pos nQ hq0) (by linarith)
    nlinarith
  have hn : ∀ d, Q.normal d = (B * s / (A * t)) * P.normal d := by
    have hAt : A * t ≠ 0 := mul_ne_zero nP.ne' ht'
    have key : ∀ d, A * t * Q.normal d = B * s * P.normal d := by
      have g := fun x x' => show B * s * (P.orient x - P.orient x') = A * t * (Q.orient x - Q.orient x') by linear_combination e x - e x'
      intro d
      have := g 0 (fun i => if i = d then 1 else 0)
      simp only [orient_dot, dot, diff] at this
      fin_cases d <;> simp at this ⊢ <;> linarith
    intro d
    have := key d
    field_simp
    linarith
  have hk : 0 < B * s / (A * t) := by
    have : B * s / (A * t) = B * (s * t) / (A * (t * t)) := by field_simp
    rw [this]
    exact div_pos (mul_pos nQ hst) (mul_pos nP (mul_self_pos.mpr ht'))
  have hs : sameDirection P.normal Q.normal = true := (sameDirection_iff _ _).mpr ⟨bP.normal, _, hk, funext hn⟩
  have hsym : Std.Symm fun P Q : Plane => sameDirection Q.normal P.normal = false := ⟨by
    intro P Q e
    rw [Bool.eq_false_iff] at e ⊢
    exact fun e' => e (sameDirection_symm _ _ e')⟩
  have := h.apart.forall hP hQ hne
  rw [sameDirection_symm _ _ hs] at this
  cases this

variable {g : Plane → List Pt} (hg : ∀ P ∈ planes, Polygon pts P (g P))
include hg

omit h in
theorem step_turn {P : Plane} (hP : P ∈ planes) (y z : Pt) (he : (y, z) ∈ steps (g P)) : ∃ w ∈ g P, w ≠ y ∧ w ≠ z ∧ 0 < turn P.normal y z w := by
  have hp := hg P hP
  obtain ⟨w, hw, h1, h2⟩ := third (g P) hp.nodup hp.three y z
  exact ⟨w, hw, h1, h2, hp.left y z he w hw h1 h2⟩

/-- across an edge there is another face, with a corner off the first -/
theorem across_edge {P : Plane} (hP : P ∈ planes) (a b : Pt) (he : (a, b) ∈ steps (g P)) :
    ∃ Q ∈ planes, (b, a) ∈ steps (g Q) ∧ ∃ p ∈ g Q, 0 < P.orient p := by
  have hp := hg P hP
  have bP := h.bounding P hP
  obtain ⟨w, hw, hwa, hwb, ht⟩ := step_turn hg hP a b he
  obtain ⟨ma, mb⟩ := mem_of_step _ _ he
  simp only at ma mb
  obtain ⟨pa, oa⟩ := (hp.mem a).mp ma
  obtain ⟨pb, ob⟩ := (hp.mem b).mp mb
  obtain ⟨pw, ow⟩ := (hp.mem w).mp hw
  have hab := hp.ne he
  have L0 : ∀ q, P.orient q = - dot P.normal (diff q a) := by
    intro q
    rw [orient_dot] at oa ⊢
    simp only [dot, diff] at oa ⊢
    linarith
  have M0 : ∀ q, turn P.normal a b q = dot (cross P.normal (diff b a)) (diff q a) := by
    intro q
    simp only [turn, dot, Tetra.cross, diff, Matrix.cons_val_zero, Matrix.cons_val_one, Matrix.cons_val]; ring
  obtain ⟨t, p, hpp, p1, p2, p3⟩ := tilt pts P.orient (turn P.normal a b) bP.behind (by
    intro q hq e
    by_cases e1 : q = a
    · rw [e1, turn_self]
    · by_cases e2 : q = b
      · rw [e2, turn_self']
      · exact (hp.left a b he q ((hp.mem q).mpr ⟨hq, e⟩) e1 e2).le) bP.off
  set n := P.normal with hn
  set m : Pt := fun d => cross n (diff b a) d + t * n d with hm
  have dm : ∀ q, dot m (diff q a) = turn n a b q - t * P.orient q := by
    intro q; rw [L0, M0, hm]; simp only [dot]; ring
  have db : dot m (diff b a) = 0 := by rw [dm, turn_self', ob]; ring
  have dp : dot m (diff p a) = 0 := by rw [dm, p2]; ring
  have u0 : diff b a ≠ 0 := by
    intro e; apply hab; funext d
    have := congrFun e d; simp only [diff, Pi.zero_apply] at this; linarith
  have uu := dot_self_pos u0
  have hcol : cross (diff b a) (diff p a) ≠ 0 := by
    intro e
    have := parallel e
    have e' : dot (diff b a) (diff b a) * dot n (diff p a) = dot (diff b a) (diff p a) * dot n (diff b a) := by
      have t0 := this 0
      have t1 := this 1
      have t2 := this 2
      generalize dot (diff b a) (diff b a) = A at *
      generalize dot (diff b a) (diff p a) = B at *
      simp only [dot]
      linear_combination n 0 * t0 + n 1 * t1 + n 2 * t2
    have z : dot n (diff b a) = 0 := by have := L0 b; rw [ob] at this; linarith
    rw [z, mul_zero] at e'
    rcases mul_eq_zero.mp e' with e' | e'
    · exact uu.ne' e'
    · have := L0 p; rw [e'] at this; linarith
  obtain ⟨Q, hQ, k, hk, eQ⟩ := h.of_normal m a b p pa pb hpp db dp hcol (fun q hq => by rw [dm]; exact p3 q hq)
    ⟨w, pw, by rw [dm, ow]; linarith⟩
  have hq := hg Q hQ
  have bQ := h.bounding Q hQ
  have inQ : ∀ q, q ∈ g Q ↔ q ∈ pts ∧ turn n a b q = t * P.orient q := by
    intro q
    rw [hq.mem, eQ, dm]
    constructor
    · rintro ⟨h1, h2⟩
      exact ⟨h1, by have := (mul_eq_zero.mp h2).resolve_left hk.ne'; linarith⟩
    · rintro ⟨h1, h2⟩
      exact ⟨h1, by rw [h2]; ring⟩
  have aQ : a ∈ g Q := (inQ a).mpr ⟨pa, by rw [turn_self, oa]; ring⟩
  have bQ' : b ∈ g Q := (inQ b).mpr ⟨pb, by rw [turn_self', ob]; ring⟩
  have pQ : p ∈ g Q := (inQ p).mpr ⟨hpp, p2⟩
  refine ⟨Q, hQ, ?_, p, pQ, p1⟩
  obtain ⟨c, hc⟩ := exists_next _ b bQ'
  by_cases hca : c = a
  · rw [← hca]; exact hc
  exfalso
  have hcb : b ≠ c := hq.ne hc
  have T := hq.left b c hc a aQ hab (Ne.symm hca)
  obtain ⟨pc, ec⟩ := (inQ c).mp (mem_of_step _ _ hc).2
  have Lc : 0 < P.orient c := by
    refine lt_of_le_of_ne (bP.behind c pc) fun e => ?_
    rw [← e, mul_zero] at ec
    have := hp.left a b he c ((hp.mem c).mpr ⟨pc, e.symm⟩) hca (Ne.symm hcb)
    linarith
  -- the normal of the other plane
  have hnQ : ∀ d, Q.normal d = - k * m d := by
    have g' := fun x x' => show Q.orient x - Q.orient x' = k * (dot m (diff x a) - dot m (diff x' a)) by rw [eQ, eQ]; ring
    intro d
    have := g' 0 (fun i => if i = d then 1 else 0)
    simp only [orient_dot, dot, diff] at this
    fin_cases d <;> simp at this ⊢ <;> linarith
  have e1 : turn Q.normal b c a = - k * dot m (cross (diff b a) (diff c a)) := by
    simp only [turn, dot, hnQ]
    simp only [Tetra.cross, diff, Matrix.cons_val_zero, Matrix.cons_val_one, Matrix.cons_val]
    ring
  have e2 : dot m (cross (diff b a) (diff c a)) = P.orient c * dot (diff b a) (diff b a) + t * turn n a b c := by
    have z : dot n (diff b a) = 0 := by have := L0 b; rw [ob] at this; linarith
    rw [L0]
    simp only [hm, turn]
    generalize diff b a = u at *
    generalize diff c a = v at *
    simp only [dot, Tetra.cross, Matrix.cons_val_zero, Matrix.cons_val_one, Matrix.cons_val] at z ⊢
    linear_combination (u 0 * v 0 + u 1 * v 1 + u 2 * v 2) * z
  rw [e1, e2, ec] at T
  have : 0 < P.orient c * dot (diff b a) (diff b a) := mul_pos Lc uu
  have : 0 ≤ t * (t * P.orient c) := by nlinarith [mul_self_nonneg t]
  nlinarith

omit h in
theorem corner_pts (p : Pt) (hp : IsCorner (planes.map g) p) : p ∈ pts := by
  obtain ⟨f, hf, hpf⟩ := hp
  obtain ⟨P, hP, rfl⟩ := List.mem_map.mp hf
  exact (((hg P hP).mem p).mp hpf).1

theorem hull_polyhedron : ConvexPolyhedron (planes.map g) where
  simple := by
    intro f hf
    obtain ⟨P, hP, rfl⟩ := List.mem_map.mp hf
    exact ⟨(hg P hP).nodup, (hg P hP).three⟩
  once := by
    rw [List.flatMap_map, List.nodup_flatMap]
    refine ⟨?_, ?_⟩
    · intro P hP
      refine List.Nodup.of_map Prod.fst ?_
      rw [steps, List.map_fst_zip (by simp)]
      exact (hg P hP).nodup
    · refine h.apart.imp_of_mem ?_
      intro P Q hP hQ hd
      rintro ⟨a, b⟩ h1 h2
      have hp := hg P hP
      have hq := hg Q hQ
      obtain ⟨w, hw, _, _, tw⟩ := step_turn hg hP a b h1
      obtain ⟨x, hx, _, _, tx⟩ := step_turn hg hQ a b h2
      have oP := fun y (hy : y ∈ g P) => ((hp.mem y).mp hy).2
      have oQ := fun y (hy : y ∈ g Q) => ((hq.mem y).mp hy).2
      have n1 := normal_turn P a b w x (oP _ (mem_of_step _ _ h1).1) (oP _ (mem_of_step _ _ h1).2) (oP w hw)
      have n2 := normal_turn Q a b x w (oQ _ (mem_of_step _ _ h2).1) (oQ _ (mem_of_step _ _ h2).2) (oQ x hx)
      have b1 := (h.bounding P hP).behind x ((hq.mem x).mp hx).1
      have b2 := (h.bounding Q hQ).behind w ((hp.mem w).mp hw).1
      have c1 := dot_self_pos (h.bounding P hP).normal
      have c2 := dot_self_pos (h.bounding Q hQ).normal
      rw [side_swap34] at n2
      have d1 : 0 ≤ side a b w x := by
        by_contra hc
        have := mul_neg_of_pos_of_neg c1 (not_le.mp hc)
        have := mul_nonneg tw.le b1
        linarith
      have d2 : side a b w x ≤ 0 := by
        by_contra hc
        have := mul_pos c2 (not_le.mp hc)
        have := mul_nonneg tx.le b2
        linarith
      have d3 : Q.orient w = 0 := by
        have : side a b w x = 0 := le_antisymm d2 d1
        rw [this] at n2
        have : turn Q.normal a b x * Q.orient w = 0 := by linarith
        exact (mul_eq_zero.mp this).resolve_left tx.ne'
      have := same_plane h hP hQ a b w (oP _ (mem_of_step _ _ h1).1) (oP _ (mem_of_step _ _ h1).2) (oP w hw)
        (oQ _ (mem_of_step _ _ h2).1) (oQ _ (mem_of_step _ _ h2).2) d3 tw.ne'
      subst this
      have : sameDirection P.normal P.normal = true := (sameDirection_iff _ _).mpr ⟨(h.bounding P hP).normal, 1, one_pos, by simp⟩
      rw [this] at hd
      cases hd
  closed := by
    intro a b he
    rw [List.flatMap_map, List.mem_flatMap] at he ⊢
    obtain ⟨P, hP, he⟩ := he
    obtain ⟨Q, hQ, hq, _⟩ := across_edge h hg hP a b he
    exact ⟨Q, hQ, hq⟩
  behind := by
    intro f hf a b c hab hbc p hp
    obtain ⟨P, hP, rfl⟩ := List.mem_map.mp hf
    have hpts := corner_pts hg p hp
    have hp := hg P hP
    have hac : c ≠ a := by
      rintro rfl
      have := (Convex.swap_other _ hp.nodup hp.three _ hab)
      exact this hbc
    have hcb := (hp.ne hbc).symm
    have t := hp.left a b hab c (mem_of_step _ _ hbc).2 hac hcb
    have oP := fun y (hy : y ∈ g P) => ((hp.mem y).mp hy).2
    have n1 := normal_turn P a b c p (oP _ (mem_of_step _ _ hab).1) (oP _ (mem_of_step _ _ hab).2) (oP _ (mem_of_step _ _ hbc).2)
    have c1 := dot_self_pos (h.bounding P hP).normal
    have b1 := (h.bounding P hP).behind p hpts
    constructor
    · by_contra hc
      have := mul_neg_of_pos_of_neg c1 (not_le.mp hc)
      have := mul_nonneg t.le b1
      linarith
    · rw [hp.mem]
      constructor
      · intro e
        rw [e, mul_zero] at n1
        exact ⟨hpts, (mul_eq_zero.mp n1.symm).resolve_left t.ne'⟩
      · rintro ⟨_, e⟩
        rw [e, mul_zero] at n1
        exact (mul_eq_zero.mp n1).resolve_left c1.ne'
  solid := by
    intro f hf
    obtain ⟨P, hP, rfl⟩ := List.mem_map.mp hf
    have hp := hg P hP
    obtain ⟨a, ha⟩ := List.exists_mem_of_length_pos (lt_of_lt_of_le (by norm_num) hp.three)
    obtain ⟨b, hb⟩ := exists_next _ a ha
    obtain ⟨Q, hQ, _, p, hpQ, hpos⟩ := across_edge h hg hP a b hb
    refine ⟨p, ⟨g Q, List.mem_map.mpr ⟨Q, hQ, rfl⟩, hpQ⟩, fun hc => ?_⟩
    have := ((hp.mem p).mp hc).2
    linarith
  apart := by
    intro f hf f' hf' hne
    obtain ⟨P, hP, rfl⟩ := List.mem_map.mp hf
    obtain ⟨Q, hQ, rfl⟩ := List.mem_map.mp hf'
    by_contra hcon
    push Not at hcon
    have hp := hg P hP
    obtain ⟨a, ha⟩ := List.exists_mem_of_length_pos (lt_of_lt_of_le (by norm_num) hp.three)
    obtain ⟨b, hb⟩ := exists_next _ a ha
    obtain ⟨w, hw, _, _, tw⟩ := step_turn hg hP a b hb
    have oP := fun y (hy : y ∈ g P) => ((hp.mem y).mp hy).2
    have oQ := fun y (hy : y ∈ g P) => (((hg Q hQ).mem y).mp (hcon y hy)).2
    have hb' := (mem_of_step _ _ hb).2
    exact hne (congrArg g (same_plane h hP hQ a b w (oP a ha) (oP b hb') (oP w hw) (oQ a ha) (oQ b hb') (oQ w hw) tw.ne'))

/-- points behind all planes are in the solid -/
theorem behind_hull (hne : planes ≠ []) (p : Pt) (hp : ∀ P ∈ planes, 0 ≤ P.orient p) : real p ∈ Hull (IsCorner (planes.map g)) := by
  rw [solid_iff _ (hull_polyhedron h hg) (by simpa using hne)]
  intro f hf a b c hab hbc
  obtain ⟨P, hP, rfl⟩ := List.mem_map.mp hf
  have hp' := hg P hP
  have hac : c ≠ a := by
    rintro rfl
    exact (Convex.swap_other _ hp'.nodup hp'.three _ hab) hbc
  have t := hp'.left a b hab c (mem_of_step _ _ hbc).2 hac (hp'.ne hbc).symm
  have oP := fun y (hy : y ∈ g P) => ((hp'.mem y).mp hy).2
  have n1 := normal_turn P a b c p (oP _ (mem_of_step _ _ hab).1) (oP _ (mem_of_step _ _ hab).2) (oP _ (mem_of_step _ _ hbc).2)
  have c1 := dot_self_pos (h.bounding P hP).normal
  have b1 := hp P hP
  rw [side_real]
  have : 0 ≤ side a b c p := by
    by_contra hc
    have := mul_neg_of_pos_of_neg c1 (not_le.mp hc)
    have := mul_nonneg t.le b1
    linarith
  exact_mod_cast this

end

end Brille.HullOf
