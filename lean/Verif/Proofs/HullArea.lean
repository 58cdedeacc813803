/- A polygon of points in convex position has an area, as the code decides it. -/
import Verif.Proofs.HullConvex

namespace Brille.HullOf

open Brille.Spec Brille.Tetra Brille.Faces Brille.Cut Brille.SortFace Brille.Convex Brille.Props

theorem flat_iff (xx : ℚ) (hx : 0 < xx) (b c : ℚ × ℚ) : flat xx b c = true ↔
    ((b.2 : ℝ) - c.2) * Real.sqrt xx + (b.1 * c.2 - b.2 * c.1) = 0 := by
  have hr : 0 < Real.sqrt xx := Real.sqrt_pos.mpr (by exact_mod_cast hx)
  have hr2 : Real.sqrt xx * Real.sqrt xx = xx := Real.mul_self_sqrt (by exact_mod_cast hx.le)
  unfold flat
  rw [decide_eq_true_eq]
  unfold det2
  set r := Real.sqrt xx
  obtain ⟨b1, b2⟩ := b
  obtain ⟨c1, c2⟩ := c
  simp only
  have cast : ((b2 - c2) * (b2 - c2) * xx = (b1 * c2 - b2 * c1) * (b1 * c2 - b2 * c1) ∧ (b2 - c2) * (b1 * c2 - b2 * c1) ≤ 0) ↔
      (((b2 : ℝ) - c2) * (b2 - c2) * xx = (b1 * c2 - b2 * c1) * (b1 * c2 - b2 * c1) ∧ ((b2 : ℝ) - c2) * (b1 * c2 - b2 * c1) ≤ 0) := by
    constructor
    · rintro ⟨h1, h2⟩
      exact ⟨by exact_mod_cast h1, by exact_mod_cast h2⟩
    · rintro ⟨h1, h2⟩
      exact ⟨by exact_mod_cast h1, by exact_mod_cast h2⟩
  rw [cast]
  set P : ℝ := (b2 : ℝ) - c2
  set Q : ℝ := (b1 : ℝ) * c2 - b2 * c1
  constructor
  · rintro ⟨h1, h2⟩
    have e : (P * r + Q) * (P * r - Q) = 0 := by linear_combination P * P * hr2 + h1
    rcases mul_eq_zero.mp e with e | e
    · exact e
    · have : Q = P * r := by linarith
      rw [this] at h2 ⊢
      have h3 : P * P * r ≤ 0 := by linarith
      have h4 : P * P = 0 := by
        have h5 := mul_self_nonneg P
        by_contra hne
        have := mul_pos (lt_of_le_of_ne h5 (Ne.symm hne)) hr
        linarith
      rw [mul_self_eq_zero.mp h4]; ring
  · intro h
    have e : Q = - (P * r) := by linarith
    rw [e]
    constructor
    · linear_combination - P * P * hr2
    · nlinarith [mul_nonneg (mul_self_nonneg P) hr.le]

theorem centre_flat {n : Pt} {l : List Pt} (hne : l ≠ []) (hflat : ∀ p ∈ l, ∀ q ∈ l, dot n (diff p q) = 0) (p : Pt) (hp : p ∈ l) :
    dot n (diff p (centre l)) = 0 := by
  have e := centre_affine l hne (n 0) (n 1) (n 2) (-(n 0 * p 0 + n 1 * p 1 + n 2 * p 2))
  have z : (l.map fun x : Pt => n 0 * x 0 + n 1 * x 1 + n 2 * x 2 + -(n 0 * p 0 + n 1 * p 1 + n 2 * p 2)).sum = 0 := by
    apply List.sum_eq_zero
    intro x hx
    obtain ⟨q, hq, rfl⟩ := List.mem_map.mp hx
    have := hflat q hq p hp
    simp only [dot, diff] at this
    linarith
  rw [z] at e
  have hlen : (l.length : ℚ) ≠ 0 := by
    have := List.length_pos_of_ne_nil hne
    exact_mod_cast this.ne'
  have := (mul_eq_zero.mp e).resolve_left hlen
  simp only [dot, diff]
  linarith

/-- three points in line with a fourth -/
theorem flat_flat (r : ℝ) (k1 k2 k3 : ℝ × ℝ) (h : k2.2 ≠ 0 ∨ k2.1 ≠ r)
    (h1 : (k1.2 - k2.2) * r + (k1.1 * k2.2 - k1.2 * k2.1) = 0) (h2 : (k2.2 - k3.2) * r + (k2.1 * k3.2 - k2.2 * k3.1) = 0) :
    (k1.1 * k2.2 - k1.2 * k2.1) + (k2.1 * k3.2 - k2.2 * k3.1) + (k3.1 * k1.2 - k3.2 * k1.1) = 0 := by
  obtain ⟨a1, a2⟩ := k1
  obtain ⟨b1, b2⟩ := k2
  obtain ⟨c1, c2⟩ := k3
  simp only at *
  -- the three vectors from (r, 0)
  have d : (a1 - r) * c2 - a2 * (c1 - r) = 0 := by
    rcases h with h | h
    · have : b2 * ((a1 - r) * c2 - a2 * (c1 - r)) = 0 := by linear_combination a2 * h2 + c2 * h1
      exact (mul_eq_zero.mp this).resolve_left h
    · have : (b1 - r) * ((a1 - r) * c2 - a2 * (c1 - r)) = 0 := by linear_combination (a1 - r) * h2 + (c1 - r) * h1
      exact (mul_eq_zero.mp this).resolve_left (sub_ne_zero.mpr h)
  linear_combination h1 + h2 - d

theorem has_area {n : Pt} {l : List Pt} (hn : n ≠ 0) (hflat : ∀ p ∈ l, ∀ q ∈ l, dot n (diff p q) = 0) (hE : Extreme l) (hl : l.Nodup)
    (h3 : 3 ≤ l.length) : faceHasArea l = true := by
  obtain ⟨p0, p1, p2, l', rfl⟩ : ∃ p0 p1 p2 l', l = p0 :: p1 :: p2 :: l' := by
    match l, h3 with
    | p0 :: p1 :: p2 :: l', _ => exact ⟨p0, p1, p2, l', rfl⟩
  set l := p0 :: p1 :: p2 :: l' with hL
  have m0 : p0 ∈ l := by simp [hL]
  have m1 : p1 ∈ l := by simp [hL]
  have m2 : p2 ∈ l := by simp [hL]
  have n01 : p0 ≠ p1 := by rintro rfl; simp [hL] at hl
  have n02 : p0 ≠ p2 := by rintro rfl; simp [hL] at hl
  have n12 : p1 ≠ p2 := by rintro rfl; simp [hL] at hl
  have hne : l ≠ [] := List.ne_nil_of_mem m0
  set c := centre l with hc
  -- the normal
  set z := cross (diff (diff p1 c) (diff p0 c)) (diff (diff p2 c) (diff p1 c)) with hz
  have ez : z = cross (diff p1 p0) (diff p2 p0) := by
    rw [hz]
    funext d
    fin_cases d <;> simp only [Tetra.cross, diff, Matrix.cons_val_zero, Matrix.cons_val_one, Matrix.cons_val, Fin.zero_eta, Fin.mk_one, Fin.reduceFinMk, Fin.isValue] <;> ring
  have z0 : z ≠ 0 := by
    intro e
    rw [ez] at e
    apply turn_ne hn hflat hE p0 p1 p2 m0 m1 m2 n01.symm n02.symm n12
    unfold turn
    rw [e]; simp [dot]
  have zflat : ∀ p ∈ l, ∀ q ∈ l, dot z (diff p q) = 0 := by
    intro p hp q hq
    rw [ez]
    have a1 := hflat p1 m1 p0 m0
    have a2 := hflat p2 m2 p0 m0
    have a3 := hflat p hp q hq
    generalize diff p1 p0 = u at *
    generalize diff p2 p0 = v at *
    generalize diff p q = w at *
    have hnn := dot_self_pos hn
    have : dot n n * dot (cross u v) w = 0 := by
      simp only [dot, Tetra.cross, Matrix.cons_val_zero, Matrix.cons_val_one, Matrix.cons_val] at a1 a2 a3 ⊢
      linear_combination (n 0 * (v 1 * w 2 - v 2 * w 1) + n 1 * (v 2 * w 0 - v 0 * w 2) + n 2 * (v 0 * w 1 - v 1 * w 0)) * a1 +
        (n 0 * (w 1 * u 2 - w 2 * u 1) + n 1 * (w 2 * u 0 - w 0 * u 2) + n 2 * (w 0 * u 1 - w 1 * u 0)) * a2 +
        (n 0 * (u 1 * v 2 - u 2 * v 1) + n 1 * (u 2 * v 0 - u 0 * v 2) + n 2 * (u 0 * v 1 - u 1 * v 0)) * a3
    exact (mul_eq_zero.mp this).resolve_left hnn.ne'
  have next := fun y hy => next_centre z0 zflat hE hl h3 y hy
  have cflat := fun p hp => centre_flat hne zflat p hp
  set x := diff p0 c with hx
  have x0 : x ≠ 0 := by
    intro e
    obtain ⟨w, _, _, h, _⟩ := next p0 m0
    rw [← hc, ← hx, e] at h
    simp only [dot, Tetra.cross, Pi.zero_apply, Matrix.cons_val_zero, Matrix.cons_val_one, Matrix.cons_val] at h
    linarith
  have xx := dot_self_pos x0
  have zx : dot z x = 0 := cflat p0 m0
  set y := cross z x with hy
  set k : Pt → ℚ × ℚ := fun p => (dot (diff p c) x, dot (diff p c) y) with hk
  have kon : ∀ p ∈ l, onPlane z x (diff p c) = k p := by
    intro p hp
    unfold onPlane
    rw [planar_eq z _ (cflat p hp)]
  have karea : ∀ a ∈ l, ∀ b ∈ l, ∀ w ∈ l, area (k a) (k b) (k w) = dot x x * turn z a b w := by
    intro a ha b hb w hw
    rw [← kon a ha, ← kon b hb, ← kon w hw]
    exact turn_area z x c a b w zx (cflat a ha) (cflat b hb) (cflat w hw)
  have kdet : ∀ a ∈ l, ∀ b ∈ l, det2 (k a) (k b) = dot x x * dot z (cross (diff a c) (diff b c)) := by
    intro a ha b hb
    rw [← kon a ha, ← kon b hb]
    exact det_onPlane z x _ _ zx (cflat a ha) (cflat b hb)
  have k0 : k p0 = (dot x x, 0) := by
    simp only [hk, ← hx, hy]
    refine Prod.ext rfl ?_
    simp only [dot, Tetra.cross, Matrix.cons_val_zero, Matrix.cons_val_one, Matrix.cons_val]
    ring
  -- what is to be shown
  unfold faceHasArea
  rw [if_neg (by omega)]
  simp only
  have g : ∀ i, i < l.length → (l.map fun p => diff p c).getD i 0 = diff (l.getD i 0) c := by
    intro i hi
    rw [Convex.getD_lt _ _ (by simpa using hi), List.getElem_map, Convex.getD_lt _ _ hi]
  have l3 : 3 ≤ l.length := h3
  rw [← hc, g 0 (by omega), g 1 (by omega), g 2 (by omega)]
  have e0 : l.getD 0 0 = p0 := rfl
  have e1 : l.getD 1 0 = p1 := rfl
  have e2 : l.getD 2 0 = p2 := rfl
  rw [e0, e1, e2, ← hx]
  rw [show cross (diff (diff p1 c) x) (diff (diff p2 c) (diff p1 c)) = z from rfl, if_neg (by
    intro h; rcases h with h | h
    · exact z0 h
    · exact x0 h)]
  rw [← hy]
  by_contra hcon
  rw [Bool.not_eq_true, List.any_eq_false] at hcon
  have fl : ∀ i, i + 2 < l.length → flat (dot x x) (k (l.getD (i + 1) 0)) (k (l.getD (i + 2) 0)) = true := by
    intro i hi
    have := hcon i (by rw [List.mem_range, List.length_map]; omega)
    simp only [Bool.not_eq_true, Bool.not_eq_false'] at this
    rw [g (i + 1) (by omega), g (i + 2) (by omega)] at this
    exact this
  have f1 := (flat_iff _ xx _ _).mp (fl 0 (by omega))
  rw [zero_add, zero_add, e1, e2] at f1
  have hr : 0 < Real.sqrt (dot x x : ℚ) := Real.sqrt_pos.mpr (by exact_mod_cast xx)
  have hr2 : Real.sqrt (dot x x : ℚ) * Real.sqrt (dot x x : ℚ) = ((dot x x : ℚ) : ℝ) := Real.mul_self_sqrt (by exact_mod_cast xx.le)
  set r := Real.sqrt (dot x x : ℚ)
  cases hl' : l' with
  | nil =>
    -- a triangle
    have hc3 : ∀ d, 3 * c d = p0 d + p1 d + p2 d := by
      intro d
      rw [hc, hL, hl']
      simp only [centre, List.map_cons, List.map_nil, List.sum_cons, List.sum_nil, List.length_cons, List.length_nil]
      norm_num
      ring
    have s1 : (k p1).1 + (k p2).1 = - dot x x := by
      simp only [hk]
      have d0 := hc3 0
      have d1 := hc3 1
      have d2 := hc3 2
      simp only [hx, dot, diff]
      linear_combination (p0 0 - c 0) * (-d0) + (p0 1 - c 1) * (-d1) + (p0 2 - c 2) * (-d2)
    have s2 : (k p1).2 + (k p2).2 = 0 := by
      have t0 : (k p0).2 = 0 := by rw [k0]
      simp only [hk] at t0 ⊢
      have d0 := hc3 0
      have d1 := hc3 1
      have d2 := hc3 2
      simp only [dot, diff] at t0 ⊢
      linear_combination - t0 + y 0 * (-d0) + y 1 * (-d1) + y 2 * (-d2)
    have b2 : (k p1).2 ≠ 0 := by
      intro e
      have e' : (k p2).2 = 0 := by linarith
      have := karea p0 m0 p1 m1 p2 m2
      have a0 : area (k p0) (k p1) (k p2) = 0 := by
        unfold area det2
        rw [e, e', k0]; ring
      rw [a0] at this
      rcases mul_eq_zero.mp this.symm with h | h
      · exact xx.ne' h
      · exact turn_ne z0 zflat hE p0 p1 p2 m0 m1 m2 n01.symm n02.symm n12 h
    have q1 : ((k p2).2 : ℝ) = - (k p1).2 := by
      have : (k p2).2 = - (k p1).2 := by linarith
      rw [this]; push_cast; ring
    have q2 : ((k p2).1 : ℝ) = - (dot x x : ℚ) - (k p1).1 := by
      have : (k p2).1 = - dot x x - (k p1).1 := by linarith
      rw [this]; push_cast; ring
    rw [q1, q2, ← hr2] at f1
    have : ((k p1).2 : ℝ) * (r * (2 + r)) = 0 := by linear_combination f1
    rcases mul_eq_zero.mp this with h | h
    · exact b2 (by exact_mod_cast h)
    · have := mul_pos hr (show 0 < 2 + r by linarith)
      linarith
  | cons p3 l'' =>
    have len : 4 ≤ l.length := by rw [hL, hl']; simp
    have m3 : p3 ∈ l := by rw [hL, hl']; simp
    have n13 : p1 ≠ p3 := by rintro rfl; rw [hL, hl'] at hl; simp at hl
    have n23 : p2 ≠ p3 := by rintro rfl; rw [hL, hl'] at hl; simp at hl
    have e3 : l.getD 3 0 = p3 := by rw [hL, hl']; rfl
    have f2 := (flat_iff _ xx _ _).mp (fl 1 (by omega))
    rw [show 1 + 1 = 2 from rfl, show 1 + 2 = 3 from rfl, e2, e3] at f2
    have off : ((k p2).2 : ℝ) ≠ 0 ∨ ((k p2).1 : ℝ) ≠ r := by
      by_contra hcon'
      push Not at hcon'
      obtain ⟨t2, t1⟩ := hcon'
      have t2' : (k p2).2 = 0 := by exact_mod_cast t2
      have k1p : 0 < (k p2).1 := by
        have : (0 : ℝ) < ((k p2).1 : ℝ) := by rw [t1]; exact hr
        exact_mod_cast this
      obtain ⟨a, ha, ha0, da, la⟩ := next p0 m0
      obtain ⟨b, hb, hb2, db, lb⟩ := next p2 m2
      rw [← hc] at da db
      have da' : 0 < det2 (k p0) (k a) := by rw [kdet p0 m0 a ha]; exact mul_pos xx da
      have db' : 0 < det2 (k p2) (k b) := by rw [kdet p2 m2 b hb]; exact mul_pos xx db
      have hpa : p2 ≠ a := by
        rintro rfl
        unfold det2 at da'
        rw [t2', k0] at da'
        simp at da'
      have hpb : p0 ≠ b := by
        rintro rfl
        unfold det2 at db'
        rw [t2', k0] at db'
        simp at db'
      have aa : 0 < area (k p0) (k a) (k p2) := by rw [karea p0 m0 a ha p2 m2]; exact mul_pos xx (la p2 m2 n02.symm hpa)
      have ab : 0 < area (k p2) (k b) (k p0) := by rw [karea p2 m2 b hb p0 m0]; exact mul_pos xx (lb p0 m0 n02 hpb)
      unfold area at aa ab
      unfold det2 at aa ab da' db'
      rw [t2', k0] at aa ab
      rw [k0] at da'
      rw [t2'] at db'
      simp only [zero_mul, mul_zero, sub_zero, zero_sub, add_zero] at aa ab da' db'
      have v1 : 0 < (k a).2 := by
        by_contra hc'
        have := mul_nonpos_of_nonneg_of_nonpos xx.le (not_lt.mp hc')
        linarith
      have v2 : 0 < (k b).2 := by
        by_contra hc'
        have := mul_nonpos_of_nonneg_of_nonpos k1p.le (not_lt.mp hc')
        linarith
      have w1 : 0 < (dot x x - (k p2).1) * (k a).2 := by linarith
      have w2 : 0 < ((k p2).1 - dot x x) * (k b).2 := by linarith
      have w3 := (pos_iff_pos_of_mul_pos w1).mpr v1
      have w4 := (pos_iff_pos_of_mul_pos w2).mpr v2
      linarith
    have := flat_flat r ((k p1).1, (k p1).2) ((k p2).1, (k p2).2) ((k p3).1, (k p3).2) off f1 f2
    have a0 : area (k p1) (k p2) (k p3) = 0 := by
      unfold area det2
      simp only at this
      have h' : (((k p1).1 * (k p2).2 - (k p1).2 * (k p2).1 + ((k p2).1 * (k p3).2 - (k p2).2 * (k p3).1) +
        ((k p3).1 * (k p1).2 - (k p3).2 * (k p1).1) : ℚ) : ℝ) = 0 := by push_cast; linarith
      exact_mod_cast h'
    rw [karea p1 m1 p2 m2 p3 m3] at a0
    rcases mul_eq_zero.mp a0 with h | h
    · exact xx.ne' h
    · exact turn_ne z0 zflat hE p1 p2 p3 m1 m2 m3 n12.symm n13.symm n23 h

end Brille.HullOf
