/- A convex polyhedron is put together from tetrahedra. -/
import Verif.Proofs.Measure
import Mathlib.Algebra.Order.BigOperators.Group.List
import Mathlib.Analysis.Convex.Topology
import Mathlib.Topology.Algebra.Module.FiniteDimension

namespace Brille.Convex

open Brille.Spec Brille.Tetra MeasureTheory

/-- the corners of a polygon in order -/
abbrev at' (f : List Pt) (i : Nat) : Pt := f.getD i 0

/-- the plane of a polygon -/
abbrev plane (f : List Pt) (x : Fin 3 → ℝ) : ℝ := side (real (at' f 0)) (real (at' f 1)) (real (at' f 2)) x

/-- one of the tetrahedra a polygon forms with a point -/
def tetra (c : Pt) (t : List Pt × Nat) : Set (Fin 3 → ℝ) :=
  convexHull ℝ {real c, real (at' t.1 0), real (at' t.1 (t.2 + 1)), real (at' t.1 (t.2 + 2))}

theorem pluecker {K : Type} [CommRing K] (a i j k l c : Fin 3 → K) : side a j l c * side a i k c =
    side a k l c * side a i j c + side a i l c * side a j k c := by
  unfold side; ring

theorem at_step (f : List Pt) (i : Nat) (hi : i + 1 < f.length) : (at' f i, at' f (i + 1)) ∈ steps f := by
  have h := steps_get f i (by omega)
  have hm : (i + 1) % f.length = i + 1 := Nat.mod_eq_of_lt hi
  rw [at', at', getD_lt f 0 (by omega), getD_lt f 0 hi]
  have : (steps f)[i]'(by rw [steps_length]; omega) = (f[i], f[i + 1]) := by
    rw [h]; simp only [hm]
  rw [← this]
  exact List.getElem_mem _

theorem at_last (f : List Pt) (h : 0 < f.length) : (at' f (f.length - 1), at' f 0) ∈ steps f := by
  have hs := steps_get f (f.length - 1) (by omega)
  have hm : (f.length - 1 + 1) % f.length = 0 := by
    rw [Nat.sub_add_cancel h, Nat.mod_self]
  rw [at', at', getD_lt f 0 (by omega), getD_lt f 0 h]
  have : (steps f)[f.length - 1]'(by rw [steps_length]; omega) = (f[f.length - 1], f[0]) := by
    rw [hs]; simp only [hm]
  rw [← this]
  exact List.getElem_mem _

theorem at_mem (f : List Pt) (i : Nat) (hi : i < f.length) : at' f i ∈ f := by
  rw [at', getD_lt f 0 hi]; exact List.getElem_mem _

theorem at_inj (f : List Pt) (hn : f.Nodup) (i j : Nat) (hi : i < f.length) (hj : j < f.length) (e : at' f i = at' f j) : i = j := by
  rw [at', at', getD_lt f 0 hi, getD_lt f 0 hj] at e
  exact (List.Nodup.getElem_inj_iff hn).mp e

section
variable {faces : List (List Pt)} (h : ConvexPolyhedron faces) (c : Pt)
  (hc : ∀ f ∈ faces, ∀ p q r, (p, q) ∈ steps f → (q, r) ∈ steps f → 0 < side p q r c)
include h hc

/-- the other corners of a face are to one side of an edge -/
theorem edge_side {f : List Pt} (hf : f ∈ faces) (p q j : Pt) (hpq : (p, q) ∈ steps f) (hj : j ∈ f) (hjp : j ≠ p) (hjq : j ≠ q) :
    0 < side p q j c := by
  obtain ⟨r, hr⟩ := exists_next f q (mem_of_step f _ hpq).2
  have h0 := hc f hf p q r hpq hr
  by_cases hjr : j = r
  · rw [hjr]; exact h0
  · obtain ⟨A, B, hA, hB, e⟩ := corner_proper h hf p q r hpq hr j hj hjq hjp hjr
    have : side p q j c = B * side p q r c := by
      unfold side
      have e0 := e 0; have e1 := e 1; have e2 := e 2
      obtain e0 : j 0 = q 0 + (A * (p 0 - q 0) + B * (r 0 - q 0)) := by linarith
      obtain e1 : j 1 = q 1 + (A * (p 1 - q 1) + B * (r 1 - q 1)) := by linarith
      obtain e2 : j 2 = q 2 + (A * (p 2 - q 2) + B * (r 2 - q 2)) := by linarith
      have hB' := (h.behind f hf p q r hpq hr)
      rw [e0, e1, e2]; ring
    rw [this]; exact mul_pos hB h0

/-- the corners of a face are in order -/
theorem in_order {f : List Pt} (hf : f ∈ faces) (i j : Nat) (hi : 1 ≤ i) (hij : i < j) (hj : j < f.length) :
    0 < side (at' f 0) (at' f i) (at' f j) c := by
  have hn := (h.simple f hf).1
  have h3 := (h.simple f hf).2
  have ne : ∀ i j, i < f.length → j < f.length → i ≠ j → at' f i ≠ at' f j := fun i j h1 h2 h3 e => h3 (at_inj f hn i j h1 h2 e)
  have last : ∀ i, 1 ≤ i → i < f.length - 1 → 0 < side (at' f 0) (at' f i) (at' f (f.length - 1)) c := by
    intro i h1 h2
    have := edge_side h c hc hf _ _ (at' f i) (at_last f (by omega)) (at_mem f i (by omega)) (ne _ _ (by omega) (by omega) (by omega))
      (ne _ _ (by omega) (by omega) (by omega))
    rw [side_cycle]
    exact this
  obtain ⟨d, rfl⟩ : ∃ d, j = i + 1 + d := ⟨j - (i + 1), by omega⟩
  induction d with
  | zero =>
    have := edge_side h c hc hf _ _ (at' f 0) (at_step f i (by omega)) (at_mem f 0 (by omega)) (ne _ _ (by omega) (by omega) (by omega))
      (ne _ _ (by omega) (by omega) (by omega))
    rw [side_cycle] at this
    exact this
  | succ d ih =>
    have ih := ih (by omega) (by omega)
    have st := edge_side h c hc hf _ _ (at' f 0) (at_step f (i + 1 + d) (by omega)) (at_mem f 0 (by omega))
      (ne _ _ (by omega) (by omega) (by omega)) (ne _ _ (by omega) (by omega) (by omega))
    have st : 0 < side (at' f 0) (at' f (i + 1 + d)) (at' f (i + 1 + d + 1)) c := by
      rw [side_cycle] at st; exact st
    have P := pluecker (at' f 0) (at' f i) (at' f (i + 1 + d)) (at' f (i + 1 + d + 1)) (at' f (f.length - 1)) c
    have l1 := last (i + 1 + d) (by omega) (by omega)
    have l2 := last i hi (by omega)
    have l3 : 0 ≤ side (at' f 0) (at' f (i + 1 + d + 1)) (at' f (f.length - 1)) c := by
      by_cases e : i + 1 + d + 1 = f.length - 1
      · rw [e, side_abb]
      · exact (last _ (by omega) (by omega)).le
    have : 0 < side (at' f 0) (at' f (i + 1 + d)) (at' f (f.length - 1)) c * side (at' f 0) (at' f i) (at' f (i + 1 + d + 1)) c := by
      rw [P]
      have := mul_pos l2 st
      have := mul_nonneg l3 ih.le
      linarith
    exact (mul_pos_iff_of_pos_left l1).mp this

omit h in
theorem plane_inside {f : List Pt} (hf : f ∈ faces) (h3 : 3 ≤ f.length) : 0 < plane f (real c) := by
  rw [plane, side_real]
  exact_mod_cast hc f hf _ _ _ (at_step f 0 (by omega)) (at_step f 1 (by omega))

omit hc in
theorem plane_corner {f : List Pt} (hf : f ∈ faces) (p : Pt) (hp : IsCorner faces p) : 0 ≤ plane f (real p) ∧ (plane f (real p) = 0 ↔ p ∈ f) := by
  have h3 := (h.simple f hf).2
  have := h.behind f hf _ _ _ (at_step f 0 (by omega)) (at_step f 1 (by omega)) p hp
  rw [plane, side_real]
  exact ⟨by exact_mod_cast this.1, by rw [← this.2]; norm_cast⟩

omit hc in
/-- the plane through any corners of a face -/
theorem plane_same {f : List Pt} (hf : f ∈ faces) (p q r : Pt) (hp : p ∈ f) (hq : q ∈ f) (hr : r ∈ f) (x : Fin 3 → ℝ) :
    side (real p) (real q) (real r) (real c) * plane f x = side (real p) (real q) (real r) x * plane f (real c) := by
  have z : ∀ p ∈ f, plane f (real p) = 0 := fun p hp => (plane_corner h hf p ⟨f, hf, hp⟩).2.mpr hp
  have := side_four (real (at' f 0)) (real (at' f 1)) (real (at' f 2)) (real p) (real q) (real r) (real c) x
  change _ = _ * plane f (real p) + _ * plane f (real q) + _ * plane f (real r) + _ at this
  rw [z p hp, z q hq, z r hr] at this
  unfold plane
  rw [this]; ring

/-- what is behind all the faces and nearest to one of them, as a part of the distance of `c`, is in a tetrahedron of that face -/
theorem in_tetra {f : List Pt} (hf : f ∈ faces) (x : Fin 3 → ℝ) (hx : 0 ≤ plane f x)
    (hmin : ∀ g ∈ faces, plane f x * plane g (real c) ≤ plane g x * plane f (real c)) :
    ∃ i < f.length - 2, x ∈ tetra c (f, i) := by
  have h3 := (h.simple f hf).2
  have hfc := plane_inside c hc hf h3
  -- within the cone of the face
  have E : ∀ p q, (p, q) ∈ steps f → 0 ≤ side (real p) (real q) x (real c) := by
    intro p q hpq
    obtain ⟨r, hr⟩ := exists_next f q (mem_of_step f _ hpq).2
    obtain ⟨g, hg, hgs, hne⟩ := across h hf p q hpq
    have hp := (mem_of_step f _ hpq).1
    have hq := (mem_of_step f _ hpq).2
    have hrf := (mem_of_step f _ hr).2
    have hrg : r ∉ g := fun hrg => hne (plane_eq h hf hg p q r hpq hr (mem_of_step g _ hgs).2 (mem_of_step g _ hgs).1 hrg).symm
    have hgr : 0 < plane g (real r) := by
      have := plane_corner h hg r ⟨f, hf, hrf⟩
      exact lt_of_le_of_ne this.1 fun e => hrg (this.2.mp e.symm)
    have zp : plane g (real p) = 0 := (plane_corner h hg p ⟨f, hf, hp⟩).2.mpr (mem_of_step g _ hgs).2
    have zq : plane g (real q) = 0 := (plane_corner h hg q ⟨f, hf, hq⟩).2.mpr (mem_of_step g _ hgs).1
    have F := side_four (real (at' g 0)) (real (at' g 1)) (real (at' g 2)) (real p) (real q) (real r) (real c) x
    change _ = _ * plane g (real p) + _ * plane g (real q) + _ + _ at F
    rw [zp, zq] at F
    have S := plane_same h c hf p q r hp hq hrf x
    have pos : 0 < side (real p) (real q) (real r) (real c) := by
      rw [side_real]; exact_mod_cast hc f hf p q r hpq hr
    have key : side (real p) (real q) x (real c) * (plane g (real r) * plane f (real c)) =
        side (real p) (real q) (real r) (real c) * (plane g x * plane f (real c) - plane f x * plane g (real c)) := by
      unfold plane at S ⊢
      linear_combination (-side (real (at' f 0)) (real (at' f 1)) (real (at' f 2)) (real c)) * F + (side (real (at' g 0)) (real (at' g 1)) (real (at' g 2)) (real c)) * S
    have : 0 ≤ side (real p) (real q) x (real c) * (plane g (real r) * plane f (real c)) := by
      rw [key]
      exact mul_nonneg pos.le (by linarith [hmin g hg])
    exact (mul_nonneg_iff_of_pos_right (mul_pos hgr hfc)).mp this
  -- the triangle
  let D : Nat → ℝ := fun k => side (real (at' f 0)) (real (at' f k)) x (real c)
  have D1 : 0 ≤ D 1 := E _ _ (at_step f 0 (by omega))
  have Dn : D (f.length - 1) ≤ 0 := by
    have := E _ _ (at_last f (by omega))
    have e : D (f.length - 1) = - side (real (at' f (f.length - 1))) (real (at' f 0)) x (real c) := by
      simp only [D, side]; ring
    rw [e]; linarith
  have ivt : ∀ m, (∀ k ≤ m, ¬ (0 ≤ D (k + 1) ∧ D (k + 2) ≤ 0)) → 0 ≤ D (m + 1) ∧ 0 < D (m + 2) := by
    intro m hm
    induction m with
    | zero => exact ⟨D1, not_le.mp fun h => hm 0 le_rfl ⟨D1, h⟩⟩
    | succ m ih =>
      have ih := ih fun k hk => hm k (by omega)
      exact ⟨ih.2.le, not_le.mp fun h => hm (m + 1) le_rfl ⟨ih.2.le, h⟩⟩
  have hex : ∃ k ≤ f.length - 3, 0 ≤ D (k + 1) ∧ D (k + 2) ≤ 0 := by
    by_contra hc'
    push Not at hc'
    have := (ivt (f.length - 3) fun k hk ⟨h1, h2⟩ => absurd h2 (not_le.mpr (hc' k hk h1))).2
    rw [show f.length - 3 + 2 = f.length - 1 by omega] at this
    linarith
  obtain ⟨i, hi, d1, d2⟩ := hex
  refine ⟨i, by omega, ?_⟩
  have O := in_order h c hc hf (i + 1) (i + 2) (by omega) (by omega) (by omega)
  have O' : 0 < side (real (at' f 0)) (real (at' f (i + 1))) (real (at' f (i + 2))) (real c) := by
    rw [side_real]; exact_mod_cast O
  have S := plane_same h c hf (at' f 0) (at' f (i + 1)) (at' f (i + 2)) (at_mem f 0 (by omega)) (at_mem f _ (by omega)) (at_mem f _ (by omega)) x
  have w4 : 0 ≤ side (real (at' f 0)) (real (at' f (i + 1))) (real (at' f (i + 2))) x := by
    have : 0 ≤ side (real (at' f 0)) (real (at' f (i + 1))) (real (at' f (i + 2))) x * plane f (real c) := by
      rw [← S]; exact mul_nonneg O'.le hx
    exact (mul_nonneg_iff_of_pos_right hfc).mp this
  have w1 := E _ _ (at_step f (i + 1) (by omega))
  have w1 : 0 ≤ side x (real (at' f (i + 1))) (real (at' f (i + 2))) (real c) := by
    have e : side x (real (at' f (i + 1))) (real (at' f (i + 2))) (real c) = side (real (at' f (i + 1))) (real (at' f (i + 2))) x (real c) := by
      unfold side; ring
    rw [e]; exact w1
  have w2 : 0 ≤ side (real (at' f 0)) x (real (at' f (i + 2))) (real c) := by
    have e : side (real (at' f 0)) x (real (at' f (i + 2))) (real c) = - D (i + 2) := by
      simp only [D, side]; ring
    rw [e]; linarith
  -- the point as an average
  generalize hS : side (real (at' f 0)) (real (at' f (i + 1))) (real (at' f (i + 2))) (real c) = Q at O'
  have comb := fun n0 n1 n2 k => affine_four n0 n1 n2 k (real (at' f 0)) (real (at' f (i + 1))) (real (at' f (i + 2))) (real c) x
  have one := comb 0 0 0 1
  have c0 := comb 1 0 0 0
  have c1 := comb 0 1 0 0
  have c2 := comb 0 0 1 0
  rw [hS] at one c0 c1 c2
  generalize side x (real (at' f (i + 1))) (real (at' f (i + 2))) (real c) = W1 at *
  generalize side (real (at' f 0)) x (real (at' f (i + 2))) (real c) = W2 at *
  have w3 : 0 ≤ side (real (at' f 0)) (real (at' f (i + 1))) x (real c) := d1
  generalize side (real (at' f 0)) (real (at' f (i + 1))) x (real c) = W3 at *
  generalize side (real (at' f 0)) (real (at' f (i + 1))) (real (at' f (i + 2))) x = W4 at *
  have hx' : x = (W4 / Q) • real c + (W1 / Q) • real (at' f 0) + (W2 / Q) • real (at' f (i + 1)) + (W3 / Q) • real (at' f (i + 2)) := by
    funext d
    simp only [Pi.add_apply, Pi.smul_apply, smul_eq_mul]
    have hQ := O'.ne'
    have : Q * x d = W1 * real (at' f 0) d + W2 * real (at' f (i + 1)) d + W3 * real (at' f (i + 2)) d + W4 * real c d := by
      match d with
      | 0 => linear_combination c0
      | 1 => linear_combination c1
      | 2 => linear_combination c2
    field_simp
    linear_combination this
  have mem : ∀ y ∈ ({real c, real (at' f 0), real (at' f (i + 1)), real (at' f (i + 2))} : Set (Fin 3 → ℝ)), y ∈ tetra c (f, i) :=
    fun y hy => subset_convexHull ℝ _ hy
  have hconv : Convex ℝ (tetra c (f, i)) := convex_convexHull ℝ _
  have hsum : W4 / Q + W1 / Q + W2 / Q + W3 / Q = 1 := by
    have hQ := O'.ne'
    field_simp
    linarith
  let w : Fin 4 → ℝ := ![W4 / Q, W1 / Q, W2 / Q, W3 / Q]
  let z : Fin 4 → Fin 3 → ℝ := ![real c, real (at' f 0), real (at' f (i + 1)), real (at' f (i + 2))]
  have := hconv.sum_mem (t := Finset.univ) (w := w) (z := z) (by
      intro k _
      fin_cases k
      · exact div_nonneg w4 O'.le
      · exact div_nonneg w1 O'.le
      · exact div_nonneg w2 O'.le
      · exact div_nonneg w3 O'.le) (by rw [Fin.sum_univ_four]; exact hsum) (by
      intro k _
      fin_cases k
      · exact mem _ (by simp [z])
      · exact mem _ (by simp [z])
      · exact mem _ (by simp [z])
      · exact mem _ (by simp [z]))
  rw [Fin.sum_univ_four] at this
  rw [hx']
  exact this

end

/-- there is a point strictly behind all the faces -/
theorem inner {faces : List (List Pt)} (h : ConvexPolyhedron faces) :
    ∃ c : Pt, ∀ f ∈ faces, ∀ p q r, (p, q) ∈ steps f → (q, r) ∈ steps f → 0 < side p q r c := by
  by_cases hne : faces.flatten = []
  · refine ⟨0, fun f hf p q r hpq => ?_⟩
    have := (mem_of_step f _ hpq).1
    have : p ∈ faces.flatten := List.mem_flatten.mpr ⟨f, hf, this⟩
    rw [hne] at this; simp at this
  · have avg : ∀ (s : Pt → ℚ), Affine s → ∀ l : List Pt, l ≠ [] → s (fun d => (l.map fun p => p d).sum / l.length) * l.length = (l.map s).sum := by
      intro s ⟨n0, n1, n2, k, hs⟩ l hl
      have hsum : (l.map s).sum = n0 * (l.map fun p => p 0).sum + n1 * (l.map fun p => p 1).sum + n2 * (l.map fun p => p 2).sum + k * l.length := by
        clear hl
        induction l with
        | nil => simp
        | cons a l ih =>
          simp only [List.map_cons, List.sum_cons, ih, hs a, List.length_cons]; push_cast; ring
      have h0 : (l.length : ℚ) ≠ 0 := by
        have := List.length_pos_iff.mpr hl
        exact_mod_cast this.ne'
      rw [hs, hsum]
      field_simp
    refine ⟨fun d => (faces.flatten.map fun p => p d).sum / faces.flatten.length, fun f hf p q r hpq hqr => ?_⟩
    have e := avg (side p q r) (affine_side p q r) faces.flatten hne
    have h0 : (0 : ℚ) < faces.flatten.length := by exact_mod_cast List.length_pos_iff.mpr hne
    have hpos : 0 < (faces.flatten.map (side p q r)).sum := by
      obtain ⟨i, hi, hif⟩ := h.solid f hf
      have B := h.behind f hf p q r hpq hqr
      have hi0 : 0 < side p q r i := lt_of_le_of_ne (B i hi).1 fun e => hif ((B i hi).2.mp e.symm)
      obtain ⟨g, hg, hig⟩ := hi
      refine lt_of_lt_of_le hi0 (List.single_le_sum ?_ _ (List.mem_map.mpr ⟨i, List.mem_flatten.mpr ⟨g, hg, hig⟩, rfl⟩))
      intro y hy
      obtain ⟨z, hz, rfl⟩ := List.mem_map.mp hy
      obtain ⟨g', hg', hz⟩ := List.mem_flatten.mp hz
      exact (B z ⟨g', hg', hz⟩).1
    rw [← e] at hpos
    exact (mul_pos_iff_of_pos_right h0).mp hpos

/-- the tetrahedra of all the faces -/
def tetras (faces : List (List Pt)) : List (List Pt × Nat) := faces.flatMap fun f => (List.range (f.length - 2)).map fun i => (f, i)

section
variable {faces : List (List Pt)} (h : ConvexPolyhedron faces) (c : Pt)
  (hc : ∀ f ∈ faces, ∀ p q r, (p, q) ∈ steps f → (q, r) ∈ steps f → 0 < side p q r c)
include h hc

omit h hc in
theorem mem_tetras (t : List Pt × Nat) : t ∈ tetras faces ↔ t.1 ∈ faces ∧ t.2 < t.1.length - 2 := by
  obtain ⟨f, i⟩ := t
  simp only [tetras, List.mem_flatMap, List.mem_map, List.mem_range, Prod.mk.injEq]
  constructor
  · rintro ⟨f, hf, i, hi, rfl, rfl⟩; exact ⟨hf, hi⟩
  · rintro ⟨hf, hi⟩; exact ⟨f, hf, i, hi, rfl, rfl⟩

theorem center_mem (hne : faces ≠ []) : real c ∈ Hull (IsCorner faces) := by
  rw [solid_iff faces h hne]
  intro f hf p q r hpq hqr
  rw [side_real]
  exact_mod_cast (hc f hf p q r hpq hqr).le

/-- a convex polyhedron is the union of the tetrahedra -/
theorem hull_tetras (hne : faces ≠ []) : Hull (IsCorner faces) = ⋃ t ∈ tetras faces, tetra c t := by
  ext x
  simp only [Set.mem_iUnion]
  constructor
  · intro hx
    -- the face that is nearest
    obtain ⟨f, hf, hmin⟩ : ∃ f ∈ faces, ∀ g ∈ faces, plane f x / plane f (real c) ≤ plane g x / plane g (real c) := by
      obtain ⟨f, hf, hm⟩ := Set.exists_min_image {f | f ∈ faces} (fun f => plane f x / plane f (real c)) (List.finite_toSet faces)
        (List.exists_mem_of_ne_nil faces hne)
      exact ⟨f, hf, hm⟩
    have h3 := (h.simple f hf).2
    have hfx := solid_behind faces h f hf _ _ _ (at_step f 0 (by omega)) (at_step f 1 (by omega)) x hx
    obtain ⟨i, hi, hxi⟩ := in_tetra h c hc hf x hfx (by
      intro g hg
      have a := plane_inside c hc hf h3
      have b := plane_inside c hc hg (h.simple g hg).2
      exact (div_le_div_iff₀ a b).mp (hmin g hg))
    exact ⟨(f, i), (mem_tetras _).mpr ⟨hf, hi⟩, hxi⟩
  · rintro ⟨⟨f, i⟩, ht, hx⟩
    obtain ⟨hf, hi⟩ := (mem_tetras _).mp ht
    simp only at hf hi
    have hconv : Convex ℝ (Hull (IsCorner faces)) := convex_convexHull ℝ _
    refine convexHull_min ?_ hconv hx
    have cor : ∀ p ∈ f, real p ∈ Hull (IsCorner faces) := fun p hp => subset_convexHull ℝ _ ⟨p, ⟨f, hf, hp⟩, rfl⟩
    rintro y (rfl | rfl | rfl | rfl)
    · exact center_mem h c hc hne
    · exact cor _ (at_mem f _ (by omega))
    · exact cor _ (at_mem f _ (by omega))
    · exact cor _ (at_mem f _ (by omega))

omit h hc in
theorem tetra_measurable (t : List Pt × Nat) : MeasurableSet (tetra c t) := by
  refine IsCompact.measurableSet (Set.Finite.isCompact_convexHull ℝ ?_)
  exact Set.toFinite _

omit h hc in
theorem aff_split {s : (Fin 3 → ℝ) → ℝ} (hs : Aff s) (A B : Set (Fin 3 → ℝ)) (hA : ∀ x ∈ A, 0 ≤ s x) (hB : ∀ x ∈ B, s x ≤ 0)
    (p q : Fin 3 → ℝ) (hpq : s p ≠ s q) : volume (convexHull ℝ A ∩ convexHull ℝ B) = 0 := by
  refine measure_mono_null ?_ (hs.null p q hpq)
  rintro x ⟨ha, hb⟩
  have h1 := hs.hull A hA x ha
  have h2 := hs.neg.hull B (fun x hx => by have := hB x hx; linarith) x hb
  exact le_antisymm (by linarith) h1

/-- two of the tetrahedra have only boundary in common -/
theorem tetras_apart : (tetras faces).Pairwise fun s t => volume (tetra c s ∩ tetra c t) = 0 := by
  have hn := h.once
  rw [List.nodup_flatMap] at hn
  rw [tetras, List.pairwise_flatMap]
  constructor
  · intro f hf
    rw [List.pairwise_map]
    refine List.Pairwise.imp_of_mem ?_ List.pairwise_lt_range
    intro i j hi hj hij
    rw [List.mem_range] at hi hj
    have z : ∀ a b : Pt, side a b b c = 0 := fun a b => side_abb a b c
    have O := in_order h c hc hf
    rw [Set.inter_comm]
    have hz0 : side (real (at' f 0)) (real (at' f (i + 2))) (real (at' f 0)) (real c) = 0 := by
      rw [side_real, side_aba]; simp
    have hneg : side (real (at' f 0)) (real (at' f (i + 2))) (real (at' f (i + 1))) (real c) < 0 := by
      have := O (i + 1) (i + 2) (by omega) (by omega) (by omega)
      rw [side_real, side_swap23]
      exact_mod_cast (by linarith : - side (at' f 0) (at' f (i + 1)) (at' f (i + 2)) c < 0)
    have hzc : side (real (at' f 0)) (real (at' f (i + 2))) (real c) (real c) = 0 := by unfold side; ring
    have hge : ∀ k, i + 2 ≤ k → k < f.length → 0 ≤ side (real (at' f 0)) (real (at' f (i + 2))) (real (at' f k)) (real c) := by
      intro k hk hkl
      rcases hk.lt_or_eq with hk | rfl
      · rw [side_real]; exact_mod_cast (O (i + 2) k (by omega) hk hkl).le
      · rw [side_real, side_abb]; simp
    refine aff_split (aff_third (real (at' f 0)) (real (at' f (i + 2))) (real c)) _ _ ?_ ?_ (real (at' f 0)) (real (at' f (i + 1))) ?_
    · rintro y (rfl | rfl | rfl | rfl)
      · exact hzc.ge
      · exact hz0.ge
      · exact hge _ (by simp only; omega) (by simp only; omega)
      · exact hge _ (by simp only; omega) (by simp only; omega)
    · rintro y (rfl | rfl | rfl | rfl)
      · exact hzc.le
      · exact hz0.le
      · exact hneg.le
      · simp only; rw [side_real, side_abb]; simp
    · rw [hz0]; exact hneg.ne'
  · refine List.Pairwise.imp_of_mem ?_ hn.2
    intro f g hf hg hd
    have hfg : f ≠ g := by
      rintro rfl
      have h3 := (h.simple f hf).2
      have := at_step f 0 (by omega)
      exact hd this this
    rintro _ ht _ hu
    obtain ⟨i, hi, rfl⟩ := List.mem_map.mp ht
    obtain ⟨j, hj, rfl⟩ := List.mem_map.mp hu
    rw [List.mem_range] at hi hj
    have hfc := plane_inside c hc hf (h.simple f hf).2
    have hgc := plane_inside c hc hg (h.simple g hg).2
    have A1 : ∀ p ∈ f, 0 ≤ plane g (real p) * plane f (real c) - plane f (real p) * plane g (real c) := by
      intro p hp
      rw [(plane_corner h hf p ⟨f, hf, hp⟩).2.mpr hp]
      have := mul_nonneg (plane_corner h hg p ⟨f, hf, hp⟩).1 hfc.le
      linarith
    have A2 : ∀ p ∈ g, plane g (real p) * plane f (real c) - plane f (real p) * plane g (real c) ≤ 0 := by
      intro p hp
      rw [(plane_corner h hg p ⟨g, hg, hp⟩).2.mpr hp]
      have := mul_nonneg (plane_corner h hf p ⟨g, hg, hp⟩).1 hgc.le
      linarith
    obtain ⟨p, hp, hpg⟩ := h.apart f hf g hg hfg
    refine aff_split (s := fun x => plane g x * plane f (real c) - plane f x * plane g (real c))
      (Aff.lin (aff_side _ _ _) (aff_side _ _ _) _ _) _ _ ?_ ?_ (real p) (real c) ?_
    · rintro y (rfl | rfl | rfl | rfl)
      · linarith
      · exact A1 _ (at_mem f _ (by omega))
      · exact A1 _ (at_mem f _ (by simp only; omega))
      · exact A1 _ (at_mem f _ (by simp only; omega))
    · rintro y (rfl | rfl | rfl | rfl)
      · linarith
      · exact A2 _ (at_mem g _ (by omega))
      · exact A2 _ (at_mem g _ (by simp only; omega))
      · exact A2 _ (at_mem g _ (by simp only; omega))
    · have P := plane_corner h hg p ⟨f, hf, hp⟩
      have pos : 0 < plane g (real p) := lt_of_le_of_ne P.1 fun e => hpg (P.2.mp e.symm)
      rw [(plane_corner h hf p ⟨f, hf, hp⟩).2.mpr hp]
      have := mul_pos pos hfc
      intro e
      linarith

/-- the volume of a convex polyhedron, in units of the volume of a standard tetrahedron -/
theorem hull_volume (hne : faces ≠ []) : volume (Hull (IsCorner faces)) =
    ENNReal.ofReal (((tetras faces).map fun t => side (at' t.1 0) (at' t.1 (t.2 + 1)) (at' t.1 (t.2 + 2)) c).sum : ℚ) * unitVolume := by
  rw [hull_tetras h c hc hne, measure_list (tetra c) (tetras faces) (fun t _ => tetra_measurable c t) (tetras_apart h c hc)]
  have key : ∀ l : List (List Pt × Nat), (∀ t ∈ l, t ∈ tetras faces) → (l.map fun t => volume (tetra c t)).sum =
      ENNReal.ofReal ((l.map fun t => side (at' t.1 0) (at' t.1 (t.2 + 1)) (at' t.1 (t.2 + 2)) c).sum : ℚ) * unitVolume ∧
      0 ≤ (l.map fun t => side (at' t.1 0) (at' t.1 (t.2 + 1)) (at' t.1 (t.2 + 2)) c).sum := by
    intro l hl
    induction l with
    | nil => simp
    | cons t l ih =>
      obtain ⟨ih, ih0⟩ := ih fun t ht => hl t (List.mem_cons_of_mem _ ht)
      obtain ⟨hf, hi⟩ := (mem_tetras t).mp (hl t List.mem_cons_self)
      have O := in_order h c hc hf (t.2 + 1) (t.2 + 2) (by omega) (by omega) (by omega)
      simp only [List.map_cons, List.sum_cons]
      refine ⟨?_, by linarith⟩
      rw [ih, tetra, tetra_volume, side_real, abs_of_nonneg (by exact_mod_cast O.le), ← add_mul,
        ← ENNReal.ofReal_add (by exact_mod_cast O.le) (by exact_mod_cast ih0)]
      push_cast
      rfl
  exact (key _ fun _ h => h).1

end

/-- a closed set that fills a convex body up to a null set contains it -/
theorem covered (K V : Set (Fin 3 → ℝ)) (hK : Convex ℝ K) (hi : (interior K).Nonempty) (hV : IsClosed V) (h0 : volume (K \ V) = 0) : K ⊆ V := by
  have hopen : IsOpen (interior K \ V) := isOpen_interior.sdiff hV
  have hz : volume (interior K \ V) = 0 := measure_mono_null (Set.sdiff_subset_sdiff_left interior_subset) h0
  have hemp : interior K \ V = ∅ := (hopen.measure_eq_zero_iff volume).mp hz
  have hsub : interior K ⊆ V := Set.sdiff_eq_empty.mp hemp
  calc K ⊆ closure K := subset_closure
    _ = closure (interior K) := (hK.closure_interior_eq_closure_of_nonempty_interior hi).symm
    _ ⊆ V := closure_minimal hsub hV

theorem continuous_side (a b d : Fin 3 → ℝ) : Continuous (side a b d) := by
  unfold side; fun_prop

/-- a convex polyhedron has points within -/
theorem hull_interior {faces : List (List Pt)} (h : ConvexPolyhedron faces) (hne : faces ≠ []) : (interior (Hull (IsCorner faces))).Nonempty := by
  obtain ⟨c, hc⟩ := inner h
  refine ⟨real c, mem_interior.mpr ⟨⋂ f ∈ {f | f ∈ faces}, ⋂ e ∈ {e | e ∈ (steps f).flatMap fun a => (steps f).map fun b => (a, b)},
    {x | e.1.2 = e.2.1 → 0 < side (real e.1.1) (real e.1.2) (real e.2.2) x}, ?_, ?_, ?_⟩⟩
  · intro x hx
    rw [solid_iff faces h hne]
    intro f hf p q r hpq hqr
    simp only [Set.mem_iInter] at hx
    have := hx f hf ((p, q), (q, r)) (List.mem_flatMap.mpr ⟨_, hpq, List.mem_map.mpr ⟨_, hqr, rfl⟩⟩) rfl
    exact le_of_lt this
  · refine (List.finite_toSet faces).isOpen_biInter fun f _ => (List.finite_toSet _).isOpen_biInter fun e _ => ?_
    by_cases he : e.1.2 = e.2.1
    · simp only [he, true_imp_iff]
      exact isOpen_lt continuous_const (continuous_side _ _ _)
    · simp [he]
  · simp only [Set.mem_iInter]
    intro f hf e he
    obtain ⟨a, ha, hb⟩ := List.mem_flatMap.mp he
    obtain ⟨b, hb2, rfl⟩ := List.mem_map.mp hb
    intro hab
    simp only at hab
    rw [side_real]
    exact_mod_cast hc f hf a.1 a.2 b.2 ha (by rw [hab]; exact hb2)

theorem hull_compact {v : List Pt} : IsCompact (Hull (· ∈ v)) := by
  refine Set.Finite.isCompact_convexHull ℝ ?_
  have : {x | ∃ p, p ∈ v ∧ x = real p} = real '' {p | p ∈ v} := by
    ext x
    constructor
    · rintro ⟨p, hp, rfl⟩; exact ⟨p, hp, rfl⟩
    · rintro ⟨p, hp, rfl⟩; exact ⟨p, hp, rfl⟩
  rw [this]
  exact (List.finite_toSet v).image _

end Brille.Convex
