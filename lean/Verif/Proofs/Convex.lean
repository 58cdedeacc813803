/- The solid of a convex surface is what lies behind all its faces. -/
import Verif.Model.Tetra
import Verif.Spec.Convex
import Mathlib.Dynamics.PeriodicPts.Lemmas
import Mathlib.Analysis.LocallyConvex.Separation
import Mathlib.Analysis.Convex.Topology
import Mathlib.Tactic.Linarith
import Mathlib.Tactic.Ring
import Mathlib.Tactic.FieldSimp

namespace Brille.Convex

open Brille.Spec Brille.Tetra

theorem steps_length {α : Type} (f : List α) : (steps f).length = f.length := by simp [steps]

theorem steps_get {α : Type} (f : List α) (i : Nat) (hi : i < f.length) :
    (steps f)[i]'(by rw [steps_length]; exact hi) = (f[i], f[(i + 1) % f.length]'(Nat.mod_lt _ (by omega))) := by
  simp only [steps, List.getElem_zip, List.getElem_rotate]

theorem step_unique {α : Type} (faces : List (List α)) (h : (faces.flatMap steps).Nodup) (e : α × α) (k j : Nat)
    (hk : k < faces.length) (hj : j < faces.length) (ek : e ∈ steps faces[k]) (ej : e ∈ steps faces[j]) : j = k := by
  rw [List.nodup_flatMap] at h
  by_contra hc
  have hp := List.pairwise_iff_getElem.mp h.2
  rcases Nat.lt_or_gt_of_ne hc with hlt | hlt
  · exact (hp j k hj hk hlt) ej ek
  · exact (hp k j hk hj hlt) ek ej

theorem mem_of_step {α : Type} (f : List α) (e : α × α) (h : e ∈ steps f) : e.1 ∈ f ∧ e.2 ∈ f := by
  unfold steps at h
  obtain ⟨a, b⟩ := e
  have := List.of_mem_zip h
  exact ⟨this.1, List.mem_rotate.mp this.2⟩

/-- an edge is not run along in both directions on the same face -/
theorem swap_other {α : Type} (f : List α) (hn : f.Nodup) (h3 : 3 ≤ f.length) (e : α × α) (h : e ∈ steps f) :
    e.swap ∉ steps f := by
  intro hc
  obtain ⟨i, hi, h1⟩ := List.getElem_of_mem h
  obtain ⟨j, hj, h2⟩ := List.getElem_of_mem hc
  rw [steps_length] at hi hj
  rw [steps_get f i hi] at h1
  rw [steps_get f j hj] at h2
  have e1 := congrArg Prod.fst h1
  have e2 := congrArg Prod.snd h1
  have e3 := congrArg Prod.fst h2
  have e4 := congrArg Prod.snd h2
  simp only [Prod.fst_swap, Prod.snd_swap] at e1 e2 e3 e4
  have a1 := (List.Nodup.getElem_inj_iff hn).mp (e3.trans e2.symm)
  have a2 := (List.Nodup.getElem_inj_iff hn).mp (e4.trans e1.symm)
  rcases Nat.lt_or_ge (i + 1) f.length with h | h
  · rw [Nat.mod_eq_of_lt h] at a1
    subst a1
    rcases Nat.lt_or_ge (i + 1 + 1) f.length with h' | h'
    · rw [Nat.mod_eq_of_lt h'] at a2; omega
    · rw [show i + 1 + 1 = f.length by omega, Nat.mod_self] at a2; omega
  · rw [show i + 1 = f.length by omega, Nat.mod_self] at a1
    subst a1
    rw [Nat.mod_eq_of_lt (by omega)] at a2
    omega

theorem step_fst_inj {α : Type} (f : List α) (hn : f.Nodup) (a b c : α) (h1 : (a, b) ∈ steps f) (h2 : (a, c) ∈ steps f) : b = c := by
  obtain ⟨i, hi, e1⟩ := List.getElem_of_mem h1
  obtain ⟨j, hj, e2⟩ := List.getElem_of_mem h2
  rw [steps_length] at hi hj
  rw [steps_get f i hi, Prod.mk.injEq] at e1
  rw [steps_get f j hj, Prod.mk.injEq] at e2
  have := (List.Nodup.getElem_inj_iff hn).mp (e1.1.trans e2.1.symm)
  subst this
  exact e1.2.symm.trans e2.2

theorem step_snd_inj {α : Type} (f : List α) (hn : f.Nodup) (a b c : α) (h1 : (b, a) ∈ steps f) (h2 : (c, a) ∈ steps f) : b = c := by
  obtain ⟨i, hi, e1⟩ := List.getElem_of_mem h1
  obtain ⟨j, hj, e2⟩ := List.getElem_of_mem h2
  rw [steps_length] at hi hj
  rw [steps_get f i hi, Prod.mk.injEq] at e1
  rw [steps_get f j hj, Prod.mk.injEq] at e2
  have e := (List.Nodup.getElem_inj_iff hn).mp (e1.2.trans e2.2.symm)
  have hij : i = j := by
    rcases Nat.lt_or_ge (i + 1) f.length with h | h <;> rcases Nat.lt_or_ge (j + 1) f.length with h' | h'
    · rw [Nat.mod_eq_of_lt h, Nat.mod_eq_of_lt h'] at e; omega
    · rw [Nat.mod_eq_of_lt h, show j + 1 = f.length by omega, Nat.mod_self] at e; omega
    · rw [Nat.mod_eq_of_lt h', show i + 1 = f.length by omega, Nat.mod_self] at e; omega
    · omega
  subst hij
  exact e1.1.symm.trans e2.1

theorem exists_next {α : Type} (f : List α) (a : α) (h : a ∈ f) : ∃ b, (a, b) ∈ steps f := by
  obtain ⟨i, hi, e⟩ := List.getElem_of_mem h
  have := steps_get f i hi
  exact ⟨f[(i + 1) % f.length]'(Nat.mod_lt _ (by omega)), by
    rw [← e, ← this]; exact List.getElem_mem _⟩

theorem exists_prev {α : Type} (f : List α) (a : α) (h : a ∈ f) : ∃ b, (b, a) ∈ steps f := by
  have : a ∈ (steps f).map Prod.snd := by
    rw [steps, List.map_snd_zip (by rw [List.length_rotate])]
    exact List.mem_rotate.mpr h
  obtain ⟨⟨b, c⟩, h1, h2⟩ := List.mem_map.mp this
  exact ⟨b, by simp only at h2; rw [← h2]; exact h1⟩

theorem side_vertex {K : Type} [CommRing K] (a u c x : Fin 3 → K) : side a u c x =
    (a 0 - u 0) * ((c 1 - u 1) * (x 2 - u 2) - (c 2 - u 2) * (x 1 - u 1)) +
    (a 1 - u 1) * ((c 2 - u 2) * (x 0 - u 0) - (c 0 - u 0) * (x 2 - u 2)) +
    (a 2 - u 2) * ((c 0 - u 0) * (x 1 - u 1) - (c 1 - u 1) * (x 0 - u 0)) := by
  unfold side; ring

theorem side_real (a b c x : Pt) : side (real a) (real b) (real c) (real x) = ((side a b c x : ℚ) : ℝ) := by
  simp only [side, real]; push_cast; ring

/-- the affine function of a plane -/
theorem side_affine {K : Type} [CommRing K] (a b c : Fin 3 → K) : ∃ n0 n1 n2 k : K, ∀ x,
    side a b c x = n0 * x 0 + n1 * x 1 + n2 * x 2 + k := by
  refine ⟨-((b 1 - a 1) * (c 2 - a 2) - (b 2 - a 2) * (c 1 - a 1)), -((b 2 - a 2) * (c 0 - a 0) - (b 0 - a 0) * (c 2 - a 2)),
    -((b 0 - a 0) * (c 1 - a 1) - (b 1 - a 1) * (c 0 - a 0)),
    ((b 1 - a 1) * (c 2 - a 2) - (b 2 - a 2) * (c 1 - a 1)) * a 0 + ((b 2 - a 2) * (c 0 - a 0) - (b 0 - a 0) * (c 2 - a 2)) * a 1 +
    ((b 0 - a 0) * (c 1 - a 1) - (b 1 - a 1) * (c 0 - a 0)) * a 2, fun x => ?_⟩
  unfold side; ring

/-- the values of an affine function follow from those at four points -/
theorem affine_four {K : Type} [CommRing K] (n0 n1 n2 k : K) (a b c i x : Fin 3 → K) :
    side a b c i * (n0 * x 0 + n1 * x 1 + n2 * x 2 + k) =
    side x b c i * (n0 * a 0 + n1 * a 1 + n2 * a 2 + k) + side a x c i * (n0 * b 0 + n1 * b 1 + n2 * b 2 + k) +
    side a b x i * (n0 * c 0 + n1 * c 1 + n2 * c 2 + k) + side a b c x * (n0 * i 0 + n1 * i 1 + n2 * i 2 + k) := by
  unfold side; ring

theorem side_four {K : Type} [CommRing K] (p q r a b c i x : Fin 3 → K) : side a b c i * side p q r x =
    side x b c i * side p q r a + side a x c i * side p q r b + side a b x i * side p q r c +
    side a b c x * side p q r i := by
  obtain ⟨n0, n1, n2, k, h⟩ := side_affine p q r
  simp only [h]
  exact affine_four ..

section Surface

variable {faces : List (List Pt)} (h : ConvexPolyhedron faces)
include h

theorem same_face {f g : List Pt} (hf : f ∈ faces) (hg : g ∈ faces) (e : Pt × Pt) (he : e ∈ steps f) (he' : e ∈ steps g) :
    f = g := by
  obtain ⟨i, hi, rfl⟩ := List.getElem_of_mem hf
  obtain ⟨j, hj, rfl⟩ := List.getElem_of_mem hg
  have := step_unique faces h.once e i j hi hj he he'
  subst this; rfl

/-- faces with three consecutive corners of one on the other are the same -/
theorem plane_eq {f g : List Pt} (hf : f ∈ faces) (hg : g ∈ faces) (a b c : Pt) (hab : (a, b) ∈ steps f)
    (hbc : (b, c) ∈ steps f) (ha : a ∈ g) (hb : b ∈ g) (hc : c ∈ g) : f = g := by
  by_contra hne
  obtain ⟨j, hj, hjg⟩ := h.apart f hf g hg hne
  obtain ⟨i, hi, hif⟩ := h.solid f hf
  obtain ⟨q, hq⟩ := exists_next g b hb
  obtain ⟨p, hp⟩ := exists_prev g b hb
  have G := h.behind g hg p b q hp hq
  have F := h.behind f hf a b c hab hbc
  have key := side_four p b q a b c i j
  rw [(G a ⟨g, hg, ha⟩).2.mpr ha, (G b ⟨g, hg, hb⟩).2.mpr hb, (G c ⟨g, hg, hc⟩).2.mpr hc,
    (F j ⟨f, hf, hj⟩).2.mpr hj] at key
  have hz : side a b c i *
      side p b q j = 0 := by rw [key]; ring
  rcases mul_eq_zero.mp hz with hz | hz
  · exact hif ((F i hi).2.mp hz)
  · exact hjg ((G j ⟨f, hf, hj⟩).2.mp hz)

/-- the face on the other side of an edge -/
theorem across {f : List Pt} (hf : f ∈ faces) (a b : Pt) (hab : (a, b) ∈ steps f) :
    ∃ g ∈ faces, (b, a) ∈ steps g ∧ g ≠ f := by
  obtain ⟨g, hg, hs⟩ := List.mem_flatMap.mp (h.closed a b (List.mem_flatMap.mpr ⟨f, hf, hab⟩))
  refine ⟨g, hg, hs, ?_⟩
  rintro rfl
  exact swap_other g (h.simple g hg).1 (h.simple g hg).2 _ hab hs

/-- seen from one of its corners, a face lies between the two edges that meet there -/
theorem corner_angle {f : List Pt} (hf : f ∈ faces) (a m c : Pt) (ham : (a, m) ∈ steps f) (hmc : (m, c) ∈ steps f)
    (j : Pt) (hj : j ∈ f) : ∃ A B : ℚ, 0 ≤ A ∧ 0 ≤ B ∧
      ∀ d, j d - m d = A * (a d - m d) + B * (c d - m d) := by
  obtain ⟨i, hi, hif⟩ := h.solid f hf
  have F := h.behind f hf a m c ham hmc
  have T0 : 0 < side a m c i :=
    lt_of_le_of_ne (F i hi).1 (fun hc => hif ((F i hi).2.mp hc.symm))
  have Fj := (F j ⟨f, hf, hj⟩).2.mpr hj
  set T := side a m c i with hT
  set A := side j m c i with hA
  set B := side a m j i with hB
  have key : ∀ d, (j d - m d) * T = A * (a d - m d) + B * (c d - m d) := by
    intro d
    have : (j d - m d) * T = A * (a d - m d) + B * (c d - m d) +
        side a m c j * (i d - m d) := by
      simp only [hT, hA, hB, side_vertex]
      fin_cases d <;> simp only [Fin.zero_eta, Fin.mk_one, Fin.reduceFinMk] <;> ring
    rw [this, Fj]; ring
  have vm := mem_of_step f _ hmc
  have va := mem_of_step f _ ham
  -- the face across the edge from m to c
  have hA0 : 0 ≤ A := by
    obtain ⟨g, hg, hs, hne⟩ := across h hf m c hmc
    obtain ⟨q, hq⟩ := exists_prev g c (mem_of_step g _ hs).1
    have G := h.behind g hg q c m hq hs
    have hag : a ∉ g := fun hc => hne (plane_eq h hf hg a m c ham hmc hc (mem_of_step g _ hs).2 (mem_of_step g _ hs).1).symm
    have ga : 0 < side q c m a :=
      lt_of_le_of_ne (G a ⟨f, hf, va.1⟩).1 (fun hc => hag ((G a ⟨f, hf, va.1⟩).2.mp hc.symm))
    have gj := (G j ⟨f, hf, hj⟩).1
    have gm := (G m ⟨f, hf, va.2⟩).2.mpr (mem_of_step g _ hs).2
    have gc := (G c ⟨f, hf, vm.2⟩).2.mpr (mem_of_step g _ hs).1
    obtain ⟨n0, n1, n2, k, hn⟩ := side_affine q c m
    rw [hn] at ga gj gm gc
    have e : (n0 * j 0 + n1 * j 1 + n2 * j 2 + k) * T =
        A * (n0 * a 0 + n1 * a 1 + n2 * a 2 + k) := by
      linear_combination n0 * key 0 + n1 * key 1 + n2 * key 2 + (T - A - B) * gm + B * gc
    have := mul_nonneg gj T0.le
    rw [e] at this
    exact nonneg_of_mul_nonneg_left this ga
  have hB0 : 0 ≤ B := by
    obtain ⟨g, hg, hs, hne⟩ := across h hf a m ham
    obtain ⟨q, hq⟩ := exists_next g a (mem_of_step g _ hs).2
    have G := h.behind g hg m a q hs hq
    have hcg : c ∉ g := fun hc => hne (plane_eq h hf hg a m c ham hmc (mem_of_step g _ hs).2 (mem_of_step g _ hs).1 hc).symm
    have gc : 0 < side m a q c :=
      lt_of_le_of_ne (G c ⟨f, hf, vm.2⟩).1 (fun hc => hcg ((G c ⟨f, hf, vm.2⟩).2.mp hc.symm))
    have gj := (G j ⟨f, hf, hj⟩).1
    have gm := (G m ⟨f, hf, va.2⟩).2.mpr (mem_of_step g _ hs).1
    have ga := (G a ⟨f, hf, va.1⟩).2.mpr (mem_of_step g _ hs).2
    obtain ⟨n0, n1, n2, k, hn⟩ := side_affine m a q
    rw [hn] at ga gj gm gc
    have e : (n0 * j 0 + n1 * j 1 + n2 * j 2 + k) * T =
        B * (n0 * c 0 + n1 * c 1 + n2 * c 2 + k) := by
      linear_combination n0 * key 0 + n1 * key 1 + n2 * key 2 + (T - A - B) * gm + A * ga
    have := mul_nonneg gj T0.le
    rw [e] at this
    exact nonneg_of_mul_nonneg_left this gc
  refine ⟨A / T, B / T, div_nonneg hA0 T0.le, div_nonneg hB0 T0.le, fun d => ?_⟩
  have hT0 : T ≠ 0 := T0.ne'
  have e : j d - m d = (j d - m d) * T / T := by rw [mul_div_assoc, div_self hT0, mul_one]
  rw [e, key d]
  ring

/-- two independent edges meet at each corner -/
theorem corner_independent {f : List Pt} (hf : f ∈ faces) (a m c : Pt) (ham : (a, m) ∈ steps f) (hmc : (m, c) ∈ steps f)
    (A B : ℚ) (h0 : ∀ d, A * (a d - m d) + B * (c d - m d) = 0) : A = 0 ∧ B = 0 := by
  obtain ⟨i, hi, hif⟩ := h.solid f hf
  have F := h.behind f hf a m c ham hmc
  have T0 : side a m c i ≠ 0 := fun hc => hif ((F i hi).2.mp hc)
  rw [side_vertex] at T0
  have e0 := h0 0
  have e1 := h0 1
  have e2 := h0 2
  constructor
  · by_contra hA
    apply T0
    refine ((mul_eq_zero (a := A)).mp ?_).resolve_left hA
    linear_combination
      ((c 1 - m 1) * (i 2 - m 2) - (c 2 - m 2) * (i 1 - m 1)) * e0 +
        ((c 2 - m 2) * (i 0 - m 0) - (c 0 - m 0) * (i 2 - m 2)) * e1 +
        ((c 0 - m 0) * (i 1 - m 1) - (c 1 - m 1) * (i 0 - m 0)) * e2
  · by_contra hB
    apply T0
    refine ((mul_eq_zero (a := B)).mp ?_).resolve_left hB
    linear_combination
        ((i 1 - m 1) * (a 2 - m 2) - (i 2 - m 2) * (a 1 - m 1)) * e0 +
        ((i 2 - m 2) * (a 0 - m 0) - (i 0 - m 0) * (a 2 - m 2)) * e1 +
        ((i 0 - m 0) * (a 1 - m 1) - (i 1 - m 1) * (a 0 - m 0)) * e2

/-- no corner of a face is between two others -/
theorem not_between {f : List Pt} (hf : f ∈ faces) (p m r : Pt) (hp : p ∈ f) (hm : m ∈ f) (hr : r ∈ f) (hpm : p ≠ m)
    (s t : ℚ) (hs : 0 < s) (ht : 0 ≤ t)
    (hd : ∀ d, s * (p d - m d) + t * (r d - m d) = 0) : False := by
  obtain ⟨a, ha⟩ := exists_prev f m hm
  obtain ⟨c, hc⟩ := exists_next f m hm
  obtain ⟨A, B, hA, hB, e1⟩ := corner_angle h hf a m c ha hc p hp
  obtain ⟨A', B', hA', hB', e2⟩ := corner_angle h hf a m c ha hc r hr
  obtain ⟨z1, z2⟩ := corner_independent h hf a m c ha hc (s * A + t * A') (s * B + t * B') (by
    intro d
    have := hd d
    rw [e1 d, e2 d] at this
    linear_combination this)
  have a1 : A = 0 := by
    have u1 := mul_nonneg hs.le hA
    have u2 := mul_nonneg ht hA'
    have : s * A = 0 := by linarith
    rcases mul_eq_zero.mp this with x | x
    · linarith
    · exact x
  have b1 : B = 0 := by
    have u1 := mul_nonneg hs.le hB
    have u2 := mul_nonneg ht hB'
    have : s * B = 0 := by linarith
    rcases mul_eq_zero.mp this with x | x
    · linarith
    · exact x
  apply hpm
  funext d
  have := e1 d
  rw [a1, b1] at this
  linarith

/-- seen from one of its corners, the other corners of a face are neighbours or properly between the edges -/
theorem corner_proper {f : List Pt} (hf : f ∈ faces) (a m c : Pt) (ham : (a, m) ∈ steps f) (hmc : (m, c) ∈ steps f)
    (j : Pt) (hj : j ∈ f) (hjm : j ≠ m) (hja : j ≠ a) (hjc : j ≠ c) : ∃ A B : ℚ, 0 < A ∧ 0 < B ∧
      ∀ d, j d - m d = A * (a d - m d) + B * (c d - m d) := by
  obtain ⟨A, B, hA, hB, e⟩ := corner_angle h hf a m c ham hmc j hj
  have hm := (mem_of_step f _ hmc).1
  have along : ∀ x, x ∈ f → x ≠ m → j ≠ x → ∀ C : ℚ, 0 ≤ C →
      (∀ d, j d - m d = C * (x d - m d)) → False := by
    intro x hx hxm hjx C hC hd
    rcases hC.lt_or_eq with hC | hC
    · rcases lt_trichotomy C 1 with h1 | h1 | h1
      · exact not_between h hf m j x hm hj hx (Ne.symm hjm) (1 - C) C (by linarith) hC.le (by
          intro d
          have := hd d
          linear_combination -this)
      · apply hjx
        funext d
        have := hd d
        rw [h1] at this
        linarith
      · exact not_between h hf m x j hm hx hj (Ne.symm hxm) (C - 1) 1 (by linarith) (by norm_num) (by
          intro d
          have := hd d
          linear_combination this)
    · apply hjm
      funext d
      have := hd d
      rw [← hC] at this
      linarith
  have hne : ∀ x y, (x, y) ∈ steps f → x ≠ y := by
    rintro x y hxy rfl
    exact swap_other f (h.simple f hf).1 (h.simple f hf).2 _ hxy hxy
  refine ⟨A, B, lt_of_le_of_ne hA ?_, lt_of_le_of_ne hB ?_, e⟩
  · rintro rfl
    exact along c (mem_of_step f _ hmc).2 (hne _ _ hmc).symm hjc B hB (fun d => by rw [e d]; ring)
  · rintro rfl
    exact along a (mem_of_step f _ ham).1 (hne _ _ ham) hja A hA (fun d => by rw [e d]; ring)

/-- an edge between two corners of a face is an edge of the face -/
theorem edge_of_face {f : List Pt} (hf : f ∈ faces) (u w : Pt) (he : (u, w) ∈ faces.flatMap steps) (hu : u ∈ f) (hw : w ∈ f) :
    (u, w) ∈ steps f ∨ (w, u) ∈ steps f := by
  obtain ⟨g, hg, hs⟩ := List.mem_flatMap.mp he
  obtain ⟨a, ha⟩ := exists_prev f u hu
  obtain ⟨c, hc⟩ := exists_next f u hu
  by_cases hwa : w = a
  · subst hwa; exact Or.inr ha
  by_cases hwc : w = c
  · subst hwc; exact Or.inl hc
  have hwu : w ≠ u := by
    rintro rfl
    exact swap_other g (h.simple g hg).1 (h.simple g hg).2 _ hs hs
  obtain ⟨A, B, hA, hB, e⟩ := corner_proper h hf a u c ha hc w hw hwu hwa hwc
  left
  obtain ⟨q, hq⟩ := exists_prev g u (mem_of_step g _ hs).1
  have G := h.behind g hg q u w hq hs
  have va := (mem_of_step f _ ha).1
  have vc := (mem_of_step f _ hc).2
  have ga := G a ⟨f, hf, va⟩
  have gc := G c ⟨f, hf, vc⟩
  have gu := (G u ⟨f, hf, hu⟩).2.mpr (mem_of_step g _ hs).1
  have gw := (G w ⟨f, hf, hw⟩).2.mpr (mem_of_step g _ hs).2
  obtain ⟨n0, n1, n2, k, hn⟩ := side_affine q u w
  rw [hn] at ga gc gu gw
  have key : A * (n0 * a 0 + n1 * a 1 + n2 * a 2 + k) +
      B * (n0 * c 0 + n1 * c 1 + n2 * c 2 + k) = 0 := by
    linear_combination gw - gu - n0 * e 0 - n1 * e 1 - n2 * e 2 + (A + B) * gu
  have u1 := mul_nonneg hA.le ga.1
  have u2 := mul_nonneg hB.le gc.1
  have z1 : a ∈ g := ga.2.mp (by
    have : A * (n0 * a 0 + n1 * a 1 + n2 * a 2 + k) = 0 := by linarith
    exact (mul_eq_zero.mp this).resolve_left hA.ne')
  have z2 : c ∈ g := gc.2.mp (by
    have : B * (n0 * c 0 + n1 * c 1 + n2 * c 2 + k) = 0 := by linarith
    exact (mul_eq_zero.mp this).resolve_left hB.ne')
  have := plane_eq h hf hg a u c ha hc z1 (mem_of_step g _ hs).1 z2
  rw [this]
  exact hs

end Surface

/-- the faces around a vertex -/
theorem link (faces : List (List Pt)) (h : ConvexPolyhedron faces) (u : Pt) (hu : IsCorner faces u) :
    ∃ (k : ℕ) (w : ℕ → Pt), 3 ≤ k ∧ w k = w 0 ∧ (∀ i, IsCorner faces (w i)) ∧
      ∀ i, ∃ f ∈ faces, (w (i + 1), u) ∈ steps f ∧ (u, w i) ∈ steps f ∧ (1 ≤ i → i + 1 < k → w 0 ∉ f) := by
  classical
  let N := {w : Pt // (u, w) ∈ faces.flatMap steps}
  have hnext : ∀ w : N, ∃ w' : N, ∃ f ∈ faces, (w'.1, u) ∈ steps f ∧ (u, w.1) ∈ steps f := by
    rintro ⟨w, hw⟩
    obtain ⟨f, hf, hs⟩ := List.mem_flatMap.mp hw
    obtain ⟨w', hw'⟩ := exists_prev f u (mem_of_step f _ hs).1
    exact ⟨⟨w', h.closed _ _ (List.mem_flatMap.mpr ⟨f, hf, hw'⟩)⟩, f, hf, hw', hs⟩
  choose σ hσ using hnext
  have same : ∀ f ∈ faces, ∀ g ∈ faces, ∀ e, e ∈ steps f → e ∈ steps g → f = g := by
    intro f hf g hg e he he'
    obtain ⟨i, hi, rfl⟩ := List.getElem_of_mem hf
    obtain ⟨j, hj, rfl⟩ := List.getElem_of_mem hg
    have := step_unique faces h.once e i j hi hj he he'
    subst this; rfl
  have hfin : Finite N := by
    have : Set.Finite {w : Pt | (u, w) ∈ faces.flatMap steps} := by
      refine ((List.finite_toSet ((faces.flatMap steps).map Prod.snd))).subset ?_
      intro w hw
      exact List.mem_map.mpr ⟨_, hw, rfl⟩
    exact this.to_subtype
  have hinj : Function.Injective σ := by
    intro w1 w2 he
    obtain ⟨f, hf, f1, f2⟩ := hσ w1
    obtain ⟨g, hg, g1, g2⟩ := hσ w2
    rw [he] at f1
    have := same f hf g hg _ f1 g1
    subst this
    exact Subtype.ext (step_fst_inj f (h.simple f hf).1 _ _ _ f2 g2)
  obtain ⟨f0, hf0, hu0⟩ := hu
  obtain ⟨w0, hw0⟩ := exists_next f0 u hu0
  let W0 : N := ⟨w0, List.mem_flatMap.mpr ⟨f0, hf0, hw0⟩⟩
  have hper := hinj.mem_periodicPts W0
  have hpos := Function.minimalPeriod_pos_of_mem_periodicPts hper
  set k := Function.minimalPeriod σ W0 with hk
  have hret : σ^[k] W0 = W0 := Function.iterate_minimalPeriod
  have hstep : ∀ i, ∃ f ∈ faces, ((σ^[i + 1] W0).1, u) ∈ steps f ∧ (u, (σ^[i] W0).1) ∈ steps f := by
    intro i
    rw [Function.iterate_succ_apply']
    exact hσ _
  have hlt : ∀ i, IsCorner faces (σ^[i] W0).1 := by
    intro i
    obtain ⟨f, hf, _, h2⟩ := hstep i
    exact ⟨f, hf, (mem_of_step f _ h2).2⟩
  have hne : ∀ i, 1 ≤ i → i < k → (σ^[i] W0).1 ≠ W0.1 := by
    intro i h1 h2 hc
    exact Function.not_isPeriodicPt_of_pos_of_lt_minimalPeriod (by omega) h2 (Subtype.ext hc)
  refine ⟨k, fun i => (σ^[i] W0).1, ?_, ?_, hlt, ?_⟩
  · by_contra hc
    rcases (show k = 1 ∨ k = 2 by omega) with h1 | h2
    · rw [h1] at hret
      obtain ⟨f, hf, a1, a2⟩ := hstep 0
      rw [hret] at a1
      exact swap_other f (h.simple f hf).1 (h.simple f hf).2 _ a1 a2
    · rw [h2] at hret
      obtain ⟨f, hf, a1, a2⟩ := hstep 0
      obtain ⟨g, hg, b1, b2⟩ := hstep 1
      rw [show (1 : ℕ) + 1 = 2 by rfl, hret] at b1
      simp only [Function.iterate_zero, id_eq, zero_add] at a1 a2
      obtain ⟨i, hi, hif⟩ := h.solid f hf
      have c1 := h.behind f hf _ _ _ a1 a2 i hi
      have c2 := h.behind g hg _ _ _ b1 b2 i hi
      apply hif
      apply c1.2.mp
      have : side (σ^[1] W0).1 u W0.1 i =
          - side W0.1 u (σ^[1] W0).1 i := by
        unfold side; ring
      linarith [c1.1, c2.1]
  · simp only [hret, Function.iterate_zero, id_eq]
  · intro i
    obtain ⟨f, hf, a1, a2⟩ := hstep i
    refine ⟨f, hf, a1, a2, fun h1 h2 hc => ?_⟩
    simp only [Function.iterate_zero, id_eq] at hc
    rcases edge_of_face h hf u W0.1 W0.2 (mem_of_step f _ a2).1 hc with e | e
    · exact hne i h1 (by omega) (step_fst_inj f (h.simple f hf).1 _ _ _ a2 e)
    · exact hne (i + 1) (by omega) h2 (step_snd_inj f (h.simple f hf).1 _ _ _ a1 e)

/-- the vectors from a vertex to the points behind the faces around it are combinations of three vectors to neighbours -/
theorem cone_link (faces : List (List Pt)) (h : ConvexPolyhedron faces) (u : Pt) (k : ℕ) (w : ℕ → Pt) (hk : 3 ≤ k)
    (hret : w k = w 0) (hlt : ∀ i, IsCorner faces (w i))
    (hw : ∀ i, ∃ f ∈ faces, (w (i + 1), u) ∈ steps f ∧ (u, w i) ∈ steps f ∧ (1 ≤ i → i + 1 < k → w 0 ∉ f))
    (x : Fin 3 → ℝ) (hx : ∀ f ∈ faces, ∀ a c, (a, u) ∈ steps f → (u, c) ∈ steps f →
      0 ≤ side (real a) (real u) (real c) x) :
    ∃ i < k, ∃ j < k, ∃ l < k, ∃ A B C : ℝ, 0 ≤ A ∧ 0 ≤ B ∧ 0 ≤ C ∧
      ∀ d, x d - real u d = A * (real (w i) d - real u d) +
        B * (real (w j) d - real u d) + C * (real (w l) d - real u d) := by
  set U := real u with hU
  let W : ℕ → Fin 3 → ℝ := fun i => real (w i)
  let D : ℕ → ℝ := fun i => side (W i) U (W 0) x
  have hE : ∀ i, 0 ≤ side (W (i + 1)) U (W i) x := by
    intro i
    obtain ⟨f, hf, a1, a2, _⟩ := hw i
    exact hx f hf _ _ a1 a2
  have swap : ∀ a b c x : Fin 3 → ℝ, side a b c x = - side c b a x := by intros; unfold side; ring
  have hlast : D (k - 1) ≤ 0 := by
    have := hE (k - 1)
    rw [show k - 1 + 1 = k by omega] at this
    have e : W k = W 0 := by simp only [W, hret]
    rw [e, swap] at this
    change side (W (k - 1)) U (W 0) x ≤ 0
    linarith
  have hsw : ∃ i, 1 ≤ i ∧ i + 1 < k ∧ 0 ≤ D i ∧ D (i + 1) ≤ 0 := by
    have hex : ∃ i, 2 ≤ i ∧ D i ≤ 0 := ⟨k - 1, by omega, hlast⟩
    classical
    have hs := Nat.find_spec hex
    have hmin := fun m => @Nat.find_min _ _ hex m
    have hle : Nat.find hex ≤ k - 1 := Nat.find_min' hex ⟨by omega, hlast⟩
    refine ⟨Nat.find hex - 1, by omega, by omega, ?_, ?_⟩
    · rcases Nat.lt_or_ge 2 (Nat.find hex) with hc | hc
      · have := hmin (Nat.find hex - 1) (by omega)
        by_contra hn
        exact this ⟨by omega, by linarith⟩
      · have he : Nat.find hex - 1 = 1 := by omega
        rw [he]
        exact hE 0
    · rw [show Nat.find hex - 1 + 1 = Nat.find hex by omega]
      exact hs.2
  obtain ⟨i, i1, i2, d1, d2⟩ := hsw
  obtain ⟨f, hf, a1, a2, a3⟩ := hw i
  have hpos : 0 < side (W (i + 1)) U (W i) (W 0) := by
    have hb := h.behind f hf _ _ _ a1 a2 (w 0) (hlt 0)
    simp only [W, U, side_real]
    rcases hb.1.lt_or_eq with hc | hc
    · exact_mod_cast hc
    · exact absurd (hb.2.mp hc.symm) (a3 i1 i2)
  set T := side (W (i + 1)) U (W i) (W 0) with hT
  refine ⟨i + 1, by omega, i, by omega, 0, by omega, D i / T, -D (i + 1) / T, side (W (i + 1)) U (W i) x / T,
    div_nonneg d1 hpos.le, div_nonneg (by linarith) hpos.le, div_nonneg (hE i) hpos.le, ?_⟩
  have key : ∀ d, (x d - U d) * T = D i * (W (i + 1) d - U d) + -D (i + 1) * (W i d - U d) +
      side (W (i + 1)) U (W i) x * (W 0 d - U d) := by
    intro d
    simp only [hT, D, side_vertex]
    fin_cases d <;> simp only [Fin.zero_eta, Fin.mk_one, Fin.reduceFinMk] <;> ring
  intro d
  change x d - U d = D i / T * (W (i + 1) d - U d) + -D (i + 1) / T * (W i d - U d) +
      side (W (i + 1)) U (W i) x / T * (W 0 d - U d)
  have hT0 : T ≠ 0 := hpos.ne'
  have e : x d - U d = (x d - U d) * T / T := by rw [mul_div_assoc, div_self hT0, mul_one]
  rw [e, key d]
  ring

/-- the same with the neighbours as corners -/
theorem cone (faces : List (List Pt)) (h : ConvexPolyhedron faces) (u : Pt) (hu : IsCorner faces u)
    (x : Fin 3 → ℝ) (hx : ∀ f ∈ faces, ∀ a c, (a, u) ∈ steps f → (u, c) ∈ steps f →
      0 ≤ side (real a) (real u) (real c) x) :
    ∃ p q r : Pt, IsCorner faces p ∧ IsCorner faces q ∧ IsCorner faces r ∧ ∃ A B C : ℝ, 0 ≤ A ∧ 0 ≤ B ∧ 0 ≤ C ∧
      ∀ d, x d - real u d = A * (real p d - real u d) +
        B * (real q d - real u d) + C * (real r d - real u d) := by
  obtain ⟨k, w, hk, hret, hlt, hw⟩ := link faces h u hu
  obtain ⟨i, _, j, _, l, _, r⟩ := cone_link faces h u k w hk hret hlt hw x hx
  exact ⟨w i, w j, w l, hlt i, hlt j, hlt l, r⟩

theorem solid_behind (faces : List (List Pt)) (h : ConvexPolyhedron faces) (f : List Pt)
    (hf : f ∈ faces) (a b c : Pt) (ha : (a, b) ∈ steps f) (hc : (b, c) ∈ steps f) (x : Fin 3 → ℝ) (hx : x ∈ Hull (IsCorner faces)) :
    0 ≤ side (real a) (real b) (real c) x := by
  have hconv : Convex ℝ {x : Fin 3 → ℝ | 0 ≤ side (real a) (real b) (real c) x} := by
    intro y hy z hz s t hs ht hst
    simp only [Set.mem_ofPred_eq] at hy hz ⊢
    have : side (real a) (real b) (real c) (s • y + t • z) =
        s * side (real a) (real b) (real c) y +
        t * side (real a) (real b) (real c) z := by
      have : t = 1 - s := by linarith
      subst this
      simp only [side_vertex, Pi.add_apply, Pi.smul_apply, smul_eq_mul]
      ring
    rw [this]
    positivity
  refine convexHull_min ?_ hconv hx
  rintro _ ⟨p, hp, rfl⟩
  have := (h.behind f hf a b c ha hc p hp).1
  simp only [Set.mem_ofPred_eq, side_real]
  exact_mod_cast this

/-- the points behind all faces are the points of the solid -/
theorem solid_iff (faces : List (List Pt)) (h : ConvexPolyhedron faces) (hv : faces ≠ [])
    (x : Fin 3 → ℝ) : x ∈ Hull (IsCorner faces) ↔ ∀ f ∈ faces, ∀ a b c, (a, b) ∈ steps f → (b, c) ∈ steps f →
      0 ≤ side (real a) (real b) (real c) x := by
  constructor
  · intro hx f hf a b c ha hc
    exact solid_behind faces h f hf a b c ha hc x hx
  · intro hx
    by_contra hn
    have hfin : {x : Fin 3 → ℝ | ∃ p, IsCorner faces p ∧ x = real p}.Finite := by
      refine ((List.finite_toSet (faces.flatten.map real))).subset ?_
      rintro _ ⟨p, ⟨f, hf, hp⟩, rfl⟩
      exact List.mem_map.mpr ⟨p, List.mem_flatten.mpr ⟨f, hf, hp⟩, rfl⟩
    obtain ⟨g, m, hg1, hg2⟩ := geometric_hahn_banach_closed_point (convex_convexHull ℝ _) (hfin.isClosed_convexHull ℝ) hn
    have hmax : ∃ u, IsCorner faces u ∧ ∀ i, IsCorner faces i → g (real i) ≤ g (real u) := by
      obtain ⟨f, hf⟩ := List.exists_mem_of_ne_nil faces hv
      obtain ⟨p, hp⟩ := List.exists_mem_of_length_pos (lt_of_lt_of_le (by norm_num) (h.simple f hf).2)
      obtain ⟨u, hu, hm⟩ := Finset.exists_max_image faces.flatten.toFinset (fun i => g (real i))
        ⟨p, List.mem_toFinset.mpr (List.mem_flatten.mpr ⟨f, hf, hp⟩)⟩
      refine ⟨u, ?_, fun i hi => hm i ?_⟩
      · obtain ⟨f, hf, hp⟩ := List.mem_flatten.mp (List.mem_toFinset.mp hu)
        exact ⟨f, hf, hp⟩
      · obtain ⟨f, hf, hp⟩ := hi
        exact List.mem_toFinset.mpr (List.mem_flatten.mpr ⟨f, hf, hp⟩)
    obtain ⟨u, hu, hm⟩ := hmax
    obtain ⟨p, q, r, hp, hq, hr, A, B, C, hA, hB, hC, hd⟩ := cone faces h u hu x
      (fun f hf a c h1 h2 => hx f hf a u c h1 h2)
    have hvec : x - real u = A • (real p - real u) +
        B • (real q - real u) + C • (real r - real u) := by
      funext d
      simpa using hd d
    have hgv := congrArg g hvec
    simp only [map_sub, map_add, map_smul, smul_eq_mul] at hgv
    have hmem : g (real u) < m := by
      apply hg1
      apply subset_convexHull
      exact ⟨u, hu, rfl⟩
    have b1 := mul_nonneg hA (sub_nonneg.mpr (hm p hp))
    have b2 := mul_nonneg hB (sub_nonneg.mpr (hm q hq))
    have b3 := mul_nonneg hC (sub_nonneg.mpr (hm r hr))
    linarith

end Brille.Convex
