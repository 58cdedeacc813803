/-
Cutting a convex polyhedron with planes leaves exactly the part of it behind all of them.
-/
import Verif.Proofs.ConvexSolid
import Verif.Model.SortFace
import Verif.Props.Clip
import Mathlib.Tactic.FinCases

namespace Brille.Props

open Brille.Spec Brille.Tetra Brille.Faces Brille.Cut Brille.Convex Brille.SortFace

theorem orient_eq (P : Plane) (x : Pt) : P.orient x = side P.a P.b P.c x := by
  simp only [Plane.orient, orient3d, dot, Tetra.cross, diff, side, Matrix.cons_val_zero, Matrix.cons_val_one, Matrix.cons_val]

theorem orient_fun (P : Plane) : P.orient = side P.a P.b P.c := funext (orient_eq P)

theorem steps_map {α β : Type} (g : α → β) (f : List α) : steps (f.map g) = (steps f).map (Prod.map g g) := by
  unfold steps
  rw [← List.map_rotate, List.zip_map]

theorem polygon_steps (v : List Pt) (faces : List (List Nat)) :
    (polygons v faces).flatMap steps = (faces.flatMap steps).map (Prod.map (fun i => v.getD i 0) (fun i => v.getD i 0)) := by
  unfold polygons
  rw [List.flatMap_map, List.map_flatMap]
  congr 1
  funext f
  exact steps_map _ f

theorem corner_iff {v : List Pt} {faces : List Face} (h : ConvexSolid v faces) (p : Pt) : IsCorner (polygons v faces) p ↔ p ∈ v := by
  constructor
  · rintro ⟨g, hg, hp⟩
    obtain ⟨f, hf, rfl⟩ := List.mem_map.mp hg
    obtain ⟨i, hi, rfl⟩ := List.mem_map.mp hp
    rw [getD_lt v 0 (h.valid f hf i hi)]
    exact List.getElem_mem _
  · intro hp
    obtain ⟨i, hi, rfl⟩ := List.getElem_of_mem hp
    obtain ⟨f, hf, hif⟩ := h.used i hi
    exact ⟨_, List.mem_map.mpr ⟨f, hf, rfl⟩, List.mem_map.mpr ⟨i, hif, getD_lt v 0 hi⟩⟩

theorem getD_inj {v : List Pt} (hv : v.Nodup) {i j : Nat} (hi : i < v.length) (hj : j < v.length) (e : v.getD i 0 = v.getD j 0) : i = j := by
  rw [getD_lt v 0 hi, getD_lt v 0 hj] at e
  exact (List.Nodup.getElem_inj_iff hv).mp e

theorem step_polygon (v : List Pt) (faces : List Face) (a b : Nat) (hab : (a, b) ∈ faces.flatMap steps) :
    (v.getD a 0, v.getD b 0) ∈ (polygons v faces).flatMap steps := by
  rw [polygon_steps]
  exact List.mem_map.mpr ⟨_, hab, rfl⟩

theorem step_valid {v : List Pt} {faces : List Face} (h : ∀ f ∈ faces, ∀ i ∈ f, i < v.length) (a b : Nat)
    (hab : (a, b) ∈ faces.flatMap steps) : a < v.length ∧ b < v.length := by
  obtain ⟨f, hf, he⟩ := List.mem_flatMap.mp hab
  obtain ⟨h1, h2⟩ := Convex.mem_of_step f _ he
  exact ⟨h f hf _ h1, h f hf _ h2⟩

/-- the surface of a convex polyhedron is as `C53_clip` needs it -/
theorem convex_surface {v : List Pt} {faces : List Face} (h : ConvexSolid v faces) : Surface v faces where
  distinct := h.distinct
  valid := h.valid
  simple := by
    intro f hf
    obtain ⟨h1, h2⟩ := h.convex.simple _ (List.mem_map.mpr ⟨f, hf, rfl⟩)
    exact ⟨List.Nodup.of_map _ h1, by rwa [List.length_map] at h2⟩
  once := by
    have := h.convex.once
    rw [polygon_steps] at this
    exact List.Nodup.of_map _ this
  closed := by
    intro a b hab
    have := h.convex.closed _ _ (step_polygon v faces a b hab)
    rw [polygon_steps] at this
    obtain ⟨⟨c, d⟩, hcd, e⟩ := List.mem_map.mp this
    simp only [Prod.map, Prod.mk.injEq] at e
    obtain ⟨l1, l2⟩ := step_valid h.valid a b hab
    obtain ⟨l3, l4⟩ := step_valid h.valid c d hcd
    have e1 := getD_inj h.distinct l3 l2 e.1
    have e2 := getD_inj h.distinct l4 l1 e.2
    subst e1; subst e2
    exact hcd
  vertices := by
    intro a b hab t t0 t1 hm
    exact edge_no_corner h.convex _ _ (step_polygon v faces a b hab) t t0 t1 ((corner_iff h _).mpr hm)
  edges := by
    intro a b c d hab hcd u t u0 u1 t0 t1 e
    obtain ⟨l1, l2⟩ := step_valid h.valid a b hab
    obtain ⟨l3, l4⟩ := step_valid h.valid c d hcd
    rcases edges_meet h.convex _ _ _ _ (step_polygon v faces a b hab) (step_polygon v faces c d hcd) u t u0 u1 t0 t1 e with e | e
    · simp only [Prod.mk.injEq] at e
      exact Or.inl (by rw [getD_inj h.distinct l1 l3 e.1, getD_inj h.distinct l2 l4 e.2])
    · simp only [Prod.mk.injEq] at e
      exact Or.inr (by rw [getD_inj h.distinct l1 l4 e.1, getD_inj h.distinct l2 l3 e.2])

theorem normal_turn (P : Plane) (y z w q : Pt) (hy : P.orient y = 0) (hz : P.orient z = 0) (hw : P.orient w = 0) :
    dot P.normal P.normal * side y z w q = turn P.normal y z w * P.orient q := by
  have on : ∀ x, P.orient x = dot P.normal (diff P.a x) := by
    intro x
    simp only [Plane.orient, Plane.normal, orient3d, dot, Tetra.cross, diff, Matrix.cons_val_zero, Matrix.cons_val_one, Matrix.cons_val]
    ring
  rw [on] at hy hz hw
  rw [on]
  generalize P.normal = n at *
  generalize P.a = a at *
  have h1 : n 0 * (z 0 - y 0) + n 1 * (z 1 - y 1) + n 2 * (z 2 - y 2) = 0 := by
    simp only [dot, diff] at hy hz; linarith
  have h2 : n 0 * (w 0 - y 0) + n 1 * (w 1 - y 1) + n 2 * (w 2 - y 2) = 0 := by
    simp only [dot, diff] at hy hw; linarith
  have h3 : dot n (diff a q) = n 0 * (y 0 - q 0) + n 1 * (y 1 - q 1) + n 2 * (y 2 - q 2) := by
    simp only [dot, diff] at hy ⊢; linarith
  rw [h3]
  simp only [turn, dot, Tetra.cross, diff, side, Matrix.cons_val_zero, Matrix.cons_val_one, Matrix.cons_val]
  linear_combination ((n 1 * (y 2 - q 2) - n 2 * (y 1 - q 1)) * (z 0 - y 0) + (n 2 * (y 0 - q 0) - n 0 * (y 2 - q 2)) * (z 1 - y 1) + (n 0 * (y 1 - q 1) - n 1 * (y 0 - q 0)) * (z 2 - y 2)) * h2 -
    ((n 1 * (y 2 - q 2) - n 2 * (y 1 - q 1)) * (w 0 - y 0) + (n 2 * (y 0 - q 0) - n 0 * (y 2 - q 2)) * (w 1 - y 1) + (n 0 * (y 1 - q 1) - n 1 * (y 0 - q 0)) * (w 2 - y 2)) * h1

theorem real_orient (P : Plane) (p : Pt) : ((P.orient p : ℚ) : ℝ) = side (real P.a) (real P.b) (real P.c) (real p) := by
  rw [orient_eq]; unfold side real; push_cast; ring

/-- C67.  One cut through a convex polyhedron with a vertex strictly behind the plane: the call does not throw, returns a convex
polyhedron, and the points of that are exactly the points of the old one which are not beyond the plane. -/
theorem C67_one_cut (P : Plane) (v : List Pt) (faces : List Face) (h : ConvexSolid v faces) (hin : ∃ p ∈ v, 0 < side P.a P.b P.c p) :
    ∃ v' f', oneCut sortFace P v faces = some (v', f') ∧ ConvexSolid v' f' ∧
      ∀ x : Fin 3 → ℝ, x ∈ Hull (· ∈ v') ↔ x ∈ Hull (· ∈ v) ∧ 0 ≤ side (real P.a) (real P.b) (real P.c) x := by
  have hin' : ∃ p ∈ v, 0 < P.orient p := by
    obtain ⟨p, hp, h0⟩ := hin; exact ⟨p, hp, by rwa [orient_eq]⟩
  have hconvex : Convex ℝ {x : Fin 3 → ℝ | 0 ≤ side (real P.a) (real P.b) (real P.c) x} := by
    intro y hy z hz s t hs ht hst
    simp only [Set.mem_ofPred_eq] at hy hz ⊢
    have : side (real P.a) (real P.b) (real P.c) (s • y + t • z) = s * side (real P.a) (real P.b) (real P.c) y +
        t * side (real P.a) (real P.b) (real P.c) z := by
      have : t = 1 - s := by linarith
      subst this
      simp only [side, Pi.add_apply, Pi.smul_apply, smul_eq_mul]; ring
    rw [this]
    exact add_nonneg (mul_nonneg hs hy) (mul_nonneg ht hz)
  by_cases hall : ∀ p ∈ v, 0 ≤ P.orient p
  · refine ⟨v, faces, C53_nothing_to_cut sortFace P v faces hin' hall, h, fun x => ⟨fun hx => ⟨hx, ?_⟩, fun hx => hx.1⟩⟩
    refine convexHull_min ?_ hconvex hx
    rintro _ ⟨p, hp, rfl⟩
    show 0 ≤ side (real P.a) (real P.b) (real P.c) (real p)
    rw [← real_orient]
    exact_mod_cast hall p hp
  · push Not at hall
    set s := P.orient with hsd
    have hs : Affine s := by rw [hsd, orient_fun]; exact affine_side _ _ _
    have hc := h.convex
    obtain ⟨q0, hq, hq0⟩ := hin'
    have hq' := (corner_iff h q0).mpr hq
    have hout' : ∃ p, IsCorner (polygons v faces) p ∧ s p < 0 := by
      obtain ⟨p, hp, h0⟩ := hall; exact ⟨p, (corner_iff h p).mpr hp, h0⟩
    -- the points of the new face
    have hpts : ∀ (nf : Face) (w : List Pt), (∀ x, x ∈ (nf.map fun i => w.getD i 0) ↔ ∃ a b, (a, b) ∈ faces.flatMap steps ∧
        s (v.getD a 0) < 0 ∧ 0 ≤ s (v.getD b 0) ∧ x = crossing s (v.getD a 0) (v.getD b 0)) →
        ∀ x, x ∈ (nf.map fun i => w.getD i 0) ↔ Sub (polygons v faces) s x ∧ s x = 0 := by
      intro nf w hm x
      rw [hm x, ← cap_points hc hs hout' x, polygon_steps]
      constructor
      · rintro ⟨a, b, hab, h1, h2, rfl⟩
        exact ⟨_, _, List.mem_map.mpr ⟨_, hab, rfl⟩, h1, h2, rfl⟩
      · rintro ⟨a, b, hab, h1, h2, rfl⟩
        obtain ⟨⟨c, d⟩, hcd, e⟩ := List.mem_map.mp hab
        simp only [Prod.map, Prod.mk.injEq] at e
        obtain ⟨rfl, rfl⟩ := e
        exact ⟨c, d, hcd, h1, h2, rfl⟩
    have hspec : ∀ (nf : Face) (w : List Pt), nf.Nodup → w.Nodup → (∀ i ∈ nf, i < w.length) →
        (∀ x, x ∈ (nf.map fun i => w.getD i 0) ↔ Sub (polygons v faces) s x ∧ s x = 0) →
        (sortFace P nf w).Perm nf ∧ Cap (polygons v faces) s q0 ((sortFace P nf w).map fun i => w.getD i 0) := by
      intro nf w hn hw hlt hm
      have h3 : 3 ≤ nf.length := by
        have := three_of_mem hc hs hq' hq0 hout' hm
        rwa [List.length_map] at this
      have hz : ∀ i ∈ nf, s (w.getD i 0) = 0 := fun i hi => ((hm _).mp (List.mem_map.mpr ⟨i, hi, rfl⟩)).2
      have hnn : 0 < dot P.normal P.normal := by
        have h0 : 0 ≤ dot P.normal P.normal := by
          unfold dot
          have := mul_self_nonneg (P.normal 0); have := mul_self_nonneg (P.normal 1); have := mul_self_nonneg (P.normal 2); linarith
        refine lt_of_le_of_ne h0 fun e => ?_
        have q0' := mul_self_nonneg (P.normal 0); have q1 := mul_self_nonneg (P.normal 1); have q2 := mul_self_nonneg (P.normal 2)
        unfold dot at e
        have z0 : P.normal 0 = 0 := mul_self_eq_zero.mp (by linarith)
        have z1 : P.normal 1 = 0 := mul_self_eq_zero.mp (by linarith)
        have z2 : P.normal 2 = 0 := mul_self_eq_zero.mp (by linarith)
        have : s q0 = P.normal 0 * (P.a 0 - q0 0) + P.normal 1 * (P.a 1 - q0 1) + P.normal 2 * (P.a 2 - q0 2) := by
          simp only [hsd, Plane.orient, Plane.normal, orient3d, dot, Tetra.cross, diff, Matrix.cons_val_zero, Matrix.cons_val_one, Matrix.cons_val]
          ring
        rw [z0, z1, z2] at this
        linarith
      have hturn : ∀ i ∈ nf, ∀ j ∈ nf, ∀ k ∈ nf,
          (0 < side (w.getD i 0) (w.getD j 0) (w.getD k 0) q0 ↔ 0 < turn P.normal (w.getD i 0) (w.getD j 0) (w.getD k 0)) := by
        intro i hi j hj k hk
        have e := normal_turn P _ _ _ q0 (hz i hi) (hz j hj) (hz k hk)
        constructor
        · intro hp
          have := mul_pos hnn hp
          rw [e] at this
          exact pos_of_mul_pos_left this hq0.le
        · intro hp
          have := mul_pos hp hq0
          rw [← hsd] at e
          rw [← e] at this
          exact pos_of_mul_pos_right this hnn.le
      have hinj : ∀ i ∈ nf, ∀ j ∈ nf, w.getD i 0 = w.getD j 0 → i = j := fun i hi j hj => getD_inj hw (hlt i hi) (hlt j hj)
      obtain ⟨hp, hccw⟩ := sortFace_convex P nf w hn h3 ⟨dot P.normal P.a, by
          intro i hi
          have := hz i hi
          have e : s (w.getD i 0) = dot P.normal P.a - dot P.normal (w.getD i 0) := by
            simp only [hsd, Plane.orient, Plane.normal, orient3d, dot, Tetra.cross, diff, Matrix.cons_val_zero, Matrix.cons_val_one, Matrix.cons_val]
            ring
          linarith⟩ (by
        intro y hy
        obtain ⟨hy1, hy0⟩ := (hm _).mp (List.mem_map.mpr ⟨y, hy, rfl⟩)
        obtain ⟨⟨f, x, he⟩, _⟩ := plane_edge_exists hc hs ⟨q0, hq', hq0⟩ hout' _ hy1 hy0
        have hx : Sub (polygons v faces) s x ∧ s x = 0 := ⟨sub_of_clip hc he.1 x (Convex.mem_of_step _ _ he.2.2.1).1, he.2.2.2.1⟩
        obtain ⟨z, hzn, hzx⟩ := List.mem_map.mp ((hm x).mpr hx)
        have hzx : w.getD z 0 = x := hzx
        have hne := plane_edge_ne hc hs hq' hq0 hout' he
        refine ⟨z, hzn, fun e => hne (by rw [← hzx, e]), ?_⟩
        intro k hk hky hkz
        refine (hturn y hy z hzn k hk).mp ?_
        rw [hzx]
        obtain ⟨hk1, hk0⟩ := (hm _).mp (List.mem_map.mpr ⟨k, hk, rfl⟩)
        exact plane_edge_left hc hs he _ hk1 hk0 (fun e => hkz (hinj k hk z hzn (by rw [hzx]; exact e)))
          (fun e => hky (hinj k hk y hy e)) q0 hq0)
      refine ⟨hp, ?_, ?_, ?_⟩
      · exact List.Nodup.map_on (fun i hi j hj e => hinj i (hp.subset hi) j (hp.subset hj) e) (hp.nodup_iff.mpr hn)
      · intro p
        rw [(hp.map _).mem_iff]
        exact hm p
      · intro y z he x hx hxy hxz
        rw [steps_map] at he
        obtain ⟨⟨i, j⟩, hij, e⟩ := List.mem_map.mp he
        simp only [Prod.map, Prod.mk.injEq] at e
        obtain ⟨rfl, rfl⟩ := e
        obtain ⟨k, hk, rfl⟩ := List.mem_map.mp hx
        obtain ⟨m1, m2⟩ := Convex.mem_of_step _ _ hij
        refine (hturn i (hp.subset m1) j (hp.subset m2) k (hp.subset hk)).mpr ?_
        exact hccw i j hij k (hp.subset hk) (fun e => hxy (by rw [e])) (fun e => hxz (by rw [e]))
    obtain ⟨nf, w, n1, n2, n3, n4, n5⟩ := clip_cut sortFace P v faces (convex_surface h) ⟨q0, hq, hq0⟩ hall (by
        intro f hf
        have := zero_two hc hs ⟨q0, hq', hq0⟩ hout' (List.mem_map.mpr ⟨f, hf, rfl⟩)
        rw [List.filter_map, List.length_map] at this
        exact this) (fun nf w n1 n2 n3 n4 => (hspec nf w n1 n2 n3 (hpts nf w n4)).1)
    obtain ⟨hperm, hcap⟩ := hspec nf w n1 n2 n3 (hpts nf w n4)
    have hlen := cap_three hc hs hq' hq0 hout' hcap
    have hconv := rest_convex hc hs hq' hq0 hout' hcap
    set C := (sortFace P nf w).map fun i => w.getD i 0 with hC
    have hR : Rest (polygons v faces) s C = ((faces.map fun f => clip s (f.map fun i => v.getD i 0)).filter fun p => decide (3 ≤ p.length)) ++
        (if 3 ≤ nf.length then [C] else []) := by
      rw [if_pos (by rw [hC, List.length_map, hperm.length_eq] at hlen; exact hlen)]
      unfold Rest polygons
      rw [List.map_map]
      rfl
    obtain ⟨v', f', e1, e2, e3, e4⟩ := n5 _ hR (fun p hp => turning hconv p hp) (three_at_corner hconv)
    have hlt' : ∀ f ∈ f', ∀ i ∈ f, i < v'.length := by
      intro f hf i hi
      have : f.map (fun i => v'[i]?) ∈ (Rest (polygons v faces) s C).map (List.map some) := by
        rw [← e2]; exact List.mem_map.mpr ⟨f, hf, rfl⟩
      obtain ⟨g, _, hg⟩ := List.mem_map.mp this
      have : v'[i]? ∈ g.map some := by rw [hg]; exact List.mem_map.mpr ⟨i, hi, rfl⟩
      obtain ⟨p, _, hp⟩ := List.mem_map.mp this
      by_contra hcon
      rw [List.getElem?_eq_none (by omega)] at hp
      cases hp
    have hpol : polygons v' f' = Rest (polygons v faces) s C := by
      have : corners v' f' = (polygons v' f').map (List.map some) := by
        unfold corners polygons
        rw [List.map_map]
        refine List.map_congr_left fun f hf => ?_
        rw [Function.comp_apply, List.map_map]
        refine List.map_congr_left fun i hi => ?_
        rw [Function.comp_apply, getD_lt v' 0 (hlt' f hf i hi), List.getElem?_eq_getElem]
      rw [this] at e2
      exact List.map_injective_iff.mpr (List.map_injective_iff.mpr (Option.some_injective _)) e2
    have hsol : ConvexSolid v' f' := ⟨e3, hlt', e4, by rw [hpol]; exact hconv⟩
    refine ⟨v', f', e1, hsol, fun x => ?_⟩
    have f1 : Hull (· ∈ v') = Hull (IsCorner (Rest (polygons v faces) s C)) := by
      congr 1
      funext p
      rw [← hpol]
      exact propext (corner_iff hsol p).symm
    have f2 : Hull (· ∈ v) = Hull (IsCorner (polygons v faces)) := by
      congr 1
      funext p
      exact propext (corner_iff h p).symm
    rw [f1, f2, rest_hull hc hs hq' hq0 hout' hcap (- P.normal 0) (- P.normal 1) (- P.normal 2) (dot P.normal P.a) (by
      intro y
      simp only [hsd, Plane.orient, Plane.normal, orient3d, dot, Tetra.cross, diff, Matrix.cons_val_zero, Matrix.cons_val_one, Matrix.cons_val]
      ring)]
    have : (((-P.normal 0 : ℚ) : ℝ) * x 0 + ((-P.normal 1 : ℚ) : ℝ) * x 1 + ((-P.normal 2 : ℚ) : ℝ) * x 2 + ((dot P.normal P.a : ℚ) : ℝ)) =
        side (real P.a) (real P.b) (real P.c) x := by
      simp only [Plane.normal, dot, Tetra.cross, diff, side, real, Matrix.cons_val_zero, Matrix.cons_val_one, Matrix.cons_val]
      push_cast
      ring
    rw [this]

/-- C67.  Cutting a convex polyhedron with any planes, in any order, as long as some point of it is strictly behind all of
them: the call does not throw and the result is a convex polyhedron with exactly the points that are not beyond any plane. -/
theorem C67_cut (planes : List Plane) (v : List Pt) (faces : List Face) (h : ConvexSolid v faces)
    (hin : ∃ x ∈ Hull (· ∈ v), ∀ P ∈ planes, 0 < side (real P.a) (real P.b) (real P.c) x) :
    ∃ v' f', cut sortFace planes v faces = some (v', f') ∧ ConvexSolid v' f' ∧
      ∀ x : Fin 3 → ℝ, x ∈ Hull (· ∈ v') ↔ x ∈ Hull (· ∈ v) ∧ ∀ P ∈ planes, 0 ≤ side (real P.a) (real P.b) (real P.c) x := by
  induction planes generalizing v faces with
  | nil => exact ⟨v, faces, rfl, h, fun x => by simp⟩
  | cons P planes ih =>
    obtain ⟨x, hx, hpos⟩ := hin
    have hin1 : ∃ p ∈ v, 0 < side P.a P.b P.c p := by
      by_contra hn
      push Not at hn
      have hconvex : Convex ℝ {x : Fin 3 → ℝ | side (real P.a) (real P.b) (real P.c) x ≤ 0} := by
        intro y hy z hz s t hs ht hst
        simp only [Set.mem_ofPred_eq] at hy hz ⊢
        have : side (real P.a) (real P.b) (real P.c) (s • y + t • z) = s * side (real P.a) (real P.b) (real P.c) y +
            t * side (real P.a) (real P.b) (real P.c) z := by
          have : t = 1 - s := by linarith
          subst this
          simp only [side, Pi.add_apply, Pi.smul_apply, smul_eq_mul]; ring
        rw [this]
        exact add_nonpos (mul_nonpos_of_nonneg_of_nonpos hs hy) (mul_nonpos_of_nonneg_of_nonpos ht hz)
      have : x ∈ {x : Fin 3 → ℝ | side (real P.a) (real P.b) (real P.c) x ≤ 0} := by
        refine convexHull_min ?_ hconvex hx
        rintro _ ⟨p, hp, rfl⟩
        show side (real P.a) (real P.b) (real P.c) (real p) ≤ 0
        rw [← real_orient, orient_eq]
        exact_mod_cast hn p hp
      exact absurd (hpos P (by simp)) (not_lt.mpr this)
    obtain ⟨v1, f1, e1, h1, m1⟩ := C67_one_cut P v faces h hin1
    obtain ⟨v2, f2, e2, h2, m2⟩ := ih v1 f1 h1 ⟨x, (m1 x).mpr ⟨hx, (hpos P (by simp)).le⟩, fun Q hQ => hpos Q (by simp [hQ])⟩
    refine ⟨v2, f2, ?_, h2, fun y => ?_⟩
    · unfold cut at e2 ⊢
      rw [List.foldlM_cons, e1]
      exact e2
    · rw [m2 y, m1 y]
      simp only [List.mem_cons, forall_eq_or_imp]
      tauto

theorem first_steps {v : List Pt} {faces : List Face} (h : ConvexSolid v faces) (f : Face) (hf : f ∈ faces) :
    (v.getD (f.getD 0 0) 0, v.getD (f.getD 1 0) 0) ∈ steps (f.map fun i => v.getD i 0) ∧
      (v.getD (f.getD 1 0) 0, v.getD (f.getD 2 0) 0) ∈ steps (f.map fun i => v.getD i 0) := by
  have h3 := ((convex_surface h).simple f hf).2
  have st : ∀ k, k + 1 < f.length → (v.getD (f.getD k 0) 0, v.getD (f.getD (k + 1) 0) 0) ∈ steps (f.map fun i => v.getD i 0) := by
    intro k hk
    have g := Convex.steps_get f k (by omega)
    simp only [Nat.mod_eq_of_lt hk] at g
    rw [steps_map]
    refine List.mem_map.mpr ⟨(f[k], f[k + 1]), by rw [← g]; exact List.getElem_mem _, ?_⟩
    rw [getD_lt f 0 (by omega : k < f.length), getD_lt f 0 hk]
    rfl
  exact ⟨st 0 (by omega), st 1 (by omega)⟩

/-- the points of a convex polyhedron are those behind the planes through the first three corners of each face -/
theorem hull_first (v : List Pt) (faces : List Face) (h : ConvexSolid v faces) (hne : faces ≠ []) (x : Fin 3 → ℝ) :
    x ∈ Hull (· ∈ v) ↔ ∀ f ∈ faces, 0 ≤ side (real (v.getD (f.getD 0 0) 0)) (real (v.getD (f.getD 1 0) 0)) (real (v.getD (f.getD 2 0) 0)) x := by
  have f2 : Hull (· ∈ v) = Hull (IsCorner (polygons v faces)) := by
    congr 1
    funext p
    exact propext (corner_iff h p).symm
  have hne' : polygons v faces ≠ [] := by
    unfold polygons; simpa using hne
  have sr : ∀ a b c x : Pt, side (real a) (real b) (real c) (real x) = ((side a b c x : ℚ) : ℝ) := by
    intro a b c x
    unfold side real; push_cast; ring
  rw [f2, solid_iff _ h.convex hne']
  constructor
  · intro hall f hf
    obtain ⟨s1, s2⟩ := first_steps h f hf
    exact hall _ (List.mem_map.mpr ⟨f, hf, rfl⟩) _ _ _ s1 s2
  · intro hall g hg a b c hab hbc
    obtain ⟨f, hf, rfl⟩ := List.mem_map.mp hg
    obtain ⟨s1, s2⟩ := first_steps h f hf
    have G := h.convex.behind _ hg _ _ _ hab hbc
    have F := h.convex.behind _ hg _ _ _ s1 s2
    obtain ⟨i, hi, hif⟩ := h.convex.solid _ hg
    have e := side_four (real (v.getD (f.getD 0 0) 0)) (real (v.getD (f.getD 1 0) 0)) (real (v.getD (f.getD 2 0) 0))
      (real a) (real b) (real c) (real i) x
    have cor : ∀ x ∈ f.map (fun i => v.getD i 0), IsCorner (polygons v faces) x := fun x hx => ⟨_, hg, hx⟩
    obtain ⟨ma, mb⟩ := Convex.mem_of_step _ _ hab
    have mc := (Convex.mem_of_step _ _ hbc).2
    simp only at ma mb mc
    rw [sr _ _ _ a, sr _ _ _ b, sr _ _ _ c, (F a (cor a ma)).2.mpr ma, (F b (cor b mb)).2.mpr mb, (F c (cor c mc)).2.mpr mc,
      sr _ _ _ i, sr _ _ _ i, Rat.cast_zero] at e
    have p1 : 0 < side a b c i := lt_of_le_of_ne (G i hi).1 fun e => hif ((G i hi).2.mp e.symm)
    have p2 := lt_of_le_of_ne (F i hi).1 fun e => hif ((F i hi).2.mp e.symm)
    have := mul_nonneg (Rat.cast_nonneg (K := ℝ).mpr p1.le) (hall f hf)
    rw [e] at this
    exact nonneg_of_mul_nonneg_left (by linarith) (Rat.cast_pos (K := ℝ).mpr p2)

/-- C67.  The containment test of a convex polyhedron, which looks at the first three corners of each face only, is right. -/
theorem C67_contains (v : List Pt) (faces : List Face) (h : ConvexSolid v faces) (hne : faces ≠ []) (p : Pt) :
    contains faces (fun i => v.getD i 0) p = true ↔ real p ∈ Hull (· ∈ v) := by
  rw [hull_first v faces h hne]
  have sr : ∀ a b c x : Pt, (0 ≤ side (real a) (real b) (real c) (real x) ↔ 0 ≤ orient3d a b c x) := by
    intro a b c x
    have : side (real a) (real b) (real c) (real x) = ((side a b c x : ℚ) : ℝ) := by
      unfold side real; push_cast; ring
    rw [this, show orient3d a b c x = side a b c x from orient_eq ⟨a, b, c⟩ x]
    exact_mod_cast Iff.rfl
  simp only [contains, List.all_eq_true, decide_eq_true_eq, sr]

/-! ### boxes -/

/-- the image of a convex polyhedron under a map that multiplies volumes by a positive number -/
theorem convex_map (φ : Pt → Pt) (hφ : Function.Injective φ) (k : ℚ) (hk : 0 < k)
    (hs : ∀ a b c x, side (φ a) (φ b) (φ c) (φ x) = k * side a b c x) (faces : List (List Pt)) (h : ConvexPolyhedron faces) :
    ConvexPolyhedron (faces.map (List.map φ)) := by
  have cor : ∀ p, IsCorner (faces.map (List.map φ)) p ↔ ∃ q, IsCorner faces q ∧ p = φ q := by
    intro p
    constructor
    · rintro ⟨g, hg, hp⟩
      obtain ⟨f, hf, rfl⟩ := List.mem_map.mp hg
      obtain ⟨q, hq, rfl⟩ := List.mem_map.mp hp
      exact ⟨q, ⟨f, hf, hq⟩, rfl⟩
    · rintro ⟨q, ⟨f, hf, hq⟩, rfl⟩
      exact ⟨_, List.mem_map.mpr ⟨f, hf, rfl⟩, List.mem_map.mpr ⟨q, hq, rfl⟩⟩
  have st : (faces.map (List.map φ)).flatMap steps = (faces.flatMap steps).map (Prod.map φ φ) := by
    rw [List.flatMap_map, List.map_flatMap]
    congr 1
    funext f
    exact steps_map φ f
  have pinj : Function.Injective (Prod.map φ φ) := Function.Injective.prodMap hφ hφ
  refine ⟨?_, ?_, ?_, ?_, ?_, ?_⟩
  · intro g hg
    obtain ⟨f, hf, rfl⟩ := List.mem_map.mp hg
    exact ⟨(h.simple f hf).1.map hφ, by rw [List.length_map]; exact (h.simple f hf).2⟩
  · rw [st]; exact h.once.map pinj
  · intro a b hab
    rw [st] at hab ⊢
    obtain ⟨⟨c, d⟩, hcd, e⟩ := List.mem_map.mp hab
    simp only [Prod.map, Prod.mk.injEq] at e
    exact List.mem_map.mpr ⟨(d, c), h.closed c d hcd, by simp [e.1, e.2]⟩
  · intro g hg a b c hab hbc p hp
    obtain ⟨f, hf, rfl⟩ := List.mem_map.mp hg
    obtain ⟨q, hq, rfl⟩ := (cor p).mp hp
    rw [steps_map] at hab hbc
    obtain ⟨⟨a', b'⟩, h1, e1⟩ := List.mem_map.mp hab
    obtain ⟨⟨b'', c'⟩, h2, e2⟩ := List.mem_map.mp hbc
    simp only [Prod.map, Prod.mk.injEq] at e1 e2
    obtain ⟨rfl, rfl⟩ := e1
    obtain ⟨e2, rfl⟩ := e2
    have := hφ e2
    subst this
    obtain ⟨b1, b2⟩ := h.behind f hf a' b'' c' h1 h2 q hq
    rw [hs]
    refine ⟨mul_nonneg hk.le b1, ?_⟩
    rw [mul_eq_zero, or_iff_right hk.ne', b2, List.mem_map]
    constructor
    · intro hm; exact ⟨q, hm, rfl⟩
    · rintro ⟨q', hq', e⟩; rwa [← hφ e]
  · intro g hg
    obtain ⟨f, hf, rfl⟩ := List.mem_map.mp hg
    obtain ⟨q, hq, hqf⟩ := h.solid f hf
    refine ⟨φ q, (cor _).mpr ⟨q, hq, rfl⟩, ?_⟩
    rw [List.mem_map]
    rintro ⟨q', hq', e⟩
    exact hqf (by rwa [← hφ e])
  · intro g hg g' hg' hne
    obtain ⟨f, hf, rfl⟩ := List.mem_map.mp hg
    obtain ⟨f', hf', rfl⟩ := List.mem_map.mp hg'
    obtain ⟨q, hq, hqf⟩ := h.apart f hf f' hf' (fun e => hne (by rw [e]))
    refine ⟨φ q, List.mem_map.mpr ⟨q, hq, rfl⟩, ?_⟩
    rw [List.mem_map]
    rintro ⟨q', hq', e⟩
    exact hqf (by rwa [← hφ e])

/-- a list of polygons with finitely many comparisons to be made -/
theorem convex_of_check (faces : List (List Pt)) (h1 : ∀ f ∈ faces, f.Nodup ∧ 3 ≤ f.length) (h2 : (faces.flatMap steps).Nodup)
    (h3 : ∀ e ∈ faces.flatMap steps, e.swap ∈ faces.flatMap steps)
    (h4 : ∀ f ∈ faces, ∀ e ∈ steps f, ∀ e' ∈ steps f, e.2 = e'.1 → ∀ p ∈ faces.flatten,
      0 ≤ side e.1 e.2 e'.2 p ∧ (side e.1 e.2 e'.2 p = 0 ↔ p ∈ f))
    (h5 : ∀ f ∈ faces, ∃ p ∈ faces.flatten, p ∉ f) (h6 : ∀ f ∈ faces, ∀ g ∈ faces, f ≠ g → ∃ p ∈ f, p ∉ g) : ConvexPolyhedron faces := by
  have cor : ∀ p, IsCorner faces p ↔ p ∈ faces.flatten := by
    intro p; rw [List.mem_flatten]; rfl
  refine ⟨h1, h2, fun a b hab => h3 (a, b) hab, ?_, ?_, h6⟩
  · intro f hf a b c hab hbc p hp
    exact h4 f hf (a, b) hab (b, c) hbc rfl p ((cor p).mp hp)
  · intro f hf
    obtain ⟨p, hp, hpf⟩ := h5 f hf
    exact ⟨p, (cor p).mpr hp, hpf⟩

def boxPoints (mn mx : Pt) : List Pt := (List.range 8).map (boxVertices mn mx)

theorem unit_cube : ConvexPolyhedron (polygons (boxPoints ![0, 0, 0] ![1, 1, 1]) boxFaces) := by
  refine convex_of_check _ ?_ ?_ ?_ ?_ ?_ ?_ <;> decide +kernel

theorem C67_box (mn mx : Pt) (h : ∀ d, mn d < mx d) : ConvexSolid (boxPoints mn mx) boxFaces := by
  let φ : Pt → Pt := fun p d => mn d + (mx d - mn d) * p d
  have hφ : Function.Injective φ := by
    intro p q e
    funext d
    have := congrFun e d
    simp only [φ] at this
    have hd := h d
    have h2 : (mx d - mn d) * p d = (mx d - mn d) * q d := by linarith
    exact mul_left_cancel₀ (sub_pos.mpr hd).ne' h2
  have hk : 0 < (mx 0 - mn 0) * (mx 1 - mn 1) * (mx 2 - mn 2) :=
    mul_pos (mul_pos (sub_pos.mpr (h 0)) (sub_pos.mpr (h 1))) (sub_pos.mpr (h 2))
  have hs : ∀ a b c x, side (φ a) (φ b) (φ c) (φ x) = ((mx 0 - mn 0) * (mx 1 - mn 1) * (mx 2 - mn 2)) * side a b c x := by
    intro a b c x
    simp only [side, φ]
    ring
  have hb : boxPoints mn mx = (boxPoints ![0, 0, 0] ![1, 1, 1]).map φ := by
    unfold boxPoints
    rw [List.map_map]
    refine List.map_congr_left fun i hi => ?_
    rw [List.mem_range] at hi
    rw [Function.comp_apply]
    funext d
    interval_cases i <;> fin_cases d <;> simp [boxVertices, φ]
  have hlt : ∀ f ∈ boxFaces, ∀ i ∈ f, i < 8 := by decide
  have hpol : polygons (boxPoints mn mx) boxFaces = (polygons (boxPoints ![0, 0, 0] ![1, 1, 1]) boxFaces).map (List.map φ) := by
    unfold polygons
    rw [List.map_map]
    refine List.map_congr_left fun f hf => ?_
    rw [Function.comp_apply, List.map_map]
    refine List.map_congr_left fun i hi => ?_
    have l := hlt f hf i hi
    rw [Function.comp_apply, hb, getD_lt _ _ (by rw [List.length_map]; simpa [boxPoints] using l),
      getD_lt _ _ (by simpa [boxPoints] using l), List.getElem_map]
  refine ⟨?_, ?_, ?_, ?_⟩
  · rw [hb]
    refine List.Nodup.map hφ ?_
    decide +kernel
  · intro f hf i hi
    simpa [boxPoints] using hlt f hf i hi
  · have : (boxPoints mn mx).length = 8 := by simp [boxPoints]
    rw [this]
    decide
  · rw [hpol]
    exact convex_map φ hφ _ hk hs _ unit_cube

/-- the points of a box -/
theorem box_hull (mn mx : Pt) (h : ∀ d, mn d < mx d) (x : Fin 3 → ℝ) :
    x ∈ Hull (· ∈ boxPoints mn mx) ↔ ∀ d, (mn d : ℝ) ≤ x d ∧ x d ≤ mx d := by
  have hd : ∀ d, (0 : ℝ) < mx d - mn d := fun d => by
    have : (mn d : ℝ) < mx d := by exact_mod_cast h d
    linarith
  have h01 := mul_pos (hd 0) (hd 1)
  have h12 := mul_pos (hd 1) (hd 2)
  have h02 := mul_pos (hd 0) (hd 2)
  have pm : ∀ k y : ℝ, 0 < k → (0 ≤ k * y ↔ 0 ≤ y) := fun k y hk => mul_nonneg_iff_of_pos_left hk
  rw [hull_first _ _ (C67_box mn mx h) (by decide)]
  have e : ∀ i, i < 8 → (boxPoints mn mx).getD i 0 = boxVertices mn mx i := by
    intro i hi
    rw [getD_lt _ _ (by simpa [boxPoints] using hi)]
    simp [boxPoints]
  simp only [boxFaces, List.forall_mem_cons, List.not_mem_nil, false_implies, implies_true, and_true,
    List.getD_cons_zero, List.getD_cons_succ]
  rw [e 3 (by norm_num), e 0 (by norm_num), e 4 (by norm_num), e 2 (by norm_num), e 1 (by norm_num), e 5 (by norm_num), e 7 (by norm_num), e 6 (by norm_num)]
  have k0 : side (real (boxVertices mn mx 3)) (real (boxVertices mn mx 0)) (real (boxVertices mn mx 4)) x =
      ((mx 0 - mn 0) * (mx 2 - mn 2)) * (x 1 - mn 1) := by
    simp [side, real, boxVertices]; ring
  have k1 : side (real (boxVertices mn mx 3)) (real (boxVertices mn mx 2)) (real (boxVertices mn mx 1)) x =
      ((mx 1 - mn 1) * (mx 2 - mn 2)) * (x 0 - mn 0) := by
    simp [side, real, boxVertices]; ring
  have k2 : side (real (boxVertices mn mx 0)) (real (boxVertices mn mx 1)) (real (boxVertices mn mx 5)) x =
      ((mx 0 - mn 0) * (mx 1 - mn 1)) * (x 2 - mn 2) := by
    simp [side, real, boxVertices]; ring
  have k3 : side (real (boxVertices mn mx 3)) (real (boxVertices mn mx 7)) (real (boxVertices mn mx 6)) x =
      ((mx 0 - mn 0) * (mx 1 - mn 1)) * (mx 2 - x 2) := by
    simp [side, real, boxVertices]; ring
  have k4 : side (real (boxVertices mn mx 7)) (real (boxVertices mn mx 4)) (real (boxVertices mn mx 5)) x =
      ((mx 1 - mn 1) * (mx 2 - mn 2)) * (mx 0 - x 0) := by
    simp [side, real, boxVertices]; ring
  have k5 : side (real (boxVertices mn mx 2)) (real (boxVertices mn mx 6)) (real (boxVertices mn mx 5)) x =
      ((mx 0 - mn 0) * (mx 2 - mn 2)) * (mx 1 - x 1) := by
    simp [side, real, boxVertices]; ring
  rw [k0, k1, k2, k3, k4, k5, pm _ _ h02, pm _ _ h12, pm _ _ h01, pm _ _ h01, pm _ _ h12, pm _ _ h02]
  simp only [Fin.forall_fin_succ, Fin.isValue, IsEmpty.forall_iff, and_true, sub_nonneg, Fin.succ_zero_eq_one, Fin.succ_one_eq_two]
  tauto

/-- a box cut at a corner: a concrete case of the hypotheses, and what is left of it -/
example : ConvexSolid (boxPoints ![-1, -1, -1] ![1, 1, 1]) boxFaces ∧
    (∃ x ∈ Hull (· ∈ boxPoints ![-1, -1, -1] ![1, 1, 1]), ∀ P ∈ [(⟨![2, 0, 0], ![0, 2, 0], ![0, 0, 2]⟩ : Plane)],
      0 < side (real P.a) (real P.b) (real P.c) x) := by
  have hbox : ConvexSolid (boxPoints ![-1, -1, -1] ![1, 1, 1]) boxFaces := C67_box _ _ (by decide)
  refine ⟨hbox, real ![0, 0, 0], (C67_contains _ _ hbox (by decide) _).mp (by decide +kernel), ?_⟩
  intro P hP
  rw [List.mem_singleton] at hP
  subst hP
  simp [side, real]

example : (cut sortFace [⟨![2, 0, 0], ![0, 2, 0], ![0, 0, 2]⟩] (boxPoints ![-1, -1, -1] ![1, 1, 1]) boxFaces).map
    (fun r => (r.1.length, r.2.map List.length)) = some (10, [4, 4, 4, 5, 5, 5, 3]) := by decide +kernel

end Brille.Props
