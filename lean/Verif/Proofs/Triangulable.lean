/-
Something that does what TetGen is relied on for exists: all tetrahedra that are not flat, whose corners are given points.
-/
import Verif.Spec.TrellisWire
import Verif.Props.Tetra
import Verif.Proofs.NodeTets
import Mathlib.Analysis.Convex.Caratheodory
import Mathlib.LinearAlgebra.Matrix.NonsingularInverse
import Mathlib.LinearAlgebra.FiniteDimensional.Lemmas
import Mathlib.LinearAlgebra.Dimension.Constructions

namespace Brille.Props

open Brille.TrellisWire Brille.Spec Brille.Tetra
open Brille.IrCheck (Poly)

/-! ### three independent vectors -/

theorem independent_det (u : Fin 3 → Fin 3 → ℝ) : LinearIndependent ℝ u ↔ (Matrix.of u).det ≠ 0 := by
  have h := Matrix.linearIndependent_rows_iff_isUnit (A := Matrix.of u)
  rw [Matrix.isUnit_iff_isUnit_det, isUnit_iff_ne_zero] at h
  exact h

theorem det_vol6 (p : Fin 4 → Pt) : (Matrix.of fun j : Fin 3 => real (p j.castSucc) - real (p 3)).det = ((vol6 p : ℚ) : ℝ) := by
  rw [Matrix.det_fin_three]
  simp only [Matrix.of_apply, Pi.sub_apply, real, vol6]
  push_cast
  ring

/-! ### a point in the hull of the corners of a tetrahedron -/

theorem side_mix (a b c y z : Fin 3 → ℝ) (s t : ℝ) (h : s + t = 1) :
    side a b c (s • y + t • z) = s * side a b c y + t * side a b c z := by
  obtain rfl : t = 1 - s := by linarith
  unfold side
  simp only [Pi.add_apply, Pi.smul_apply, smul_eq_mul]
  ring

theorem side_sign (a b c : Fin 3 → ℝ) (k : ℝ) : Convex ℝ {y | 0 ≤ k * side a b c y} := by
  intro y hy z hz s t hs ht hst
  simp only [Set.mem_ofPred_eq] at hy hz ⊢
  rw [side_mix _ _ _ _ _ _ _ hst]
  have := mul_nonneg hs hy
  have := mul_nonneg ht hz
  nlinarith

theorem real_side (a b c x : Pt) : side (real a) (real b) (real c) (real x) = ((side a b c x : ℚ) : ℝ) := by
  unfold side real; push_cast; ring

theorem inTet_of_hull (p : Fin 4 → Pt) (hp : vol6 p ≠ 0) (x : Pt) (hx : real x ∈ convexHull ℝ (Set.range fun j => real (p j))) : InTet p x := by
  have key : ∀ (a b c : Pt) (k : ℚ), (∀ j, 0 ≤ k * side a b c (p j)) → 0 ≤ k * side a b c x := by
    intro a b c k h
    have : (Set.range fun j => real (p j)) ⊆ {y | 0 ≤ (k : ℝ) * side (real a) (real b) (real c) y} := by
      rintro _ ⟨j, rfl⟩
      simp only [Set.mem_ofPred_eq]
      rw [real_side]
      exact_mod_cast h j
    have := convexHull_min this (side_sign _ _ _ _) hx
    simp only [Set.mem_ofPred_eq] at this
    rw [real_side] at this
    exact_mod_cast this
  let v : Nat → Pt := fun n => p (Fin.ofNat 4 n)
  let t : Tet := { vi := Fin.val, centre := 0, radius := 0, vol := vol6 p / 6 }
  have hv : (fun j => v (t.vi j)) = p := by
    funext j; simp [v, t]
  have hvol : t.vol * 6 = vol6 p := by simp [t]
  have hb := (C26_barycentric v t x (by rw [hv]; exact hvol) (by
    intro e; exact hp (by rw [← hvol, e]; ring))).1
  rw [hv] at hb
  refine ⟨baryW v t x, ?_, hb⟩
  have e : ∀ j : Fin 4, v (t.vi j) = p j := fun j => congrFun hv j
  have hk := div_nonneg (sq_nonneg (1 : ℚ)) (sq_nonneg (vol6 p))
  -- quotients as products with a nonnegative factor
  have hq : ∀ a : ℚ, 0 ≤ vol6 p * a → 0 ≤ a / vol6 p := by
    intro a h
    rw [show a / vol6 p = vol6 p * a * (1 ^ 2 / vol6 p ^ 2) by field_simp]
    exact mul_nonneg h hk
  have hsq : 0 ≤ vol6 p * vol6 p := mul_self_nonneg _
  have v0 : side (p 1) (p 3) (p 2) (p 0) = vol6 p := by unfold side vol6; ring
  have v1 : side (p 0) (p 2) (p 3) (p 1) = vol6 p := by unfold side vol6; ring
  have v2 : side (p 0) (p 3) (p 1) (p 2) = vol6 p := by unfold side vol6; ring
  have v3 : side (p 0) (p 1) (p 2) (p 3) = vol6 p := by unfold side vol6; ring
  have z : ∀ a b c : Pt, side a b c a = 0 ∧ side a b c b = 0 ∧ side a b c c = 0 := by
    intro a b c
    refine ⟨?_, ?_, ?_⟩ <;> · unfold side; ring
  intro j
  unfold baryW
  simp only [e, hvol]
  have o : ∀ a b c d : Pt, orient3d a b c d = side a b c d := by
    intro a b c d
    unfold side
    simp [Tetra.orient3d, dot, diff, Tetra.cross]
  fin_cases j
  · refine hq _ ?_
    have := key (p 1) (p 3) (p 2) (vol6 p) (by
      intro j
      fin_cases j
      · simp only [Fin.zero_eta, v0]; exact hsq
      · simp [z]
      · simp [z]
      · simp [z])
    rw [o, show side x (p 1) (p 2) (p 3) = side (p 1) (p 3) (p 2) x by unfold side; ring]
    exact this
  · refine hq _ ?_
    have := key (p 0) (p 2) (p 3) (vol6 p) (by
      intro j
      fin_cases j
      · simp [z]
      · simp only [Fin.mk_one, v1]; exact hsq
      · simp [z]
      · simp [z])
    rw [o, show side (p 0) x (p 2) (p 3) = side (p 0) (p 2) (p 3) x by unfold side; ring]
    exact this
  · refine hq _ ?_
    have := key (p 0) (p 3) (p 1) (vol6 p) (by
      intro j
      fin_cases j
      · simp [z]
      · simp [z]
      · simp only [Fin.reduceFinMk, v2]; exact hsq
      · simp [z])
    rw [o, show side (p 0) (p 1) x (p 3) = side (p 0) (p 3) (p 1) x by unfold side; ring]
    exact this
  · refine hq _ ?_
    have := key (p 0) (p 1) (p 2) (vol6 p) (by
      intro j
      fin_cases j
      · simp [z]
      · simp [z]
      · simp [z]
      · simp only [Fin.reduceFinMk, v3]; exact hsq)
    rw [o]
    exact this

/-! ### every point is in a tetrahedron -/

theorem solid_tet {v : List Pt} {faces : List Faces.Face} (h : ConvexSolid v faces) (hne : faces ≠ []) :
    ∃ p : Fin 4 → Pt, (∀ j, p j ∈ v) ∧ vol6 p ≠ 0 := by
  obtain ⟨f, hf⟩ := List.exists_mem_of_ne_nil _ hne
  have hf' : f.map (fun i => v.getD i 0) ∈ polygons v faces := List.mem_map_of_mem hf
  have hin : ∀ g ∈ polygons v faces, ∀ x ∈ g, x ∈ v := by
    intro g hg x hx
    obtain ⟨g', hg', rfl⟩ := List.mem_map.mp hg
    obtain ⟨k, hk, rfl⟩ := List.mem_map.mp hx
    rw [Convex.getD_lt _ _ (h.valid g' hg' k hk)]
    exact List.getElem_mem _
  obtain ⟨-, h3⟩ := h.convex.simple _ hf'
  obtain ⟨b, hb⟩ := List.exists_mem_of_length_pos (l := f.map fun i => v.getD i 0) (by omega)
  obtain ⟨a, ha⟩ := Convex.exists_prev _ b hb
  obtain ⟨c, hc⟩ := Convex.exists_next _ b hb
  obtain ⟨p, hp, hpf⟩ := h.convex.solid _ hf'
  obtain ⟨g, hg, hpg⟩ := hp
  have hz := (h.convex.behind _ hf' a b c ha hc p ⟨g, hg, hpg⟩).2
  refine ⟨![a, b, c, p], ?_, ?_⟩
  · intro j
    fin_cases j
    · exact hin _ hf' _ (Convex.mem_of_step _ _ ha).1
    · exact hin _ hf' _ hb
    · exact hin _ hf' _ (Convex.mem_of_step _ _ hc).2
    · exact hin _ hg _ hpg
  · intro e
    exact hpf (hz.mp e)

theorem tet_of_hull {v : List Pt} (hs : ∃ p : Fin 4 → Pt, (∀ j, p j ∈ v) ∧ vol6 p ≠ 0) (x : Pt) (hx : real x ∈ Hull (· ∈ v)) :
    ∃ p : Fin 4 → Pt, (∀ j, p j ∈ v) ∧ vol6 p ≠ 0 ∧ InTet p x := by
  unfold Hull at hx
  rw [convexHull_eq_union] at hx
  simp only [Set.mem_iUnion, exists_prop] at hx
  obtain ⟨t, hts, hind, hxt⟩ := hx
  have hne : (t : Set (Fin 3 → ℝ)).Nonempty := convexHull_nonempty_iff.mp ⟨_, hxt⟩
  obtain ⟨x0, hx0⟩ := hne
  obtain ⟨q, hq, rfl⟩ := hts hx0
  have hlin := (affineIndependent_set_iff_linearIndependent_vsub ℝ hx0).mp hind
  let W : Set (Fin 3 → ℝ) := (fun p => real p - real q) '' {p | p ∈ v}
  obtain ⟨b, hbW, hsb, hspan, hbi⟩ := exists_linearIndepOn_id_extension (K := ℝ) (t := W) hlin (by
    rintro _ ⟨y, ⟨hy, -⟩, rfl⟩
    obtain ⟨p, hp, rfl⟩ := hts hy
    exact ⟨p, hp, rfl⟩)
  -- the vectors span the space
  have htop : (⊤ : Submodule ℝ (Fin 3 → ℝ)) ≤ Submodule.span ℝ b := by
    obtain ⟨p, hp, hvol⟩ := hs
    have hi : LinearIndependent ℝ fun j : Fin 3 => real (p j.castSucc) - real (p 3) := by
      rw [independent_det, det_vol6]; exact_mod_cast hvol
    rw [← hi.span_eq_top_of_card_eq_finrank (by simp), Submodule.span_le]
    rintro _ ⟨j, rfl⟩
    have h1 : real (p j.castSucc) - real q ∈ Submodule.span ℝ b := hspan ⟨_, hp _, rfl⟩
    have h2 : real (p 3) - real q ∈ Submodule.span ℝ b := hspan ⟨_, hp _, rfl⟩
    have := Submodule.sub_mem _ h1 h2
    rwa [sub_sub_sub_cancel_right] at this
  have hbi' : LinearIndependent ℝ (fun y : b => (y : Fin 3 → ℝ)) := hbi
  let B := Module.Basis.mk hbi' (by simpa using htop)
  have : Fintype b := FiniteDimensional.fintypeBasisIndex B
  have hcard : Fintype.card b = 3 := by
    rw [← Module.finrank_eq_card_basis B]; simp
  let e : Fin 3 ≃ b := (Fintype.equivFinOfCardEq hcard).symm
  have hpick : ∀ j : Fin 3, ∃ p ∈ v, real p - real q = e j := fun j => by
    obtain ⟨p, hp, h⟩ := hbW (e j).2
    exact ⟨p, hp, h⟩
  choose w hw hwe using hpick
  let p : Fin 4 → Pt := ![w 0, w 1, w 2, q]
  have hpv : ∀ j, p j ∈ v := by
    intro j
    fin_cases j
    · exact hw 0
    · exact hw 1
    · exact hw 2
    · exact hq
  have hpw : ∀ j : Fin 3, p j.castSucc = w j := by
    intro j; fin_cases j <;> rfl
  have hvol : vol6 p ≠ 0 := by
    have h1 : LinearIndependent ℝ fun j : Fin 3 => ((e j : b) : Fin 3 → ℝ) := hbi'.comp e e.injective
    have h2 : (fun j : Fin 3 => ((e j : b) : Fin 3 → ℝ)) = fun j => real (p j.castSucc) - real (p 3) := by
      funext j; rw [hpw, ← hwe j]; rfl
    rw [h2, independent_det, det_vol6] at h1
    exact_mod_cast h1
  refine ⟨p, hpv, hvol, inTet_of_hull p hvol x (convexHull_mono ?_ hxt)⟩
  intro y hy
  by_cases hyq : y = real q
  · exact ⟨3, hyq.symm⟩
  · have hyb : y - real q ∈ b := hsb ⟨y, ⟨hy, hyq⟩, rfl⟩
    obtain ⟨j, hj⟩ := e.surjective ⟨y - real q, hyb⟩
    refine ⟨j.castSucc, ?_⟩
    have := hwe j
    rw [hj] at this
    simp only at this
    show real (p j.castSucc) = y
    rw [hpw]
    exact sub_left_injective this

/-! ### all tetrahedra -/

/-- all tetrahedra that are not flat with corners among the given points -/
noncomputable def allTets (points : List Pt) : Triangulation :=
  { points := points,
    tets := ((Finset.univ : Finset (Fin 4 → Fin points.length)).toList.map fun t j => (t j).val).filter fun t =>
      decide (vol6 (fun j => points.getD (t j) 0) ≠ 0) }

theorem allTets_spec (P : Poly) (gamma : Bool) (h : ConvexSolid P.1 P.2) (hne : P.2 ≠ []) (hg : gamma = true → real 0 ∈ Hull (· ∈ P.1) ∧ 0 ∉ P.1) :
    Triangulates P gamma (allTets (P.1 ++ if gamma then [0] else [])) := by
  refine ⟨⟨[], by simp [allTets]⟩, ?_, ?_, ?_, ?_, ?_⟩
  · simp only [allTets]
    cases gamma with
    | false => simpa using h.distinct
    | true =>
      refine List.nodup_append.mpr ⟨h.distinct, by simp, ?_⟩
      intro a ha b hb e
      simp only [if_true, List.mem_singleton] at hb
      exact (hg rfl).2 (hb ▸ e ▸ ha)
  · intro p hp
    simp only [allTets, List.mem_append] at hp
    rcases hp with hp | hp
    · exact mem_hull hp
    · cases gamma with
      | false => simp at hp
      | true =>
        simp only [if_true, List.mem_singleton] at hp
        rw [hp]; exact (hg rfl).1
  · intro t ht j
    simp only [allTets, List.mem_filter, List.mem_map] at ht
    obtain ⟨⟨t', -, rfl⟩, -⟩ := ht
    exact (t' j).2
  · intro t ht
    simp only [allTets, List.mem_filter, decide_eq_true_eq] at ht
    exact ht.2
  · intro x hx
    obtain ⟨p, hp, hvol, hin⟩ := tet_of_hull (solid_tet h hne) x hx
    have hpick : ∀ j : Fin 4, ∃ k : Fin (P.1 ++ if gamma then [0] else []).length, (P.1 ++ if gamma then [0] else [])[k] = p j := fun j => by
      obtain ⟨k, hk, e⟩ := List.getElem_of_mem (List.mem_append_left (if gamma then [0] else []) (hp j))
      exact ⟨⟨k, hk⟩, e⟩
    choose k hk using hpick
    have hcorner : (allTets (P.1 ++ if gamma then [0] else [])).corners (fun j => (k j).val) = p := by
      funext j
      change (P.1 ++ if gamma then [0] else []).getD (k j).val 0 = p j
      rw [Convex.getD_lt _ _ (k j).2]
      exact hk j
    refine ⟨fun j => (k j).val, ?_, by rw [hcorner]; exact hin⟩
    simp only [allTets, List.mem_filter, List.mem_map, decide_eq_true_eq]
    refine ⟨⟨k, by simp, rfl⟩, ?_⟩
    have e : (fun j => (P.1 ++ if gamma then [0] else []).getD (k j).val 0) = p := hcorner
    rw [e]; exact hvol

/-- a sphere around four points -/
def someSphere (c : Fin 4 → Pt) : Pt × ℚ := (c 0, ∑ j, ∑ d, |c j d - c 0 d|)

theorem someSphere_spec (c : Fin 4 → Pt) : InBall c (someSphere c).1 (someSphere c).2 := by
  intro j
  have h1 : ∑ d, (c j d - c 0 d) ^ 2 ≤ (∑ d, |c j d - c 0 d|) ^ 2 := by
    have := Finset.sum_sq_le_sq_sum_of_nonneg (s := Finset.univ) (f := fun d : Fin 3 => |c j d - c 0 d|) (fun d _ => abs_nonneg _)
    simpa [sq_abs] using this
  have h2 : ∑ d, |c j d - c 0 d| ≤ ∑ j, ∑ d, |c j d - c 0 d| :=
    Finset.single_le_sum (f := fun j => ∑ d, |c j d - c 0 d|) (fun j _ => Finset.sum_nonneg fun d _ => abs_nonneg _) (Finset.mem_univ j)
  have h0 : 0 ≤ ∑ d, |c j d - c 0 d| := Finset.sum_nonneg fun d _ => abs_nonneg _
  exact h1.trans (pow_le_pow_left₀ h0 h2 2)

/-- a stand-in for TetGen -/
noncomputable def someTetGen : TetGen :=
  { tetrahedralize := fun P gamma => some (allTets (P.1 ++ if gamma then [0] else [])), circumsphere := someSphere }

theorem someTetGen_reliable : Reliable someTetGen :=
  ⟨fun P gamma h hne hg => ⟨_, rfl, allTets_spec P gamma h hne hg⟩, fun c _ => someSphere_spec c⟩

end Brille.Props
