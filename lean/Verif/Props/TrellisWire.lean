/-
C76: the numbers of the vertices of the hybrid grid, the vertices of its nodes, and interpolation with them.
-/
import Verif.Proofs.TrellisWire
import Verif.Proofs.Triangulable
import Verif.Props.Cube

namespace Brille.Props

open Brille.TrellisWire Brille.TrellisBuild Brille.Spec Brille.Tetra Brille.Cut Brille.SortFace Brille.Zone Brille.VMap
open Brille.IrCheck (Poly facePlane)
open Brille.Faces (contains indexes)
open Brille.Trellis hiding Pt

/-- **C76 (construction).** For every convex polyhedron, every positive edge length, every distribution of the work over threads in whatever order,
and every reliable TetGen, the construction of the hybrid grid does not throw.  Its vertices are different points of the polyhedron, among them all
its corners, and the origin if that is a point of the polyhedron; and its boundary is the polyhedron itself, expressed by these vertices. -/
theorem C76_construct (G : TetGen) (hG : Reliable G) (always : Bool) (turns : Nat) (edge : ℚ) (P : Poly) (h : ConvexSolid P.1 P.2) (hne : P.2 ≠ [])
    (hedge : 0 < edge) (hturns : ∀ d : Fin 3, (⌈(largest P.1 d - least P.1 d) / edge⌉ : ℤ) ≤ turns) (S : Schedule)
    (hS : ∀ t parts, build always turns edge P = some (t, parts) → Distributed S t.types) :
    ∃ T, TrellisWire.construct G always turns edge S P = some T ∧ T.vertices.Nodup ∧ (∀ v ∈ T.vertices, real v ∈ Hull (· ∈ P.1)) ∧
      (∀ v ∈ P.1, v ∈ T.vertices) ∧ (real 0 ∈ Hull (· ∈ P.1) → 0 ∈ T.vertices) ∧
      (∀ f ∈ T.boundary, ∀ k ∈ f, k < T.vertices.length) ∧ polygons T.vertices T.boundary = polygons P.1 P.2 := by
  obtain ⟨T, parts, hb, hc, -, hn, hin, hnodes, number, hbd, hnum⟩ := wire hG h hne hedge hturns hS
  have hat : ∀ k < P.1.length, T.vertices[number k]? = some (P.1.getD k 0) := by
    intro k hk
    rw [hnum k hk, Convex.getD_lt _ _ hk, List.getElem?_eq_getElem hk]
  refine ⟨T, hc, hn, hin, ?_, ?_, ?_, ?_⟩
  · intro v hv
    obtain ⟨k, hk, rfl⟩ := List.getElem_of_mem hv
    have := hat k hk
    rw [Convex.getD_lt _ _ hk] at this
    exact List.mem_of_getElem? this
  · intro h0
    obtain ⟨i, ty, part, e1, e2, hu, hx⟩ := (C75_cover always turns edge P h hne hedge hturns T.grid parts hb (real 0)).mp h0
    obtain ⟨part', lo, hi, hp, -, hpts⟩ := hnodes i ty e1 hu
    have e := hp.parts
    rw [e2] at e
    obtain rfl := Option.some.inj e
    obtain ⟨hpn, hps, hph⟩ := hp.fits.part hu
    refine hpts 0 ?_
    rcases hu with rfl | rfl
    · have := (hp.fits.cube.mp rfl).2.2
      rw [hph, real_zero] at hx
      exact absurd hx.2 this
    · simp only [nodePoints, List.mem_append]
      by_cases hm : (0 : Pt) ∈ part.1
      · exact Or.inl hm
      · right
        rw [if_pos ((wantsGamma_iff hps hpn).mpr ⟨hx, hm⟩)]
        simp
  · intro f hf k hk
    rw [hbd] at hf
    obtain ⟨g, hg, rfl⟩ := List.mem_map.mp hf
    obtain ⟨j, hj, rfl⟩ := List.mem_map.mp hk
    exact (List.getElem?_eq_some_iff.mp (hat j (h.valid g hg j hj))).1
  · rw [hbd]
    unfold polygons
    rw [List.map_map]
    refine List.map_congr_left fun g hg => ?_
    simp only [Function.comp, List.map_map]
    refine List.map_congr_left fun j hj => ?_
    simp only [Function.comp]
    rw [List.getD_eq_getElem?_getD, hat j (h.valid g hg j hj), Option.getD_some]

theorem found_should (isZero : ℚ → Bool) (near : ℚ → ℚ → Bool) (v : Nat → Pt) (tets : List Tet) (x : Pt) (iw : List (Nat × ℚ))
    (h : polyIndicesWeights isZero near v tets x false = .found iw) : polyIndicesWeights isZero near v tets x true = .found iw := by
  unfold polyIndicesWeights at h ⊢
  cases hf : tets.find? (fun t => decide (0 ≤ tetContains isZero near v t x true)) with
  | some t => rw [hf] at h; exact h
  | none => rw [hf] at h; simp at h

/-- **C76 (interpolation).** Under the same conditions, for every point of the polyhedron the grid that was constructed reports vertices and weights: the
numbers are those of vertices that differ from the point by at most the edge length along each axis, the weights are positive and add up to one,
and the weighted sum of the values of any function that is linear up to a constant is its value at the point. -/
theorem C76_interpolate (G : TetGen) (hG : Reliable G) (always : Bool) (turns : Nat) (edge : ℚ) (P : Poly) (h : ConvexSolid P.1 P.2) (hne : P.2 ≠ [])
    (hedge : 0 < edge) (hturns : ∀ d : Fin 3, (⌈(largest P.1 d - least P.1 d) / edge⌉ : ℤ) ≤ turns) (S : Schedule)
    (hS : ∀ t parts, build always turns edge P = some (t, parts) → Distributed S t.types) (T : PolyTrellis)
    (hT : TrellisWire.construct G always turns edge S P = some T) (x : Pt) (hx : real x ∈ Hull (· ∈ P.1)) :
    ∃ iw, T.indicesWeights x = .found iw ∧
      (∀ p ∈ iw, p.1 < T.vertices.length ∧ 0 < p.2 ∧ ∀ d, |T.vertices.getD p.1 0 d - x d| ≤ edge) ∧ (iw.map Prod.snd).sum = 1 ∧
      ∀ f, AffineMap f → Spec.combine iw (fun i => f (T.vertices.getD i 0)) = f x := by
  obtain ⟨T', parts, hb, hc, hk, -, -, hnodes, -⟩ := wire hG h hne hedge hturns hS
  rw [hT] at hc
  obtain rfl := Option.some.inj hc
  obtain ⟨ty, part, e1, hu, e2, hxp⟩ := C75_search_exact always turns edge P h hne hedge hturns T.grid parts hb x hx
  obtain ⟨part', lo, hi, hp, hw, -⟩ := hnodes _ ty e1 hu
  have e := hp.parts
  rw [e2] at e
  obtain rfl := Option.some.inj e
  obtain ⟨hpn, hps, hph⟩ := hp.fits.part hu
  have hwidth : ∀ d, hi d - lo d ≤ edge := by
    intro d
    obtain ⟨step, hs, hst⟩ := (hk d).steps
    rw [hst _ _ _ (hp.box d).1 (hp.box d).2]; exact hs
  have hbox : ∀ y : Pt, real y ∈ Hull (· ∈ part.1) → ∀ d, lo d ≤ y d ∧ y d ≤ hi d := by
    intro y hy d
    rw [hph] at hy
    obtain ⟨h1, h2⟩ := hy.2 d
    simp only [real] at h1 h2
    exact ⟨by exact_mod_cast h1, by exact_mod_cast h2⟩
  have hclose : ∀ y : Pt, (∀ d, lo d ≤ y d ∧ y d ≤ hi d) → ∀ d, |y d - x d| ≤ edge := by
    intro y hy d
    have h1 := hy d
    have h2 := hbox x hxp d
    have h3 := hwidth d
    rw [abs_le]
    constructor <;> linarith [h1.1, h1.2, h2.1, h2.2]
  have hsum : ∀ iw : List (Nat × ℚ), (∀ f, AffineMap f → Spec.combine iw (fun i => f (T.vertices.getD i 0)) = f x) → (iw.map Prod.snd).sum = 1 := by
    intro iw hf
    have := hf (fun _ => 1) ⟨1, 0, fun p => by simp⟩
    simpa [Spec.combine] using this
  rcases hu with rfl | rfl
  · obtain ⟨n, hget, hn⟩ := hw
    have hv : ∀ j, T.vertices.getD (n j) 0 = Spec.boxCorner lo hi j := by
      intro j; rw [List.getD_eq_getElem?_getD, hn j, Option.getD_some]
    obtain ⟨iw, hiw, hpos, htri⟩ := C25_cube_weights lo hi x hp.lt (hbox x hxp) (fun w => decide (1 < w)) (fun w => decide (0 < w)) (by simp) (by simp)
      n (fun i => T.vertices.getD i 0) hv true
    have haff : ∀ f, AffineMap f → Spec.combine iw (fun i => f (T.vertices.getD i 0)) = f x := by
      rintro f ⟨c, a, hf⟩
      have := htri (fun p q r => c + (a 0 * p + a 1 * q + a 2 * r)) ⟨by intros; ring, by intros; ring, by intros; ring⟩
      simp only [hf, Fin.sum_univ_three]
      simpa only [add_assoc] using this
    refine ⟨iw, ?_, ?_, hsum iw haff, haff⟩
    · unfold PolyTrellis.indicesWeights
      rw [hget]
      simp only [hiw]
    · intro p hpi
      obtain ⟨h1, -, ⟨j, hj⟩, -⟩ := hpos p hpi
      refine ⟨by rw [hj]; exact (List.getElem?_eq_some_iff.mp (hn j)).1, h1, hclose _ fun d => ?_⟩
      rw [hj, hv j]
      unfold Spec.boxCorner
      have := (hp.lt d).le
      split
      · exact ⟨this, le_refl _⟩
      · exact ⟨le_refl _, this⟩
  · obtain ⟨tets, hget, hfit⟩ := hw
    have hz : ZeroUpTo (fun w : ℚ => decide (w = 0)) 0 := ⟨le_refl _, fun w => by simp⟩
    obtain ⟨hiff, hpos⟩ := C26_exact _ hz (fun a b => decide (a = b)) (by simp) (fun i => T.vertices.getD i 0) tets hfit.fits x
    obtain ⟨iw, hiw⟩ := hiff.mpr (hfit.cover x hxp)
    obtain ⟨hp1, haff⟩ := hpos iw hiw
    obtain ⟨t, ht, hidx, -⟩ := C26_weights _ 0 hz (fun a b => decide (a = b)) (fun i => T.vertices.getD i 0) tets hfit.fits x iw hiw
    refine ⟨iw, ?_, ?_, hsum iw haff, haff⟩
    · unfold PolyTrellis.indicesWeights
      rw [hget]
      exact found_should _ _ _ _ _ _ hiw
    · intro p hpi
      obtain ⟨-, j, hj⟩ := hidx p hpi
      refine ⟨by rw [hj]; exact hfit.valid t ht j, hp1 p hpi, hclose _ fun d => ?_⟩
      rw [hj]
      exact hbox _ (hfit.inside t ht j) d

/-! ### the conditions can be met -/

/-- two threads that share the three nodes of the bar -/
def barSchedule : Schedule := { threads := [[2], [0, 1]], cubes := [2, 1], polys := [0] }

theorem barSchedule_ok (t : Grid) (parts : List Poly) (h : build false 3 1 bar = some (t, parts)) : Distributed barSchedule t.types := by
  have e : (build false 3 1 bar).map (fun r => r.1.types) = some [.poly, .cube, .cube] := by decide +kernel
  rw [h] at e
  have e : t.types = [.poly, .cube, .cube] := Option.some.inj e
  rw [e]
  refine ⟨by decide, ?_, by decide, ?_, by decide, ?_⟩
  · intro i
    rcases i with _ | _ | _ | i <;> simp [barSchedule]
  · intro i
    rcases i with _ | _ | _ | i <;> simp [barSchedule]
  · intro i
    rcases i with _ | _ | _ | i <;> simp [barSchedule]

/-- a reliable TetGen exists, and with it the theorems speak of the bar -/
example : Reliable someTetGen ∧ ∃ T, TrellisWire.construct someTetGen false 3 1 barSchedule bar = some T ∧ T.vertices.Nodup ∧ 0 ∈ T.vertices := by
  obtain ⟨T, h1, h2, -, h4, -⟩ := C76_construct someTetGen someTetGen_reliable false 3 1 bar (C67_box _ _ (by decide)) (by decide) (by norm_num)
    (by decide +kernel) barSchedule barSchedule_ok
  exact ⟨someTetGen_reliable, T, h1, h2, h4 _ (by decide +kernel)⟩

/-- a point in the node that is divided into tetrahedra and a point in one of the cubes are both found, and `x + 2 y - z + 1` is reproduced -/
example : ∃ T, TrellisWire.construct someTetGen false 3 1 barSchedule bar = some T ∧ ∀ x ∈ [(![1/2, 1/4, 1/4] : Pt), ![5/2, 0, 1/4]],
    ∃ iw, T.indicesWeights x = .found iw ∧ Spec.combine iw (fun i => 1 + (T.vertices.getD i 0 0 + 2 * T.vertices.getD i 0 1 - T.vertices.getD i 0 2)) =
      1 + (x 0 + 2 * x 1 - x 2) := by
  have hb := C67_box ![0, 0, 0] ![3, 1, 1] (by decide)
  obtain ⟨T, hT, -⟩ := C76_construct someTetGen someTetGen_reliable false 3 1 bar hb (by decide) (by norm_num)
    (by decide +kernel) barSchedule barSchedule_ok
  refine ⟨T, hT, fun x hx => ?_⟩
  have hin : real x ∈ Hull (· ∈ bar.1) := by
    rw [← C67_contains bar.1 bar.2 hb (by decide)]
    simp only [List.mem_cons, List.not_mem_nil, or_false] at hx
    rcases hx with rfl | rfl <;> decide +kernel
  obtain ⟨iw, h1, -, -, h2⟩ := C76_interpolate someTetGen someTetGen_reliable false 3 1 bar hb (by decide) (by norm_num)
    (by decide +kernel) barSchedule barSchedule_ok T hT x hin
  exact ⟨iw, h1, h2 (fun p => 1 + (p 0 + 2 * p 1 - p 2)) ⟨1, ![1, 2, -1], fun p => by simp [Fin.sum_univ_three]; ring⟩⟩

/-! ### threads that are not kept apart -/

/-- Two threads that add a vertex at the same time in part two, which nothing prevents: there is an order of their steps, each thread doing its own
in turn, after which both take the same number for their two different points, and one of the points is not among the vertices. -/
theorem C76_race_counterexample (vertices : List Pt) (p q : Pt) (hpq : p ≠ q) (hp : p ∉ vertices) :
    ∃ order : List (Fin 2 × AddStep), (∀ i, (order.filter fun e => e.1 = i).map Prod.snd = [.number, .copy, .assign]) ∧
      (addBoth vertices p q order).1 = vertices ++ [q] ∧ p ∉ (addBoth vertices p q order).1 ∧
      ((addBoth vertices p q order).2 0).number = ((addBoth vertices p q order).2 1).number := by
  refine ⟨[(0, .number), (1, .number), (0, .copy), (1, .copy), (0, .assign), (1, .assign)], by decide, ?_, ?_, ?_⟩
  · simp [addBoth, addStep, Function.update]
  · simp [addBoth, addStep, Function.update, hp, hpq]
  · simp [addBoth, addStep, Function.update]

/-- One after the other they do what they should. -/
theorem C76_in_turn (vertices : List Pt) (p q : Pt) :
    let s := addBoth vertices p q [(0, .number), (0, .copy), (0, .assign), (1, .number), (1, .copy), (1, .assign)]
    s.1 = vertices ++ [p, q] ∧ s.1[(s.2 0).number]? = some p ∧ s.1[(s.2 1).number]? = some q := by
  simp [addBoth, addStep, Function.update]

end Brille.Props
