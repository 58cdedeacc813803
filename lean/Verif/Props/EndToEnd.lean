/-
C81: interpolating anywhere in reciprocal space, from the search for the irreducible zone to the turned results.
-/
import Verif.Model.EndToEnd
import Verif.Props.Wedge
import Verif.Props.TrellisWire
import Verif.Props.GridInterp
import Verif.Props.IrInterpolate

namespace Brille.Props

open Brille.EndToEnd Brille.Spec Brille.Tetra Brille.IrCheck Brille.IrInterp Brille.Rot
open Brille.Fill (Held)
open Brille.Faces (contains)

/-! ### grids that have not been sorted -/

section
variable {T R : Type} [Zero T] [Zero R]

/-- no permutation of modes is stored -/
def Unsorted : Fill.Op T R → Prop
  | .store _ _ _ => False
  | _ => True

omit [Zero T] [Zero R] in
theorem updateTable_single {g g' : Fill.Grid T R} (h : Fill.updateTable g = .ok g') (hl : g.table.permutations.length = 1) :
    g'.table.permutations.length = 1 := by
  unfold Fill.updateTable PermTable.refresh at h
  simp only at h
  generalize ht : (if (g.values.rows != g.table.indexSize) = true then
    ({ g.table with ijmap := fun _ => none, indexSize := g.values.rows } : PermTable.Table) else g.table) = t at h
  have hp : t.permutations = g.table.permutations := by rw [← ht]; split <;> rfl
  rw [hp] at h
  cases hc : g.table.permutations with
  | nil => rw [hc] at hl; simp at hl
  | cons p ps =>
    rw [hc] at h
    simp only at h
    split at h
    · cases h
    · rename_i heq
      split at heq
      · simp only [Option.some.injEq, Prod.mk.injEq] at heq
        cases h
        rw [← heq.1]
        simp [PermTable.addZeroth]
      · simp only [Option.some.injEq, Prod.mk.injEq] at heq
        cases h
        rw [← heq.1, hp]; exact hl

theorem step_single (g : Fill.Grid T R) (o : Fill.Op T R) (ho : Unsorted o) (hl : g.table.permutations.length = 1) :
    (Fill.step g o).1.table.permutations.length = 1 := by
  have hend : ∀ (left g0 : Fill.Grid T R), left.table.permutations.length = 1 → g0.table.permutations.length = 1 →
      (Fill.ended left (Fill.updateTable g0)).1.table.permutations.length = 1 := by
    intro left g0 h1 h2
    cases hu : Fill.updateTable g0 with
    | error f => exact h1
    | ok g' => exact updateTable_single hu h2
  have hrep : ∀ (val : Held T) (vec : Held R), (Fill.ended g (Fill.replaceData g val vec)).1.table.permutations.length = 1 := by
    intro val vec
    unfold Fill.replaceData
    split
    · exact hl
    · exact hend _ _ hl hl
  cases o with
  | fill a b c d =>
    simp only [Fill.step]
    split
    · exact hl
    · split
      · exact hl
      · exact hrep _ _
  | fillCost a b c d =>
    simp only [Fill.step]
    split
    · exact hl
    · split
      · exact hl
      · exact hrep _ _
  | replaceValues a e rl lu =>
    simp only [Fill.step]
    split
    · exact hl
    · refine hend _ _ ?_ ?_ <;> (split <;> exact hl)
  | replaceVectors a e rl lu =>
    simp only [Fill.step]
    split
    · exact hl
    · refine hend _ _ ?_ ?_ <;> (split <;> exact hl)
  | store i j p => exact absurd ho id

theorem run_single (n : ℕ) (keys : List ℕ) (ops : List (Fill.Op T R)) (ho : ∀ o ∈ ops, Unsorted o) :
    (Fill.run (Fill.newGrid n keys : Fill.Grid T R) ops).table.permutations.length = 1 := by
  have h0 : (Fill.newGrid n keys : Fill.Grid T R).table.permutations.length = 1 := by
    obtain ⟨k1, k2, k3⟩ := PermTable.insertKeys_spec keys (PermTable.mk0 n (Fill.emptyHeld T).branches)
    simp only [Fill.newGrid, PermTable.mkKeys]
    rw [k2]; rfl
  suffices key : ∀ (ops : List (Fill.Op T R)) (g : Fill.Grid T R), (∀ o ∈ ops, Unsorted o) → g.table.permutations.length = 1 →
      (Fill.run g ops).table.permutations.length = 1 from key ops _ ho h0
  intro ops
  induction ops with
  | nil => intro g _ h; exact h
  | cons o os ih =>
    intro g ho h
    exact ih _ (fun o' h' => ho o' (by simp [h'])) (step_single g o (ho o (by simp)) h)

end

theorem single_get {t : PermTable.Table} {b : ℕ} (h : Usable t b) (hl : t.permutations.length = 1) (i j : ℕ) :
    PermTable.safeGet t i j = some (List.range b) := by
  have h0 := h.first
  simp only [PermTable.safeGet]
  cases hk : t.ijmap (PermTable.ij2key t i j) with
  | none => exact h0
  | some v =>
    simp only
    split
    · have := h.known _ v hk
      rw [hl] at this
      rw [show v - PermTable.offset = 0 by simp only [PermTable.offset]; omega]; exact h0
    · exact h0

/-! ### the parts together -/

/-- Everything is in place: an irreducible zone was found, the grid was constructed in it by whatever threads, and data were put into it, any
number of times, but never sorted. -/
structure Assembled (S : Wedge.Setup) (st : Wedge.St) (inside : Prim.OnLattice → Pt → Bool) (edge : ℚ) (T : TrellisWire.PolyTrellis)
    (g : Fill.Grid ℚ ℚ) : Prop where
  /-- the first zone is a convex polyhedron with the symmetry of the group -/
  lattice : Circumstances S
  /-- as ensured by `C71_search` and `C71_triclinic` -/
  zone : Irreducible S st
  /-- `isinside` of the first zone -/
  first : ∀ q, inside .standard q = contains S.first.2 (fun i => S.first.1.getD i 0) (cartesian S.B q)
  positive : 0 < edge
  /-- the grid is what the constructor gives -/
  grid : ∃ (G : TrellisWire.TetGen) (always : Bool) (turns : ℕ) (schedule : TrellisWire.Schedule), Reliable G ∧
    (∀ d : Fin 3, (⌈(Zone.largest st.ir.1 d - Zone.least st.ir.1 d) / edge⌉ : ℤ) ≤ turns) ∧
    (∀ t parts, TrellisBuild.build always turns edge st.ir = some (t, parts) → Distributed schedule t.types) ∧
    TrellisWire.construct G always turns edge schedule st.ir = some T
  /-- the data are what the calls have left -/
  history : ∃ (keys : List ℕ) (ops : List (Fill.Op ℚ ℚ)), Along Proper (Fill.newGrid T.vertices.length keys : Fill.Grid ℚ ℚ) ops ∧
    (∀ o ∈ ops, Unsorted o) ∧ g = Fill.run (Fill.newGrid T.vertices.length keys) ops


namespace Assembled

variable {S : Wedge.Setup} {st : Wedge.St} {inside : Prim.OnLattice → Pt → Bool} {edge : ℚ} {T : TrellisWire.PolyTrellis}
  {g : Fill.Grid ℚ ℚ} (h : Assembled S st inside edge T g)
include h

theorem faces : st.ir.2 ≠ [] := by
  obtain ⟨_, _, y, hy, _⟩ := h.zone.fills 0 (zone_origin h.lattice)
  exact faces_of_point h.zone.solid y hy

theorem identity : Mot.idMat ∈ operations S.timeReversal S.R := by
  obtain ⟨o, ho, ho1⟩ := h.lattice.group.one
  rw [← op_of_one o ho1]; exact ho

/-- the grid locates every point of the irreducible zone -/
theorem located (x : Pt) (hx : real x ∈ Hull (· ∈ st.ir.1)) : ∃ iw, T.indicesWeights x = .found iw ∧
    (∀ p ∈ iw, p.1 < T.vertices.length ∧ 0 < p.2 ∧ ∀ d, |T.vertices.getD p.1 0 d - x d| ≤ edge) ∧ (iw.map Prod.snd).sum = 1 ∧
      ∀ f, Spec.AffineMap f → Spec.combine iw (fun i => f (T.vertices.getD i 0)) = f x := by
  obtain ⟨G, always, turns, schedule, hG, ht, hS, hT⟩ := h.grid
  exact C76_interpolate G hG always turns edge st.ir h.zone.solid h.faces h.positive ht schedule hS T hT x hx

/-- the vertices are in the irreducible zone -/
theorem vertices : ∀ v ∈ T.vertices, real v ∈ Hull (· ∈ st.ir.1) := by
  obtain ⟨G, always, turns, schedule, hG, ht, hS, hT⟩ := h.grid
  obtain ⟨T', e, -, hv, -⟩ := C76_construct G hG always turns edge st.ir h.zone.solid h.faces h.positive ht schedule hS
  rw [hT] at e
  rw [Option.some.inj e]; exact hv

/-- the data are added up with the weights -/
theorem summed (c : GridInterp.Numeric ℚ ℚ ℚ) (hc : c.weightT = id) (hrows : g.values.rows = T.vertices.length) (iw : List (ℕ × ℚ))
    (hiw : iw ≠ []) (hin : ∀ p ∈ iw, p.1 < T.vertices.length) :
    ∃ vals vecs, GridInterp.interpolate .trellis c g (fun _ => iw) 1 = .ok vals vecs ∧
      ∀ k < g.values.cols, vals.mem k = Spec.combine iw fun i => heldRow g.values i k := by
  obtain ⟨keys, ops, ho, hu, rfl⟩ := h.history
  set g : Fill.Grid ℚ ℚ := Fill.run (Fill.newGrid T.vertices.length keys) ops with hg
  have hpos : g.values.rows ≠ 0 := by
    obtain ⟨p, l, rfl⟩ := List.exists_cons_of_ne_nil hiw
    have := hin p (by simp)
    omega
  have hh : Healthy g := healthy_run _ keys ops ho
  have hs : Stored g.values := hh.values.resolve_left hpos
  have hget := single_get hh.table (run_single _ keys ops hu)
  obtain ⟨vals, vecs, e, -, -, hv, -⟩ := C63_results _ keys ops ho c (fun _ => iw) 1 hpos
    (fun i _ => ⟨hiw, fun x hx => by rw [← hg, hrows]; exact hin x hx⟩)
  simp only [← hg] at hv
  refine ⟨vals, vecs, e, fun k hk => ?_⟩
  rw [hs.cols] at hk
  have hsp : 0 < g.values.elements.span := by
    rcases Nat.eq_zero_or_pos g.values.elements.span with h0 | h0
    · rw [h0] at hk; simp at hk
    · exact h0
  have hb : k / g.values.elements.span < g.values.branches := Nat.div_lt_of_lt_mul (by rwa [Nat.mul_comm] at hk)
  have := hv 0 _ _ one_pos hb (Nat.mod_lt k hsp)
  simp only [modeElem, resultRow, zero_mul, zero_add, Nat.div_add_mod'] at this
  rw [this]
  simp only [weightedMode, verticesOf, List.map_map, Spec.combine]
  congr 1
  refine List.map_congr_left fun p _ => ?_
  simp only [Function.comp, hget, Option.getD_some, hc, id_eq, modeElem]
  rw [List.getD_eq_getElem?_getD, List.getElem?_range hb, Option.getD_some, Nat.div_add_mod']

/-- a point of the irreducible zone gets the weighted sum of the data of the vertices of its node -/
theorem row (c : GridInterp.Numeric ℚ ℚ ℚ) (hc : c.weightT = id) (hrows : g.values.rows = T.vertices.length) (q : Pt)
    (hq : real (cartesian S.B q) ∈ Hull (· ∈ st.ir.1)) : ∃ iw y, gridAt S.B T c g q =
        some (fun k => if k < g.values.cols then Spec.combine iw (fun i => heldRow g.values i k) else 0, y) ∧
      (∀ p ∈ iw, p.1 < T.vertices.length ∧ 0 < p.2 ∧ ∀ d, |T.vertices.getD p.1 0 d - cartesian S.B q d| ≤ edge) ∧
      (iw.map Prod.snd).sum = 1 ∧
      ∀ f, Spec.AffineMap f → Spec.combine iw (fun i => f (T.vertices.getD i 0)) = f (cartesian S.B q) := by
  obtain ⟨iw, e, h1, h2, h3⟩ := h.located _ hq
  have hne : iw ≠ [] := by rintro rfl; simp at h2
  obtain ⟨vals, vecs, e', hv⟩ := h.summed c hc hrows iw hne fun p hp => (h1 p hp).1
  refine ⟨iw, fun k => if k < g.vectors.cols then vecs.mem k else 0, ?_, h1, h2, h3⟩
  unfold gridAt
  rw [e]
  simp only [e']
  refine congrArg some (Prod.ext ?_ rfl)
  funext k
  by_cases hk : k < g.values.cols
  · simp [hk, hv k hk]
  · simp [hk]

/-- a point that has been moved into the irreducible zone -/
theorem moved (c : Centring) (z : Move.Zone) (Q : Pt) (p : Move.IrPoint) (tau : Move.IPt)
    (hp : Move.irMoveinto (letter c) z inside (wedge S st) (operations S.timeReversal S.R) Q = some (p, tau)) :
    real (cartesian S.B p.q) ∈ Hull (· ∈ st.ir.1) := by
  have := (C71_ir_moveinto S h.lattice st h.zone c z inside h.first Q).2 p tau hp
  exact (C67_contains _ _ h.zone.solid h.faces _).mp this

end Assembled

/-- The grid holds the values of a function at its vertices, which are given in relative lattice units. -/
structure Sampled (B : Fin 3 → Pt) (T : TrellisWire.PolyTrellis) (h : Held ℚ) (F : Pt → ℕ → ℚ) : Prop where
  rows : h.rows = (hkl B T).length
  data : ∀ i q, (hkl B T)[i]? = some q → ∀ k < h.cols, heldRow h i k = F q k

/-- The data are scalars. -/
structure Scalars (h : Held ℚ) : Prop where
  scalars : h.elements.vectors = 0 ∧ h.elements.matrices = 0
  unit : h.lenunit = .realLattice ∨ h.lenunit = .reciprocalLattice
  like : h.rotlike = .vector

/-- The function is periodic and has the symmetry of the operations. -/
def SymmetricScalar (c : Centring) (ps : List Op) (F : Pt → ℕ → ℚ) : Prop :=
  ∀ R ∈ ps, ∀ (q : Pt) (tau : Fin 3 → ℤ), IsReciprocalPoint c (fun i => tau i) → F (fun i => (∑ j, (R j i : ℚ) * q j) + tau i) = F q

theorem scalars_turn {h : Held ℚ} (hs : Scalars h) (s : Turning ℚ) (ps : List Op) (p : Move.IrPoint) (x : ℕ → ℚ) :
    turnRow s ps (kindOf h false) p x = some x := by
  have hun := C58_unchanged (kindOf h false).layout ps p.ridx p.invRidx x
    (Or.inl ⟨by show h.elements.vectors < 3; rw [hs.scalars.1]; omega, by show h.elements.matrices < 9; rw [hs.scalars.2]; omega⟩)
  unfold turnRow
  rw [show (kindOf h false).like = .vector from hs.like]
  rcases hs.unit with hu | hu
  · rw [show (kindOf h false).unit = .realLattice from hu]
    exact congrArg some hun.1
  · rw [show (kindOf h false).unit = .reciprocalLattice from hu]
    exact congrArg some hun.2.1

section
variable {S : Wedge.Setup} {st : Wedge.St} {inside : Prim.OnLattice → Pt → Bool} {edge : ℚ} {T : TrellisWire.PolyTrellis}
  {g : Fill.Grid ℚ ℚ}

theorem mapM_none_iff {α β : Type} (f : α → Option β) (l : List α) : l.mapM f = none ↔ ∃ a ∈ l, f a = none := by
  induction l with
  | nil => simp
  | cons a l ih =>
    rw [List.mapM_cons]
    cases ha : f a with
    | none => simp [ha]
    | some b =>
      cases hl : l.mapM f with
      | none =>
        rw [hl] at ih
        obtain ⟨x, hx, hf⟩ := ih.mp rfl
        simp only [Option.bind_eq_bind, Option.bind_some, Option.bind_none, true_iff]
        exact ⟨x, by simp [hx], hf⟩
      | some m =>
        rw [hl] at ih
        simp only [Option.bind_eq_bind, Option.bind_some, List.mem_cons, exists_eq_or_imp, ha, reduceCtorEq, false_or]
        simpa using ih

/-- **C81 (where there are results).** With scalars as values and data that can be turned as vectors, interpolation fails only if one of
the points cannot be moved into the first zone. -/
theorem C81_total (h : Assembled S st inside edge T g) (c : Centring) (z : Move.Zone) (n : GridInterp.Numeric ℚ ℚ ℚ)
    (hn : n.weightT = id) (hrows : g.values.rows = T.vertices.length) (hs : Scalars g.values) (hs' : Scalars g.vectors) (s : Turning ℚ)
    (Qs : List Pt) :
    interpolateAt S st (letter c) z inside T n g s Qs = none ↔ ∃ Q ∈ Qs, Move.moveinto (letter c) z inside .standard Q = none := by
  have hmove := fun Q => (C71_ir_moveinto S h.lattice st h.zone c z inside h.first Q).1
  rw [show (∃ Q ∈ Qs, Move.moveinto (letter c) z inside .standard Q = none) ↔
      Qs.mapM (fun Q => Move.irMoveinto (letter c) z inside (wedge S st) (operations S.timeReversal S.R) Q) = none by
    rw [mapM_none_iff]
    exact exists_congr fun Q => and_congr_right fun _ => (hmove Q).symm]
  unfold interpolateAt irInterpolateAt
  split
  · rename_i e; simp [e]
  · rename_i moved e
    rw [e]
    simp only [reduceCtorEq, iff_false]
    have hin : ∀ p ∈ moved, real (cartesian S.B p.1.q) ∈ Hull (· ∈ st.ir.1) := by
      intro p hp
      obtain ⟨l, hget⟩ := mapM_some_get _ _ _ e
      obtain ⟨i, hi⟩ := List.getElem?_of_mem hp
      have hlt : i < Qs.length := by
        have := (List.getElem?_eq_some_iff.mp hi).1; omega
      obtain ⟨o, h1, h2⟩ := hget i _ (List.getElem?_eq_getElem hlt)
      rw [hi] at h2
      obtain rfl := Option.some.inj h2
      exact h.moved c z _ p.1 p.2 h1
    split
    · rename_i e'
      rw [mapM_none_iff] at e'
      obtain ⟨p, hp, e'⟩ := e'
      obtain ⟨iw, y, e2, -⟩ := h.row n hn hrows p.1.q (hin p hp)
      rw [e2] at e'
      simp at e'
    · rw [mapM_none_iff]
      rintro ⟨r, -, hr⟩
      unfold turnBoth at hr
      rw [scalars_turn hs, scalars_turn hs'] at hr
      simp at hr

/-- what the values of a result are -/
theorem result_row (h : Assembled S st inside edge T g) (c : Centring) (z : Move.Zone) (n : GridInterp.Numeric ℚ ℚ ℚ)
    (hn : n.weightT = id) (hrows : g.values.rows = T.vertices.length) (s : Turning ℚ)
    (Qs : List Pt) (out : List ((ℕ → ℚ) × (ℕ → ℚ))) (ho : interpolateAt S st (letter c) z inside T n g s Qs = some out) :
    out.length = Qs.length ∧ ∀ (i : ℕ) (Q : Pt), Qs[i]? = some Q → ∃ o, out[i]? = some o ∧
      ∃ (p : Move.IrPoint) (tau : Fin 3 → ℤ) (R R' : Op) (iw : List (ℕ × ℚ)),
        (operations S.timeReversal S.R)[p.ridx]? = some R ∧ (operations S.timeReversal S.R)[p.invRidx]? = some R' ∧
        InverseOps R R' ∧ IsReciprocalPoint c (fun i => tau i) ∧ Q = (fun i => (∑ j, (R j i : ℚ) * p.q j) + tau i) ∧
        real (cartesian S.B p.q) ∈ Hull (· ∈ st.ir.1) ∧
        turnRow s (operations S.timeReversal S.R) (kindOf g.values false) p
          (fun k => if k < g.values.cols then Spec.combine iw (fun i => heldRow g.values i k) else 0) = some o.1 ∧
        (∀ a ∈ iw, a.1 < T.vertices.length ∧ 0 < a.2 ∧ ∀ d, |T.vertices.getD a.1 0 d - cartesian S.B p.q d| ≤ edge) ∧
        (iw.map Prod.snd).sum = 1 ∧
        ∀ f, Spec.AffineMap f → Spec.combine iw (fun i => f (T.vertices.getD i 0)) = f (cartesian S.B p.q) := by
  obtain ⟨hlen, hget⟩ := irInterpolateAt_points _ z inside _ _ _ s _ _ Qs out ho
  refine ⟨hlen, fun i Q hQ => ?_⟩
  obtain ⟨o, e, ⟨p, tau, x, h1, h2, h3, h4⟩⟩ := hget i Q hQ
  obtain ⟨hw, htau, R, R', hR, hR', hRR, hq⟩ := moved_point c z inside _ _ h.identity Q p tau h1
  have hz := h.moved c z Q p tau h1
  obtain ⟨iw, y, e2, a1, a2, a3⟩ := h.row n hn hrows p.q hz
  rw [h2] at e2
  obtain rfl := Option.some.inj e2
  exact ⟨o, e, p, tau, R, R', iw, hR, hR', hRR, htau, hq, hz, h3, a1, a2, a3⟩

theorem hkl_get (i : ℕ) (hi : i < T.vertices.length) : (hkl S.B T)[i]? = some (relative S.B (T.vertices.getD i 0)) := by
  unfold hkl
  rw [List.getElem?_map, List.getElem?_eq_getElem hi, Convex.getD_lt _ _ hi]
  rfl

theorem cartesian_relative (B : Fin 3 → Pt) (hB : (Matrix.of B).det ≠ 0) (x : Pt) : cartesian B (relative B x) = x := by
  have hu : IsUnit (Matrix.of B).transpose.det := by rw [Matrix.det_transpose]; exact hB.isUnit
  rw [Convex.cartesian_eq, Convex.relative_eq B hB, Matrix.mulVec_mulVec, Matrix.mul_nonsing_inv _ hu, Matrix.one_mulVec]

/-- a weighted mean is not further from a number than the numbers it is made of -/
theorem combine_close (iw : List (ℕ × ℚ)) (f : ℕ → ℚ) (y lo hi : ℚ) (hpos : ∀ p ∈ iw, 0 < p.2) (hsum : (iw.map Prod.snd).sum = 1)
    (hf : ∀ p ∈ iw, y - lo ≤ f p.1 ∧ f p.1 ≤ y + hi) : y - lo ≤ Spec.combine iw f ∧ Spec.combine iw f ≤ y + hi := by
  have key : ∀ iw : List (ℕ × ℚ), (∀ p ∈ iw, 0 < p.2) → (∀ p ∈ iw, y - lo ≤ f p.1 ∧ f p.1 ≤ y + hi) →
      (iw.map Prod.snd).sum * (y - lo) ≤ Spec.combine iw f ∧ Spec.combine iw f ≤ (iw.map Prod.snd).sum * (y + hi) := by
    intro iw
    induction iw with
    | nil => intros; simp [Spec.combine]
    | cons p l ih =>
      intro h1 h2
      obtain ⟨a, b⟩ := ih (fun q hq => h1 q (by simp [hq])) (fun q hq => h2 q (by simp [hq]))
      have hp := h1 p (by simp)
      obtain ⟨c, d⟩ := h2 p (by simp)
      simp only [Spec.combine, List.map_cons, List.sum_cons] at a b ⊢
      constructor <;> nlinarith [mul_le_mul_of_nonneg_left c hp.le, mul_le_mul_of_nonneg_left d hp.le]
  obtain ⟨a, b⟩ := key iw hpos hf
  rw [hsum, one_mul] at a b
  exact ⟨a, b⟩

/-- **C81 (error).** A function that is periodic and has the symmetry of the crystal is sampled at the vertices of the grid.  If it changes
by no more than `ε` between points whose Cartesian coordinates differ by no more than the length of the edges of the nodes, then at every
point of reciprocal space the interpolated value is no further than `ε` from the value of the function there. -/
theorem C81_error (h : Assembled S st inside edge T g) (c : Centring) (z : Move.Zone) (n : GridInterp.Numeric ℚ ℚ ℚ)
    (hn : n.weightT = id) (hs : Scalars g.values) (F : Pt → ℕ → ℚ) (hF : SymmetricScalar c (operations S.timeReversal S.R) F)
    (hg : Sampled S.B T g.values F) (s : Turning ℚ) (k : ℕ) (hk : k < g.values.cols) (ε : ℚ)
    (hε : ∀ q q', (∀ d, |cartesian S.B q' d - cartesian S.B q d| ≤ edge) → |F q' k - F q k| ≤ ε)
    (Qs : List Pt) (out : List ((ℕ → ℚ) × (ℕ → ℚ))) (ho : interpolateAt S st (letter c) z inside T n g s Qs = some out) :
    out.length = Qs.length ∧ ∀ (i : ℕ) (Q : Pt), Qs[i]? = some Q → ∃ o, out[i]? = some o ∧ |o.1 k - F Q k| ≤ ε := by
  obtain ⟨hlen, hget⟩ := result_row h c z n hn (by rw [hg.rows]; simp [hkl]) s Qs out ho
  refine ⟨hlen, fun i Q hQ => ?_⟩
  obtain ⟨o, e, p, tau, R, R', iw, hR, -, -, htau, hq, -, ht, a1, a2, -⟩ := hget i Q hQ
  refine ⟨o, e, ?_⟩
  rw [scalars_turn hs] at ht
  rw [← Option.some.inj ht, hq, hF R (List.mem_of_getElem? hR) p.q tau htau]
  simp only [hk, if_true]
  have := combine_close iw (fun i => heldRow g.values i k) (F p.q k) ε ε (fun a ha => (a1 a ha).2.1) a2 fun a ha => by
    obtain ⟨h1, -, h3⟩ := a1 a ha
    rw [hg.data _ _ (hkl_get a.1 h1) k hk]
    have := hε p.q (relative S.B (T.vertices.getD a.1 0)) (by rwa [cartesian_relative S.B h.lattice.basis])
    rw [abs_le] at this
    constructor <;> linarith [this.1, this.2]
  rw [abs_le]
  constructor <;> linarith [this.1, this.2]

/-- **C81 (no overshoot).** Interpolated scalars are never smaller than the smallest and never larger than the largest of the data. -/
theorem C81_between (h : Assembled S st inside edge T g) (c : Centring) (z : Move.Zone) (n : GridInterp.Numeric ℚ ℚ ℚ)
    (hn : n.weightT = id) (hs : Scalars g.values) (hrows : g.values.rows = T.vertices.length) (s : Turning ℚ) (k : ℕ)
    (hk : k < g.values.cols) (lo hi : ℚ) (hd : ∀ i < g.values.rows, lo ≤ heldRow g.values i k ∧ heldRow g.values i k ≤ hi)
    (Qs : List Pt) (out : List ((ℕ → ℚ) × (ℕ → ℚ))) (ho : interpolateAt S st (letter c) z inside T n g s Qs = some out) :
    ∀ o ∈ out, lo ≤ o.1 k ∧ o.1 k ≤ hi := by
  obtain ⟨hlen, hget⟩ := result_row h c z n hn hrows s Qs out ho
  intro o hm
  obtain ⟨i, hi'⟩ := List.getElem?_of_mem hm
  have hlt : i < Qs.length := by have := (List.getElem?_eq_some_iff.mp hi').1; omega
  obtain ⟨o', e, p, tau, R, R', iw, -, -, -, -, -, -, ht, a1, a2, -⟩ := hget i _ (List.getElem?_eq_getElem hlt)
  rw [hi'] at e
  obtain rfl := Option.some.inj e
  rw [scalars_turn hs] at ht
  rw [← Option.some.inj ht]
  simp only [hk, if_true]
  have := combine_close iw (fun i => heldRow g.values i k) 0 (-lo) hi (fun a ha => (a1 a ha).2.1) a2 fun a ha => by
    have := hd a.1 (by rw [hrows]; exact (a1 a ha).1)
    constructor <;> linarith [this.1, this.2]
  constructor <;> linarith [this.1, this.2]

/-- **C81 (exactness).** Scalars, vectors or matrices that are periodic and have the symmetry of the crystal, and that depend linearly on the
position within the irreducible zone, are reproduced exactly at every point of reciprocal space. -/
theorem C81_exact (h : Assembled S st inside edge T g) (c : Centring) (z : Move.Zone) (n : GridInterp.Numeric ℚ ℚ ℚ)
    (hn : n.weightT = id) (F : Pt → ℕ → ℚ) (hF : RightlyTurned c (operations S.timeReversal S.R) (kindOf g.values false) F)
    (hg : Sampled S.B T g.values F) (hlong : ∀ q k, g.values.cols ≤ k → F q k = 0)
    (haff : ∀ k < g.values.cols, ∃ f, Spec.AffineMap f ∧ ∀ q, real (cartesian S.B q) ∈ Hull (· ∈ st.ir.1) → F q k = f (cartesian S.B q))
    (s : Turning ℚ)
    (Qs : List Pt) (out : List ((ℕ → ℚ) × (ℕ → ℚ))) (ho : interpolateAt S st (letter c) z inside T n g s Qs = some out) :
    out.map Prod.fst = Qs.map F := by
  obtain ⟨hlen, hget⟩ := result_row h c z n hn (by rw [hg.rows]; simp [hkl]) s Qs out ho
  refine List.ext_getElem? fun i => ?_
  rw [List.getElem?_map, List.getElem?_map]
  cases hQ : Qs[i]? with
  | none =>
    rw [List.getElem?_eq_none_iff] at hQ
    rw [List.getElem?_eq_none_iff.2 (by omega)]
    rfl
  | some Q =>
    obtain ⟨o, e, p, tau, R, R', iw, hR, hR', hRR, htau, hq, hz, ht, a1, a2, a3⟩ := hget i Q hQ
    have hrow : (fun k => if k < g.values.cols then Spec.combine iw (fun i => heldRow g.values i k) else 0) = F p.q := by
      funext k
      split
      · rename_i hk
        obtain ⟨f, hf, hfq⟩ := haff k hk
        rw [hfq _ hz, ← a3 f hf]
        unfold Spec.combine
        congr 1
        refine List.map_congr_left fun a ha => ?_
        have hlt := (a1 a ha).1
        dsimp only
        rw [hg.data _ _ (hkl_get a.1 hlt) k hk, hfq, cartesian_relative S.B h.lattice.basis]
        rw [cartesian_relative S.B h.lattice.basis, Convex.getD_lt _ _ hlt]
        exact h.vertices _ (List.getElem_mem hlt)
      · rename_i hk
        exact (hlong _ _ (by omega)).symm
    rw [hrow] at ht
    rw [e, Option.map_some, Option.map_some, turnRow_field c s _ _ F hF p R R' hR hR' hRR tau htau o.1 ht, ← hq]

end

/-! ### a case: the distance from the nearest integer, in the cube with the group mm2 -/

/-- one number for each vertex -/
def sample (B : Fin 3 → Pt) (T : TrellisWire.PolyTrellis) (F : Pt → ℕ → ℚ) : Fill.Nd ℚ :=
  ⟨[T.vertices.length, 1], fun i => F (relative B (T.vertices.getD i 0)) 0⟩

/-- the grid filled with a function -/
def filled (B : Fin 3 → Pt) (T : TrellisWire.PolyTrellis) (F : Pt → ℕ → ℚ) : Fill.Grid ℚ ℚ :=
  Fill.run (Fill.newGrid T.vertices.length []) [.fill (sample B T F) (given [1, 0, 0]) (sample B T F) (given [1, 0, 0])]

theorem filled_held (B : Fin 3 → Pt) (T : TrellisWire.PolyTrellis) (F : Pt → ℕ → ℚ) :
    (filled B T F).values = ⟨T.vertices.length, 1, (sample B T F).mem, [T.vertices.length, 1], ⟨1, 0, 0⟩, .vector, .realLattice⟩ ∧
    (filled B T F).vectors = ⟨T.vertices.length, 1, (sample B T F).mem, [T.vertices.length, 1], ⟨1, 0, 0⟩, .vector, .realLattice⟩ := by
  have hc : ∀ k, Fill.fillCheck (sample B T F) (given [1, 0, 0]).contiguous k =
      .ok ⟨T.vertices.length, 1, (sample B T F).mem, [T.vertices.length, 1], ⟨1, 0, 0⟩, .vector, .realLattice⟩ := by
    intro k
    have e1 : Fill.readElements (given [1, 0, 0]).contiguous.len (given [1, 0, 0]).contiguous.raw = ⟨1, 0, 0⟩ := by decide
    have e2 : Fill.readRotatesLike (given [1, 0, 0]).contiguous.len (given [1, 0, 0]).contiguous.raw = .ok .vector := rfl
    have e3 : Fill.readLengthUnit (given [1, 0, 0]).contiguous.len (given [1, 0, 0]).contiguous.raw = .ok .realLattice := rfl
    unfold Fill.fillCheck Fill.checked
    rw [e1, e2, e3]
    simp only [sample, Fill.make, Fill.checkElements, Fill.rowsCols]
    rw [if_neg (by simp)]
    simp [Fill.Elements.span, Fill.ind]
  unfold filled Fill.run
  simp only [List.foldl_cons, List.foldl_nil, Fill.step, hc, Fill.replaceData]
  rw [if_neg (by simp)]
  cases hu : Fill.updateTable (T := ℚ) (R := ℚ) { (Fill.newGrid T.vertices.length [] : Fill.Grid ℚ ℚ) with
      values := ⟨T.vertices.length, 1, (sample B T F).mem, [T.vertices.length, 1], ⟨1, 0, 0⟩, .vector, .realLattice⟩,
      vectors := ⟨T.vertices.length, 1, (sample B T F).mem, [T.vertices.length, 1], ⟨1, 0, 0⟩, .vector, .realLattice⟩ } with
  | error f =>
    unfold Fill.updateTable PermTable.refresh at hu
    simp [Fill.newGrid, PermTable.mkKeys, PermTable.insertKeys, PermTable.mk0, PermTable.addZeroth] at hu
    split at hu
    · rename_i h0; revert h0; split <;> simp
    · cases hu
  | ok g' =>
    obtain ⟨-, h1, h2, -⟩ := Fill.updateTable_ok hu
    exact ⟨h1, h2⟩

/-- the distance of the first coordinate from the nearest integer -/
def toothed (q : Pt) : ℕ → ℚ := fun k => if k = 0 then |q 0 - round (q 0)| else 0

theorem toothed_le (x : ℚ) (z : ℤ) : |x - round x| ≤ |x - z| := round_le x z

theorem toothed_symmetric : SymmetricScalar .P (operations false groupMm2) toothed := by
  intro R hR q tau _
  have key : ∀ (x y : ℚ) (z : ℤ), (x = y + z ∨ x = -y + z) → |x - round x| ≤ |y - round y| := by
    rintro x y z (rfl | rfl)
    · refine (toothed_le _ (round y + z)).trans (le_of_eq ?_)
      congr 1; push_cast; ring
    · refine (toothed_le _ (-round y + z)).trans (le_of_eq ?_)
      rw [← abs_neg]
      congr 1; push_cast; ring
  have hfirst : (∑ j, (R j 0 : ℚ) * q j) = q 0 ∨ (∑ j, (R j 0 : ℚ) * q j) = -q 0 := by
    obtain ⟨a, b, c, ha, -, -, rfl⟩ := mm2_diagonal R hR
    rcases ha with rfl | rfl <;> simp [Fin.sum_univ_three, diagonalOp]
  funext k
  unfold toothed
  split
  · dsimp only
    rcases hfirst with e | e
    · refine le_antisymm (key _ _ (tau 0) ?_) (key _ _ (-tau 0) ?_) <;> rw [e] <;> left <;> push_cast <;> ring
    · refine le_antisymm (key _ _ (tau 0) ?_) (key _ _ (tau 0) ?_) <;> rw [e] <;> right <;> push_cast <;> ring
  · rfl

/-- the setup of the case -/
def toothSetup : Wedge.Setup := cubeSetup groupMm2 fun _ => none

/-- a quarter of the cube -/
def quarterSt : Wedge.St := ⟨(boxPoints ![0, 0, -1] ![1, 1, 1], Faces.boxFaces), [![1, 0, 0], ![0, 1, 0]], true⟩

theorem tooth_circumstances : Circumstances toothSetup := cube_circumstances _ groupMm2_group mm2_diagonal _

theorem tooth_zone : Irreducible toothSetup quarterSt := by
  have hmn : ∀ d : Fin 3, (![-1, -1, -1] : Pt) d < (![1, 1, 1] : Pt) d := by decide +kernel
  have hmn' : ∀ d : Fin 3, (![0, 0, -1] : Pt) d < (![1, 1, 1] : Pt) d := by decide +kernel
  have hnear : ∀ a b, toothSetup.near a b = true → a = b := fun a b h => (tooth_circumstances.near a b).mp h
  have hsub : Hull (· ∈ quarterSt.ir.1) ⊆ Hull (· ∈ toothSetup.first.1) := by
    intro x hx
    simp only [quarterSt, toothSetup, cubeSetup] at hx ⊢
    rw [box_hull _ _ hmn'] at hx
    rw [box_hull _ _ hmn]
    intro d
    have := hx d
    fin_cases d <;> simp at this ⊢ <;> constructor <;> linarith [this.1, this.2]
  have hother : (∃ r ∈ operations toothSetup.timeReversal toothSetup.R, Matrix.of r = -1) →
      ∃ r ∈ operations toothSetup.timeReversal toothSetup.R, Matrix.of r ≠ 1 ∧ Matrix.of r ≠ -1 := fun _ =>
    ⟨diagonalOp (-1) (-1) 1, by decide +kernel, by decide +kernel, by decide +kernel⟩
  have hs : ConvexSolid quarterSt.ir.1 quarterSt.ir.2 := C67_box _ _ hmn'
  have hcheck : check toothSetup.near toothSetup.B toothSetup.timeReversal toothSetup.R (toothSetup.first.1, toothSetup.first.2)
      (quarterSt.ir.1, quarterSt.ir.2) = some true := quarter_check.1
  refine ⟨hs, hsub, share_of_volume tooth_circumstances _ hs (by decide) (check_volume tooth_circumstances _ hcheck),
    C70_apart toothSetup.near hnear toothSetup.B tooth_circumstances.basis _ _ tooth_circumstances.group toothSetup.first.1 quarterSt.ir.1
      toothSetup.first.2 quarterSt.ir.2 hs hother hcheck,
    C70_fills toothSetup.near hnear toothSetup.B tooth_circumstances.basis _ _ tooth_circumstances.group toothSetup.first.1 quarterSt.ir.1
      toothSetup.first.2 quarterSt.ir.2 hs hother hcheck (by decide) tooth_circumstances.solid tooth_circumstances.faces hsub
      tooth_circumstances.invariant, ?_, rfl⟩
  intro x hx
  simp only [quarterSt, toothSetup, cubeSetup] at hx ⊢
  rw [box_hull _ _ hmn] at hx
  rw [box_hull _ _ hmn']
  have h0 := hx 0
  have h1 := hx 1
  have h2 := hx 2
  simp at h0 h1 h2
  constructor
  · intro h n hn
    have g0 := h 0
    have g1 := h 1
    simp at g0 g1
    simp only [List.mem_cons, List.not_mem_nil, or_false] at hn
    rcases hn with rfl | rfl <;> simp [Fin.sum_univ_three, g0.1, g1.1]
  · intro h d
    have g0 := h ![1, 0, 0] (by simp)
    have g1 := h ![0, 1, 0] (by simp)
    simp [Fin.sum_univ_three] at g0 g1
    fin_cases d <;> simp <;> constructor <;> linarith [h0.2, h1.2, h2.1, h2.2]

/-- one thread does everything -/
def alone (types : List Trellis.NodeType) : TrellisWire.Schedule :=
  { threads := [(List.range types.length).filter fun i => types[i]? ≠ some .assumedNull],
    cubes := (List.range types.length).filter fun i => types[i]? = some .cube,
    polys := (List.range types.length).filter fun i => types[i]? = some .poly }

theorem alone_ok (types : List Trellis.NodeType) : Distributed (alone types) types := by
  have hlt : ∀ (i : ℕ) ty, types[i]? = some ty → i < types.length := fun i ty h => (List.getElem?_eq_some_iff.mp h).1
  refine ⟨?_, ?_, ?_, ?_, ?_, ?_⟩
  · simpa [alone] using List.nodup_range.filter _
  · intro i
    simp only [alone, List.flatten_cons, List.flatten_nil, List.append_nil, List.mem_filter, List.mem_range, decide_eq_true_eq]
    constructor
    · rintro ⟨h1, h2⟩
      rw [List.getElem?_eq_getElem h1] at h2 ⊢
      exact ⟨_, rfl, fun e => h2 (by rw [e])⟩
    · rintro ⟨ty, h1, h2⟩
      exact ⟨hlt i ty h1, by rw [h1]; simpa using h2⟩
  · exact List.nodup_range.filter _
  · intro i
    simp only [alone, List.mem_filter, List.mem_range, decide_eq_true_eq]
    exact ⟨fun h => h.2, fun h => ⟨hlt i _ h, h⟩⟩
  · exact List.nodup_range.filter _
  · intro i
    simp only [alone, List.mem_filter, List.mem_range, decide_eq_true_eq]
    exact ⟨fun h => h.2, fun h => ⟨hlt i _ h, h⟩⟩

/-- `isinside` of the cube -/
def toothInside : Prim.OnLattice → Pt → Bool := fun _ q =>
  contains toothSetup.first.2 (fun i => toothSetup.first.1.getD i 0) (cartesian toothSetup.B q)

/-- For every length of the edges everything can be put in place, and the function above can be sampled. -/
theorem tooth_assembled (edge : ℚ) (hedge : 0 < edge) : ∃ T,
    Assembled toothSetup quarterSt toothInside edge T (filled toothSetup.B T toothed) ∧
    Sampled toothSetup.B T (filled toothSetup.B T toothed).values toothed ∧ Scalars (filled toothSetup.B T toothed).values ∧
    Scalars (filled toothSetup.B T toothed).vectors := by
  have hst := tooth_zone
  have hC := tooth_circumstances
  have hf : quarterSt.ir.2 ≠ [] := by decide
  obtain ⟨turns, ht⟩ : ∃ turns : ℕ, ∀ d : Fin 3, (⌈(Zone.largest quarterSt.ir.1 d - Zone.least quarterSt.ir.1 d) / edge⌉ : ℤ) ≤ turns := by
    refine ⟨∑ d : Fin 3, (⌈(Zone.largest quarterSt.ir.1 d - Zone.least quarterSt.ir.1 d) / edge⌉ : ℤ).toNat, fun d => ?_⟩
    refine (Int.self_le_toNat _).trans ?_
    exact_mod_cast Finset.single_le_sum (f := fun d => (⌈(Zone.largest quarterSt.ir.1 d - Zone.least quarterSt.ir.1 d) / edge⌉ : ℤ).toNat)
      (fun _ _ => Nat.zero_le _) (Finset.mem_univ d)
  obtain ⟨schedule, hS⟩ : ∃ schedule, ∀ t parts, TrellisBuild.build false turns edge quarterSt.ir = some (t, parts) → Distributed schedule t.types := by
    cases hb : TrellisBuild.build false turns edge quarterSt.ir with
    | none => exact ⟨alone [], by simp⟩
    | some r => exact ⟨alone r.1.types, fun t parts e => by obtain rfl := Option.some.inj e; exact alone_ok _⟩
  obtain ⟨T, hT, -⟩ := C76_construct someTetGen someTetGen_reliable false turns edge quarterSt.ir hst.solid hf hedge ht schedule hS
  obtain ⟨e1, e2⟩ := filled_held toothSetup.B T toothed
  refine ⟨T, ⟨hC, hst, fun _ => rfl, hedge, ⟨someTetGen, false, turns, schedule, someTetGen_reliable, ht, hS, hT⟩, ?_⟩, ?_, ?_, ?_⟩
  · refine ⟨[], [.fill (sample toothSetup.B T toothed) (given [1, 0, 0]) (sample toothSetup.B T toothed) (given [1, 0, 0])], ⟨?_, trivial⟩, ?_, rfl⟩
    · refine ⟨⟨(1, 0, 0), ⟨by decide, by decide, by decide⟩, ⟨by decide, by simp [sample], by simp [sample]⟩⟩, (1, 0, 0), ⟨by decide, by decide, by decide⟩,
        ⟨by decide, by simp [sample], by simp [sample]⟩⟩
    · intro o ho
      rw [List.mem_singleton.mp ho]
      trivial
  · rw [e1]
    refine ⟨by simp [hkl], fun i q hq k hk => ?_⟩
    have hk0 : k = 0 := by
      have : k < 1 := hk
      omega
    subst hk0
    unfold hkl at hq
    rw [List.getElem?_map] at hq
    obtain ⟨v, hv, rfl⟩ := Option.map_eq_some_iff.mp hq
    obtain ⟨hlt, rfl⟩ := List.getElem?_eq_some_iff.mp hv
    simp [heldRow, sample, hlt]
  · rw [e1]; exact ⟨⟨rfl, rfl⟩, Or.inl rfl, rfl⟩
  · rw [e2]; exact ⟨⟨rfl, rfl⟩, Or.inl rfl, rfl⟩

/-- the numbers are taken as they are -/
def plainNumbers : GridInterp.Numeric ℚ ℚ ℚ := ⟨id, id, fun _ _ _ => 1⟩

/-- the interpolated values are not further than half the edge of the nodes from the function, anywhere -/
example (edge : ℚ) (hedge : 0 < edge) : ∃ T, ∀ (Qs : List Pt) (out : List ((ℕ → ℚ) × (ℕ → ℚ))),
    interpolateAt toothSetup quarterSt .P cubic toothInside T plainNumbers (filled toothSetup.B T toothed) turning0 Qs = some out →
    out.length = Qs.length ∧ ∀ (i : ℕ) (Q : Pt), Qs[i]? = some Q → ∃ o, out[i]? = some o ∧ |o.1 0 - toothed Q 0| ≤ edge / 2 := by
  obtain ⟨T, hA, hD, hS, hS'⟩ := tooth_assembled edge hedge
  refine ⟨T, fun Qs out ho => C81_error hA .P _ _ rfl hS toothed toothed_symmetric hD _ 0 ?_ (edge / 2) ?_ Qs out ho⟩
  · rw [(filled_held _ _ _).1]; exact Nat.zero_lt_one
  · intro q q' h
    have h0 := h 0
    have e : ∀ q : Pt, cartesian toothSetup.B q 0 = 2 * q 0 := by
      intro q
      simp [cartesian, toothSetup, cubeSetup, cubicBasis]; ring
    rw [e, e] at h0
    simp only [toothed, if_true]
    have hd : |q' 0 - q 0| ≤ edge / 2 := by
      rw [abs_le] at h0 ⊢
      constructor <;> linarith [h0.1, h0.2]
    have lip : ∀ x y : ℚ, |x - round x| ≤ |x - y| + |y - round y| := fun x y =>
      (toothed_le x (round y)).trans ((le_of_eq (by congr 1; ring)).trans (abs_add_le (x - y) (y - round y)))
    have h1 := lip (q' 0) (q 0)
    have h2 := lip (q 0) (q' 0)
    rw [abs_sub_comm (q 0) (q' 0)] at h2
    rw [abs_le]
    constructor <;> linarith

/-- within the zone the function is linear, so that it is reproduced exactly, everywhere -/
example (edge : ℚ) (hedge : 0 < edge) : ∃ T, ∀ (Qs : List Pt) (out : List ((ℕ → ℚ) × (ℕ → ℚ))),
    interpolateAt toothSetup quarterSt .P cubic toothInside T plainNumbers (filled toothSetup.B T toothed) turning0 Qs = some out →
    out.map Prod.fst = Qs.map toothed := by
  obtain ⟨T, hA, hD, hS, hS'⟩ := tooth_assembled edge hedge
  have hcols : (filled toothSetup.B T toothed).values.cols = 1 := by rw [(filled_held _ _ _).1]
  refine ⟨T, fun Qs out ho => C81_exact hA .P _ _ rfl toothed (Or.inr (Or.inr ⟨hS.scalars.1, hS.scalars.2, hS.unit, hS.like, ?_⟩)) hD ?_ ?_ _ Qs out ho⟩
  · exact toothed_symmetric
  · intro q k hk
    rw [hcols] at hk
    simp [toothed, show k ≠ 0 by omega]
  · intro k hk
    rw [hcols] at hk
    refine ⟨fun p => 0 + ∑ d, (![1 / 2, 0, 0] : Pt) d * p d, ⟨0, ![1 / 2, 0, 0], fun _ => rfl⟩, fun q hq => ?_⟩
    have hfirst := hA.zone.part hq
    have hpos := (hA.zone.normals _ hfirst).mp hq ![1, 0, 0] (by simp [quarterSt])
    have hbox := ((box_hull ![-1, -1, -1] ![1, 1, 1] (by decide +kernel) _).mp hfirst) 0
    have e : cartesian toothSetup.B q 0 = 2 * q 0 := by
      simp [cartesian, toothSetup, cubeSetup, cubicBasis]; ring
    simp only [Fin.sum_univ_three, real, e] at hpos hbox
    simp at hpos hbox
    have h0 : 0 ≤ q 0 := by exact_mod_cast hpos
    have h1 : 2 * q 0 ≤ 1 := by
      have := hbox.2
      have h' : (((2 * q 0 : ℚ)) : ℝ) ≤ ((1 : ℚ) : ℝ) := by push_cast; exact this
      exact_mod_cast h'
    rw [show k = 0 by omega]
    simp only [toothed, if_true, Fin.sum_univ_three, e]
    simp
    have hle := toothed_le (q 0) 0
    rw [Int.cast_zero, sub_zero, abs_of_nonneg h0] at hle
    have hge : q 0 ≤ |q 0 - round (q 0)| := by
      rcases le_or_gt (round (q 0)) 0 with h | h
      · have : ((round (q 0) : ℤ) : ℚ) ≤ 0 := by exact_mod_cast h
        exact le_trans (by linarith) (le_abs_self _)
      · have : (1 : ℚ) ≤ ((round (q 0) : ℤ) : ℚ) := by exact_mod_cast h
        exact le_trans (by linarith) (neg_le_abs _)
    linarith

/-- there are results wherever the points can be moved into the cube -/
example (edge : ℚ) (hedge : 0 < edge) : ∃ T, ∀ Qs : List Pt,
    interpolateAt toothSetup quarterSt .P cubic toothInside T plainNumbers (filled toothSetup.B T toothed) turning0 Qs = none ↔
      ∃ Q ∈ Qs, Move.moveinto .P cubic toothInside .standard Q = none := by
  obtain ⟨T, hA, hD, hS, hS'⟩ := tooth_assembled edge hedge
  exact ⟨T, fun Qs => C81_total hA .P _ _ rfl (by rw [hD.rows]; simp [hkl]) hS hS' _ Qs⟩

end Brille.Props
