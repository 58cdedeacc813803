/-
C85: interpolating anywhere in reciprocal space with a layered tetrahedral mesh and with nested tetrahedra.
-/
import Verif.Model.EndToEndMesh
import Verif.Props.EndToEnd
import Verif.Props.Mesh
import Verif.Props.Nest

namespace Brille.Props

open Brille.EndToEnd Brille.Spec Brille.Tetra Brille.IrCheck Brille.IrInterp Brille.Rot
open Brille.Fill (Held)
open Brille.Faces (contains)

/-! ### any grid that locates the points of the irreducible zone -/

/-- The data of a grid are what any number of calls have left that put data into it and never sorted them. -/
def LeftByCalls (vertices : ℕ) (g : Fill.Grid ℚ ℚ) : Prop :=
  ∃ (keys : List ℕ) (ops : List (Fill.Op ℚ ℚ)), Along Proper (Fill.newGrid vertices keys : Fill.Grid ℚ ℚ) ops ∧
    (∀ o ∈ ops, Unsorted o) ∧ g = Fill.run (Fill.newGrid vertices keys) ops

/-- The grid holds the values of a function at the points. -/
structure SampledAt (points : List Pt) (h : Held ℚ) (F : Pt → ℕ → ℚ) : Prop where
  rows : h.rows = points.length
  data : ∀ i q, points[i]? = some q → ∀ k < h.cols, heldRow h i k = F q k

/-- what is needed of a grid; `Used x i`: vertex `i` can have a weight for the point `x` -/
structure Placed (S : Wedge.Setup) (st : Wedge.St) (inside : Prim.OnLattice → Pt → Bool) (kind : GridInterp.Kind) (vertices : List Pt)
    (locate : Pt → Option (List (ℕ × ℚ))) (Used : Pt → ℕ → Prop) (g : Fill.Grid ℚ ℚ) : Prop where
  lattice : Circumstances S
  zone : Irreducible S st
  first : ∀ q, inside .standard q = contains S.first.2 (fun i => S.first.1.getD i 0) (cartesian S.B q)
  within : ∀ v ∈ vertices, real v ∈ Hull (· ∈ st.ir.1)
  located : ∀ x, real x ∈ Hull (· ∈ st.ir.1) → ∃ iw, locate x = some iw ∧
    (∀ p ∈ iw, p.1 < vertices.length ∧ 0 < p.2 ∧ Used x p.1) ∧ (iw.map Prod.snd).sum = 1 ∧
      ∀ f, Spec.AffineMap f → Spec.combine iw (fun i => f (vertices.getD i 0)) = f x
  shapes : kind = .nest → g.vectors.shape = g.values.shape
  history : LeftByCalls vertices.length g

namespace Placed

variable {S : Wedge.Setup} {st : Wedge.St} {inside : Prim.OnLattice → Pt → Bool} {kind : GridInterp.Kind} {vertices : List Pt}
  {locate : Pt → Option (List (ℕ × ℚ))} {Used : Pt → ℕ → Prop} {g : Fill.Grid ℚ ℚ}
  (h : Placed S st inside kind vertices locate Used g)
include h

theorem faces : st.ir.2 ≠ [] := by
  obtain ⟨_, _, y, hy, _⟩ := h.zone.fills 0 (zone_origin h.lattice)
  exact faces_of_point h.zone.solid y hy

theorem identity : Mot.idMat ∈ operations S.timeReversal S.R := by
  obtain ⟨o, ho, ho1⟩ := h.lattice.group.one
  rw [← op_of_one o ho1]; exact ho

/-- the data are added up with the weights -/
theorem summed (c : GridInterp.Numeric ℚ ℚ ℚ) (hc : c.weightT = id) (hrows : g.values.rows = vertices.length) (iw : List (ℕ × ℚ))
    (hiw : iw ≠ []) (hin : ∀ p ∈ iw, p.1 < vertices.length) :
    ∃ vals vecs, GridInterp.interpolate kind c g (fun _ => iw) 1 = .ok vals vecs ∧
      ∀ k < g.values.cols, vals.mem k = Spec.combine iw fun i => heldRow g.values i k := by
  have hk : GridInterp.interpolate kind c g (fun _ => iw) 1 = GridInterp.interpolate .trellis c g (fun _ => iw) 1 := by
    cases hkind : kind with
    | trellis => rfl
    | nest => exact C63_nest_partial c g _ 1 (h.shapes hkind) fun _ _ => hiw
  rw [hk]
  obtain ⟨keys, ops, ho, hu, rfl⟩ := h.history
  set g : Fill.Grid ℚ ℚ := Fill.run (Fill.newGrid vertices.length keys) ops with hg
  have hpos : g.values.rows ≠ 0 := by
    obtain ⟨p, l, rfl⟩ := List.exists_cons_of_ne_nil hiw
    have := hin p (by simp)
    omega
  have hh : Healthy g := healthy_run _ keys ops ho
  have hs : Stored g.values := hh.values.resolve_left hpos
  have hget := single_get hh.table (run_single _ keys ops hu)
  obtain ⟨vals, vecs, e, -, -, hv, -⟩ := C63_results _ keys ops ho c (fun _ => iw) 1 hpos
    (fun i _ => ⟨hiw, fun x hx => by rw [← hg, hrows]; exact hin x hx⟩)
  simp only [← hg] at hv
  refine ⟨vals, vecs, e, fun k hk => ?_⟩
  rw [hs.cols] at hk
  have hsp : 0 < g.values.elements.span := by
    rcases Nat.eq_zero_or_pos g.values.elements.span with h0 | h0
    · rw [h0] at hk; simp at hk
    · exact h0
  have hb : k / g.values.elements.span < g.values.branches := Nat.div_lt_of_lt_mul (by rwa [Nat.mul_comm] at hk)
  have := hv 0 _ _ one_pos hb (Nat.mod_lt k hsp)
  simp only [modeElem, resultRow, zero_mul, zero_add, Nat.div_add_mod'] at this
  rw [this]
  simp only [weightedMode, verticesOf, List.map_map, Spec.combine]
  congr 1
  refine List.map_congr_left fun p _ => ?_
  simp only [Function.comp, hget, Option.getD_some, hc, id_eq, modeElem]
  rw [List.getD_eq_getElem?_getD, List.getElem?_range hb, Option.getD_some, Nat.div_add_mod']

/-- a point of the irreducible zone gets the weighted sum of the data of vertices -/
theorem row (c : GridInterp.Numeric ℚ ℚ ℚ) (hc : c.weightT = id) (hrows : g.values.rows = vertices.length) (q : Pt)
    (hq : real (cartesian S.B q) ∈ Hull (· ∈ st.ir.1)) : ∃ iw y, locatedAt kind S.B locate c g q =
        some (fun k => if k < g.values.cols then Spec.combine iw (fun i => heldRow g.values i k) else 0, y) ∧
      (∀ p ∈ iw, p.1 < vertices.length ∧ 0 < p.2 ∧ Used (cartesian S.B q) p.1) ∧ (iw.map Prod.snd).sum = 1 ∧
      ∀ f, Spec.AffineMap f → Spec.combine iw (fun i => f (vertices.getD i 0)) = f (cartesian S.B q) := by
  obtain ⟨iw, e, h1, h2, h3⟩ := h.located _ hq
  have hne : iw ≠ [] := by rintro rfl; simp at h2
  obtain ⟨vals, vecs, e', hv⟩ := h.summed c hc hrows iw hne fun p hp => (h1 p hp).1
  refine ⟨iw, fun k => if k < (Fill.rowsCols (GridInterp.vectorShape kind g)).2 then vecs.mem k else 0, ?_, h1, h2, h3⟩
  unfold locatedAt
  rw [e]
  simp only [e']
  refine congrArg some (Prod.ext ?_ rfl)
  funext k
  by_cases hk : k < g.values.cols
  · simp [hk, hv k hk]
  · simp [hk]

/-- a point that has been moved into the irreducible zone -/
theorem moved (c : Centring) (z : Move.Zone) (Q : Pt) (p : Move.IrPoint) (tau : Move.IPt)
    (hp : Move.irMoveinto (letter c) z inside (wedge S st) (operations S.timeReversal S.R) Q = some (p, tau)) :
    real (cartesian S.B p.q) ∈ Hull (· ∈ st.ir.1) := by
  have := (C71_ir_moveinto S h.lattice st h.zone c z inside h.first Q).2 p tau hp
  exact (C67_contains _ _ h.zone.solid h.faces _).mp this

theorem total (c : Centring) (z : Move.Zone) (n : GridInterp.Numeric ℚ ℚ ℚ) (hn : n.weightT = id) (hrows : g.values.rows = vertices.length)
    (hs : Scalars g.values) (hs' : Scalars g.vectors) (s : Turning ℚ) (Qs : List Pt) :
    interpolateWith kind locate S st (letter c) z inside n g s Qs = none ↔ ∃ Q ∈ Qs, Move.moveinto (letter c) z inside .standard Q = none := by
  have hmove := fun Q => (C71_ir_moveinto S h.lattice st h.zone c z inside h.first Q).1
  rw [show (∃ Q ∈ Qs, Move.moveinto (letter c) z inside .standard Q = none) ↔
      Qs.mapM (fun Q => Move.irMoveinto (letter c) z inside (wedge S st) (operations S.timeReversal S.R) Q) = none by
    rw [mapM_none_iff]
    exact exists_congr fun Q => and_congr_right fun _ => (hmove Q).symm]
  unfold interpolateWith irInterpolateAt
  split
  · rename_i e; simp [e]
  · rename_i moved e
    rw [e]
    simp only [reduceCtorEq, iff_false]
    have hin : ∀ p ∈ moved, real (cartesian S.B p.1.q) ∈ Hull (· ∈ st.ir.1) := by
      intro p hp
      obtain ⟨l, hget⟩ := mapM_some_get _ _ _ e
      obtain ⟨i, hi⟩ := List.getElem?_of_mem hp
      have hlt : i < Qs.length := by
        have := (List.getElem?_eq_some_iff.mp hi).1; omega
      obtain ⟨o, h1, h2⟩ := hget i _ (List.getElem?_eq_getElem hlt)
      rw [hi] at h2
      obtain rfl := Option.some.inj h2
      exact h.moved c z _ p.1 p.2 h1
    split
    · rename_i e'
      rw [mapM_none_iff] at e'
      obtain ⟨p, hp, e'⟩ := e'
      obtain ⟨iw, y, e2, -⟩ := h.row n hn hrows p.1.q (hin p hp)
      rw [e2] at e'
      simp at e'
    · rw [mapM_none_iff]
      rintro ⟨r, -, hr⟩
      unfold turnBoth at hr
      rw [scalars_turn hs, scalars_turn hs'] at hr
      simp at hr

/-- what the values of a result are -/
theorem result_row (c : Centring) (z : Move.Zone) (n : GridInterp.Numeric ℚ ℚ ℚ)
    (hn : n.weightT = id) (hrows : g.values.rows = vertices.length) (s : Turning ℚ)
    (Qs : List Pt) (out : List ((ℕ → ℚ) × (ℕ → ℚ))) (ho : interpolateWith kind locate S st (letter c) z inside n g s Qs = some out) :
    out.length = Qs.length ∧ ∀ (i : ℕ) (Q : Pt), Qs[i]? = some Q → ∃ o, out[i]? = some o ∧
      ∃ (p : Move.IrPoint) (tau : Fin 3 → ℤ) (R R' : Op) (iw : List (ℕ × ℚ)),
        (operations S.timeReversal S.R)[p.ridx]? = some R ∧ (operations S.timeReversal S.R)[p.invRidx]? = some R' ∧
        InverseOps R R' ∧ IsReciprocalPoint c (fun i => tau i) ∧ Q = (fun i => (∑ j, (R j i : ℚ) * p.q j) + tau i) ∧
        real (cartesian S.B p.q) ∈ Hull (· ∈ st.ir.1) ∧
        turnRow s (operations S.timeReversal S.R) (kindOf g.values false) p
          (fun k => if k < g.values.cols then Spec.combine iw (fun i => heldRow g.values i k) else 0) = some o.1 ∧
        (∀ a ∈ iw, a.1 < vertices.length ∧ 0 < a.2 ∧ Used (cartesian S.B p.q) a.1) ∧
        (iw.map Prod.snd).sum = 1 ∧
        ∀ f, Spec.AffineMap f → Spec.combine iw (fun i => f (vertices.getD i 0)) = f (cartesian S.B p.q) := by
  obtain ⟨hlen, hget⟩ := irInterpolateAt_points _ z inside _ _ _ s _ _ Qs out ho
  refine ⟨hlen, fun i Q hQ => ?_⟩
  obtain ⟨o, e, ⟨p, tau, x, h1, h2, h3, h4⟩⟩ := hget i Q hQ
  obtain ⟨hw, htau, R, R', hR, hR', hRR, hq⟩ := moved_point c z inside _ _ h.identity Q p tau h1
  have hz := h.moved c z Q p tau h1
  obtain ⟨iw, y, e2, a1, a2, a3⟩ := h.row n hn hrows p.q hz
  rw [h2] at e2
  obtain rfl := Option.some.inj e2
  exact ⟨o, e, p, tau, R, R', iw, hR, hR', hRR, htau, hq, hz, h3, a1, a2, a3⟩

omit h in
theorem hklOf_get (i : ℕ) (hi : i < vertices.length) : (hklOf S.B vertices)[i]? = some (relative S.B (vertices.getD i 0)) := by
  unfold hklOf
  rw [List.getElem?_map, List.getElem?_eq_getElem hi, Convex.getD_lt _ _ hi]
  rfl

theorem error (c : Centring) (z : Move.Zone) (n : GridInterp.Numeric ℚ ℚ ℚ)
    (hn : n.weightT = id) (hs : Scalars g.values) (F : Pt → ℕ → ℚ) (hF : SymmetricScalar c (operations S.timeReversal S.R) F)
    (hg : SampledAt (hklOf S.B vertices) g.values F) (s : Turning ℚ) (k : ℕ) (hk : k < g.values.cols) (ε : ℚ)
    (hε : ∀ q i, i < vertices.length → Used (cartesian S.B q) i → |F (relative S.B (vertices.getD i 0)) k - F q k| ≤ ε)
    (Qs : List Pt) (out : List ((ℕ → ℚ) × (ℕ → ℚ))) (ho : interpolateWith kind locate S st (letter c) z inside n g s Qs = some out) :
    out.length = Qs.length ∧ ∀ (i : ℕ) (Q : Pt), Qs[i]? = some Q → ∃ o, out[i]? = some o ∧ |o.1 k - F Q k| ≤ ε := by
  obtain ⟨hlen, hget⟩ := h.result_row c z n hn (by rw [hg.rows]; simp [hklOf]) s Qs out ho
  refine ⟨hlen, fun i Q hQ => ?_⟩
  obtain ⟨o, e, p, tau, R, R', iw, hR, -, -, htau, hq, -, ht, a1, a2, -⟩ := hget i Q hQ
  refine ⟨o, e, ?_⟩
  rw [scalars_turn hs] at ht
  rw [← Option.some.inj ht, hq, hF R (List.mem_of_getElem? hR) p.q tau htau]
  simp only [hk, if_true]
  have := combine_close iw (fun i => heldRow g.values i k) (F p.q k) ε ε (fun a ha => (a1 a ha).2.1) a2 fun a ha => by
    obtain ⟨h1, -, h3⟩ := a1 a ha
    rw [hg.data _ _ (hklOf_get a.1 h1) k hk]
    have := hε p.q a.1 h1 h3
    rw [abs_le] at this
    constructor <;> linarith [this.1, this.2]
  rw [abs_le]
  constructor <;> linarith [this.1, this.2]

theorem between (c : Centring) (z : Move.Zone) (n : GridInterp.Numeric ℚ ℚ ℚ)
    (hn : n.weightT = id) (hs : Scalars g.values) (hrows : g.values.rows = vertices.length) (s : Turning ℚ) (k : ℕ)
    (hk : k < g.values.cols) (lo hi : ℚ) (hd : ∀ i < g.values.rows, lo ≤ heldRow g.values i k ∧ heldRow g.values i k ≤ hi)
    (Qs : List Pt) (out : List ((ℕ → ℚ) × (ℕ → ℚ))) (ho : interpolateWith kind locate S st (letter c) z inside n g s Qs = some out) :
    ∀ o ∈ out, lo ≤ o.1 k ∧ o.1 k ≤ hi := by
  obtain ⟨hlen, hget⟩ := h.result_row c z n hn hrows s Qs out ho
  intro o hm
  obtain ⟨i, hi'⟩ := List.getElem?_of_mem hm
  have hlt : i < Qs.length := by have := (List.getElem?_eq_some_iff.mp hi').1; omega
  obtain ⟨o', e, p, tau, R, R', iw, -, -, -, -, -, -, ht, a1, a2, -⟩ := hget i _ (List.getElem?_eq_getElem hlt)
  rw [hi'] at e
  obtain rfl := Option.some.inj e
  rw [scalars_turn hs] at ht
  rw [← Option.some.inj ht]
  simp only [hk, if_true]
  have := combine_close iw (fun i => heldRow g.values i k) 0 (-lo) hi (fun a ha => (a1 a ha).2.1) a2 fun a ha => by
    have := hd a.1 (by rw [hrows]; exact (a1 a ha).1)
    constructor <;> linarith [this.1, this.2]
  constructor <;> linarith [this.1, this.2]

theorem exact (c : Centring) (z : Move.Zone) (n : GridInterp.Numeric ℚ ℚ ℚ)
    (hn : n.weightT = id) (F : Pt → ℕ → ℚ) (hF : RightlyTurned c (operations S.timeReversal S.R) (kindOf g.values false) F)
    (hg : SampledAt (hklOf S.B vertices) g.values F) (hlong : ∀ q k, g.values.cols ≤ k → F q k = 0)
    (haff : ∀ k < g.values.cols, ∃ f, Spec.AffineMap f ∧ ∀ q, real (cartesian S.B q) ∈ Hull (· ∈ st.ir.1) → F q k = f (cartesian S.B q))
    (s : Turning ℚ)
    (Qs : List Pt) (out : List ((ℕ → ℚ) × (ℕ → ℚ))) (ho : interpolateWith kind locate S st (letter c) z inside n g s Qs = some out) :
    out.map Prod.fst = Qs.map F := by
  obtain ⟨hlen, hget⟩ := h.result_row c z n hn (by rw [hg.rows]; simp [hklOf]) s Qs out ho
  refine List.ext_getElem? fun i => ?_
  rw [List.getElem?_map, List.getElem?_map]
  cases hQ : Qs[i]? with
  | none =>
    rw [List.getElem?_eq_none_iff] at hQ
    rw [List.getElem?_eq_none_iff.2 (by omega)]
    rfl
  | some Q =>
    obtain ⟨o, e, p, tau, R, R', iw, hR, hR', hRR, htau, hq, hz, ht, a1, a2, a3⟩ := hget i Q hQ
    have hrow : (fun k => if k < g.values.cols then Spec.combine iw (fun i => heldRow g.values i k) else 0) = F p.q := by
      funext k
      split
      · rename_i hk
        obtain ⟨f, hf, hfq⟩ := haff k hk
        rw [hfq _ hz, ← a3 f hf]
        unfold Spec.combine
        congr 1
        refine List.map_congr_left fun a ha => ?_
        have hlt := (a1 a ha).1
        dsimp only
        rw [hg.data _ _ (hklOf_get a.1 hlt) k hk, hfq, cartesian_relative S.B h.lattice.basis]
        rw [cartesian_relative S.B h.lattice.basis, Convex.getD_lt _ _ hlt]
        exact h.within _ (List.getElem_mem hlt)
      · rename_i hk
        exact (hlong _ _ (by omega)).symm
    rw [hrow] at ht
    rw [e, Option.map_some, Option.map_some, turnRow_field c s _ _ F hF p R R' hR hR' hRR tau htau o.1 ht, ← hq]

end Placed

/-! ### the layered mesh -/

section
variable {P : Poly} {tol : Mesh.Tolerance}

/-- the tetrahedra of the lowest layer of a mesh, with the positions of their corners -/
def lowestTets (m : Mesh.TetTri) : List (Fin 4 → ℕ) := (m.layers.getLast?.map Mesh.Layer.tets).getD []

/-- the weights that a layer gives belong to corners of the tetrahedron -/
theorem layer_corner (L : Mesh.Layer) (S : List ℕ) (x : Pt) (p : ℕ × ℚ) (hp : p ∈ (L.locate tol S x).2) :
    ∃ j, p.1 = L.tets.getD (L.locate tol S x).1 (fun _ => 0) j := by
  unfold Mesh.Layer.locate at hp ⊢
  split at hp
  · rename_i i e
    unfold nonzero at hp
    simp only [List.mem_map, List.mem_filter, List.mem_finRange, true_and] at hp
    obtain ⟨j, -, rfl⟩ := hp
    exact ⟨j, rfl⟩
  · simp at hp

theorem descend_corner (htol : Exact tol) (x : Pt) (first : Mesh.Layer) (rest : List Mesh.Layer)
    (hg : ∀ L ∈ first :: rest, GoodLayer P L) (found : ℕ × List (ℕ × ℚ)) (h1 : found.1 < first.tets.length)
    (h2 : InTet (first.corners found.1) x) (h3 : ∀ p ∈ found.2, ∃ j, p.1 = first.tets.getD found.1 (fun _ => 0) j)
    (vw : List (ℕ × ℚ)) (e : Mesh.descend tol x rest (rows (first :: rest)) found = some vw) :
    ∃ L i, (first :: rest).getLast? = some L ∧ i < L.tets.length ∧ InTet (L.corners i) x ∧
      ∀ p ∈ vw, ∃ j, p.1 = L.tets.getD i (fun _ => 0) j := by
  induction rest generalizing first found with
  | nil =>
    obtain rfl : found.2 = vw := Option.some.inj e
    exact ⟨first, found.1, rfl, h1, h2, h3⟩
  | cons low rest ih =>
    have hf := hg first (by simp)
    have hl := hg low (by simp)
    rw [rows, Mesh.descend] at e
    have er : ((List.range first.tets.length).map (rowOf first low))[found.1]? = some (rowOf first low found.1) := by
      simp [h1]
    rw [er] at e
    simp only at e
    have hS : ∀ j ∈ rowOf first low found.1, j < low.tets.length := by
      intro j hj
      classical
      unfold rowOf at hj
      exact List.mem_range.mp (List.mem_filter.mp hj).1
    obtain ⟨a, b, -⟩ := hl.locate htol hS (row_contains hf hl h1 h2)
    obtain ⟨L, i, hL, r⟩ := ih low (fun L hL => hg L (by simp at hL ⊢; tauto)) _ a b (fun p hp => layer_corner low _ x p hp) e
    exact ⟨L, i, by simpa using hL, r⟩

/-- **C77 (tetrahedron).** The vertices that have weights for a point are corners of one tetrahedron of the lowest layer that contains the
point. -/
theorem C77_tetrahedron (htol : Exact tol) (G : Mesh.Mesher) (hG : Dependable G) (hP : ConvexSolid P.1 P.2) (hne : P.2 ≠ [])
    (m : Mesh.TetTri) (hm : Made tol G P m) (x : Pt) (hx : real x ∈ Hull (· ∈ P.1)) :
    ∃ vw, m.locate tol x = some vw ∧ Weighs m.positions vw x ∧
      ∃ t ∈ lowestTets m, InTet (fun j => m.positions.getD (t j) 0) x ∧ ∀ p ∈ vw, ∃ j, p.1 = t j := by
  obtain ⟨vw, e, hw⟩ := C77_locate tol htol G hG P hP hne m hm x hx
  refine ⟨vw, e, hw, ?_⟩
  obtain ⟨hl, hg, hc⟩ := made_good htol hG hP hne hm
  obtain ⟨layers, connections⟩ := m
  simp only at hl hg hc
  subst hc
  rcases layers with _ | ⟨L, rest⟩
  · exact absurd rfl hl
  · have hL := hg L (by simp)
    obtain ⟨t, ht, hin⟩ := hL.fills.cover x hx
    obtain ⟨i, hi, rfl⟩ := List.getElem_of_mem ht
    obtain ⟨a, b, -⟩ := hL.locate htol (S := List.range L.tets.length) (fun i hi => List.mem_range.mp hi)
      ⟨i, List.mem_range.mpr hi, by
        unfold Mesh.Layer.corners
        rwa [Convex.getD_lt _ _ hi]⟩
    obtain ⟨K, k, hK, hk, hkin, hp⟩ := descend_corner htol x L rest hg _ a b (fun p hp => layer_corner L _ x p hp) vw e
    refine ⟨K.tets[k], ?_, ?_, fun p hpm => ?_⟩
    · simp only [lowestTets, hK, Option.map_some, Option.getD_some]
      exact List.getElem_mem hk
    · simp only [Mesh.TetTri.positions, hK, Option.map_some, Option.getD_some]
      unfold Mesh.Layer.corners at hkin
      rwa [Convex.getD_lt _ _ hk] at hkin
    · obtain ⟨j, hj⟩ := hp p hpm
      rw [Convex.getD_lt _ _ hk] at hj
      exact ⟨j, hj⟩

end

/-- Everything is in place: an irreducible zone was found, the mesh was constructed in it by whatever threads, and data were put into it, any
number of times, but never sorted. -/
structure MeshAssembled (S : Wedge.Setup) (st : Wedge.St) (inside : Prim.OnLattice → Pt → Bool) (tol : Mesh.Tolerance) (m : Mesh.TetTri)
    (g : Fill.Grid ℚ ℚ) : Prop where
  /-- the first zone is a convex polyhedron with the symmetry of the group -/
  lattice : Circumstances S
  /-- as ensured by `C71_search` and `C71_triclinic` -/
  zone : Irreducible S st
  /-- `isinside` of the first zone -/
  first : ∀ q, inside .standard q = contains S.first.2 (fun i => S.first.1.getD i 0) (cartesian S.B q)
  tolerance : Exact tol
  /-- the mesh is what `triangulate` gives -/
  mesh : ∃ G, Dependable G ∧ Made tol G st.ir m
  history : LeftByCalls m.positions.length g

theorem MeshAssembled.placed {S : Wedge.Setup} {st : Wedge.St} {inside : Prim.OnLattice → Pt → Bool} {tol : Mesh.Tolerance}
    {m : Mesh.TetTri} {g : Fill.Grid ℚ ℚ} (h : MeshAssembled S st inside tol m g) :
    Placed S st inside .trellis m.positions (m.locate tol)
      (fun x i => ∃ t ∈ lowestTets m, InTet (fun j => m.positions.getD (t j) 0) x ∧ ∃ j, i = t j) g := by
  have hf : st.ir.2 ≠ [] := by
    obtain ⟨_, _, y, hy, _⟩ := h.zone.fills 0 (zone_origin h.lattice)
    exact faces_of_point h.zone.solid y hy
  obtain ⟨G, hG, hm⟩ := h.mesh
  refine ⟨h.lattice, h.zone, h.first, ?_, fun x hx => ?_, (fun e => by cases e), h.history⟩
  · obtain ⟨hl, hg, -⟩ := made_good h.tolerance hG h.zone.solid hf hm
    intro v hv
    unfold Mesh.TetTri.positions at hv
    rw [List.getLast?_eq_some_getLast hl] at hv
    exact (hg _ (List.getLast_mem hl)).fills.inside v hv
  · obtain ⟨vw, e, hw, t, ht, hin, hp⟩ := C77_tetrahedron h.tolerance G hG h.zone.solid hf m hm x hx
    exact ⟨vw, e, fun p hpm => ⟨hw.valid p hpm, hw.positive p hpm, t, ht, hin, hp p hpm⟩, hw.one, fun f hfa => weighted_affine hw hfa⟩

section
variable {S : Wedge.Setup} {st : Wedge.St} {inside : Prim.OnLattice → Pt → Bool} {tol : Mesh.Tolerance} {m : Mesh.TetTri}
  {g : Fill.Grid ℚ ℚ}

/-- **C85 (where there are results, mesh).** With scalars as values and as vectors, interpolation fails only if one of the points cannot be
moved into the first zone. -/
theorem C85_mesh_total (h : MeshAssembled S st inside tol m g) (c : Centring) (z : Move.Zone) (n : GridInterp.Numeric ℚ ℚ ℚ)
    (hn : n.weightT = id) (hrows : g.values.rows = m.positions.length) (hs : Scalars g.values) (hs' : Scalars g.vectors) (s : Turning ℚ)
    (Qs : List Pt) :
    interpolateMeshAt tol m S st (letter c) z inside n g s Qs = none ↔ ∃ Q ∈ Qs, Move.moveinto (letter c) z inside .standard Q = none :=
  h.placed.total c z n hn hrows hs hs' s Qs

/-- **C85 (error, mesh).** A function that is periodic and has the symmetry of the crystal is sampled at the vertices of the mesh.  If in each
tetrahedron of the lowest layer it differs by no more than `ε` from its values at the corners, then at every point of reciprocal space the
interpolated value is no further than `ε` from the value of the function there. -/
theorem C85_mesh_error (h : MeshAssembled S st inside tol m g) (c : Centring) (z : Move.Zone) (n : GridInterp.Numeric ℚ ℚ ℚ)
    (hn : n.weightT = id) (hs : Scalars g.values) (F : Pt → ℕ → ℚ) (hF : SymmetricScalar c (operations S.timeReversal S.R) F)
    (hg : SampledAt (hklOf S.B m.positions) g.values F) (s : Turning ℚ) (k : ℕ) (hk : k < g.values.cols) (ε : ℚ)
    (hε : ∀ t ∈ lowestTets m, ∀ q, InTet (fun j => m.positions.getD (t j) 0) (cartesian S.B q) →
      ∀ j, |F (relative S.B (m.positions.getD (t j) 0)) k - F q k| ≤ ε)
    (Qs : List Pt) (out : List ((ℕ → ℚ) × (ℕ → ℚ))) (ho : interpolateMeshAt tol m S st (letter c) z inside n g s Qs = some out) :
    out.length = Qs.length ∧ ∀ (i : ℕ) (Q : Pt), Qs[i]? = some Q → ∃ o, out[i]? = some o ∧ |o.1 k - F Q k| ≤ ε :=
  h.placed.error c z n hn hs F hF hg s k hk ε (fun q i _ ⟨t, ht, hin, j, hj⟩ => by rw [hj]; exact hε t ht q hin j) Qs out ho

/-- **C85 (no overshoot, mesh).** Interpolated scalars are never smaller than the smallest and never larger than the largest of the data. -/
theorem C85_mesh_between (h : MeshAssembled S st inside tol m g) (c : Centring) (z : Move.Zone) (n : GridInterp.Numeric ℚ ℚ ℚ)
    (hn : n.weightT = id) (hs : Scalars g.values) (hrows : g.values.rows = m.positions.length) (s : Turning ℚ) (k : ℕ)
    (hk : k < g.values.cols) (lo hi : ℚ) (hd : ∀ i < g.values.rows, lo ≤ heldRow g.values i k ∧ heldRow g.values i k ≤ hi)
    (Qs : List Pt) (out : List ((ℕ → ℚ) × (ℕ → ℚ))) (ho : interpolateMeshAt tol m S st (letter c) z inside n g s Qs = some out) :
    ∀ o ∈ out, lo ≤ o.1 k ∧ o.1 k ≤ hi :=
  h.placed.between c z n hn hs hrows s k hk lo hi hd Qs out ho

/-- **C85 (exactness, mesh).** Scalars, vectors or matrices that are periodic and have the symmetry of the crystal, and that depend linearly on
the position within the irreducible zone, are reproduced exactly at every point of reciprocal space. -/
theorem C85_mesh_exact (h : MeshAssembled S st inside tol m g) (c : Centring) (z : Move.Zone) (n : GridInterp.Numeric ℚ ℚ ℚ)
    (hn : n.weightT = id) (F : Pt → ℕ → ℚ) (hF : RightlyTurned c (operations S.timeReversal S.R) (kindOf g.values false) F)
    (hg : SampledAt (hklOf S.B m.positions) g.values F) (hlong : ∀ q k, g.values.cols ≤ k → F q k = 0)
    (haff : ∀ k < g.values.cols, ∃ f, Spec.AffineMap f ∧ ∀ q, real (cartesian S.B q) ∈ Hull (· ∈ st.ir.1) → F q k = f (cartesian S.B q))
    (s : Turning ℚ)
    (Qs : List Pt) (out : List ((ℕ → ℚ) × (ℕ → ℚ))) (ho : interpolateMeshAt tol m S st (letter c) z inside n g s Qs = some out) :
    out.map Prod.fst = Qs.map F :=
  h.placed.exact c z n hn F hF hg hlong haff s Qs out ho

end

/-! ### nested tetrahedra -/

section
open Brille.Nest (Triangulator Node construct TetOk Sound Has Chain leaves)

/-- new vertices are old vertices or vertices of the triangulation -/
theorem addVertices_mem {same : Pt → Pt → Bool} : ∀ (ps verts verts' : List Pt) (map : List ℕ),
    Nest.addVertices same verts ps = some (verts', map) → ∀ v ∈ verts', v ∈ verts ∨ v ∈ ps := by
  intro ps
  induction ps with
  | nil =>
    intro verts verts' map h v hv
    simp only [Nest.addVertices, Option.some.injEq, Prod.mk.injEq] at h
    rw [h.1]; exact Or.inl hv
  | cons p ps ih =>
    intro verts verts' map h v hv
    rw [Nest.addVertices] at h
    split at h
    · cases h
    · rename_i v1 i e
      split at h
      · cases h
      · rename_i v2 is e2
        simp only [Option.some.injEq, Prod.mk.injEq] at h
        obtain ⟨rfl, -⟩ := h
        rcases ih _ _ _ e2 v hv with h' | h'
        · unfold Nest.addVertex at e
          split at e
          · simp only [Option.some.injEq, Prod.mk.injEq] at e
            rw [← e.1] at h'
            simp only [List.mem_append, List.mem_singleton] at h'
            rcases h' with h' | rfl
            · exact Or.inl h'
            · exact Or.inr (by simp)
          · simp only [Option.some.injEq, Prod.mk.injEq] at e
            rw [← e.1] at h'; exact Or.inl h'
          · cases e
        · exact Or.inr (by simp [h'])

/-- a function that makes a node adds only points of the region -/
def Stays (K : Pt → Prop) (grow : Tet → List Pt → Option (Node × List Pt)) : Prop :=
  ∀ t verts n verts', grow t verts = some (n, verts') → TetOk verts t → verts.Nodup → (∀ v ∈ verts, K v) → ∀ v ∈ verts', K v

theorem build_stays {K : Pt → Prop} {maxVolume : ℚ} {d : ℕ} {grow : Tet → List Pt → Option (Node × List Pt)}
    (hg : Nest.Grows maxVolume d grow) (hst : Stays K grow) : ∀ (ts : List Tet) (verts : List Pt) (ns : List Node) (verts' : List Pt),
    Nest.build grow ts verts = some (ns, verts') → verts.Nodup → (∀ t ∈ ts, TetOk verts t) → (∀ v ∈ verts, K v) → ∀ v ∈ verts', K v := by
  intro ts
  induction ts with
  | nil =>
    intro verts ns verts' h _ _ hK
    simp only [Nest.build, Option.some.injEq, Prod.mk.injEq] at h
    rw [← h.2]; exact hK
  | cons t ts ih =>
    intro verts ns verts' h hnd ht hK
    obtain ⟨n, v1, e1, e2, e3, -, -⟩ := hg t verts hnd (ht t (by simp))
    rw [Nest.build, e1] at h
    simp only at h
    split at h
    · cases h
    · rename_i ns' v2 e
      simp only [Option.some.injEq, Prod.mk.injEq] at h
      rw [← h.2]
      exact ih v1 ns' v2 e e3 (fun t' h' => (ht t' (by simp [h'])).mono e2) (hst t verts n v1 e1 (ht t (by simp)) hnd hK)

variable {same : Pt → Pt → Bool} (hs : ∀ a b, same a b = true ↔ a = b) {tri : Triangulator} {limit : ℕ → ℚ} {maxVolume : ℚ}
  (htri : ∀ (c : Fin 4 → Pt) (l : ℚ), 0 < vol6 c → Nest.Fills c (tri ((List.finRange 4).map c) l))
  (hin : ∀ (c : Fin 4 → Pt) (l : ℚ), 0 < vol6 c → ∀ p ∈ (tri ((List.finRange 4).map c) l).1, InTet c p)
  {K : Pt → Prop} (hK : ∀ (c : Fin 4 → Pt) p, (∀ j, K (c j)) → InTet c p → K p)
include hs htri hin hK

theorem split_stays {left : ℕ} {l : ℚ} {grow : Tet → List Pt → Option (Node × List Pt)} (hg : Nest.Grows maxVolume left grow) (hst : Stays K grow) :
    Stays K (Nest.split same tri l grow) := by
  intro b verts n verts' h hb hnd hv
  have hvol : 0 < vol6 (corners (Nest.«at» verts) b) := by
    have h := hb.fits.vol
    have hp := hb.fits.pos
    rw [show (fun j => Nest.«at» verts (b.vi j)) = corners (Nest.«at» verts) b from rfl] at h
    linarith
  have hf := htri (corners (Nest.«at» verts) b) l hvol
  have hi := hin (corners (Nest.«at» verts) b) l hvol
  unfold Nest.split at h
  have hc : ((List.finRange 4).map fun j => verts.getD (b.vi j) 0) = (List.finRange 4).map (corners (Nest.«at» verts) b) := rfl
  rw [hc] at h
  generalize tri ((List.finRange 4).map (corners (Nest.«at» verts) b)) l = r at hf hi h
  obtain ⟨v1, is, h1, h2, h3, h4, h5⟩ := Nest.addVertices_spec hs r.1 hnd
  rw [h1] at h
  simp only at h
  split at h
  · cases h
  · rename_i ns v2 e
    simp only [Option.some.injEq, Prod.mk.injEq] at h
    rw [← h.2]
    refine build_stays hg hst _ v1 ns v2 e h3 ?_ ?_
    · intro t ht
      obtain ⟨t', ht', rfl⟩ := List.mem_map.mp ht
      exact (Nest.remap_ok h5 (hf.ok t' ht')).1
    · intro v hv1
      rcases addVertices_mem _ _ _ _ h1 v hv1 with h' | h'
      · exact hv v h'
      · refine hK _ v (fun j => ?_) (hi v h')
        show K (verts.getD (b.vi j) 0)
        rw [Convex.getD_lt _ _ (hb.lt j)]
        exact hv _ (List.getElem_mem _)

theorem subdivide_stays : ∀ left : ℕ, Stays K (Nest.subdivide same tri limit maxVolume left) := by
  intro left
  induction left with
  | zero =>
    refine split_stays (maxVolume := maxVolume) (left := 0) hs htri hin hK ?_ ?_
    · intro t verts hnd ht
      exact ⟨_, _, rfl, List.prefix_rfl, hnd, rfl, .leaf ht (Or.inr rfl)⟩
    · intro t verts n verts' h _ _ hv
      simp only [Option.some.injEq, Prod.mk.injEq] at h
      rw [← h.2]; exact hv
  | succ left ih =>
    refine split_stays (maxVolume := maxVolume) (left := left + 1) hs htri hin hK ?_ ?_
    · intro t verts hnd ht
      dsimp only
      by_cases hv : maxVolume < t.vol
      · rw [if_pos hv]; exact Nest.subdivide_grows hs htri left t verts hnd ht
      · rw [if_neg hv]
        exact ⟨_, _, rfl, List.prefix_rfl, hnd, rfl, .leaf ht (Or.inl (not_lt.mp hv))⟩
    · intro t verts n verts' h ht hnd hv
      dsimp only at h
      split at h
      · exact ih t verts n verts' h ht hnd hv
      · simp only [Option.some.injEq, Prod.mk.injEq] at h
        rw [← h.2]; exact hv

/-- **C47 (inside).** If the triangulations of tetrahedra add only points of these, then all vertices of the nest are in every convex region that
contains the vertices of the first triangulation. -/
theorem C47_inside (maxBranchings : ℕ) (root : List Pt × List Tet) (hnd : root.1.Nodup) (hroot : ∀ t ∈ root.2, TetOk root.1 t)
    (hr : ∀ v ∈ root.1, K v) (branches : List Node) (verts : List Pt)
    (h : construct same tri limit maxVolume maxBranchings root = some (branches, verts)) : ∀ v ∈ verts, K v := by
  unfold construct at h
  refine build_stays (maxVolume := maxVolume) (d := maxBranchings) ?_ ?_ root.2 root.1 branches verts h hnd hroot hr
  · intro t verts hn ht
    cases maxBranchings with
    | zero => exact ⟨_, _, rfl, List.prefix_rfl, hn, rfl, .leaf ht (Or.inr rfl)⟩
    | succ m =>
      dsimp only
      by_cases hv : maxVolume < t.vol
      · rw [if_pos hv]; exact Nest.subdivide_grows hs htri m t verts hn ht
      · rw [if_neg hv]
        exact ⟨_, _, rfl, List.prefix_rfl, hn, rfl, .leaf ht (Or.inl (not_lt.mp hv))⟩
  · intro t verts n verts' h ht hn hv
    cases maxBranchings with
    | zero =>
      simp only [Option.some.injEq, Prod.mk.injEq] at h
      rw [← h.2]; exact hv
    | succ m =>
      dsimp only at h
      split at h
      · exact subdivide_stays hs htri hin hK m t verts n verts' h ht hn hv
      · simp only [Option.some.injEq, Prod.mk.injEq] at h
        rw [← h.2]; exact hv

end

/-- The first triangulation of a nest: of the polyhedron, with different vertices, and tetrahedra with the right volumes and spheres, which
cover it. -/
structure Roots (P : Poly) (root : List Pt × List Tet) : Prop where
  inside : ∀ p ∈ root.1, real p ∈ Hull (· ∈ P.1)
  distinct : root.1.Nodup
  correct : ∀ t ∈ root.2, Nest.TetOk root.1 t
  cover : ∀ x, real x ∈ Hull (· ∈ P.1) → ∃ t ∈ root.2, InTet (fun j => root.1.getD (t.vi j) 0) x

/-- Every tetrahedron is divided into tetrahedra with the right volumes and spheres, which cover it and have their corners in it. -/
structure Divides (tri : Nest.Triangulator) : Prop where
  fills : ∀ (c : Fin 4 → Pt) (l : ℚ), 0 < vol6 c → Nest.Fills c (tri ((List.finRange 4).map c) l)
  inside : ∀ (c : Fin 4 → Pt) (l : ℚ), 0 < vol6 c → ∀ p ∈ (tri ((List.finRange 4).map c) l).1, InTet c p

/-- Everything is in place: an irreducible zone was found, the nest was constructed in it, and data were put into it, any number of times, but
never sorted; the values and the vectors have the same shape. -/
structure NestAssembled (S : Wedge.Setup) (st : Wedge.St) (inside : Prim.OnLattice → Pt → Bool) (isZero : ℚ → Bool) (near : ℚ → ℚ → Bool)
    (branches : List Nest.Node) (verts : List Pt) (g : Fill.Grid ℚ ℚ) : Prop where
  lattice : Circumstances S
  zone : Irreducible S st
  first : ∀ q, inside .standard q = contains S.first.2 (fun i => S.first.1.getD i 0) (cartesian S.B q)
  zero : ∀ a, isZero a = true ↔ a = 0
  near : ∀ a, near a a = true
  nest : ∃ same tri limit maxVolume maxBranchings root, (∀ a b, same a b = true ↔ a = b) ∧ Divides tri ∧ Roots st.ir root ∧
    Nest.construct same tri limit maxVolume maxBranchings root = some (branches, verts)
  shapes : g.vectors.shape = g.values.shape
  history : LeftByCalls verts.length g

theorem NestAssembled.placed {S : Wedge.Setup} {st : Wedge.St} {inside : Prim.OnLattice → Pt → Bool} {isZero : ℚ → Bool} {near : ℚ → ℚ → Bool}
    {branches : List Nest.Node} {verts : List Pt} {g : Fill.Grid ℚ ℚ} (h : NestAssembled S st inside isZero near branches verts g) :
    Placed S st inside .nest verts (fun x => some (Nest.indicesWeights isZero near (fun i => verts.getD i 0) branches x))
      (fun x i => ∃ t ∈ Nest.allTetrahedra branches, InTet (fun j => verts.getD (t j) 0) x ∧ ∃ j, i = t j) g := by
  obtain ⟨same, tri, limit, maxVolume, maxBranchings, root, hs, ht, hr, hc⟩ := h.nest
  have hz : ZeroUpTo isZero 0 := ⟨le_rfl, fun z => by rw [h.zero, abs_nonpos_iff]⟩
  obtain ⟨br, vs, h1, h2, h3, h4, h5⟩ := C47_construction same hs tri ht.fills limit maxVolume maxBranchings root hr.distinct hr.correct
  rw [hc] at h1
  simp only [Option.some.injEq, Prod.mk.injEq] at h1
  obtain ⟨rfl, rfl⟩ := h1
  refine ⟨h.lattice, h.zone, h.first, ?_, fun x hx => ⟨_, rfl, ?_⟩, fun _ => h.shapes, h.history⟩
  · refine C47_inside (K := fun p => real p ∈ Hull (· ∈ st.ir.1)) hs ht.fills ht.inside ?_ maxBranchings root hr.distinct hr.correct hr.inside _ _ hc
    rintro c p hcj ⟨w, hw, hsum, hp⟩
    unfold Hull at hcj ⊢
    have e : real p = ∑ j, (w j : ℝ) • real (c j) := by
      funext d
      simp only [real, hp d, Finset.sum_apply, Pi.smul_apply, smul_eq_mul]
      push_cast
      rfl
    rw [e]
    exact (convex_convexHull ℝ _).sum_mem (fun j _ => by exact_mod_cast hw j) (by exact_mod_cast hsum) fun j _ => hcj j
  · have hfit : ∀ n ∈ branches, ∀ t, Nest.Has n t → Fits (fun i => verts.getD i 0) t := fun n hn t ht => ((h5 n hn).has t ht).fits
    obtain ⟨t, ht', hin⟩ := hr.cover x hx
    have hmem : t ∈ branches.map Nest.Node.boundary := by rw [h4]; exact ht'
    obtain ⟨n, hn, rfl⟩ := List.mem_map.mp hmem
    obtain ⟨t, hch⟩ := (h5 n hn).chain (x := x) (by rw [Nest.corners_prefix h2 (hr.correct _ ht')]; exact hin)
    have hne := C43_found isZero 0 hz (by norm_num) near h.near (fun i => verts.getD i 0) branches hfit x
      ⟨n, hn, t, hch.mono fun u hu => hu.2⟩
    have haff := (C43_exact isZero hz near h.near (fun i => verts.getD i 0) branches hfit x).2 hne
    obtain ⟨m, hm, u, hcu, hleaf, hp, hsum, -⟩ := C43_weights isZero 0 hz (by norm_num) near (fun i => verts.getD i 0) branches hfit x hne
    refine ⟨fun p hpm => ?_, hsum, haff⟩
    obtain ⟨hpos, j, hj⟩ := hp p hpm
    refine ⟨by rw [hj]; exact ((h5 m hm).has u hcu.has.acc.2).lt j, hpos, u.vi, (C43_tetrahedra branches u.vi).mpr ⟨m, hm, u, hleaf, rfl⟩, ?_, j, hj⟩
    obtain ⟨w, hw, hpl⟩ := hcu.acc
    exact ⟨w, fun j => by have := hw j; linarith, hpl⟩

section
variable {S : Wedge.Setup} {st : Wedge.St} {inside : Prim.OnLattice → Pt → Bool} {isZero : ℚ → Bool} {near : ℚ → ℚ → Bool}
  {branches : List Nest.Node} {verts : List Pt} {g : Fill.Grid ℚ ℚ}

/-- **C85 (where there are results, nest).** With scalars as values and as vectors, in arrays of the same shape, interpolation fails only if one
of the points cannot be moved into the first zone. -/
theorem C85_nest_total_partial (h : NestAssembled S st inside isZero near branches verts g) (c : Centring) (z : Move.Zone)
    (n : GridInterp.Numeric ℚ ℚ ℚ) (hn : n.weightT = id) (hrows : g.values.rows = verts.length) (hs : Scalars g.values) (hs' : Scalars g.vectors)
    (s : Turning ℚ) (Qs : List Pt) : interpolateNestAt isZero near branches verts S st (letter c) z inside n g s Qs = none ↔
      ∃ Q ∈ Qs, Move.moveinto (letter c) z inside .standard Q = none :=
  h.placed.total c z n hn hrows hs hs' s Qs

/-- **C85 (error, nest).** A function that is periodic and has the symmetry of the crystal is sampled at the vertices of the nest.  If in each
tetrahedron that is not divided further it differs by no more than `ε` from its values at the corners, then at every point of reciprocal
space the interpolated value is no further than `ε` from the value of the function there. -/
theorem C85_nest_error_partial (h : NestAssembled S st inside isZero near branches verts g) (c : Centring) (z : Move.Zone)
    (n : GridInterp.Numeric ℚ ℚ ℚ) (hn : n.weightT = id) (hs : Scalars g.values) (F : Pt → ℕ → ℚ)
    (hF : SymmetricScalar c (operations S.timeReversal S.R) F)
    (hg : SampledAt (hklOf S.B verts) g.values F) (s : Turning ℚ) (k : ℕ) (hk : k < g.values.cols) (ε : ℚ)
    (hε : ∀ t ∈ Nest.allTetrahedra branches, ∀ q, InTet (fun j => verts.getD (t j) 0) (cartesian S.B q) →
      ∀ j, |F (relative S.B (verts.getD (t j) 0)) k - F q k| ≤ ε)
    (Qs : List Pt) (out : List ((ℕ → ℚ) × (ℕ → ℚ)))
    (ho : interpolateNestAt isZero near branches verts S st (letter c) z inside n g s Qs = some out) :
    out.length = Qs.length ∧ ∀ (i : ℕ) (Q : Pt), Qs[i]? = some Q → ∃ o, out[i]? = some o ∧ |o.1 k - F Q k| ≤ ε :=
  h.placed.error c z n hn hs F hF hg s k hk ε (fun q i _ ⟨t, ht, hin, j, hj⟩ => by rw [hj]; exact hε t ht q hin j) Qs out ho

/-- **C85 (no overshoot, nest).** Interpolated scalars are never smaller than the smallest and never larger than the largest of the data. -/
theorem C85_nest_between_partial (h : NestAssembled S st inside isZero near branches verts g) (c : Centring) (z : Move.Zone)
    (n : GridInterp.Numeric ℚ ℚ ℚ) (hn : n.weightT = id) (hs : Scalars g.values) (hrows : g.values.rows = verts.length) (s : Turning ℚ) (k : ℕ)
    (hk : k < g.values.cols) (lo hi : ℚ) (hd : ∀ i < g.values.rows, lo ≤ heldRow g.values i k ∧ heldRow g.values i k ≤ hi)
    (Qs : List Pt) (out : List ((ℕ → ℚ) × (ℕ → ℚ)))
    (ho : interpolateNestAt isZero near branches verts S st (letter c) z inside n g s Qs = some out) :
    ∀ o ∈ out, lo ≤ o.1 k ∧ o.1 k ≤ hi :=
  h.placed.between c z n hn hs hrows s k hk lo hi hd Qs out ho

/-- **C85 (exactness, nest).** Scalars, vectors or matrices that are periodic and have the symmetry of the crystal, and that depend linearly on
the position within the irreducible zone, are reproduced exactly at every point of reciprocal space. -/
theorem C85_nest_exact_partial (h : NestAssembled S st inside isZero near branches verts g) (c : Centring) (z : Move.Zone)
    (n : GridInterp.Numeric ℚ ℚ ℚ) (hn : n.weightT = id) (F : Pt → ℕ → ℚ)
    (hF : RightlyTurned c (operations S.timeReversal S.R) (kindOf g.values false) F)
    (hg : SampledAt (hklOf S.B verts) g.values F) (hlong : ∀ q k, g.values.cols ≤ k → F q k = 0)
    (haff : ∀ k < g.values.cols, ∃ f, Spec.AffineMap f ∧ ∀ q, real (cartesian S.B q) ∈ Hull (· ∈ st.ir.1) → F q k = f (cartesian S.B q))
    (s : Turning ℚ) (Qs : List Pt) (out : List ((ℕ → ℚ) × (ℕ → ℚ)))
    (ho : interpolateNestAt isZero near branches verts S st (letter c) z inside n g s Qs = some out) :
    out.map Prod.fst = Qs.map F :=
  h.placed.exact c z n hn F hF hg hlong haff s Qs out ho

end

/-! ### the case of `C81`, with a mesh and with a nest -/

/-- one number for each vertex -/
def sampleAt (B : Fin 3 → Pt) (vs : List Pt) (F : Pt → ℕ → ℚ) : Fill.Nd ℚ :=
  ⟨[vs.length, 1], fun i => F (relative B (vs.getD i 0)) 0⟩

/-- a grid with these vertices, filled with a function -/
def filledAt (B : Fin 3 → Pt) (vs : List Pt) (F : Pt → ℕ → ℚ) : Fill.Grid ℚ ℚ :=
  Fill.run (Fill.newGrid vs.length []) [.fill (sampleAt B vs F) (given [1, 0, 0]) (sampleAt B vs F) (given [1, 0, 0])]

theorem filledAt_held (B : Fin 3 → Pt) (vs : List Pt) (F : Pt → ℕ → ℚ) :
    (filledAt B vs F).values = ⟨vs.length, 1, (sampleAt B vs F).mem, [vs.length, 1], ⟨1, 0, 0⟩, .vector, .realLattice⟩ ∧
    (filledAt B vs F).vectors = ⟨vs.length, 1, (sampleAt B vs F).mem, [vs.length, 1], ⟨1, 0, 0⟩, .vector, .realLattice⟩ := by
  have hc : ∀ k, Fill.fillCheck (sampleAt B vs F) (given [1, 0, 0]).contiguous k =
      .ok ⟨vs.length, 1, (sampleAt B vs F).mem, [vs.length, 1], ⟨1, 0, 0⟩, .vector, .realLattice⟩ := by
    intro k
    have e1 : Fill.readElements (given [1, 0, 0]).contiguous.len (given [1, 0, 0]).contiguous.raw = ⟨1, 0, 0⟩ := by decide
    have e2 : Fill.readRotatesLike (given [1, 0, 0]).contiguous.len (given [1, 0, 0]).contiguous.raw = .ok .vector := rfl
    have e3 : Fill.readLengthUnit (given [1, 0, 0]).contiguous.len (given [1, 0, 0]).contiguous.raw = .ok .realLattice := rfl
    unfold Fill.fillCheck Fill.checked
    rw [e1, e2, e3]
    simp only [sampleAt, Fill.make, Fill.checkElements, Fill.rowsCols]
    rw [if_neg (by simp)]
    simp [Fill.Elements.span, Fill.ind]
  unfold filledAt Fill.run
  simp only [List.foldl_cons, List.foldl_nil, Fill.step, hc, Fill.replaceData]
  rw [if_neg (by simp)]
  cases hu : Fill.updateTable (T := ℚ) (R := ℚ) { (Fill.newGrid vs.length [] : Fill.Grid ℚ ℚ) with
      values := ⟨vs.length, 1, (sampleAt B vs F).mem, [vs.length, 1], ⟨1, 0, 0⟩, .vector, .realLattice⟩,
      vectors := ⟨vs.length, 1, (sampleAt B vs F).mem, [vs.length, 1], ⟨1, 0, 0⟩, .vector, .realLattice⟩ } with
  | error f =>
    unfold Fill.updateTable PermTable.refresh at hu
    simp [Fill.newGrid, PermTable.mkKeys, PermTable.insertKeys, PermTable.mk0, PermTable.addZeroth] at hu
    split at hu
    · rename_i h0; revert h0; split <;> simp
    · cases hu
  | ok g' =>
    obtain ⟨-, h1, h2, -⟩ := Fill.updateTable_ok hu
    exact ⟨h1, h2⟩

theorem filledAt_history (B : Fin 3 → Pt) (vs : List Pt) (F : Pt → ℕ → ℚ) : LeftByCalls vs.length (filledAt B vs F) := by
  refine ⟨[], [.fill (sampleAt B vs F) (given [1, 0, 0]) (sampleAt B vs F) (given [1, 0, 0])], ⟨?_, trivial⟩, ?_, rfl⟩
  · refine ⟨⟨(1, 0, 0), ⟨by decide, by decide, by decide⟩, ⟨by decide, by simp [sampleAt], by simp [sampleAt]⟩⟩, (1, 0, 0), ⟨by decide, by decide, by decide⟩,
      ⟨by decide, by simp [sampleAt], by simp [sampleAt]⟩⟩
  · intro o ho
    rw [List.mem_singleton.mp ho]
    trivial

theorem filledAt_sampled (B : Fin 3 → Pt) (vs : List Pt) (F : Pt → ℕ → ℚ) : SampledAt (hklOf B vs) (filledAt B vs F).values F := by
  rw [(filledAt_held B vs F).1]
  refine ⟨by simp [hklOf], fun i q hq k hk => ?_⟩
  have hk0 : k = 0 := by
    have : k < 1 := hk
    omega
  subst hk0
  unfold hklOf at hq
  rw [List.getElem?_map] at hq
  obtain ⟨v, hv, rfl⟩ := Option.map_eq_some_iff.mp hq
  obtain ⟨hlt, rfl⟩ := List.getElem?_eq_some_iff.mp hv
  simp [heldRow, sampleAt, hlt]

theorem filledAt_scalars (B : Fin 3 → Pt) (vs : List Pt) (F : Pt → ℕ → ℚ) :
    Scalars (filledAt B vs F).values ∧ Scalars (filledAt B vs F).vectors := by
  rw [(filledAt_held B vs F).1, (filledAt_held B vs F).2]
  exact ⟨⟨⟨rfl, rfl⟩, Or.inl rfl, rfl⟩, ⟨⟨rfl, rfl⟩, Or.inl rfl, rfl⟩⟩

/-- the function of `C81` is linear in the zone -/
theorem toothed_linear (vs : List Pt) (k : ℕ) (hk : k < (filledAt toothSetup.B vs toothed).values.cols) : ∃ f, Spec.AffineMap f ∧
    ∀ q, real (cartesian toothSetup.B q) ∈ Hull (· ∈ quarterSt.ir.1) → toothed q k = f (cartesian toothSetup.B q) := by
  have hcols : (filledAt toothSetup.B vs toothed).values.cols = 1 := by rw [(filledAt_held _ _ _).1]
  rw [hcols] at hk
  refine ⟨fun p => 0 + ∑ d, (![1 / 2, 0, 0] : Pt) d * p d, ⟨0, ![1 / 2, 0, 0], fun _ => rfl⟩, fun q hq => ?_⟩
  have hfirst := tooth_zone.part hq
  have hpos := (tooth_zone.normals _ hfirst).mp hq ![1, 0, 0] (by simp [quarterSt])
  have hbox := ((box_hull ![-1, -1, -1] ![1, 1, 1] (by decide +kernel) _).mp hfirst) 0
  have e : cartesian toothSetup.B q 0 = 2 * q 0 := by
    simp [cartesian, toothSetup, cubeSetup, cubicBasis]; ring
  simp only [Fin.sum_univ_three, real, e] at hpos hbox
  simp at hpos hbox
  have h0 : 0 ≤ q 0 := by exact_mod_cast hpos
  have h1 : 2 * q 0 ≤ 1 := by
    have := hbox.2
    have h' : (((2 * q 0 : ℚ)) : ℝ) ≤ ((1 : ℚ) : ℝ) := by push_cast; exact this
    exact_mod_cast h'
  rw [show k = 0 by omega]
  simp only [toothed, if_true, Fin.sum_univ_three, e]
  simp
  have hle := toothed_le (q 0) 0
  rw [Int.cast_zero, sub_zero, abs_of_nonneg h0] at hle
  have hge : q 0 ≤ |q 0 - round (q 0)| := by
    rcases le_or_gt (round (q 0)) 0 with h | h
    · have : ((round (q 0) : ℤ) : ℚ) ≤ 0 := by exact_mod_cast h
      exact le_trans (by linarith) (le_abs_self _)
    · have : (1 : ℚ) ≤ ((round (q 0) : ℤ) : ℚ) := by exact_mod_cast h
      exact le_trans (by linarith) (neg_le_abs _)
  linarith

/-- a mesh with any number of layers can be put in place -/
theorem tooth_mesh (maxCell : ℚ) (hmax : 0 < maxCell) (layerCount : ℕ) (hl : 2 ≤ layerCount) : ∃ m : Mesh.TetTri, m.layers.length = layerCount ∧
    MeshAssembled toothSetup quarterSt toothInside noTolerance m (filledAt toothSetup.B m.positions toothed) := by
  have hf : quarterSt.ir.2 ≠ [] := by decide
  obtain ⟨layers, hlen, -, connections, -, h, -⟩ := C77_construct noTolerance noTolerance_exact someMesher someMesher_dependable
    quarterSt.ir tooth_zone.solid hf 1000000 (-1000000) (fun _ lo i => lo * i) maxCell layerCount
  have ho : Shared (layers.map fun L => List.range L.tets.length) layers := by
    intro k high hk _
    have : (layers.map fun L => List.range L.tets.length).getD k [] = List.range high.tets.length := by
      rw [List.getD_eq_getElem?_getD, List.getElem?_map, hk]; rfl
    rw [this]
    exact ⟨List.nodup_range, fun i => List.mem_range⟩
  refine ⟨⟨layers, connections⟩, by rw [hlen, if_pos ⟨hl, hmax⟩], tooth_circumstances, tooth_zone, fun _ => rfl, noTolerance_exact,
    ⟨someMesher, someMesher_dependable, _, _, _, _, _, _, ho, h _ ho⟩, filledAt_history _ _ _⟩

/-- with a mesh of five layers the function is reproduced exactly, everywhere, and there are results wherever the points can be moved into the
cube -/
example : ∃ m : Mesh.TetTri, m.layers.length = 5 ∧ (∀ (Qs : List Pt) (out : List ((ℕ → ℚ) × (ℕ → ℚ))),
    interpolateMeshAt noTolerance m toothSetup quarterSt .P cubic toothInside plainNumbers (filledAt toothSetup.B m.positions toothed) turning0 Qs = some out →
    out.map Prod.fst = Qs.map toothed) ∧ ∀ Qs, interpolateMeshAt noTolerance m toothSetup quarterSt .P cubic toothInside plainNumbers
      (filledAt toothSetup.B m.positions toothed) turning0 Qs = none ↔ ∃ Q ∈ Qs, Move.moveinto .P cubic toothInside .standard Q = none := by
  obtain ⟨m, hl, hA⟩ := tooth_mesh (1/10) (by norm_num) 5 (by norm_num)
  obtain ⟨hS, hS'⟩ := filledAt_scalars toothSetup.B m.positions toothed
  have hD := filledAt_sampled toothSetup.B m.positions toothed
  refine ⟨m, hl, fun Qs out ho => C85_mesh_exact hA .P _ _ rfl toothed
    (Or.inr (Or.inr ⟨hS.scalars.1, hS.scalars.2, hS.unit, hS.like, toothed_symmetric⟩)) hD ?_ (toothed_linear _) _ Qs out ho,
    fun Qs => C85_mesh_total hA .P _ _ rfl (by rw [hD.rows]; simp [hklOf]) hS hS' _ Qs⟩
  intro q k hk
  rw [show (filledAt toothSetup.B m.positions toothed).values.cols = 1 by rw [(filledAt_held _ _ _).1]] at hk
  simp [toothed, show k ≠ 0 by omega]

theorem halves_divide : Divides halvesTri := by
  refine ⟨C47_condition, fun c l _ p hp => ?_⟩
  have hp' : p = c 0 ∨ p = c 1 ∨ p = c 2 ∨ p = c 3 ∨ p = middle c := by
    have e : (halvesTri ((List.finRange 4).map c) l).1 = [c 0, c 1, c 2, c 3, middle c] := rfl
    rw [e] at hp
    simpa using hp
  have key : ∀ w : Fin 4 → ℚ, (∀ j, 0 ≤ w j) → w 0 + w 1 + w 2 + w 3 = 1 → (∀ d, p d = w 0 * c 0 d + w 1 * c 1 d + w 2 * c 2 d + w 3 * c 3 d) →
      InTet c p := fun w h1 h2 h3 => ⟨w, h1, by rw [Fin.sum_univ_four]; exact h2, fun d => by rw [Fin.sum_univ_four]; exact h3 d⟩
  rcases hp' with rfl | rfl | rfl | rfl | rfl
  · exact key ![1, 0, 0, 0] (by decide) (by decide +kernel) (by intro d; simp)
  · exact key ![0, 1, 0, 0] (by decide) (by decide +kernel) (by intro d; simp)
  · exact key ![0, 0, 1, 0] (by decide) (by decide +kernel) (by intro d; simp)
  · exact key ![0, 0, 0, 1] (by decide) (by decide +kernel) (by intro d; simp)
  · exact key ![1/2, 1/2, 0, 0] (by decide +kernel) (by decide +kernel) (by intro d; simp [middle]; ring)

/-- a first triangulation from a layer of a mesh -/
def rootOf (L : Mesh.Layer) : List Pt × List Tet :=
  (L.positions, L.tets.map fun t =>
    ⟨t, (someSphere fun j => L.positions.getD (t j) 0).1, (someSphere fun j => L.positions.getD (t j) 0).2, (vol6 fun j => L.positions.getD (t j) 0) / 6⟩)

theorem rootOf_roots {P : Poly} {L : Mesh.Layer} (h : Spec.Fills P L) : Roots P (rootOf L) := by
  refine ⟨h.inside, h.distinct, fun t ht => ?_, fun x hx => ?_⟩
  · obtain ⟨u, hu, rfl⟩ := List.mem_map.mp ht
    exact ⟨h.valid u hu, by show vol6 _ / 6 * 6 = vol6 _; rw [div_mul_cancel₀ _ (by norm_num)]; rfl, div_pos (h.positive u hu) (by norm_num),
      someSphere_spec _⟩
  · obtain ⟨t, ht, hin⟩ := h.cover x hx
    exact ⟨_, List.mem_map_of_mem ht, hin⟩

/-- a nest with any number of levels can be put in place -/
theorem tooth_nest (maxVolume : ℚ) (levels : ℕ) : ∃ branches verts, NestAssembled toothSetup quarterSt toothInside (fun z => decide (z = 0))
    (fun a b => decide (a = b)) branches verts (filledAt toothSetup.B verts toothed) := by
  have hf : quarterSt.ir.2 ≠ [] := by decide
  obtain ⟨L, -, hL⟩ := oneLayer_good someMesher_dependable tooth_zone.solid hf (-1)
  have hr := rootOf_roots hL.fills
  obtain ⟨branches, verts, hc, -⟩ := C47_construction (fun a b => decide (a = b)) (by simp) halvesTri C47_condition (fun _ => 0) maxVolume levels
    (rootOf L) hr.distinct hr.correct
  refine ⟨branches, verts, tooth_circumstances, tooth_zone, fun _ => rfl, by simp, by simp, ⟨_, _, _, _, _, _, by simp, halves_divide, hr, hc⟩, ?_,
    filledAt_history _ _ _⟩
  rw [(filledAt_held _ _ _).1, (filledAt_held _ _ _).2]

/-- with a nest of three levels the function is reproduced exactly, everywhere, and there are results wherever the points can be moved into the
cube -/
example : ∃ branches verts, (∀ (Qs : List Pt) (out : List ((ℕ → ℚ) × (ℕ → ℚ))),
    interpolateNestAt (fun z => decide (z = 0)) (fun a b => decide (a = b)) branches verts toothSetup quarterSt .P cubic toothInside plainNumbers
      (filledAt toothSetup.B verts toothed) turning0 Qs = some out → out.map Prod.fst = Qs.map toothed) ∧
    ∀ Qs, interpolateNestAt (fun z => decide (z = 0)) (fun a b => decide (a = b)) branches verts toothSetup quarterSt .P cubic toothInside plainNumbers
      (filledAt toothSetup.B verts toothed) turning0 Qs = none ↔ ∃ Q ∈ Qs, Move.moveinto .P cubic toothInside .standard Q = none := by
  obtain ⟨branches, verts, hA⟩ := tooth_nest (1/100) 3
  obtain ⟨hS, hS'⟩ := filledAt_scalars toothSetup.B verts toothed
  have hD := filledAt_sampled toothSetup.B verts toothed
  refine ⟨branches, verts, fun Qs out ho => C85_nest_exact_partial hA .P _ _ rfl toothed
    (Or.inr (Or.inr ⟨hS.scalars.1, hS.scalars.2, hS.unit, hS.like, toothed_symmetric⟩)) hD ?_ (toothed_linear _) _ Qs out ho,
    fun Qs => C85_nest_total_partial hA .P _ _ rfl (by rw [hD.rows]; simp [hklOf]) hS hS' _ Qs⟩
  intro q k hk
  rw [show (filledAt toothSetup.B verts toothed).values.cols = 1 by rw [(filledAt_held _ _ _).1]] at hk
  simp [toothed, show k ≠ 0 by omega]

theorem toothed_range (q : Pt) : 0 ≤ toothed q 0 ∧ toothed q 0 ≤ 1 / 2 := by
  simp only [toothed, if_true]
  exact ⟨abs_nonneg _, abs_sub_round (q 0)⟩

theorem toothed_change (q q' : Pt) : |toothed q 0 - toothed q' 0| ≤ 1 / 2 := by
  have h := toothed_range q
  have h' := toothed_range q'
  rw [abs_le]
  constructor <;> linarith [h.1, h.2, h'.1, h'.2]

theorem toothed_data (vs : List Pt) : ∀ i < (filledAt toothSetup.B vs toothed).values.rows,
    0 ≤ heldRow (filledAt toothSetup.B vs toothed).values i 0 ∧ heldRow (filledAt toothSetup.B vs toothed).values i 0 ≤ 1 / 2 := by
  intro i hi
  have hD := filledAt_sampled toothSetup.B vs toothed
  rw [hD.rows] at hi
  rw [hD.data i _ (List.getElem?_eq_getElem hi) 0 (by rw [(filledAt_held _ _ _).1]; exact Nat.zero_lt_one)]
  exact toothed_range _

/-- the function changes by no more than one half, and its interpolated values are between zero and one half -/
example : ∃ m : Mesh.TetTri, m.layers.length = 5 ∧ ∀ (Qs : List Pt) (out : List ((ℕ → ℚ) × (ℕ → ℚ))),
    interpolateMeshAt noTolerance m toothSetup quarterSt .P cubic toothInside plainNumbers (filledAt toothSetup.B m.positions toothed) turning0 Qs = some out →
    (∀ o ∈ out, 0 ≤ o.1 0 ∧ o.1 0 ≤ 1 / 2) ∧ ∀ (i : ℕ) (Q : Pt), Qs[i]? = some Q → ∃ o, out[i]? = some o ∧ |o.1 0 - toothed Q 0| ≤ 1 / 2 := by
  obtain ⟨m, hl, hA⟩ := tooth_mesh (1/10) (by norm_num) 5 (by norm_num)
  have hD := filledAt_sampled toothSetup.B m.positions toothed
  have hS := (filledAt_scalars toothSetup.B m.positions toothed).1
  have hk : 0 < (filledAt toothSetup.B m.positions toothed).values.cols := by rw [(filledAt_held _ _ _).1]; exact Nat.zero_lt_one
  exact ⟨m, hl, fun Qs out ho => ⟨C85_mesh_between hA .P _ _ rfl hS (by rw [hD.rows]; simp [hklOf]) _ 0 hk 0 (1 / 2) (toothed_data _) Qs out ho,
    (C85_mesh_error hA .P _ _ rfl hS toothed toothed_symmetric hD _ 0 hk (1 / 2) (fun _ _ _ _ _ => toothed_change _ _) Qs out ho).2⟩⟩

/-- the same with a nest -/
example : ∃ branches verts, ∀ (Qs : List Pt) (out : List ((ℕ → ℚ) × (ℕ → ℚ))),
    interpolateNestAt (fun z => decide (z = 0)) (fun a b => decide (a = b)) branches verts toothSetup quarterSt .P cubic toothInside plainNumbers
      (filledAt toothSetup.B verts toothed) turning0 Qs = some out →
    (∀ o ∈ out, 0 ≤ o.1 0 ∧ o.1 0 ≤ 1 / 2) ∧ ∀ (i : ℕ) (Q : Pt), Qs[i]? = some Q → ∃ o, out[i]? = some o ∧ |o.1 0 - toothed Q 0| ≤ 1 / 2 := by
  obtain ⟨branches, verts, hA⟩ := tooth_nest (1/100) 3
  have hD := filledAt_sampled toothSetup.B verts toothed
  have hS := (filledAt_scalars toothSetup.B verts toothed).1
  have hk : 0 < (filledAt toothSetup.B verts toothed).values.cols := by rw [(filledAt_held _ _ _).1]; exact Nat.zero_lt_one
  exact ⟨branches, verts, fun Qs out ho =>
    ⟨C85_nest_between_partial hA .P _ _ rfl hS (by rw [hD.rows]; simp [hklOf]) _ 0 hk 0 (1 / 2) (toothed_data _) Qs out ho,
      (C85_nest_error_partial hA .P _ _ rfl hS toothed toothed_symmetric hD _ 0 hk (1 / 2) (fun _ _ _ _ _ => toothed_change _ _) Qs out ho).2⟩⟩

end Brille.Props
