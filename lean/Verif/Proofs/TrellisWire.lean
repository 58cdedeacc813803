/-
The construction of the hybrid grid, put together.
-/
import Verif.Proofs.NodeTets

namespace Brille.Props

open Brille.TrellisWire Brille.TrellisBuild Brille.Spec Brille.Tetra Brille.Cut Brille.SortFace Brille.Zone Brille.VMap
open Brille.IrCheck (Poly facePlane)
open Brille.Faces (contains indexes)
open Brille.Trellis hiding Pt

/-- what is known of the nodes before their vertices have numbers -/
structure Planned (always : Bool) (P : Poly) (t : Grid) (parts : List Poly) (i : Nat) (ty : NodeType) (part : Poly) (lo hi : Pt) : Prop where
  type : t.types[i]? = some ty
  parts : parts[i]? = some part
  box : ∀ d, (t.knots d)[t.idx2sub i d]? = some (lo d) ∧ (t.knots d)[t.idx2sub i d + 1]? = some (hi d)
  lt : ∀ d, lo d < hi d
  corners : ∃ c : Nat → Nat, t.nodeFaces i = Faces.boxFaces.map (List.map c) ∧ ∀ j < 8, t.intersections[c j]? = some ((boxPoints lo hi).getD j 0)
  fits : NodeFits always P lo hi ty part

theorem planned {always : Bool} {turns : Nat} {edge : ℚ} {P : Poly} (h : ConvexSolid P.1 P.2) (hne : P.2 ≠ []) (hedge : 0 < edge)
    (hturns : ∀ d : Fin 3, (⌈(largest P.1 d - least P.1 d) / edge⌉ : ℤ) ≤ turns) :
    ∃ t parts, build always turns edge P = some (t, parts) ∧ (∀ d, EqualKnots edge (P.1.map fun p => p d) (t.knots d)) ∧
      ∀ i ty, t.types[i]? = some ty → ∃ part lo hi, Planned always P t parts i ty part lo hi := by
  obtain ⟨t, parts, e, hk, hl, -, hn⟩ := C74_build always turns edge P h hne hedge hturns
  refine ⟨t, parts, e, hk, fun i ty hty => ?_⟩
  have hi : i < t.nodeCount := by rw [← hl]; exact (List.getElem?_eq_some_iff.mp hty).1
  obtain ⟨lo, hi', hb, hc⟩ := node_corners t i hi
  obtain ⟨ty', part, f1, f2, hfit⟩ := hn _ lo hi' hb
  rw [(sub2idx_idx2sub t i hi).1] at f1 f2
  rw [hty] at f1
  obtain rfl := Option.some.inj f1
  exact ⟨part, lo, hi', hty, f2, hb, fun d => knots_lt (hk d) (Nat.lt_succ_self _) (hb d).1 (hb d).2, hc, hfit⟩

/-- what is known of a node afterwards -/
def Wired (T : PolyTrellis) (i : Nat) (ty : NodeType) (part : Poly) (lo hi : Pt) : Prop :=
  match ty with
  | .cube => ∃ n, T.nodes.get i = some (.cube n) ∧ ∀ j : Fin 8, T.vertices[n j]? = some (Spec.boxCorner lo hi j)
  | .poly => ∃ tets, T.nodes.get i = some (.poly tets) ∧ TetsFit T.vertices part tets
  | _ => True

theorem cube_order (lo hi : Pt) (j : Fin 8) :
    (cornerOrder.map fun j => (boxPoints lo hi).getD j 0).getD (([1, 2, 6, 5, 3, 0, 4, 7] : List Nat).getD j 0) 0 = Spec.boxCorner lo hi j := by
  funext d
  fin_cases j <;> fin_cases d <;> simp [cornerOrder, boxPoints, Faces.boxVertices, Spec.boxCorner, cornerBits]

theorem wire {G : TetGen} (hG : Reliable G) {always : Bool} {turns : Nat} {edge : ℚ} {P : Poly} (h : ConvexSolid P.1 P.2) (hne : P.2 ≠ [])
    (hedge : 0 < edge) (hturns : ∀ d : Fin 3, (⌈(largest P.1 d - least P.1 d) / edge⌉ : ℤ) ≤ turns) {S : Schedule}
    (hS : ∀ t parts, build always turns edge P = some (t, parts) → Distributed S t.types) :
    ∃ T parts, build always turns edge P = some (T.grid, parts) ∧ TrellisWire.construct G always turns edge S P = some T ∧
      (∀ d, EqualKnots edge (P.1.map fun p => p d) (T.grid.knots d)) ∧ T.vertices.Nodup ∧ (∀ v ∈ T.vertices, real v ∈ Hull (· ∈ P.1)) ∧
      (∀ i ty, T.grid.types[i]? = some ty → ty = .cube ∨ ty = .poly → ∃ part lo hi, Planned always P T.grid parts i ty part lo hi ∧
        Wired T i ty part lo hi ∧ ∀ p ∈ nodePoints ty lo hi part, p ∈ T.vertices) ∧
      ∃ number : Nat → Nat, T.boundary = P.2.map (List.map number) ∧ ∀ k < P.1.length, T.vertices[number k]? = P.1[k]? := by
  obtain ⟨t, parts, hbuild, hk, hpl⟩ := planned (always := always) h hne hedge hturns
  have hD := hS t parts hbuild
  have hinc : ∀ d, Increasing (t.knots d) := fun d => (hk d).increasing
  -- the requests of the nodes
  let R : Nat → List (Op Pt) := fun i => requests t i (t.types.getD i .null) (parts.getD i ([], []))
  have hR : ∀ i ty part lo hi, Planned always P t parts i ty part lo hi → R i = requests t i ty part := by
    intro i ty part lo hi hp
    simp only [R, List.getD_eq_getElem?_getD, hp.type, hp.parts, Option.getD_some]
  have hreq : ∀ i ty part lo hi, Planned always P t parts i ty part lo hi → ty = .cube ∨ ty = .poly →
      List.Forall₂ (Asks t) (R i) (nodePoints ty lo hi part) ∧ (nodePoints ty lo hi part).Nodup ∧
      2 ≤ (nodePoints ty lo hi part).length ∧ ∀ p ∈ nodePoints ty lo hi part, real p ∈ Hull (· ∈ P.1) ∧ real p ∈ Box lo hi := by
    intro i ty part lo hi hp hu
    obtain ⟨c, hf, hc⟩ := hp.corners
    rw [hR i ty part lo hi hp]
    exact node_requests hinc hp.box hf hc hp.lt hp.fits hu
  have hthread : ∀ i ty, t.types[i]? = some ty → ty = .cube ∨ ty = .poly → i ∈ S.threads.flatten := by
    intro i ty hty hu
    exact (hD.all i).mpr ⟨ty, hty, by rcases hu with rfl | rfl <;> simp⟩
  have hasks : ∀ i ∈ S.threads.flatten, ∀ op ∈ R i, ∃ p, real p ∈ Hull (· ∈ P.1) ∧ Asks t op p := by
    intro i hi op hop
    obtain ⟨ty, hty, -⟩ := (hD.all i).mp hi
    obtain ⟨part, lo, hi', hp⟩ := hpl i ty hty
    by_cases hu : ty = .cube ∨ ty = .poly
    · obtain ⟨h1, -, -, h4⟩ := hreq i ty part lo hi' hp hu
      obtain ⟨k, hk⟩ := List.getElem?_of_mem hop
      have hkl := (List.getElem?_eq_some_iff.mp hk).1
      have hle := List.Forall₂.length_eq h1
      have := (List.forall₂_iff_get.mp h1).2 k hkl (by omega)
      rw [List.get_eq_getElem] at this
      rw [List.getElem?_eq_getElem hkl] at hk
      rw [Option.some.inj hk] at this
      exact ⟨_, (h4 _ (List.get_mem _ _)).1, this⟩
    · rw [hR i ty part lo hi' hp] at hop
      cases ty <;> simp [requests] at hop hu
  -- some node is used
  obtain ⟨i0, ty0, hty0, hu0⟩ : ∃ (i : Nat) (ty : NodeType), t.types[i]? = some ty ∧ (ty = .cube ∨ ty = .poly) := by
    have h4 := four_points h hne
    obtain ⟨p, hp⟩ := List.exists_mem_of_length_pos (l := P.1) (by omega)
    obtain ⟨i, ty, part, e1, -, e3, -⟩ := (C75_cover always turns edge P h hne hedge hturns t parts hbuild (real p)).mp (mem_hull hp)
    exact ⟨i, ty, e1, e3⟩
  obtain ⟨part0, lo0, hi0, hp0⟩ := hpl i0 ty0 hty0
  obtain ⟨q1, q2, q3, -⟩ := hreq i0 ty0 part0 lo0 hi0 hp0 hu0
  have hflat := tasks_flatten t parts S.threads
  have hro : ∀ i, requestsOf (S.threads.map (tasks t parts)).flatten i = if i ∈ S.threads.flatten then R i else [] := by
    intro i
    rw [hflat]
    exact requestsOf_tasks R i _ hD.once
  have hmem : ∀ x ∈ (S.threads.map (tasks t parts)).flatten, ∃ p, real p ∈ Hull (· ∈ P.1) ∧ Asks t x.2 p := by
    intro x hx
    rw [hflat, List.mem_flatMap] at hx
    obtain ⟨i, hi, hx⟩ := hx
    obtain ⟨op, hop, rfl⟩ := List.mem_map.mp hx
    exact hasks i hi op hop
  -- every used node is served
  have hserve : ∀ rows lookup, Serves same t.intersections (S.threads.map (tasks t parts)).flatten rows lookup →
      ∀ i ty part lo hi, Planned always P t parts i ty part lo hi → ty = .cube ∨ ty = .poly →
        ∃ idx, lookup i = some idx ∧ At rows idx (nodePoints ty lo hi part) := by
    intro rows lookup hs i ty part lo hi hp hu
    obtain ⟨h1, -, h3, -⟩ := hreq i ty part lo hi hp hu
    have hri := hro i
    rw [if_pos (hthread i ty hp.type hu)] at hri
    have hle := List.Forall₂.length_eq h1
    obtain ⟨idx, e, hF⟩ := hs i (by
      rw [hri]; intro e0; rw [e0] at hle; simp at hle; omega)
    rw [hri] at hF
    refine ⟨idx, e, ?_⟩
    have hl2 := List.Forall₂.length_eq hF
    refine List.forall₂_iff_get.mpr ⟨by omega, fun k hk1 hk2 => ?_⟩
    obtain ⟨w, hw, hd⟩ := (List.forall₂_iff_get.mp hF).2 k hk1 (by omega)
    obtain ⟨-, -, h3⟩ := (List.forall₂_iff_get.mp h1).2 k (by omega) hk2
    rw [← h3 w hd]; exact hw
  have hint : 2 ≤ t.intersections.length := by
    obtain ⟨c, -, hc⟩ := hp0.corners
    by_contra hlt
    have h0 := hc 0 (by norm_num)
    have h1 := hc 1 (by norm_num)
    have l0 := (List.getElem?_eq_some_iff.mp h0).1
    have l1 := (List.getElem?_eq_some_iff.mp h1).1
    have : c 0 = c 1 := by omega
    rw [this, h1] at h0
    exact absurd (boxPoints_inj hp0.lt (by norm_num) (by norm_num) (Option.some.inj h0)) (by norm_num)
  obtain ⟨ws, r, s, answers, fin, e1, e2, e3, e4, hsv, hans, hrows, hsep⟩ := boundary_spec same_equiv
    (separated_same.mpr (intersections_nodup t fun d => increasing_nodup (hinc d))) hint (S.threads.map (tasks t parts))
    (by
      intro e0
      have := hro i0
      rw [if_pos (hthread i0 ty0 hty0 hu0), e0] at this
      have hle := List.Forall₂.length_eq q1
      rw [← this] at hle
      simp [requestsOf] at hle
      omega)
    (disjoint_of_nodes (tasks_different t parts S.threads hD.once))
    (fun x hx => by obtain ⟨p, -, ha, -, -⟩ := hmem x hx; exact ha)
    (fun x hx => by obtain ⟨p, -, -, ha, -⟩ := hmem x hx; exact ha)
    (by
      intro rows lookup hs
      obtain ⟨idx, -, hat⟩ := hserve rows lookup hs i0 ty0 part0 lo0 hi0 hp0 hu0
      have hsub : nodePoints ty0 lo0 hi0 part0 ⊆ rows := by
        intro p hp
        obtain ⟨k, hk⟩ := List.getElem?_of_mem hp
        have hkl := (List.getElem?_eq_some_iff.mp hk).1
        have := hat.get hkl
        rw [List.getD_eq_getElem?_getD (l := nodePoints ty0 lo0 hi0 part0), hk, Option.getD_some] at this
        exact List.mem_of_getElem? this
      exact q3.trans (List.subperm_of_subset q2 hsub).length_le) P.1
  have hfn : fin.pristine.Nodup := separated_same.mp hsep
  have hserved := hserve _ _ hsv
  -- the cubes
  obtain ⟨c1, g1, g2, g3, -⟩ := cubes_fold (m := r.2) (kept := s.preserve.length) (types := t.types)
    (fun i n => ∃ part lo hi, Planned always P t parts i .cube part lo hi ∧ ∀ j : Fin 8, fin.pristine[n j]? = some (Spec.boxCorner lo hi j))
    S.cubes (Container.make t.types) hD.cubesOnce (make_ok t.types) (by
      intro i hi
      have hty := (hD.cubes i).mp hi
      obtain ⟨part, lo, hi', hp⟩ := hpl i _ hty
      obtain ⟨idx, hdec, hat⟩ := hserved i _ part lo hi' hp (Or.inl rfl)
      have hlen : idx.length = 8 := by
        have := List.Forall₂.length_eq hat
        simpa [nodePoints, cornerOrder] using this
      refine ⟨hty, fun j => idx.getD (([1, 2, 6, 5, 3, 0, 4, 7] : List Nat).getD j 0) 0, ⟨part, lo, hi', hp, fun j => ?_⟩, fun c => ?_⟩
      · have := hat.get (n := ([1, 2, 6, 5, 3, 0, 4, 7] : List Nat).getD j 0) (by
          simp only [nodePoints, cornerOrder, List.length_map]
          fin_cases j <;> simp)
        rw [this]
        exact congrArg some (cube_order lo hi' j)
      · unfold cubeNode
        rw [hdec, Option.bind_some, if_neg (by omega)])
  -- the polyhedra
  obtain ⟨c2, new, k1, k2, k3, k4, k5, k6⟩ := polys_fold hG (m := r.2) (kept := s.preserve.length) (parts := parts) S.polys c1 fin.pristine
    hD.polysOnce g2 hfn (by
      intro i hi
      have hty := (hD.polys i).mp hi
      obtain ⟨part, lo, hi', hp⟩ := hpl i _ hty
      obtain ⟨idx, hdec, hat⟩ := hserved i _ part lo hi' hp (Or.inr rfl)
      obtain ⟨-, hnd, -, -⟩ := hreq i _ part lo hi' hp (Or.inr rfl)
      obtain ⟨hpn, hps, -⟩ := hp.fits.part (Or.inr rfl)
      exact ⟨hty, part, lo, hi', idx, hp.parts, hps, hpn, hdec, hat, hnd⟩)
  refine ⟨{ grid := t, vertices := fin.pristine ++ new, nodes := c2,
            boundary := P.2.map fun face => face.map fun k => finalIndex s.preserve.length (answers.getD k (.pristine, 0)) },
    parts, hbuild, ?_, hk, k3, ?_, ?_, fun k => finalIndex s.preserve.length (answers.getD k (.pristine, 0)), rfl, ?_⟩
  · unfold TrellisWire.construct vertexMaps
    rw [hbuild]
    simp only [Option.bind_eq_bind, Option.bind_some, e1, e2, e3, e4, g1, k1]
  · intro v hv
    rcases List.mem_append.mp hv with hv | hv
    · rcases hrows v hv with ⟨op, hop, hd⟩ | ⟨w, hw, hs⟩
      · obtain ⟨x, hx, rfl⟩ := List.mem_map.mp hop
        obtain ⟨p, hp, -, -, ha⟩ := hmem x hx
        rw [ha v hd]; exact hp
      · rw [of_decide_eq_true hs]; exact mem_hull hw
    · obtain ⟨i, hi, part, hpt, hin⟩ := k4 v hv
      have hty := (hD.polys i).mp hi
      obtain ⟨part', lo, hi', hp⟩ := hpl i _ hty
      have e := hp.parts
      rw [hpt] at e
      obtain rfl := Option.some.inj e
      rw [(hp.fits.part (Or.inr rfl)).2.2] at hin
      exact hin.1
  · intro i ty hty hu
    obtain ⟨part, lo, hi, hp⟩ := hpl i ty hty
    have hpts : ∀ p ∈ nodePoints ty lo hi part, p ∈ fin.pristine ++ new := by
      intro p hp'
      obtain ⟨idx, -, hat⟩ := hserved i ty part lo hi hp hu
      obtain ⟨k, hk⟩ := List.getElem?_of_mem hp'
      have hkl := (List.getElem?_eq_some_iff.mp hk).1
      have := hat.get hkl
      rw [List.getD_eq_getElem?_getD (l := nodePoints ty lo hi part), hk, Option.getD_some] at this
      exact List.mem_append_left _ (List.mem_of_getElem? this)
    refine ⟨part, lo, hi, hp, ?_, hpts⟩
    rcases hu with rfl | rfl
    · have hic := (hD.cubes i).mpr hty
      have hip : i ∉ S.polys := by
        intro hi'
        have := (hD.polys i).mp hi'
        rw [hty] at this
        simp at this
      obtain ⟨n, m1, part', lo', hi', hp', m2⟩ := g3 i hic
      have elo : lo' = lo := funext fun d => Option.some.inj ((hp'.box d).1.symm.trans (hp.box d).1)
      have ehi : hi' = hi := funext fun d => Option.some.inj ((hp'.box d).2.symm.trans (hp.box d).2)
      subst elo ehi
      refine ⟨n, by rw [← m1]; exact k6 i hip, fun j => ?_⟩
      rw [List.getElem?_append_left (List.getElem?_eq_some_iff.mp (m2 j)).1]
      exact m2 j
    · obtain ⟨part', tets, m1, m2, m3⟩ := k5 i ((hD.polys i).mpr hty)
      have e := hp.parts
      rw [m1] at e
      obtain rfl := Option.some.inj e
      exact ⟨tets, m2, m3⟩
  · intro k hkl
    have hle := List.Forall₂.length_eq hans
    obtain ⟨w, hw, hs⟩ := (List.forall₂_iff_get.mp hans).2 k (by omega) hkl
    have hs : w = P.1.get ⟨k, hkl⟩ := of_decide_eq_true hs
    rw [hs] at hw
    change (fin.pristine ++ new)[finalIndex s.preserve.length (answers.getD k (.pristine, 0))]? = P.1[k]?
    rw [Convex.getD_lt _ _ (by omega)]
    rw [List.get_eq_getElem, List.get_eq_getElem] at hw
    rw [List.getElem?_append_left (List.getElem?_eq_some_iff.mp hw).1, hw, List.getElem?_eq_getElem hkl]

end Brille.Props
