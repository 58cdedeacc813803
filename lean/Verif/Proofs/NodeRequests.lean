/-
The vertices that are requested for a node of the hybrid grid.
-/
import Verif.Proofs.VertexBoundary
import Verif.Props.TrellisSearch
import Verif.Spec.TrellisWire

namespace Brille.Props

open Brille.TrellisWire Brille.TrellisBuild Brille.Spec Brille.Tetra Brille.Cut Brille.SortFace Brille.Zone Brille.VMap
open Brille.IrCheck (Poly facePlane)
open Brille.Faces (contains indexes)
open Brille.Trellis hiding Pt

theorem same_equiv : IsEquiv same where
  refl a := by simp [same]
  symm a b h := by simp only [same, decide_eq_true_eq] at h ⊢; exact h.symm
  trans a b c h1 h2 := by simp only [same, decide_eq_true_eq] at h1 h2 ⊢; exact h1.trans h2

theorem separated_same {l : List Pt} : Separated same l ↔ l.Nodup := by
  unfold Separated List.Nodup
  simp [same]

/-! ### the intersections -/

theorem mem_intersections (t : Grid) (p : Pt) : p ∈ t.intersections ↔ ∀ d, p d ∈ t.knots d := by
  unfold Grid.intersections
  simp only [List.mem_flatMap, List.mem_map]
  constructor
  · rintro ⟨z, hz, y, hy, x, hx, rfl⟩ d
    fin_cases d
    · exact hx
    · exact hy
    · exact hz
  · intro h
    exact ⟨p 2, h 2, p 1, h 1, p 0, h 0, by funext d; fin_cases d <;> rfl⟩

theorem intersections_nodup (t : Grid) (h : ∀ d, (t.knots d).Nodup) : t.intersections.Nodup := by
  unfold Grid.intersections
  rw [List.nodup_flatMap]
  refine ⟨fun z _ => ?_, ?_⟩
  · rw [List.nodup_flatMap]
    refine ⟨fun y _ => ?_, ?_⟩
    · refine (h 0).map fun a b hab => ?_
      exact congrFun hab 0
    · refine (h 1).imp fun {a b} hab => ?_
      intro p hp hq
      simp only [List.mem_map] at hp hq
      obtain ⟨x, -, rfl⟩ := hp
      obtain ⟨x', -, e⟩ := hq
      exact hab (congrFun e 1).symm
  · refine (h 2).imp fun {a b} hab => ?_
    intro p hp hq
    simp only [List.mem_map, List.mem_flatMap] at hp hq
    obtain ⟨y, -, x, -, rfl⟩ := hp
    obtain ⟨y', -, x', -, e⟩ := hq
    exact hab (congrFun e 2).symm

theorem increasing_nodup {l : List ℚ} (h : Increasing l) : l.Nodup := h.imp fun hab => ne_of_lt hab

/-- a knot between two neighbouring knots is one of them -/
theorem knot_between {l : List ℚ} (h : Increasing l) {i : Nat} {a b x : ℚ} (ha : l[i]? = some a) (hb : l[i + 1]? = some b) (hx : x ∈ l)
    (h1 : a ≤ x) (h2 : x ≤ b) : x = a ∨ x = b := by
  obtain ⟨j, hj, rfl⟩ := List.getElem_of_mem hx
  obtain ⟨l1, rfl⟩ := List.getElem?_eq_some_iff.mp ha
  obtain ⟨l2, rfl⟩ := List.getElem?_eq_some_iff.mp hb
  have hp := List.pairwise_iff_getElem.mp h
  rcases Nat.lt_trichotomy j i with hji | rfl | hji
  · exact absurd (hp j i hj l1 hji) (not_lt.mpr h1)
  · exact Or.inl rfl
  · rcases Nat.lt_or_eq_of_le (Nat.succ_le_of_lt hji) with hlt | rfl
    · exact absurd (hp _ j l2 hj hlt) (not_lt.mpr h2)
    · exact Or.inr rfl

theorem boxPoints_at (lo hi : Pt) (j : Nat) (hj : j < 8) : (boxPoints lo hi).getD j 0 = Faces.boxVertices lo hi j := by
  simp [boxPoints, hj]

/-- a point whose coordinates are those of the box is one of its corners -/
theorem corner_of_coordinates (lo hi p : Pt) (h : ∀ d, p d = lo d ∨ p d = hi d) : ∃ j < 8, p = (boxPoints lo hi).getD j 0 := by
  rcases h 0 with h0 | h0 <;> rcases h 1 with h1 | h1 <;> rcases h 2 with h2 | h2
  · exact ⟨0, by norm_num, by rw [boxPoints_at _ _ _ (by norm_num)]; funext d; fin_cases d <;> simp [Faces.boxVertices, h0, h1, h2]⟩
  · exact ⟨3, by norm_num, by rw [boxPoints_at _ _ _ (by norm_num)]; funext d; fin_cases d <;> simp [Faces.boxVertices, h0, h1, h2]⟩
  · exact ⟨1, by norm_num, by rw [boxPoints_at _ _ _ (by norm_num)]; funext d; fin_cases d <;> simp [Faces.boxVertices, h0, h1, h2]⟩
  · exact ⟨2, by norm_num, by rw [boxPoints_at _ _ _ (by norm_num)]; funext d; fin_cases d <;> simp [Faces.boxVertices, h0, h1, h2]⟩
  · exact ⟨4, by norm_num, by rw [boxPoints_at _ _ _ (by norm_num)]; funext d; fin_cases d <;> simp [Faces.boxVertices, h0, h1, h2]⟩
  · exact ⟨7, by norm_num, by rw [boxPoints_at _ _ _ (by norm_num)]; funext d; fin_cases d <;> simp [Faces.boxVertices, h0, h1, h2]⟩
  · exact ⟨5, by norm_num, by rw [boxPoints_at _ _ _ (by norm_num)]; funext d; fin_cases d <;> simp [Faces.boxVertices, h0, h1, h2]⟩
  · exact ⟨6, by norm_num, by rw [boxPoints_at _ _ _ (by norm_num)]; funext d; fin_cases d <;> simp [Faces.boxVertices, h0, h1, h2]⟩

/-! ### the order of the corners -/

/-- the corners of a node, numbered as in `trellis_node_faces`, in the order in which the code meets them -/
def cornerOrder : List Nat := [3, 0, 4, 7, 2, 1, 5, 6]

theorem indexes_nodeFaces (t : Grid) (i : Nat) (c : Nat → Nat) (hf : t.nodeFaces i = Faces.boxFaces.map (List.map c))
    (hc : ∀ j < 8, ∀ k < 8, c j = c k → j = k) : indexes (t.nodeFaces i) = cornerOrder.map c := by
  have hne : ∀ j < 8, ∀ k < 8, j ≠ k → c j ≠ c k := fun j hj k hk h e => h (hc j hj k hk e)
  rw [hf]
  unfold indexes cornerOrder
  simp [Faces.boxFaces, List.foldl_cons, hne 0 (by norm_num) 3 (by norm_num), hne 4 (by norm_num) 3 (by norm_num),
    hne 4 (by norm_num) 0 (by norm_num), hne 7 (by norm_num) 3 (by norm_num), hne 7 (by norm_num) 0 (by norm_num),
    hne 7 (by norm_num) 4 (by norm_num), hne 2 (by norm_num) 3 (by norm_num), hne 2 (by norm_num) 0 (by norm_num),
    hne 2 (by norm_num) 4 (by norm_num), hne 2 (by norm_num) 7 (by norm_num), hne 1 (by norm_num) 3 (by norm_num),
    hne 1 (by norm_num) 0 (by norm_num), hne 1 (by norm_num) 4 (by norm_num), hne 1 (by norm_num) 7 (by norm_num),
    hne 1 (by norm_num) 2 (by norm_num), hne 5 (by norm_num) 3 (by norm_num), hne 5 (by norm_num) 0 (by norm_num),
    hne 5 (by norm_num) 4 (by norm_num), hne 5 (by norm_num) 7 (by norm_num), hne 5 (by norm_num) 2 (by norm_num),
    hne 5 (by norm_num) 1 (by norm_num), hne 6 (by norm_num) 3 (by norm_num), hne 6 (by norm_num) 0 (by norm_num),
    hne 6 (by norm_num) 4 (by norm_num), hne 6 (by norm_num) 7 (by norm_num), hne 6 (by norm_num) 2 (by norm_num),
    hne 6 (by norm_num) 1 (by norm_num), hne 6 (by norm_num) 5 (by norm_num)]

/-! ### corners of the part that are corners of the node -/

theorem count_same {l : List Pt} (h : l.Nodup) (p : Pt) : l.countP (fun v => same v p) = if p ∈ l then 1 else 0 := by
  have : (fun v => same v p) = fun v => v == p := by funext v; simp [same, beq_eq_decide]
  rw [this]
  split
  · rename_i hp
    exact List.count_eq_one_of_mem h hp
  · rename_i hp
    exact List.count_eq_zero_of_not_mem hp

theorem findIdx_same {l : List Pt} {p : Pt} (hp : p ∈ l) : l[l.findIdx fun v => same v p]? = some p := by
  have hlt : l.findIdx (fun v => same v p) < l.length := List.findIdx_lt_length_of_exists ⟨p, hp, by simp [same]⟩
  have := List.findIdx_getElem (w := hlt)
  rw [List.getElem?_eq_getElem hlt]
  exact congrArg some (of_decide_eq_true this)

theorem find_emplace (m : StdMap.Map Nat) (k v k' : Nat) :
    StdMap.find (StdMap.emplace m k v) k' = if (StdMap.find m k').isSome then StdMap.find m k' else if k' = k then some v else none := by
  unfold StdMap.emplace
  cases hk : StdMap.find m k with
  | some x =>
    dsimp only
    by_cases e : k' = k
    · subst e; simp [hk]
    · cases StdMap.find m k' <;> simp [e]
  | none =>
    dsimp only
    rw [StdMap.find_set]
    by_cases e : k' = k
    · subst e; simp [hk]
    · cases StdMap.find m k' <;> simp [e]

theorem knotsOfPart_spec (all : List Pt) (part : Poly) (hd : part.1.Nodup) : ∀ (corners : List Nat) (m : StdMap.Map Nat),
    (∀ k idx, StdMap.find m k = some idx → part.1[k]? = some (all.getD idx 0)) →
    let r := corners.foldl (fun m idx =>
      if part.1.countP (fun v => same v (all.getD idx 0)) = 1 then StdMap.emplace m (part.1.findIdx fun v => same v (all.getD idx 0)) idx else m) m
    (∀ k idx, StdMap.find r k = some idx → part.1[k]? = some (all.getD idx 0) ∧ (idx ∈ corners ∨ StdMap.find m k = some idx)) ∧
      (∀ k, (StdMap.find m k).isSome → (StdMap.find r k).isSome) ∧
      ∀ k, ∀ idx ∈ corners, part.1[k]? = some (all.getD idx 0) → (StdMap.find r k).isSome
  | [], m, h => ⟨fun k idx e => ⟨h k idx e, Or.inr e⟩, fun _ h => h, by simp⟩
  | i :: corners, m, h => by
    simp only [List.foldl_cons]
    rw [count_same hd]
    by_cases hp : all.getD i 0 ∈ part.1
    · simp only [hp, if_true]
      have hi := findIdx_same hp
      obtain ⟨r1, r2, r3⟩ := knotsOfPart_spec all part hd corners
        (StdMap.emplace m (part.1.findIdx fun v => same v (all.getD i 0)) i) (by
          intro k idx e
          rw [find_emplace] at e
          split at e
          · exact h k idx e
          · split at e
            · rename_i ek
              rw [ek, hi, ← Option.some.inj e]
            · simp at e)
      refine ⟨?_, ?_, ?_⟩
      · intro k idx e
        obtain ⟨e1, e2⟩ := r1 k idx e
        refine ⟨e1, ?_⟩
        rcases e2 with e2 | e2
        · exact Or.inl (by simp [e2])
        · rw [find_emplace] at e2
          split at e2
          · exact Or.inr e2
          · split at e2
            · exact Or.inl (by simp [Option.some.inj e2])
            · simp at e2
      · intro k hk
        refine r2 k ?_
        rw [find_emplace, if_pos hk]; exact hk
      · intro k idx hidx e
        rcases List.mem_cons.mp hidx with rfl | hidx
        · refine r2 k ?_
          rw [find_emplace]
          by_cases hs : (StdMap.find m k).isSome
          · rw [if_pos hs]; exact hs
          · rw [if_neg hs, if_pos]
            · rfl
            · have l1 := (List.getElem?_eq_some_iff.mp e).1
              have l2 := (List.getElem?_eq_some_iff.mp hi).1
              refine (List.getElem?_inj l1 hd).mp ?_
              rw [e, hi]
        · exact r3 k idx hidx e
    · simp only [hp, if_false, zero_ne_one]
      obtain ⟨r1, r2, r3⟩ := knotsOfPart_spec all part hd corners m h
      refine ⟨fun k idx e => ?_, r2, ?_⟩
      · obtain ⟨e1, e2⟩ := r1 k idx e
        exact ⟨e1, e2.imp_left fun h => by simp [h]⟩
      · intro k idx hidx e
        rcases List.mem_cons.mp hidx with rfl | hidx
        · exact absurd (List.mem_of_getElem? e) hp
        · exact r3 k idx hidx e

/-! ### the requests of a node -/

/-- whether the origin is requested for a node -/
def wantsGamma (part : Poly) : Bool := contains part.2 (fun i => part.1.getD i 0) 0 && decide (part.1.countP (fun v => same v 0) = 0)

/-- the points that are requested for a node -/
def nodePoints (ty : NodeType) (lo hi : Pt) (part : Poly) : List Pt :=
  match ty with
  | .cube => cornerOrder.map fun j => (boxPoints lo hi).getD j 0
  | .poly => part.1 ++ if wantsGamma part then [0] else []
  | _ => []

theorem mem_hull {v : List Pt} {p : Pt} (hp : p ∈ v) : real p ∈ Hull (· ∈ v) := subset_convexHull ℝ _ ⟨p, hp, rfl⟩

theorem wantsGamma_iff {part : Poly} (h : ConvexSolid part.1 part.2) (hne : part.2 ≠ []) :
    wantsGamma part = true ↔ real 0 ∈ Hull (· ∈ part.1) ∧ (0 : Pt) ∉ part.1 := by
  unfold wantsGamma
  rw [Bool.and_eq_true, C67_contains _ _ h hne, decide_eq_true_eq, count_same h.distinct]
  simp

theorem boxPoints_inj {lo hi : Pt} (hlt : ∀ d, lo d < hi d) {j k : Nat} (hj : j < 8) (hk : k < 8)
    (e : (boxPoints lo hi).getD j 0 = (boxPoints lo hi).getD k 0) : j = k := by
  have hn := (C67_box lo hi hlt).distinct
  have hl : (boxPoints lo hi).length = 8 := by simp [boxPoints]
  rw [Convex.getD_lt _ _ (by omega), Convex.getD_lt _ _ (by omega)] at e
  exact (List.Nodup.getElem_inj_iff hn).mp e

theorem boxPoints_mem {lo hi : Pt} {j : Nat} (hj : j < 8) : (boxPoints lo hi).getD j 0 ∈ boxPoints lo hi := by
  rw [Convex.getD_lt _ _ (by simpa [boxPoints] using hj)]
  exact List.getElem_mem _

theorem forall₂_map_same {α β γ : Type} (R : β → γ → Prop) (f : α → β) (g : α → γ) : ∀ l : List α, (∀ a ∈ l, R (f a) (g a)) →
    List.Forall₂ R (l.map f) (l.map g)
  | [], _ => .nil
  | a :: l, h => .cons (h a (by simp)) (forall₂_map_same R f g l fun b hb => h b (by simp [hb]))

/-- what is asserted of a request for a vertex at a point -/
def Asks (t : Grid) (op : Op Pt) (p : Pt) : Prop :=
  Admissible t.intersections op ∧ HonestlyCrafted same t.intersections op ∧ ∀ w, Delivers same t.intersections w op → w = p

theorem gamma_asks (t : Grid) (part : Poly) : List.Forall₂ (Asks t) (gammaRequest part) (if wantsGamma part then [0] else []) := by
  unfold gammaRequest
  change List.Forall₂ (Asks t) (if wantsGamma part then [Op.add 0 .unknown] else []) _
  by_cases h : wantsGamma part
  · simp only [h, if_true]
    refine .cons ⟨trivial, by simp [HonestlyCrafted], fun w hw => ?_⟩ .nil
    simpa [Delivers, same] using hw
  · simp [h]

theorem zipIdx_getElem {α : Type} {l : List α} {v : α × Nat} (hv : v ∈ l.zipIdx) : l[v.2]? = some v.1 := by
  obtain ⟨a, k⟩ := v
  have := List.mem_zipIdx_iff_getElem?.mp hv
  simpa using this

theorem node_requests {always : Bool} {P part : Poly} {t : Grid} {i : Nat} {lo hi : Pt} {c : Nat → Nat} {ty : NodeType}
    (hinc : ∀ d, Increasing (t.knots d))
    (hb : ∀ d, (t.knots d)[t.idx2sub i d]? = some (lo d) ∧ (t.knots d)[t.idx2sub i d + 1]? = some (hi d))
    (hf : t.nodeFaces i = Faces.boxFaces.map (List.map c)) (hc : ∀ j < 8, t.intersections[c j]? = some ((boxPoints lo hi).getD j 0))
    (hlt : ∀ d, lo d < hi d) (hfit : NodeFits always P lo hi ty part) (hu : ty = .cube ∨ ty = .poly) :
    List.Forall₂ (Asks t) (requests t i ty part) (nodePoints ty lo hi part) ∧ (nodePoints ty lo hi part).Nodup ∧
      2 ≤ (nodePoints ty lo hi part).length ∧ ∀ p ∈ nodePoints ty lo hi part, real p ∈ Hull (· ∈ P.1) ∧ real p ∈ Box lo hi := by
  have hcinj : ∀ j < 8, ∀ k < 8, c j = c k → j = k := by
    intro j hj k hk e
    have := hc j hj
    rw [e, hc k hk] at this
    exact (boxPoints_inj hlt hk hj (Option.some.inj this)).symm
  have hidx := indexes_nodeFaces t i c hf hcinj
  have hord : ∀ j ∈ cornerOrder, j < 8 := by decide
  have hkeep : ∀ j < 8, Asks t (.keep (c j)) ((boxPoints lo hi).getD j 0) := by
    intro j hj
    refine ⟨(List.getElem?_eq_some_iff.mp (hc j hj)).1, trivial, fun w hw => ?_⟩
    simp only [Delivers, hc j hj, Option.some.injEq] at hw
    exact hw.symm
  obtain ⟨hpne, hps, hph⟩ := hfit.part hu
  have hg := gamma_asks t part
  rcases hu with rfl | rfl
  · obtain ⟨-, hbox, hz⟩ := hfit.cube.mp rfl
    have hw : wantsGamma part = false := by
      rw [Bool.eq_false_iff]
      intro h
      have := ((wantsGamma_iff hps hpne).mp h).1
      rw [hph, real_zero] at this
      exact hz this.2
    rw [hw] at hg
    simp only [Bool.false_eq_true, if_false, List.forall₂_nil_right_iff] at hg
    refine ⟨?_, ?_, by simp [nodePoints, cornerOrder], ?_⟩
    · simp only [requests, nodePoints, hg, List.append_nil, hidx, List.map_map]
      exact forall₂_map_same _ _ _ _ fun j hj => hkeep j (hord j hj)
    · refine List.Nodup.map_on (fun j hj k hk e => boxPoints_inj hlt (hord j hj) (hord k hk) e) (by decide)
    · intro p hp
      simp only [nodePoints, List.mem_map] at hp
      obtain ⟨j, hj, rfl⟩ := hp
      have : real ((boxPoints lo hi).getD j 0) ∈ Box lo hi := by
        rw [← box_set lo hi hlt]; exact mem_hull (boxPoints_mem (hord j hj))
      exact ⟨hbox this, this⟩
  · have hin : ∀ p ∈ nodePoints .poly lo hi part, real p ∈ Hull (· ∈ part.1) := by
      intro p hp
      simp only [nodePoints, List.mem_append] at hp
      rcases hp with hp | hp
      · exact mem_hull hp
      · by_cases hw : wantsGamma part
        · simp only [hw, if_true, List.mem_singleton] at hp
          rw [hp]; exact ((wantsGamma_iff hps hpne).mp hw).1
        · simp [hw] at hp
    have hin' : ∀ p ∈ nodePoints .poly lo hi part, real p ∈ Hull (· ∈ P.1) ∧ real p ∈ Box lo hi := by
      intro p hp
      have := hin p hp
      rwa [hph] at this
    obtain ⟨k1, -, k3⟩ := knotsOfPart_spec t.intersections part hps.distinct (indexes (t.nodeFaces i)) [] (by simp [StdMap.find])
    refine ⟨?_, ?_, ?_, hin'⟩
    · simp only [requests, nodePoints]
      refine List.rel_append ?_ hg
      have : part.1 = part.1.zipIdx.map Prod.fst := by simp
      conv_rhs => rw [this]
      refine forall₂_map_same _ _ _ _ fun v hv => ?_
      have hv' := zipIdx_getElem hv
      cases e : StdMap.find (knotsOfPart t.intersections (indexes (t.nodeFaces i)) part) v.2 with
      | some idx =>
        obtain ⟨e1, e2⟩ := k1 v.2 idx e
        have hmem : idx ∈ indexes (t.nodeFaces i) := e2.resolve_right (by simp [StdMap.find])
        rw [hidx, List.mem_map] at hmem
        obtain ⟨j, hj, rfl⟩ := hmem
        rw [hv', node_point hc j (hord j hj)] at e1
        rw [Option.some.inj e1]
        exact hkeep j (hord j hj)
      | none =>
        refine ⟨trivial, fun _ r hr => ?_, fun w hw => by simpa [Delivers, same] using hw⟩
        rw [Bool.eq_false_iff]
        intro hs
        have hs : r = v.1 := of_decide_eq_true hs
        obtain ⟨-, hbx⟩ := hin' v.1 (by simp [nodePoints, List.mem_of_getElem? hv'])
        rw [mem_intersections, hs] at hr
        obtain ⟨j, hj, ej⟩ := corner_of_coordinates lo hi v.1 fun d => by
          obtain ⟨b1, b2⟩ := hbx d
          simp only [real] at b1 b2
          exact knot_between (hinc d) (hb d).1 (hb d).2 (hr d) (by exact_mod_cast b1) (by exact_mod_cast b2)
        have := k3 v.2 (c j) (by
          rw [hidx]
          refine List.mem_map_of_mem ?_
          interval_cases j <;> decide) (by rw [node_point hc j hj, ← ej]; exact hv')
        unfold knotsOfPart at e
        rw [e] at this
        simp at this
    · simp only [nodePoints]
      by_cases hw : wantsGamma part
      · have := ((wantsGamma_iff hps hpne).mp hw).2
        simp only [hw, if_true]
        refine List.nodup_append.mpr ⟨hps.distinct, by simp, ?_⟩
        intro a ha b hb e
        simp only [List.mem_singleton] at hb
        exact this (hb ▸ e ▸ ha)
      · simpa [hw] using hps.distinct
    · have h4 : 2 ≤ part.1.length := by
        obtain ⟨f, hf⟩ := List.exists_mem_of_ne_nil _ hpne
        obtain ⟨hn, h3⟩ := hps.convex.simple (f.map fun i => part.1.getD i 0) (List.mem_map_of_mem hf)
        have := (List.subperm_of_subset hn (l₂ := part.1) (by
          intro x hx
          obtain ⟨k, hk, rfl⟩ := List.mem_map.mp hx
          rw [Convex.getD_lt _ _ (hps.valid f hf k hk)]
          exact List.getElem_mem _)).length_le
        omega
      simp only [nodePoints, List.length_append]
      omega

end Brille.Props
