/-
C27 and C28: locating a point in the Cartesian grid of the trellis, and the numbering of its nodes.
-/
import Verif.Proofs.Trellis

namespace Brille.Props

open Brille.Trellis Brille.Spec

/-! ### C27: bins -/

/-- C27 (inside).  For every strictly increasing list of edges and every `x` from the first edge up to
but not including the last, the bin returned is an existing bin that contains `x`, and it is the only
one. -/
theorem C27_find_bin (edges : List ℚ) (hinc : Increasing edges) (x : ℚ)
    (hlo : ∃ f, edges.head? = some f ∧ f ≤ x) (hhi : ∃ b ∈ edges, x < b) :
    InBin edges (findBin edges x) x ∧ ∀ i, InBin edges i x → i = findBin edges x :=
  ⟨inBin_findBin hinc hlo hhi, fun _ h => (findBin_spec hinc h).symm⟩

example : Increasing [0, 1, 5/2] ∧ (∃ f, ([0, 1, 5/2] : List ℚ).head? = some f ∧ f ≤ 2) ∧
    (∃ b ∈ ([0, 1, 5/2] : List ℚ), (2 : ℚ) < b) ∧ findBin [0, 1, 5/2] 2 = 1 :=
  ⟨by simp [Increasing]; norm_num, ⟨0, rfl, by norm_num⟩, ⟨5/2, by simp, by norm_num⟩, by decide +kernel⟩

/-- C27 (outside).  At or beyond the last edge the answer is the number of bins, which is not the
number of any bin; below the first edge it is 0. -/
theorem C27_find_bin_outside (edges : List ℚ) (x : ℚ) :
    ((∀ b ∈ edges, b ≤ x) → findBin edges x = edges.length - 1) ∧
    ((∀ f, edges.head? = some f → x < f) → findBin edges x = 0) :=
  ⟨findBin_above, findBin_below⟩

example : (∀ b ∈ ([0, 1] : List ℚ), b ≤ 1) ∧ findBin [0, 1] 1 = 1 := by decide +kernel

/-- C27 (boundary).  For the bin number found for `x`, a non-zero answer of the boundary test names a
step to a neighbouring *existing* bin, across an edge that is close to `x`. -/
theorem C27_on_boundary (near : ℚ → ℚ → Bool) (edges : List ℚ) (hne : edges ≠ []) (x : ℚ) :
    let i := findBin edges x
    let s := onBoundary near edges x i
    s = 0 ∨
    (s = 1 ∧ i + 1 + 1 < edges.length ∧ ∃ e, edges[i + 1]? = some e ∧ near e x = true) ∨
    (s = -1 ∧ 0 < i ∧ (i - 1) + 1 < edges.length ∧ ∃ e, edges[i]? = some e ∧ near e x = true) := by
  intro i s
  have hi : i < edges.length := findBin_lt hne x
  rcases onBoundary_cases near edges x i with ⟨h1, h2, h3⟩ | ⟨h1, h2, h3⟩ | h1
  · refine Or.inr (Or.inl ⟨h1, h2, edges[i + 1], List.getElem?_eq_getElem _, ?_⟩)
    rwa [List.getD_eq_getElem?_getD, List.getElem?_eq_getElem (by omega), Option.getD_some] at h3
  · refine Or.inr (Or.inr ⟨h1, h2, by omega, edges[i], List.getElem?_eq_getElem hi, ?_⟩)
    rwa [List.getD_eq_getElem?_getD, List.getElem?_eq_getElem hi, Option.getD_some] at h3
  · exact Or.inl h1

example : onBoundary (fun a b => a == b) [0, 1, 2] 2 (findBin [0, 1, 2] 2) = -1 := by decide +kernel

/-- C27 (search).  If the node at the located subscript, or any node reached from it by stepping across
some of the edges that the point is close to, exists and is not null, then the subscript returned is
that of an existing node which is not null. -/
theorem C27_node_found (near : ℚ → ℚ → Bool) (t : Grid) (x : Fin 3 → ℚ) (m : Fin 3 → Bool)
    (h : t.okNotNull (fun d => if m d
      then (findBin (t.knots d) (x d) : Int) + onBoundary near (t.knots d) (x d) (findBin (t.knots d) (x d))
      else (findBin (t.knots d) (x d) : Int)) = true) :
    t.okNotNull (t.nodeSubscript near x) = true := by
  rcases nodeSubscript_cases t near x with ⟨h1, -⟩ | ⟨-, h2, h3⟩
  · exact h1
  · exfalso
    rcases masked_mem (fun d => (findBin (t.knots d) (x d) : Int))
      (fun d => onBoundary near (t.knots d) (x d) (findBin (t.knots d) (x d))) m with e | e
    · unfold masked at e; rw [e] at h; rw [h] at h2; exact absurd h2 (by simp)
    · have := h3 _ e
      unfold masked at this; rw [h] at this; exact absurd this (by simp)

/-- `okNotNull` in words: every component is the number of a bin, and the type stored for the node is
neither of the three null types. -/
theorem C27_ok_iff (t : Grid) (s : Fin 3 → Int) :
    t.okNotNull s = true ↔
      (∀ d, 0 ≤ s d ∧ s d + 1 < (t.knots d).length) ∧
      ∃ ty, t.types[t.sub2idx (fun d => (s d).toNat)]? = some ty ∧
        (ty = .cube ∨ ty = .poly) := by
  simp only [Grid.okNotNull, Bool.and_eq_true, Grid.subscriptOk, List.all_eq_true,
    decide_eq_true_eq, Bool.not_eq_true', Grid.isNull]
  constructor
  · rintro ⟨h1, h2⟩
    have h1' : ∀ d, 0 ≤ s d ∧ s d + 1 < (t.knots d).length := by
      intro d
      have := h1 d (List.mem_finRange d)
      rw [Grid.size] at this
      omega
    refine ⟨h1', ?_⟩
    cases hty : t.types[t.sub2idx (fun d => (s d).toNat)]? with
    | none => rw [hty] at h2; simp at h2
    | some ty => rw [hty] at h2; refine ⟨ty, rfl, ?_⟩; cases ty <;> simp_all [NodeType.isNull]
  · rintro ⟨h1, ty, h2, h3⟩
    refine ⟨fun d _ => ?_, ?_⟩
    · have := h1 d
      rw [Grid.size]
      omega
    · rw [h2]; rcases h3 with rfl | rfl <;> rfl

/-- C27 (containment), partial.  If the point is not below the first knot along any axis, the node
returned is an existing non-null one, and it is at most one step away from the located subscript, then
along each axis the point is inside the bin of the node or close to one of its two edges.

Missing for the full property: the search also tries *two* steps along the same axis
(`C27_two_steps_counterexample`), and a point below the first knot is put into the first bin however
far away it is (`C27_below_counterexample`). -/
theorem C27_node_contains_partial (near : ℚ → ℚ → Bool) (t : Grid) (x : Fin 3 → ℚ)
    (hinc : ∀ d, Increasing (t.knots d))
    (hlo : ∀ d, ∃ f, (t.knots d).head? = some f ∧ f ≤ x d)
    (hok : t.okNotNull (t.nodeSubscript near x) = true)
    (hone : ∀ d, |t.nodeSubscript near x d - (findBin (t.knots d) (x d) : Int)| ≤ 1) (d : Fin 3) :
    ∃ (s : Nat) (a b : ℚ), t.nodeSubscript near x d = s ∧ (t.knots d)[s]? = some a ∧
      (t.knots d)[s + 1]? = some b ∧ ((a ≤ x d ∧ x d < b) ∨ near a (x d) = true ∨ near b (x d) = true) := by
  have hsz : 0 ≤ t.nodeSubscript near x d ∧ t.nodeSubscript near x d + 1 < (t.knots d).length := by
    simp only [Grid.okNotNull, Bool.and_eq_true, Grid.subscriptOk, List.all_eq_true,
      decide_eq_true_eq] at hok
    have := hok.1 d (List.mem_finRange d)
    rw [Grid.size] at this
    omega
  have hne : t.knots d ≠ [] := by
    obtain ⟨f, hf, -⟩ := hlo d
    intro e; simp [e] at hf
  obtain ⟨s, hs⟩ := Int.eq_ofNat_of_zero_le hsz.1
  have hlt : s + 1 < (t.knots d).length := by have := hsz.2; rw [hs] at this; omega
  refine ⟨s, (t.knots d)[s], (t.knots d)[s + 1], hs, List.getElem?_eq_getElem _, List.getElem?_eq_getElem hlt, ?_⟩
  have hb := C27_on_boundary near (t.knots d) hne (x d)
  have hcase : t.nodeSubscript near x d = (findBin (t.knots d) (x d) : Int) ∨
      t.nodeSubscript near x d = (findBin (t.knots d) (x d) : Int) +
        onBoundary near (t.knots d) (x d) (findBin (t.knots d) (x d)) := by
    rcases nodeSubscript_cases t near x with ⟨-, h1 | h1⟩ | ⟨h1, -, -⟩
    · exact Or.inl (congrFun h1 d)
    · rcases candidates_cases _ _ _ h1 d with h | h | h
      · exact Or.inl h
      · exact Or.inr h
      · have h1 := hone d
        rw [h] at h1
        rcases hb with h0 | ⟨h0, -⟩ | ⟨h0, -⟩
        · left; rw [h, h0]; simp
        · rw [h0] at h1; exfalso
          have e : ((findBin (t.knots d) (x d) : Int) + 1 + 1 - (findBin (t.knots d) (x d) : Int)) = 2 := by omega
          rw [e] at h1; exact absurd h1 (by decide)
        · rw [h0] at h1; exfalso
          have e : ((findBin (t.knots d) (x d) : Int) + -1 + -1 - (findBin (t.knots d) (x d) : Int)) = -2 := by omega
          rw [e] at h1; exact absurd h1 (by decide)
    · exact Or.inl (congrFun h1 d)
  -- the located bin contains the point
  have hin : t.nodeSubscript near x d = (findBin (t.knots d) (x d) : Int) →
      (t.knots d)[s] ≤ x d ∧ x d < (t.knots d)[s + 1] := by
    intro e
    have e' : findBin (t.knots d) (x d) = s := by omega
    have hhi : ∃ b ∈ t.knots d, x d < b := by
      by_contra hc
      push Not at hc
      have := findBin_above hc
      omega
    obtain ⟨a, b, ha, hb', h1, h2⟩ := inBin_findBin (hinc d) (hlo d) hhi
    rw [e'] at ha hb'
    have e1 := (List.getElem?_eq_some_iff.1 ha).2
    have e2 := (List.getElem?_eq_some_iff.1 hb').2
    rw [e1, e2]; exact ⟨h1, h2⟩
  rcases hcase with h | h
  · exact Or.inl (hin h)
  · rcases hb with h0 | ⟨h0, -, e, he, hn⟩ | ⟨h0, h4, -, e, he, hn⟩
    · left; apply hin; rw [h, h0]; simp
    · right; left
      have e' : findBin (t.knots d) (x d) + 1 = s := by rw [h0] at h; omega
      rw [e'] at he
      rw [(List.getElem?_eq_some_iff.1 he).2]; exact hn
    · right; right
      have e' : findBin (t.knots d) (x d) = s + 1 := by rw [h0] at h; omega
      rw [e'] at he
      rw [(List.getElem?_eq_some_iff.1 he).2]; exact hn

/-- A grid of 4×4×1 unit nodes in which only the nodes (1,1,0) and (0,2,0) are not null. -/
def twoStepGrid : Grid where
  knots d := if d = 2 then [0, 1] else [0, 1, 2, 3, 4]
  types := (List.range 16).map (fun i => if i = 5 ∨ i = 8 then .cube else .null)

example : (∀ d, Increasing (twoStepGrid.knots d)) ∧ twoStepGrid.types.length = twoStepGrid.nodeCount ∧
    twoStepGrid.okNotNull (twoStepGrid.nodeSubscript (fun a b => a == b) (mk3 1 1 0)) = true ∧
    (∀ d, |twoStepGrid.nodeSubscript (fun a b => a == b) (mk3 1 1 0) d -
      (findBin (twoStepGrid.knots d) (mk3 1 1 0 d) : Int)| ≤ 1) := by
  refine ⟨?_, by decide, by decide +kernel, by decide +kernel⟩
  intro d; fin_cases d <;> simp [twoStepGrid, Increasing] <;> norm_num

/-- C27 (containment) fails for two steps along one axis: the point (2, 2, 1/2) is a corner of the
non-null node (1,1,0), but the search returns the node (0,2,0), whose box does not touch the point. -/
theorem C27_two_steps_counterexample :
    twoStepGrid.okNotNull (mk3 1 1 0) = true ∧
    (∀ d, twoStepGrid.nodeSubscript (fun a b => a == b) (mk3 2 2 (1/2)) d = mk3 0 2 0 d) ∧
    (twoStepGrid.knots 0).getD 1 0 < (2 : ℚ) := by
  decide +kernel

/-- C27 (containment) fails below the first knot: the point (-100, 0, 0) is assigned to node
(0,0,0) of a one-node grid that ends at 0. -/
theorem C27_below_counterexample :
    let t : Grid := { knots := fun _ => [0, 1], types := [.cube] }
    t.okNotNull (t.nodeSubscript (fun a b => a == b) (mk3 (-100) 0 0)) = true := by
  decide +kernel

/-- C27 (containment) fails beyond the last knot: the point (100, 0, 0) of a 2×2×1 grid gets the linear
index of the node (0,1,0), which is far away from it. -/
theorem C27_above_counterexample :
    let t : Grid := { knots := fun d => if d = 2 then [0, 1] else [0, 1, 2], types := [.cube, .cube, .cube, .cube] }
    t.nodeIndex (fun a b => a == b) (mk3 100 0 0) = t.sub2idx (mk3 0 1 0) := by
  decide +kernel

/-! ### C28: numbering -/

/-- C28 (bijection).  Linear indices below the number of nodes and in-range subscripts correspond one
to one, in both directions. -/
theorem C28_numbering (t : Grid) :
    (∀ sub : Fin 3 → Nat, (∀ d, sub d < t.size d) →
      t.sub2idx sub < t.nodeCount ∧ t.idx2sub (t.sub2idx sub) = sub) ∧
    (∀ idx, idx < t.nodeCount →
      (∀ d, t.idx2sub idx d < t.size d) ∧ t.sub2idx (t.idx2sub idx) = idx) :=
  ⟨fun sub h => ⟨sub2idx_lt t sub h, idx2sub_sub2idx t sub h⟩,
   fun idx h => ⟨(sub2idx_idx2sub t idx h).2, (sub2idx_idx2sub t idx h).1⟩⟩

/-- C28 (order).  The linear index runs fastest along the first axis: it is
`i + n₀ (j + n₁ k)`. -/
theorem C28_order (t : Grid) (sub : Fin 3 → Nat) :
    t.sub2idx sub = sub 0 + t.size 0 * (sub 1 + t.size 1 * sub 2) ∧
    t.nodeCount = t.size 0 * t.size 1 * t.size 2 := ⟨sub2idx_eq t sub, nodeCount_eq t⟩

example : ∃ t : Grid, 5 < t.nodeCount ∧ t.idx2sub 5 0 = 1 ∧ t.idx2sub 5 1 = 0 ∧ t.idx2sub 5 2 = 1 :=
  ⟨{ knots := fun _ => [0, 1, 2], types := [] }, by decide⟩

/-- C28 (neighbours).  For every node, `node_neighbours` lists, without repetition, exactly the
non-null nodes that touch it in a face, an edge or a corner. -/
theorem C28_neighbours (t : Grid) (idx : Nat) (h : idx < t.nodeCount) :
    (t.nodeNeighbours idx).Nodup ∧
    ∀ n, n ∈ t.nodeNeighbours idx ↔
      n < t.nodeCount ∧ t.isNull n = false ∧ Touching (t.idx2sub idx) (t.idx2sub n) :=
  ⟨nodup_nodeNeighbours t idx h, mem_nodeNeighbours t idx h⟩

/-- C28 (symmetry).  Of two non-null nodes, each is listed as a neighbour of the other or neither is;
no node is its own neighbour. -/
theorem C28_neighbours_symmetric (t : Grid) (a b : Nat) (ha : a < t.nodeCount) (hb : b < t.nodeCount)
    (hna : t.isNull a = false) (hnb : t.isNull b = false) :
    (a ∈ t.nodeNeighbours b ↔ b ∈ t.nodeNeighbours a) ∧ a ∉ t.nodeNeighbours a := by
  rw [mem_nodeNeighbours t b hb, mem_nodeNeighbours t a ha, mem_nodeNeighbours t a ha]
  refine ⟨⟨?_, ?_⟩, ?_⟩
  · rintro ⟨-, -, h1, h2⟩; exact ⟨hb, hnb, h1.symm, fun d => (h2 d).symm⟩
  · rintro ⟨-, -, h1, h2⟩; exact ⟨ha, hna, h1.symm, fun d => (h2 d).symm⟩
  · rintro ⟨-, -, h1, -⟩; exact h1 rfl

example : ∃ t : Grid, 0 < t.nodeCount ∧ t.isNull 0 = false ∧ t.nodeNeighbours 0 = [2, 1, 3] :=
  ⟨{ knots := fun d => if d = 2 then [0, 1] else [0, 1, 2], types := [.cube, .cube, .poly, .cube] },
    by decide +kernel⟩

/-- C28 (centres).  The list of node centres is in the order of the linear indices: entry number
`sub2idx (i,j,k)` is the middle of node `(i,j,k)`, and there are as many centres as nodes. -/
theorem C28_centres (t : Grid) :
    t.centres.length = t.nodeCount ∧
    ∀ sub : Fin 3 → Nat, (∀ d, sub d < t.size d) → ∃ c, t.centres[t.sub2idx sub]? = some c ∧
      ∀ d, ∃ a b, (t.knots d)[sub d]? = some a ∧ (t.knots d)[sub d + 1]? = some b ∧ c d = (a + b) / 2 := by
  have hl : ∀ d, (axisCentres (t.knots d)).length = t.size d := by intro d; simp [axisCentres, Grid.size]
  constructor
  · rw [Grid.centres, triple_length, nodeCount_eq, hl, hl, hl]
  · intro sub h
    have h0 := h 0; have h1 := h 1; have h2 := h 2
    have := triple_getElem? (axisCentres (t.knots 0)) (axisCentres (t.knots 1)) (axisCentres (t.knots 2))
      (sub 0) (sub 1) (sub 2) (by rw [hl]; exact h0) (by rw [hl]; exact h1) (by rw [hl]; exact h2)
    refine ⟨_, Eq.trans ?_ this, ?_⟩
    · rw [sub2idx_eq, hl, hl]; rfl
    · intro d
      have hd : sub d + 1 < (t.knots d).length := by have := h d; rw [Grid.size] at this; omega
      refine ⟨(t.knots d)[sub d], (t.knots d)[sub d + 1], List.getElem?_eq_getElem _,
        List.getElem?_eq_getElem hd, ?_⟩
      have hax : ∀ (hk : sub d < (axisCentres (t.knots d)).length),
          (axisCentres (t.knots d))[sub d] = ((t.knots d)[sub d] + (t.knots d)[sub d + 1]) / 2 := by
        intro hk
        simp [axisCentres, List.getElem?_eq_getElem hd, List.getElem?_eq_getElem (show sub d < (t.knots d).length by omega)]
      fin_cases d
      · exact hax _
      · exact hax _
      · exact hax _

/-- C28 (intersections).  Entry number `sub2idx` — with the spans of the intersections — of the list of
trellis intersections is the point at the three knots named by the subscript. -/
theorem C28_intersections (t : Grid) (sub : Fin 3 → Nat) (h : ∀ d, sub d < (t.knots d).length) :
    ∃ c, t.intersections[sub2idxSpan sub t.intersectionsSpan]? = some c ∧
      ∀ d, (t.knots d)[sub d]? = some (c d) := by
  have := triple_getElem? (t.knots 0) (t.knots 1) (t.knots 2) (sub 0) (sub 1) (sub 2) (h 0) (h 1) (h 2)
  refine ⟨_, Eq.trans ?_ this, ?_⟩
  · have e : sub2idxSpan sub t.intersectionsSpan =
        sub 0 + (t.knots 0).length * (sub 1 + (t.knots 1).length * sub 2) := by
      simp [sub2idxSpan, Grid.intersectionsSpan, mk3, List.finRange_succ]
      ring
    rw [e]; rfl
  · intro d
    fin_cases d
    · exact List.getElem?_eq_getElem (h 0)
    · exact List.getElem?_eq_getElem (h 1)
    · exact List.getElem?_eq_getElem (h 2)

/-- C28 (faces).  The eight corners of the box of node `index`, in the six faces listed for it: the
face entries are the positions, in the list of intersections, of the corners
(001)(000)(100)(101), (001)(011)(010)(000), … of the node's box. -/
theorem C28_node_faces (t : Grid) (index : Nat) (h : index < t.nodeCount) :
    ∃ lo hi : Fin 3 → ℚ,
      (∀ d, (t.knots d)[t.idx2sub index d]? = some (lo d) ∧
        (t.knots d)[t.idx2sub index d + 1]? = some (hi d)) ∧
      (t.nodeFaces index).map (fun f => f.map (fun v => t.intersections[v]?)) =
        boxFaces.map (fun f => f.map (fun c => some (boxCorner lo hi c))) := by
  have hs := (sub2idx_idx2sub t index h).2
  have hlt : ∀ d, t.idx2sub index d + 1 < (t.knots d).length := by
    intro d; have := hs d; rw [Grid.size] at this; omega
  refine ⟨fun d => (t.knots d)[t.idx2sub index d]'(by have := hlt d; omega),
    fun d => (t.knots d)[t.idx2sub index d + 1]'(hlt d),
    fun d => ⟨List.getElem?_eq_getElem _, List.getElem?_eq_getElem _⟩, ?_⟩
  have key : ∀ (c : Fin 8) (v : Nat),
      v = sub2idxSpan (fun d => t.idx2sub index d + if cornerBits c d then 1 else 0) t.intersectionsSpan →
      t.intersections[v]? = some (boxCorner (fun d => (t.knots d)[t.idx2sub index d]'(by have := hlt d; omega))
        (fun d => (t.knots d)[t.idx2sub index d + 1]'(hlt d)) c) := by
    intro c v hv
    obtain ⟨p, hp, hp'⟩ := C28_intersections t
      (fun d => t.idx2sub index d + if cornerBits c d then 1 else 0)
      (by intro d; have := hlt d; split <;> omega)
    rw [hv, hp]
    congr 1
    funext d
    have := hp' d
    simp only [boxCorner]
    by_cases hb : cornerBits c d = true
    · simp only [hb, if_true] at this ⊢
      rw [List.getElem?_eq_getElem (hlt d)] at this
      exact (Option.some.inj this).symm
    · simp only [hb, if_false, Bool.false_eq_true, Nat.add_zero] at this ⊢
      rw [List.getElem?_eq_getElem (by have := hlt d; omega)] at this
      exact (Option.some.inj this).symm
  have e : ∀ (c : Fin 8), sub2idxSpan (fun d => t.idx2sub index d + if cornerBits c d then 1 else 0)
      t.intersectionsSpan = sub2idxSpan (t.idx2sub index) t.intersectionsSpan +
        (if cornerBits c 0 then t.intersectionsSpan 0 else 0) +
        (if cornerBits c 1 then t.intersectionsSpan 1 else 0) +
        (if cornerBits c 2 then t.intersectionsSpan 2 else 0) := by
    intro c
    simp only [sub2idxSpan, List.finRange_succ, List.finRange_zero, List.map_cons, List.map_nil,
      List.foldl_cons, List.foldl_nil]
    simp only [Fin.succ_zero_eq_one, Fin.isValue, Fin.succ_one_eq_two]
    split <;> split <;> split <;> simp [Nat.mul_add] <;> ring
  have k0 := key 0 (sub2idxSpan (t.idx2sub index) t.intersectionsSpan) (by rw [e]; simp [cornerBits])
  have k1 := key 1 (sub2idxSpan (t.idx2sub index) t.intersectionsSpan + t.intersectionsSpan 0) (by rw [e]; simp [cornerBits])
  have k2 := key 2 (sub2idxSpan (t.idx2sub index) t.intersectionsSpan + t.intersectionsSpan 0 + t.intersectionsSpan 1) (by rw [e]; simp [cornerBits])
  have k3 := key 3 (sub2idxSpan (t.idx2sub index) t.intersectionsSpan + t.intersectionsSpan 1) (by rw [e]; simp [cornerBits])
  have k4 := key 4 (sub2idxSpan (t.idx2sub index) t.intersectionsSpan + t.intersectionsSpan 0 + t.intersectionsSpan 2) (by rw [e]; simp [cornerBits])
  have k5 := key 5 (sub2idxSpan (t.idx2sub index) t.intersectionsSpan + t.intersectionsSpan 2) (by rw [e]; simp [cornerBits])
  have k6 := key 6 (sub2idxSpan (t.idx2sub index) t.intersectionsSpan + t.intersectionsSpan 1 + t.intersectionsSpan 2) (by rw [e]; simp [cornerBits])
  have k7 := key 7 (sub2idxSpan (t.idx2sub index) t.intersectionsSpan + t.intersectionsSpan 0 + t.intersectionsSpan 1 + t.intersectionsSpan 2) (by rw [e]; simp [cornerBits])
  simp only [Grid.nodeFaces, boxFaces, List.map_cons, List.map_nil, k0, k1, k2, k3, k4, k5, k6, k7]

/-- C28 (faces), the table: each of the six faces consists of the four corners of one side of the box,
each side occurs once, consecutive corners differ along one axis only, and the corners run
anticlockwise when seen from outside (the box product of two successive edges and the outward axis is
positive). -/
theorem C28_box_faces :
    boxFaces.map sideOf = [some (1, false), some (0, false), some (2, false), some (2, true),
      some (0, true), some (1, true)] ∧
    ∀ f ∈ boxFaces, f.Nodup ∧ f.length = 4 ∧ outward f = true := by
  decide +kernel

end Brille.Props
