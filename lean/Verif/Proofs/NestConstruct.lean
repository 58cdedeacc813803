import Verif.Proofs.Nest

namespace Brille.Nest

open Brille.Tetra Brille.Spec

/-- the vertices as a function of the index -/
def «at» (verts : List Pt) : Nat → Pt := fun i => verts.getD i 0

theorem at_prefix {a b : List Pt} (h : a <+: b) {i : Nat} (hi : i < a.length) : «at» b i = «at» a i := by
  obtain ⟨c, rfl⟩ := h
  unfold «at»
  rw [List.getD_eq_getElem?_getD, List.getD_eq_getElem?_getD, List.getElem?_append_left hi]

theorem addVertex_spec {same : Pt → Pt → Bool} (hs : ∀ a b, same a b = true ↔ a = b) {verts : List Pt}
    (hnd : verts.Nodup) (p : Pt) : ∃ verts' i, addVertex same verts p = some (verts', i) ∧
      verts <+: verts' ∧ verts'.Nodup ∧ verts'[i]? = some p := by
  unfold addVertex
  have hmem : ∀ i, i ∈ (List.range verts.length).filter
      (fun i => (verts[i]?.map fun q => same q p).getD false) ↔ verts[i]? = some p := by
    intro i
    rw [List.mem_filter, List.mem_range]
    constructor
    · rintro ⟨h1, h2⟩
      rw [List.getElem?_eq_getElem h1] at h2 ⊢
      simp only [Option.map_some, Option.getD_some] at h2
      rw [(hs _ _).mp h2]
    · intro h
      obtain ⟨hi, _⟩ := List.getElem?_eq_some_iff.mp h
      refine ⟨hi, ?_⟩
      rw [h]
      simp [(hs p p).mpr rfl]
  have hnodup : ((List.range verts.length).filter
      (fun i => (verts[i]?.map fun q => same q p).getD false)).Nodup := List.nodup_range.filter _
  match hl : (List.range verts.length).filter (fun i => (verts[i]?.map fun q => same q p).getD false) with
  | [] =>
    refine ⟨_, _, rfl, List.prefix_append _ _, ?_, by simp⟩
    rw [List.nodup_append]
    refine ⟨hnd, by simp, ?_⟩
    intro a ha b hb hab
    rw [List.mem_singleton] at hb
    obtain ⟨i, hi, hia⟩ := List.getElem_of_mem ha
    have := (hmem i).mpr (by rw [List.getElem?_eq_getElem hi, hia, hab, hb])
    rw [hl] at this
    simp at this
  | [i] =>
    refine ⟨_, _, rfl, List.prefix_rfl, hnd, ?_⟩
    exact (hmem i).mp (by rw [hl]; simp)
  | a :: b :: l =>
    exfalso
    have ha := (hmem a).mp (by rw [hl]; simp)
    have hb := (hmem b).mp (by rw [hl]; simp)
    rw [hl] at hnodup
    have hne : a ≠ b := by
      intro he
      rw [List.nodup_cons] at hnodup
      exact hnodup.1 (by rw [he]; simp)
    obtain ⟨h1, _⟩ := List.getElem?_eq_some_iff.mp ha
    exact hne ((List.getElem?_inj h1 hnd).mp (by rw [ha, hb]))

theorem addVertices_spec {same : Pt → Pt → Bool} (hs : ∀ a b, same a b = true ↔ a = b) :
    ∀ (ps : List Pt) {verts : List Pt}, verts.Nodup → ∃ verts' is, addVertices same verts ps = some (verts', is) ∧
      verts <+: verts' ∧ verts'.Nodup ∧ is.length = ps.length ∧
      ∀ k, k < ps.length → ∃ i, is[k]? = some i ∧ verts'[i]? = ps[k]? := by
  intro ps
  induction ps with
  | nil => intro verts h; exact ⟨verts, [], by rw [addVertices], List.prefix_rfl, h, rfl, by simp⟩
  | cons p ps ih =>
    intro verts h
    obtain ⟨v1, i, h1, h2, h3, h4⟩ := addVertex_spec hs h p
    obtain ⟨v2, is, g1, g2, g3, g4, g5⟩ := ih h3
    refine ⟨v2, i :: is, by rw [addVertices, h1]; dsimp only; rw [g1], h2.trans g2, g3, by simp [g4], ?_⟩
    intro k hk
    cases k with
    | zero =>
      refine ⟨i, rfl, ?_⟩
      obtain ⟨c, rfl⟩ := g2
      obtain ⟨hi, _⟩ := List.getElem?_eq_some_iff.mp h4
      rw [List.getElem?_append_left hi, h4]
      rfl
    | succ k =>
      obtain ⟨j, a, b⟩ := g5 k (by simpa using hk)
      exact ⟨j, by simpa using a, by simpa using b⟩

/-- indices in range, and volume and sphere belong to the corners -/
structure TetOk (verts : List Pt) (t : Tet) : Prop where
  lt : ∀ j, t.vi j < verts.length
  fits : Fits («at» verts) t

theorem TetOk.mono {a b : List Pt} (h : a <+: b) {t : Tet} (ht : TetOk a t) : TetOk b t := by
  have e : ∀ j, «at» b (t.vi j) = «at» a (t.vi j) := fun j => at_prefix h (ht.lt j)
  refine ⟨fun j => (ht.lt j).trans_le h.length_le, ?_⟩
  obtain ⟨h1, h2, h3⟩ := ht.fits
  refine ⟨?_, h2, ?_⟩
  · simp only [e]; exact h1
  · simp only [e]; exact h3

/-- What is needed of a triangulation of the tetrahedron with corners `c`: indices in range, volume and
circumsphere of each part correct, and the parts cover the whole. -/
structure Fills (c : Fin 4 → Pt) (tri : List Pt × List Tet) : Prop where
  ok : ∀ t ∈ tri.2, TetOk tri.1 t
  cover : ∀ x, InTet c x → ∃ t ∈ tri.2, InTet (corners («at» tri.1) t) x

theorem corner_inTet (c : Fin 4 → Pt) : InTet c (c 0) := by
  refine ⟨![1, 0, 0, 0], ?_, ?_, ?_⟩
  · intro j
    match j with
    | 0 => norm_num
    | 1 => exact le_refl _
    | 2 => exact le_refl _
    | 3 => exact le_refl _
  · rw [Fin.sum_univ_four]; decide +kernel
  · intro d
    rw [Fin.sum_univ_four]
    simp [Matrix.cons_val]

/-- A tree as it should be: tetrahedra in order, branches that cover their node, and leaves that are small
unless they are `d` levels down. -/
inductive Sound (maxVolume : ℚ) (verts : List Pt) : Nat → Node → Prop
  | leaf {d b} : TetOk verts b → b.vol ≤ maxVolume ∨ d = 0 → Sound maxVolume verts d (.mk b [])
  | node {d b br} : TetOk verts b → (∀ n ∈ br, Sound maxVolume verts d n) →
      (∀ x, InTet (corners («at» verts) b) x → ∃ n ∈ br, InTet (corners («at» verts) n.boundary) x) →
      Sound maxVolume verts (d + 1) (.mk b br)

theorem Sound.boundary {maxVolume : ℚ} {verts : List Pt} {d : Nat} {n : Node} (h : Sound maxVolume verts d n) :
    TetOk verts n.boundary := by
  cases h with
  | leaf h _ => exact h
  | node h _ _ => exact h

theorem corners_prefix {a b : List Pt} (h : a <+: b) {t : Tet} (ht : TetOk a t) :
    corners («at» b) t = corners («at» a) t := by
  funext j
  exact at_prefix h (ht.lt j)

theorem Sound.mono {maxVolume : ℚ} {a b : List Pt} (hab : a <+: b) {d : Nat} {n : Node}
    (h : Sound maxVolume a d n) : Sound maxVolume b d n := by
  induction h with
  | leaf h1 h2 => exact .leaf (h1.mono hab) h2
  | node h1 h2 h3 ih =>
    refine .node (h1.mono hab) ih ?_
    intro x hx
    rw [corners_prefix hab h1] at hx
    obtain ⟨n, hn, hin⟩ := h3 x hx
    exact ⟨n, hn, by rw [corners_prefix hab (h2 n hn).boundary]; exact hin⟩

/-- a function that makes a node of a tetrahedron -/
def Grows (maxVolume : ℚ) (d : Nat) (grow : Tet → List Pt → Option (Node × List Pt)) : Prop :=
  ∀ (t : Tet) (verts : List Pt), verts.Nodup → TetOk verts t → ∃ n verts', grow t verts = some (n, verts') ∧
    verts <+: verts' ∧ verts'.Nodup ∧ n.boundary = t ∧ Sound maxVolume verts' d n

theorem build_spec {maxVolume : ℚ} {d : Nat} {grow : Tet → List Pt → Option (Node × List Pt)}
    (hg : Grows maxVolume d grow) : ∀ (ts : List Tet) (verts : List Pt), verts.Nodup →
    (∀ t ∈ ts, TetOk verts t) → ∃ ns verts', build grow ts verts = some (ns, verts') ∧ verts <+: verts' ∧
      verts'.Nodup ∧ ns.map Node.boundary = ts ∧ ∀ n ∈ ns, Sound maxVolume verts' d n := by
  intro ts
  induction ts with
  | nil => intro verts h _; exact ⟨[], verts, rfl, List.prefix_rfl, h, rfl, by simp⟩
  | cons t ts ih =>
    intro verts h ht
    obtain ⟨n, v1, h1, h2, h3, h4, h5⟩ := hg t verts h (ht t List.mem_cons_self)
    obtain ⟨ns, v2, g1, g2, g3, g4, g5⟩ := ih v1 h3
      (fun t' ht' => (ht t' (List.mem_cons_of_mem _ ht')).mono h2)
    refine ⟨n :: ns, v2, by rw [build, h1]; dsimp only; rw [g1], h2.trans g2, g3, by simp [h4, g4], ?_⟩
    intro m hm
    rcases List.mem_cons.mp hm with rfl | hm
    · exact h5.mono g2
    · exact g5 m hm

theorem remap_ok {ps verts : List Pt} {is : List Nat}
    (hmap : ∀ k, k < ps.length → ∃ i, is[k]? = some i ∧ verts[i]? = ps[k]?) {t : Tet} (ht : TetOk ps t) :
    TetOk verts (remap is t) ∧ corners («at» verts) (remap is t) = corners («at» ps) t := by
  have e : ∀ j, «at» verts ((remap is t).vi j) = «at» ps (t.vi j) ∧ (remap is t).vi j < verts.length := by
    intro j
    obtain ⟨i, h1, h2⟩ := hmap _ (ht.lt j)
    have hi : (remap is t).vi j = i := by
      show is.getD (t.vi j) 0 = i
      rw [List.getD_eq_getElem?_getD, h1]; rfl
    rw [List.getElem?_eq_getElem (ht.lt j)] at h2
    obtain ⟨hlt, _⟩ := List.getElem?_eq_some_iff.mp h2
    rw [hi]
    refine ⟨?_, hlt⟩
    unfold «at»
    rw [List.getD_eq_getElem?_getD, List.getD_eq_getElem?_getD, h2, List.getElem?_eq_getElem (ht.lt j)]
  refine ⟨⟨fun j => (e j).2, ?_⟩, funext fun j => (e j).1⟩
  obtain ⟨h1, h2, h3⟩ := ht.fits
  refine ⟨?_, h2, ?_⟩
  · simp only [fun j => (e j).1]; exact h1
  · simp only [fun j => (e j).1]; exact h3

section
variable {same : Pt → Pt → Bool} (hs : ∀ a b, same a b = true ↔ a = b) {tri : Triangulator}
  {limit : Nat → ℚ} {maxVolume : ℚ}
  (htri : ∀ (c : Fin 4 → Pt) (l : ℚ), 0 < vol6 c → Fills c (tri ((List.finRange 4).map c) l))
include hs htri

theorem subdivide_grows : ∀ left : Nat, Grows maxVolume (left + 1) (subdivide same tri limit maxVolume left) := by
  -- one level, given what makes the branches
  have level : ∀ (left : Nat) (grow : Tet → List Pt → Option (Node × List Pt)), Grows maxVolume left grow →
      ∀ (b : Tet) (verts : List Pt), verts.Nodup → TetOk verts b →
      ∃ n v2, split same tri (limit left) grow b verts = some (n, v2) ∧ verts <+: v2 ∧ v2.Nodup ∧
        n.boundary = b ∧ Sound maxVolume v2 (left + 1) n := by
    intro left grow hg b verts hnd hb
    have hvol : 0 < vol6 (corners («at» verts) b) := by
      have h := hb.fits.vol
      have hp := hb.fits.pos
      rw [show (fun j => «at» verts (b.vi j)) = corners («at» verts) b from rfl] at h
      linarith
    have hf := htri (corners («at» verts) b) (limit left) hvol
    unfold split
    have hc : ((List.finRange 4).map fun j => verts.getD (b.vi j) 0) =
        (List.finRange 4).map (corners («at» verts) b) := rfl
    rw [hc]
    generalize tri ((List.finRange 4).map (corners («at» verts) b)) (limit left) = r at hf
    obtain ⟨v1, is, h1, h2, h3, h4, h5⟩ := addVertices_spec hs r.1 hnd
    obtain ⟨ns, v2, g1, g2, g3, g4, g5⟩ := build_spec hg (r.2.map (remap is)) v1 h3 (by
      intro t ht
      obtain ⟨t', ht', rfl⟩ := List.mem_map.mp ht
      exact (remap_ok h5 (hf.ok t' ht')).1)
    refine ⟨.mk b ns, v2, by rw [h1]; dsimp only; rw [g1], h2.trans g2, g3, rfl, ?_⟩
    refine .node (hb.mono (h2.trans g2)) g5 ?_
    intro x hx
    rw [corners_prefix (h2.trans g2) hb] at hx
    obtain ⟨t, ht, hin⟩ := hf.cover x hx
    have hmem : remap is t ∈ ns.map Node.boundary := by rw [g4]; exact List.mem_map_of_mem ht
    obtain ⟨n, hn, hbn⟩ := List.mem_map.mp hmem
    refine ⟨n, hn, ?_⟩
    obtain ⟨ok, hcor⟩ := remap_ok h5 (hf.ok t ht)
    rw [hbn, corners_prefix g2 ok, hcor]
    exact hin
  intro left
  induction left with
  | zero =>
    intro b verts hnd hb
    refine level 0 _ ?_ b verts hnd hb
    intro t verts hnd ht
    exact ⟨_, _, rfl, List.prefix_rfl, hnd, rfl, .leaf ht (Or.inr rfl)⟩
  | succ left ih =>
    intro b verts hnd hb
    refine level (left + 1) _ ?_ b verts hnd hb
    intro t verts hnd ht
    dsimp only
    by_cases hv : maxVolume < t.vol
    · rw [if_pos hv]; exact ih t verts hnd ht
    · rw [if_neg hv]
      exact ⟨_, _, rfl, List.prefix_rfl, hnd, rfl, .leaf ht (Or.inl (not_lt.mp hv))⟩

theorem construct_spec (maxBranchings : Nat) (root : List Pt × List Tet) (hnd : root.1.Nodup)
    (hroot : ∀ t ∈ root.2, TetOk root.1 t) :
    ∃ ns verts, construct same tri limit maxVolume maxBranchings root = some (ns, verts) ∧
      root.1 <+: verts ∧ verts.Nodup ∧ ns.map Node.boundary = root.2 ∧
      ∀ n ∈ ns, Sound maxVolume verts maxBranchings n := by
  unfold construct
  apply build_spec _ _ _ hnd hroot
  intro t verts hn ht
  cases maxBranchings with
  | zero => exact ⟨_, _, rfl, List.prefix_rfl, hn, rfl, .leaf ht (Or.inr rfl)⟩
  | succ m =>
    dsimp only
    by_cases hv : maxVolume < t.vol
    · rw [if_pos hv]; exact subdivide_grows hs htri m t verts hn ht
    · rw [if_neg hv]
      exact ⟨_, _, rfl, List.prefix_rfl, hn, rfl, .leaf ht (Or.inl (not_lt.mp hv))⟩

end

/-- a point in the boundary of a sound tree is in a chain of tetrahedra down to a leaf -/
theorem Sound.chain {maxVolume : ℚ} {verts : List Pt} {d : Nat} {n : Node} (h : Sound maxVolume verts d n)
    {x : Pt} (hx : InTet (corners («at» verts) n.boundary) x) :
    ∃ t, Chain (fun t => TetOk verts t ∧ InTet (corners («at» verts) t) x) n t := by
  induction h with
  | leaf h1 _ => exact ⟨_, .leaf ⟨h1, hx⟩⟩
  | node h1 h2 h3 ih =>
    obtain ⟨m, hm, hin⟩ := h3 x hx
    obtain ⟨t, ht⟩ := ih m hm hin
    exact ⟨t, .step ⟨h1, hx⟩ hm ht⟩

theorem sound_leaves {maxVolume : ℚ} {verts : List Pt} {d : Nat} {n : Node} (h : Sound maxVolume verts d n) :
    ∀ t ∈ leaves n, TetOk verts t := by
  induction h with
  | leaf h1 _ => intro t ht; simp [leaves] at ht; rw [ht]; exact h1
  | @node d b br h1 h2 h3 ih =>
    intro t ht
    cases br with
    | nil => simp [leaves] at ht; rw [ht]; exact h1
    | cons c cs =>
      rw [leaves, mem_allLeaves] at ht
      obtain ⟨m, hm, ht⟩ := ht
      exact ih m hm t ht

end Brille.Nest
