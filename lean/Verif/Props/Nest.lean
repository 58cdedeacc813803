/-
C43: the search through nested tetrahedra.  C47: how they are made.
-/
import Verif.Proofs.NestConstruct
import Verif.Props.Tetra

namespace Brille.Nest

open Brille.Tetra Brille.Spec

/-- the tetrahedra of a tree: those of all its nodes -/
inductive Has : Node → Tet → Prop
  | here {b br} : Has (.mk b br) b
  | sub {b br m t} : m ∈ br → Has m t → Has (.mk b br) t

theorem Chain.has {acc : Tet → Prop} {n : Node} {t : Tet} (h : Chain acc n t) :
    Chain (fun u => acc u ∧ Has n u) n t := by
  induction h with
  | leaf ha => exact .leaf ⟨ha, .here⟩
  | step ha hm _ ih => exact .step ⟨ha, .here⟩ hm (ih.mono fun u hu => ⟨hu.1, .sub hm hu.2⟩)

theorem Sound.has {maxVolume : ℚ} {verts : List Pt} {d : Nat} {n : Node} (h : Sound maxVolume verts d n) :
    ∀ t, Has n t → TetOk verts t := by
  induction h with
  | leaf h1 _ => intro t ht; cases ht with
    | here => exact h1
    | sub hm _ => simp at hm
  | node h1 h2 h3 ih => intro t ht; cases ht with
    | here => exact h1
    | sub hm ht => exact ih _ hm t ht

end Brille.Nest

namespace Brille.Props

open Brille.Tetra Brille.Nest Brille.Spec Brille.Approx

/-- `x` is in the tetrahedron with corners `p` up to a tolerance for the weights. -/
def NearTet (τ : ℚ) (p : Fin 4 → Fin 3 → ℚ) (x : Fin 3 → ℚ) : Prop :=
  ∃ w, (∀ j, -τ ≤ w j) ∧ Places p w x

/-- **C43 (found).** If some chain from a branch of the root to a leaf consists of tetrahedra that contain the
point, the result is not empty, whatever the tolerances. -/
theorem C43_found (isZero : ℚ → Bool) (τ : ℚ) (hz : ZeroUpTo isZero τ) (hτ : τ < 1 / 16) (near : ℚ → ℚ → Bool)
    (hnear : ∀ a, near a a = true) (v : Nat → Pt) (branches : List Node)
    (hfit : ∀ n ∈ branches, ∀ t, Has n t → Fits v t) (x : Pt)
    (hx : ∃ n ∈ branches, ∃ t, Chain (fun u => InTet (fun j => v (u.vi j)) x) n t) :
    indicesWeights isZero near v branches x ≠ [] := by
  obtain ⟨n, hn, t, hc⟩ := hx
  have hc' : Chain (fun u => noneNegative isZero (leafWeights near v u x) = true) n t :=
    hc.has.mono fun u hu => accept_of_inTet hnear (hfit n hn u hu.2) hu.1
  have hmem := (mem_search (fun u => noneNegative isZero (leafWeights near v u x)) _ branches (le_refl _) t).mpr
    ⟨n, hn, hc'⟩
  unfold indicesWeights
  dsimp only
  cases hb : bestSolution (fun t => (List.finRange 4).all fun j => decide (0 < leafWeights near v t x j))
      (search (fun u => noneNegative isZero (leafWeights near v u x)) (sizes branches) branches) with
  | none =>
    rw [bestSolution_none] at hb
    rw [hb] at hmem
    simp at hmem
  | some s =>
    dsimp only
    intro hnil
    obtain ⟨m, hm, hcs⟩ := (mem_search _ _ branches (le_refl _) s).mp (bestSolution_mem hb)
    have hacc := hcs.acc
    have hs : inSphere near s x = true := by
      by_contra hne
      unfold leafWeights at hacc
      rw [if_neg hne, noneNegative_iff] at hacc
      have := (hz.2 _).mp (hacc 0 (by norm_num))
      norm_num at this
      linarith
    have hl : leafWeights near v s x = baryW v s x := by unfold leafWeights; rw [if_pos hs]
    have hfs : Fits v s := hfit m hm s hcs.has.acc.2
    have hp := baryW_places v s x hfs.vol hfs.pos.ne'
    have hspec := (merge_spec (M := 0) (g := fun _ => 0) (fx := 0) hz.1 hτ hz.2
      ((noneNegative_iff _ _).mp (hl ▸ hacc)) hp.1 (by simp) (by simp)).2.2.1
    have hsum : combine (nonzero isZero s (merge isZero (leafWeights near v s x))) (fun _ => 1) = 0 := by
      rw [hnil]; rfl
    rw [combine_nonzero, hl] at hsum
    simp only [mul_one] at hsum
    rw [hsum] at hspec
    norm_num at hspec

/-- **C43 (weights).** Any result that is not empty comes from one leaf: it and all nodes above it contain the
point up to the tolerance, the indices are corners of the leaf, the weights are positive and sum to one, and
every function that is linear up to a constant is reproduced up to the tolerance. -/
theorem C43_weights (isZero : ℚ → Bool) (τ : ℚ) (hz : ZeroUpTo isZero τ) (hτ : τ < 1 / 16) (near : ℚ → ℚ → Bool)
    (v : Nat → Pt) (branches : List Node) (hfit : ∀ n ∈ branches, ∀ t, Has n t → Fits v t) (x : Pt)
    (h : indicesWeights isZero near v branches x ≠ []) :
    ∃ n ∈ branches, ∃ t, Chain (fun u => NearTet τ (fun j => v (u.vi j)) x) n t ∧ t ∈ leaves n ∧
      (∀ p ∈ indicesWeights isZero near v branches x, τ < p.2 ∧ ∃ j, p.1 = t.vi j) ∧
      ((indicesWeights isZero near v branches x).map Prod.snd).sum = 1 ∧
      ∀ f, AffineMap f → ∀ M, (∀ j, |f (v (t.vi j))| ≤ M) →
        |combine (indicesWeights isZero near v branches x) (fun i => f (v i)) - f x| ≤ 8 * τ * M := by
  cases hb : bestSolution (fun t => (List.finRange 4).all fun j => decide (0 < leafWeights near v t x j))
      (search (fun u => noneNegative isZero (leafWeights near v u x)) (sizes branches) branches) with
  | none => exact absurd (by unfold indicesWeights; dsimp only; rw [hb]) h
  | some t =>
    obtain ⟨n, hn, hc⟩ := (mem_search _ _ branches (le_refl _) t).mp (bestSolution_mem hb)
    have hbary : ∀ u, noneNegative isZero (leafWeights near v u x) = true → leafWeights near v u x = baryW v u x := by
      intro u hacc
      unfold leafWeights at hacc ⊢
      by_cases hs : inSphere near u x = true
      · rw [if_pos hs]
      · rw [if_neg hs, noneNegative_iff] at hacc
        have := (hz.2 _).mp (hacc 0 (by norm_num))
        norm_num at this
        linarith
    have hl := hbary t hc.acc
    have hft : Fits v t := hfit n hn t hc.has.acc.2
    have hp := baryW_places v t x hft.vol hft.pos.ne'
    have hneg := (noneNegative_iff _ _).mp (hl ▸ hc.acc)
    have hres : indicesWeights isZero near v branches x =
        nonzero isZero t (merge isZero (baryW v t x)) := by
      unfold indicesWeights
      dsimp only
      rw [hb]
      dsimp only
      rw [hl]
    rw [hres]
    have hspec0 := merge_spec (M := 0) (g := fun _ => 0) (fx := 0) hz.1 hτ hz.2 hneg hp.1 (by simp) (by simp)
    refine ⟨n, hn, t, ?_, chain_leaf hc, ?_, ?_, ?_⟩
    · refine hc.has.mono fun u hu => ?_
      have hfu := hfit n hn u hu.2
      refine ⟨baryW v u x, fun j => ?_, baryW_places v u x hfu.vol hfu.pos.ne'⟩
      have hng := (noneNegative_iff _ _).mp (hbary u hu.1 ▸ hu.1) j
      by_cases hlt : baryW v u x j < 0
      · exact (abs_le.mp ((hz.2 _).mp (hng hlt))).1
      · linarith [not_lt.mp hlt, hz.1]
    · intro p hp'
      unfold nonzero at hp'
      rw [List.mem_map] at hp'
      obtain ⟨j, hj, rfl⟩ := hp'
      rw [List.mem_filter] at hj
      have hj2 : isZero (merge isZero (baryW v t x) j) = false := by simpa using hj.2
      exact ⟨hspec0.2.1 j (by rw [← hspec0.1 j]; exact hj2), j, rfl⟩
    · have := combine_nonzero isZero t (merge isZero (baryW v t x)) (fun _ => 1)
      unfold combine at this
      simp only [mul_one] at this
      rw [this]
      exact hspec0.2.2.1
    · intro f hf M hM
      have hspec := merge_spec hz.1 hτ hz.2 hneg hp.1 (affine_places hp hf) hM
      rw [combine_nonzero]
      exact hspec.2.2.2

/-- **C43 (exactly).** Without tolerance: the result is empty exactly if no chain from a branch of the root to a
leaf contains the point; otherwise the weights reproduce every function that is linear up to a constant. -/
theorem C43_exact (isZero : ℚ → Bool) (hz : ZeroUpTo isZero 0) (near : ℚ → ℚ → Bool)
    (hnear : ∀ a, near a a = true) (v : Nat → Pt) (branches : List Node)
    (hfit : ∀ n ∈ branches, ∀ t, Has n t → Fits v t) (x : Pt) :
    (indicesWeights isZero near v branches x ≠ [] ↔
      ∃ n ∈ branches, ∃ t, Chain (fun u => InTet (fun j => v (u.vi j)) x) n t) ∧
    (indicesWeights isZero near v branches x ≠ [] → ∀ f, AffineMap f →
      combine (indicesWeights isZero near v branches x) (fun i => f (v i)) = f x) := by
  refine ⟨⟨fun h => ?_, C43_found isZero 0 hz (by norm_num) near hnear v branches hfit x⟩, fun h f hf => ?_⟩
  · obtain ⟨n, hn, t, hc, _⟩ := C43_weights isZero 0 hz (by norm_num) near v branches hfit x h
    exact ⟨n, hn, t, hc.mono fun u ⟨w, hw, hp⟩ => ⟨w, fun j => by have := hw j; linarith, hp⟩⟩
  · obtain ⟨n, hn, t, _, _, _, _, hfx⟩ := C43_weights isZero 0 hz (by norm_num) near v branches hfit x h
    have := hfx f hf (|f (v (t.vi 0))| + |f (v (t.vi 1))| + |f (v (t.vi 2))| + |f (v (t.vi 3))|) (by
      have h0 := abs_nonneg (f (v (t.vi 0)))
      have h1 := abs_nonneg (f (v (t.vi 1)))
      have h2 := abs_nonneg (f (v (t.vi 2)))
      have h3 := abs_nonneg (f (v (t.vi 3)))
      intro j
      match j with
      | 0 => linarith
      | 1 => linarith
      | 2 => linarith
      | 3 => linarith)
    rw [mul_zero, zero_mul] at this
    exact sub_eq_zero.mp (abs_nonpos_iff.mp this)

/-- **C43 (tetrahedra).** The tree reports exactly the vertex indices of its leaves. -/
theorem C43_tetrahedra (branches : List Node) (f : Fin 4 → Nat) :
    f ∈ allTetrahedra branches ↔ ∃ n ∈ branches, ∃ t ∈ leaves n, t.vi = f := by
  rw [mem_allTetrahedra]
  constructor
  · rintro ⟨t, ht, he⟩
    obtain ⟨n, hn, ht⟩ := mem_allLeaves.mp ht
    exact ⟨n, hn, t, ht, he⟩
  · rintro ⟨n, hn, t, ht, he⟩
    exact ⟨t, mem_allLeaves.mpr ⟨n, hn, ht⟩, he⟩

/-- **C43 (keys).** For any point, any two different vertices in the result have their key, in either order,
among those collected from the tree: so a permutation table made with these keys has an entry for each pair of
vertices that an interpolation needs. -/
theorem C43_keys (isZero : ℚ → Bool) (near : ℚ → ℚ → Bool) (v : Nat → Pt) (branches : List Node) (x : Pt)
    (nv : Nat) (p q : Nat × ℚ) (hp : p ∈ indicesWeights isZero near v branches x)
    (hq : q ∈ indicesWeights isZero near v branches x) (hne : p.1 ≠ q.1) :
    p.1 * nv + q.1 ∈ collectAll nv branches := by
  unfold indicesWeights at hp hq
  dsimp only at hp hq
  cases hb : bestSolution (fun t => (List.finRange 4).all fun j => decide (0 < leafWeights near v t x j))
      (search (fun u => noneNegative isZero (leafWeights near v u x)) (sizes branches) branches) with
  | none => rw [hb] at hp; simp at hp
  | some t =>
    rw [hb] at hp hq
    obtain ⟨n, hn, hc⟩ := (mem_search _ _ branches (le_refl _) t).mp (bestSolution_mem hb)
    unfold nonzero at hp hq
    rw [List.mem_map] at hp hq
    obtain ⟨a, _, rfl⟩ := hp
    obtain ⟨b, _, rfl⟩ := hq
    rw [mem_collectAll]
    exact ⟨t, mem_allLeaves.mpr ⟨n, hn, chain_leaf hc⟩, a, b, hne, rfl⟩

/-- **C47 (construction).** Let the triangulation of the polyhedron have distinct vertices and correct
tetrahedra, let the triangulation of any tetrahedron be correct and cover it, and let vertices be identified
exactly if they are equal.  Then the construction throws nothing; it keeps the vertices of the first
triangulation and their numbers; no two vertices are equal; the branches of the root are the first
tetrahedra; and in every tree the indices are in range, volumes and spheres are those of the corners, every node
is covered by its branches, and every leaf is within the volume limit unless it is at the last level. -/
theorem C47_construction (same : Pt → Pt → Bool) (hs : ∀ a b, same a b = true ↔ a = b) (tri : Triangulator)
    (htri : ∀ (c : Fin 4 → Pt) (l : ℚ), 0 < vol6 c → Fills c (tri ((List.finRange 4).map c) l))
    (limit : Nat → ℚ) (maxVolume : ℚ) (maxBranchings : Nat) (root : List Pt × List Tet)
    (hnd : root.1.Nodup) (hroot : ∀ t ∈ root.2, TetOk root.1 t) :
    ∃ branches verts, construct same tri limit maxVolume maxBranchings root = some (branches, verts) ∧
      root.1 <+: verts ∧ verts.Nodup ∧ branches.map Node.boundary = root.2 ∧
      ∀ n ∈ branches, Sound maxVolume verts maxBranchings n :=
  construct_spec hs htri maxBranchings root hnd hroot

/-- **C47 (every point).** With these triangulations, for every point in one of the first tetrahedra the search
through the constructed trees returns positive weights of vertices that exist; they sum to one and reproduce,
up to the tolerance, every function of the position that is linear up to a constant. -/
theorem C47_every_point (isZero : ℚ → Bool) (τ : ℚ) (hz : ZeroUpTo isZero τ) (hτ : τ < 1 / 16)
    (near : ℚ → ℚ → Bool) (hnear : ∀ a, near a a = true)
    (same : Pt → Pt → Bool) (hs : ∀ a b, same a b = true ↔ a = b) (tri : Triangulator)
    (htri : ∀ (c : Fin 4 → Pt) (l : ℚ), 0 < vol6 c → Fills c (tri ((List.finRange 4).map c) l))
    (limit : Nat → ℚ) (maxVolume : ℚ) (maxBranchings : Nat) (root : List Pt × List Tet)
    (hnd : root.1.Nodup) (hroot : ∀ t ∈ root.2, TetOk root.1 t) (x : Pt)
    (hx : ∃ t ∈ root.2, InTet (fun j => root.1.getD (t.vi j) 0) x) :
    ∃ branches verts, construct same tri limit maxVolume maxBranchings root = some (branches, verts) ∧
      ∃ iw, indicesWeights isZero near (fun i => verts.getD i 0) branches x = iw ∧
        (∀ p ∈ iw, p.1 < verts.length ∧ τ < p.2) ∧ (iw.map Prod.snd).sum = 1 ∧
        ∀ f, AffineMap f → ∀ M, (∀ i, |f (verts.getD i 0)| ≤ M) →
          |combine iw (fun i => f (verts.getD i 0)) - f x| ≤ 8 * τ * M := by
  obtain ⟨branches, verts, h1, h2, h3, h4, h5⟩ :=
    construct_spec (maxVolume := maxVolume) (limit := limit) hs htri maxBranchings root hnd hroot
  refine ⟨branches, verts, h1, _, rfl, ?_⟩
  have hfit : ∀ n ∈ branches, ∀ t, Has n t → Fits («at» verts) t :=
    fun n hn t ht => ((h5 n hn).has t ht).fits
  obtain ⟨t, ht, hin⟩ := hx
  have hmem : t ∈ branches.map Node.boundary := by rw [h4]; exact ht
  obtain ⟨n, hn, rfl⟩ := List.mem_map.mp hmem
  obtain ⟨t, hc⟩ := (h5 n hn).chain (x := x) (by
    rw [corners_prefix h2 (hroot _ ht)]; exact hin)
  have hne := C43_found isZero τ hz hτ near hnear («at» verts) branches hfit x
    ⟨n, hn, t, hc.mono fun u hu => hu.2⟩
  obtain ⟨m, hm, s, hcs, hleaf, hp, hsum, hf⟩ := C43_weights isZero τ hz hτ near («at» verts) branches hfit x hne
  refine ⟨fun p hpm => ?_, hsum, fun f hfa M hM => hf f hfa M fun j => hM _⟩
  obtain ⟨hpos, j, hj⟩ := hp p hpm
  exact ⟨by rw [hj]; exact ((h5 m hm).has s hcs.has.acc.2).lt j, hpos⟩

/-! ### a triangulation that meets the conditions -/

/-- the middle of the first edge -/
def middle (c : Fin 4 → Pt) : Pt := fun d => (c 0 d + c 1 d) / 2

/-- a radius that is large enough around the origin -/
def wide (c : Fin 4 → Pt) : ℚ :=
  1 + ∑ d : Fin 3, (c 0 d ^ 2 + c 1 d ^ 2 + c 2 d ^ 2 + c 3 d ^ 2)

/-- Halves of a tetrahedron. -/
def halves (c : Fin 4 → Pt) : List Pt × List Tet :=
  ([c 0, c 1, c 2, c 3, middle c],
   [⟨![0, 4, 2, 3], 0, wide c, vol6 c / 12⟩, ⟨![4, 1, 2, 3], 0, wide c, vol6 c / 12⟩])

def halvesTri : Triangulator
  | [a, b, c, d], _ => halves ![a, b, c, d]
  | _, _ => ([], [])

theorem in_wide (c : Fin 4 → Pt) (p : Pt)
    (h : ∀ d, p d ^ 2 ≤ c 0 d ^ 2 + c 1 d ^ 2 + c 2 d ^ 2 + c 3 d ^ 2) :
    ∑ d, (p d - (0 : Pt) d) ^ 2 ≤ wide c ^ 2 := by
  have hs : ∑ d, (p d - (0 : Pt) d) ^ 2 ≤ ∑ d : Fin 3, (c 0 d ^ 2 + c 1 d ^ 2 + c 2 d ^ 2 + c 3 d ^ 2) := by
    apply Finset.sum_le_sum
    intro d _
    rw [Pi.zero_apply, sub_zero]
    exact h d
  have h0 : 0 ≤ ∑ d : Fin 3, (c 0 d ^ 2 + c 1 d ^ 2 + c 2 d ^ 2 + c 3 d ^ 2) :=
    Finset.sum_nonneg fun d _ => by positivity
  unfold wide
  nlinarith

theorem halves_fill (c : Fin 4 → Pt) (hv : 0 < vol6 c) : Fills c (halves c) := by
  have hm : ∀ d, middle c d ^ 2 ≤ c 0 d ^ 2 + c 1 d ^ 2 + c 2 d ^ 2 + c 3 d ^ 2 := by
    intro d
    unfold middle
    nlinarith [sq_nonneg (c 0 d - c 1 d), sq_nonneg (c 0 d), sq_nonneg (c 1 d), sq_nonneg (c 2 d),
      sq_nonneg (c 3 d)]
  have hc : ∀ k d, c k d ^ 2 ≤ c 0 d ^ 2 + c 1 d ^ 2 + c 2 d ^ 2 + c 3 d ^ 2 := by
    intro k d
    have h0 := sq_nonneg (c 0 d)
    have h1 := sq_nonneg (c 1 d)
    have h2 := sq_nonneg (c 2 d)
    have h3 := sq_nonneg (c 3 d)
    match k with
    | 0 => linarith
    | 1 => linarith
    | 2 => linarith
    | 3 => linarith
  constructor
  · intro t ht
    unfold halves at ht
    simp only [List.mem_cons, List.not_mem_nil, or_false] at ht
    rcases ht with rfl | rfl
    · refine ⟨?_, ?_, div_pos hv (by norm_num), ?_⟩
      · intro j
        match j with
        | 0 => exact Nat.le_of_ble_eq_true rfl
        | 1 => exact Nat.le_of_ble_eq_true rfl
        | 2 => exact Nat.le_of_ble_eq_true rfl
        | 3 => exact Nat.le_of_ble_eq_true rfl
      · show vol6 c / 12 * 6 = vol6 ![c 0, middle c, c 2, c 3]
        simp only [vol6, middle, Matrix.cons_val]
        ring
      · intro j
        match j with
        | 0 => exact in_wide c (c 0) (hc 0)
        | 1 => exact in_wide c (middle c) hm
        | 2 => exact in_wide c (c 2) (hc 2)
        | 3 => exact in_wide c (c 3) (hc 3)
    · refine ⟨?_, ?_, div_pos hv (by norm_num), ?_⟩
      · intro j
        match j with
        | 0 => exact Nat.le_of_ble_eq_true rfl
        | 1 => exact Nat.le_of_ble_eq_true rfl
        | 2 => exact Nat.le_of_ble_eq_true rfl
        | 3 => exact Nat.le_of_ble_eq_true rfl
      · show vol6 c / 12 * 6 = vol6 ![middle c, c 1, c 2, c 3]
        simp only [vol6, middle, Matrix.cons_val]
        ring
      · intro j
        match j with
        | 0 => exact in_wide c (middle c) hm
        | 1 => exact in_wide c (c 1) (hc 1)
        | 2 => exact in_wide c (c 2) (hc 2)
        | 3 => exact in_wide c (c 3) (hc 3)
  · rintro x ⟨w, hw, hsum, hx⟩
    rw [Fin.sum_univ_four] at hsum
    rcases le_total (w 1) (w 0) with hle | hle
    · refine ⟨_, List.mem_cons_self, ![w 0 - w 1, 2 * w 1, w 2, w 3], ?_, ?_, ?_⟩
      · intro j
        match j with
        | 0 => exact sub_nonneg.mpr hle
        | 1 => exact mul_nonneg (by norm_num) (hw 1)
        | 2 => exact hw 2
        | 3 => exact hw 3
      · rw [Fin.sum_univ_four]
        show w 0 - w 1 + 2 * w 1 + w 2 + w 3 = 1
        linarith
      · intro d
        rw [hx d, Fin.sum_univ_four, Fin.sum_univ_four]
        show _ = (w 0 - w 1) * c 0 d + 2 * w 1 * ((c 0 d + c 1 d) / 2) + w 2 * c 2 d + w 3 * c 3 d
        ring
    · refine ⟨_, List.mem_cons_of_mem _ List.mem_cons_self, ![2 * w 0, w 1 - w 0, w 2, w 3], ?_, ?_, ?_⟩
      · intro j
        match j with
        | 0 => exact mul_nonneg (by norm_num) (hw 0)
        | 1 => exact sub_nonneg.mpr hle
        | 2 => exact hw 2
        | 3 => exact hw 3
      · rw [Fin.sum_univ_four]
        show 2 * w 0 + (w 1 - w 0) + w 2 + w 3 = 1
        linarith
      · intro d
        rw [hx d, Fin.sum_univ_four, Fin.sum_univ_four]
        show _ = 2 * w 0 * ((c 0 d + c 1 d) / 2) + (w 1 - w 0) * c 1 d + w 2 * c 2 d + w 3 * c 3 d
        ring

/-- The condition on the triangulations can be met, with parts that are really smaller. -/
theorem C47_condition : ∀ (c : Fin 4 → Pt) (l : ℚ), 0 < vol6 c →
    Fills c (halvesTri ((List.finRange 4).map c) l) := by
  intro c l hv
  have : halvesTri ((List.finRange 4).map c) l = halves c := by
    show halves ![c 0, c 1, c 2, c 3] = halves c
    congr 1
    funext j
    match j with
    | 0 => rfl
    | 1 => rfl
    | 2 => rfl
    | 3 => rfl
  rw [this]
  exact halves_fill c hv

/-- the root: one tetrahedron -/
def rootTri : List Pt × List Tet :=
  ([sphereTet 0, sphereTet 1, sphereTet 2, sphereTet 3], [⟨fun j => j.val, ![1, 1, 1/2], 3/2, 2/3⟩])

example : rootTri.1.Nodup ∧ ∀ t ∈ rootTri.2, TetOk rootTri.1 t := by
  refine ⟨by decide +kernel, ?_⟩
  intro t ht
  unfold rootTri at ht
  rw [List.mem_singleton] at ht
  subst ht
  refine ⟨fun j => j.isLt, by decide +kernel, by norm_num, ?_⟩
  intro j
  rw [Fin.sum_univ_three]
  match j with
  | 0 => decide +kernel
  | 1 => decide +kernel
  | 2 => decide +kernel
  | 3 => decide +kernel

/-- two levels of halving, and the point found in a quarter of the tetrahedron -/
example : ((construct (fun a b => decide (a = b)) halvesTri (fun _ => 0) (1/5) 3 rootTri).map fun r =>
    (r.2.length, (allTetrahedra r.1).length,
      indicesWeights (fun z => decide (z = 0)) (fun a b => decide (a = b)) (fun i => r.2.getD i 0) r.1
        ![1/2, 1, 1/8])) =
    some (7, 4, [(4, 1/4), (6, 1/2), (2, 1/8), (3, 1/8)]) := by decide +kernel

end Brille.Props
