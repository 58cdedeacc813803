/-
C77: the tetrahedral mesh of several layers.
-/
import Verif.Proofs.Mesh
import Verif.Props.PermutationTable

namespace Brille.Props

open Brille.Spec Brille.Tetra Brille.Mesh
open Brille.IrCheck (Poly)

/-- How a mesh is made: some layers, and threads that share the work of connecting them. -/
structure Made (tol : Tolerance) (G : Mesher) (P : Poly) (m : TetTri) : Prop where
  how : ∃ top bottom size maxCell layerCount orders,
    Shared orders m.layers ∧ triangulate tol G top bottom size orders P maxCell layerCount = some m

theorem made_good {tol : Tolerance} (htol : Exact tol) {G : Mesher} (hG : Dependable G) {P : Poly} (hP : ConvexSolid P.1 P.2) (hne : P.2 ≠ []) {m : TetTri}
    (hm : Made tol G P m) : m.layers ≠ [] ∧ (∀ L ∈ m.layers, GoodLayer P L) ∧ m.connections = rows m.layers := by
  obtain ⟨top, bottom, size, maxCell, layerCount, orders, ho, h⟩ := hm.how
  obtain ⟨layers, e, hg, hlen⟩ := makeLayers_good hG hP hne top bottom size maxCell layerCount
  have hl : layers ≠ [] := by
    rintro rfl
    simp only [List.length_nil] at hlen
    split at hlen <;> omega
  unfold triangulate at h
  rw [e] at h
  simp only [Option.bind_eq_bind, Option.bind_some] at h
  cases hc : findConnections tol orders layers with
  | none => rw [hc] at h; cases h
  | some c =>
    rw [hc] at h
    simp only [Option.bind_some] at h
    obtain rfl := (Option.some.inj h).symm
    refine ⟨hl, hg, ?_⟩
    have := findConnections_eq htol layers hl hg orders ho
    rw [hc] at this
    exact Option.some.inj this

/-- **C77 (construction).** In a convex polyhedron the construction does not throw, however the threads share the work.  There are as many
layers as requested, or one if fewer than two are or without a largest volume.  Each of them triangulates the polyhedron.  The list of a
tetrahedron has the tetrahedra of the next layer that overlap with it or have a corner in it, and no others. -/
theorem C77_construct (tol : Tolerance) (htol : Exact tol) (G : Mesher) (hG : Dependable G) (P : Poly) (hP : ConvexSolid P.1 P.2) (hne : P.2 ≠ [])
    (top bottom : ℚ) (size : ℚ → ℚ → Nat → ℚ) (maxCell : ℚ) (layerCount : Nat) :
    ∃ layers, layers.length = (if 2 ≤ layerCount ∧ 0 < maxCell then layerCount else 1) ∧ (∀ L ∈ layers, Fills P L) ∧
      ∃ connections, connections.length + 1 = layers.length ∧
        (∀ orders, Shared orders layers → triangulate tol G top bottom size orders P maxCell layerCount = some ⟨layers, connections⟩) ∧
        ∀ k high low, layers[k]? = some high → layers[k + 1]? = some low → ∃ c, connections[k]? = some c ∧ c.length = high.tets.length ∧
          ∀ (i : Nat) (hi : i < high.tets.length), ∃ row, c[i]? = some row ∧ row.Nodup ∧ ∀ j, j ∈ row ↔ ∃ hj : j < low.tets.length,
            (∃ a, InTet (fun b => high.positions.getD (high.tets[i] b) 0) (low.positions.getD (low.tets[j] a) 0)) ∨
            (interior (Hull fun p => ∃ a, p = low.positions.getD (low.tets[j] a) 0) ∩
              interior (Hull fun p => ∃ b, p = high.positions.getD (high.tets[i] b) 0)).Nonempty := by
  classical
  obtain ⟨layers, e, hg, hlen⟩ := makeLayers_good hG hP hne top bottom size maxCell layerCount
  have hl : layers ≠ [] := by
    rintro rfl
    simp only [List.length_nil] at hlen
    split at hlen <;> omega
  refine ⟨layers, hlen, fun L hL => (hg L hL).fills, rows layers, ?_, ?_, ?_⟩
  · clear hlen e hg
    induction layers with
    | nil => exact absurd rfl hl
    | cons high rest ih =>
      rcases rest with _ | ⟨low, rest⟩
      · rfl
      · rw [rows, List.length_cons, ih (by simp)]; simp
  · intro orders ho
    unfold triangulate
    rw [e]
    simp only [Option.bind_eq_bind, Option.bind_some, findConnections_eq htol layers hl hg orders ho]
    rfl
  · intro k high low h1 h2
    refine ⟨(List.range high.tets.length).map (rowOf high low), ?_, by simp, ?_⟩
    · clear hlen e hg hl
      induction layers generalizing k with
      | nil => simp at h1
      | cons a rest ih =>
        rcases rest with _ | ⟨b, rest⟩
        · simp at h2
        · cases k with
          | zero =>
            simp at h1 h2
            subst h1 h2
            rfl
          | succ k =>
            rw [rows, List.getElem?_cons_succ]
            exact ih k (by simpa using h1) (by simpa using h2)
    · intro i hi
      refine ⟨rowOf high low i, by simp [hi], (List.nodup_range).filter _, fun j => ?_⟩
      unfold rowOf
      rw [List.mem_filter, List.mem_range, decide_eq_true_eq]
      have hull : ∀ p : Fin 4 → Pt, Hull (· ∈ fourCorners p) = Hull fun q => ∃ a, q = p a := by
        intro p
        congr 1
        funext q
        simp only [fourCorners, List.mem_cons, List.not_mem_nil, or_false, eq_iff_iff]
        constructor
        · rintro (h | h | h | h)
          exacts [⟨0, h⟩, ⟨1, h⟩, ⟨2, h⟩, ⟨3, h⟩]
        · rintro ⟨a, rfl⟩
          fin_cases a <;> simp
      have hc : ∀ (L : Layer) (i : Nat) (h : i < L.tets.length), L.corners i = fun a => L.positions.getD (L.tets[i] a) 0 := by
        intro L i h
        funext a
        unfold Layer.corners
        rw [Convex.getD_lt _ _ h]
      constructor
      · rintro ⟨hj, ht⟩
        refine ⟨hj, ?_⟩
        unfold Touch at ht
        rw [hull, hull, hc _ _ hi, hc _ _ hj] at ht
        exact ht
      · rintro ⟨hj, ht⟩
        refine ⟨hj, ?_⟩
        unfold Touch
        rw [hull, hull, hc _ _ hi, hc _ _ hj]
        exact ht

/-- **C77 (location).** Every point of the polyhedron is located, and what is returned are weights for it: of different vertices of the lowest
layer, positive, with sum one, and such that they place the point. -/
theorem C77_locate (tol : Tolerance) (htol : Exact tol) (G : Mesher) (hG : Dependable G) (P : Poly) (hP : ConvexSolid P.1 P.2) (hne : P.2 ≠ [])
    (m : TetTri) (hm : Made tol G P m) (x : Pt) (hx : real x ∈ Hull (· ∈ P.1)) :
    ∃ vw, m.locate tol x = some vw ∧ Weighs m.positions vw x := by
  obtain ⟨hl, hg, hc⟩ := made_good htol hG hP hne hm
  obtain ⟨layers, connections⟩ := m
  simp only at hl hg hc
  subst hc
  rcases layers with _ | ⟨L, rest⟩
  · exact absurd rfl hl
  · have hL := hg L (by simp)
    obtain ⟨t, ht, hin⟩ := hL.fills.cover x hx
    obtain ⟨i, hi, rfl⟩ := List.getElem_of_mem ht
    obtain ⟨a, b, c⟩ := hL.locate htol (S := List.range L.tets.length) (fun i hi => List.mem_range.mp hi)
      ⟨i, List.mem_range.mpr hi, by
        unfold Layer.corners
        rwa [Convex.getD_lt _ _ hi]⟩
    exact descend_spec htol x L rest hg _ a b c

theorem foldl_weighted (vw : List (Nat × ℚ)) (data : Nat → ℚ) (s : ℚ) :
    vw.foldl (fun s p => s + p.2 * data p.1) s = s + (vw.map fun p => p.2 * data p.1).sum := by
  induction vw generalizing s with
  | nil => simp
  | cons p l ih => rw [List.foldl_cons, ih, List.map_cons, List.sum_cons]; ring

theorem weighted_affine {positions : List Pt} {vw : List (Nat × ℚ)} {x : Pt} (h : Weighs positions vw x) {f : Pt → ℚ} (hf : AffineMap f) :
    (vw.map fun p => p.2 * f (positions.getD p.1 0)).sum = f x := by
  obtain ⟨c, a, hf⟩ := hf
  have : ∀ l : List (Nat × ℚ), (l.map fun p => p.2 * f (positions.getD p.1 0)).sum =
      c * (l.map Prod.snd).sum + ∑ d, a d * (l.map fun p => p.2 * positions.getD p.1 0 d).sum := by
    intro l
    induction l with
    | nil => simp
    | cons p l ih =>
      simp only [List.map_cons, List.sum_cons]
      rw [ih, hf]
      simp only [Fin.sum_univ_three]
      ring
  rw [this, h.one, hf]
  simp only [h.place, mul_one]

/-- **C77 (interpolation).** Interpolation at any point of the polyhedron succeeds.  It reproduces every function that is linear up to a
constant, and never leaves the range of the data. -/
theorem C77_interpolate (tol : Tolerance) (htol : Exact tol) (G : Mesher) (hG : Dependable G) (P : Poly) (hP : ConvexSolid P.1 P.2) (hne : P.2 ≠ [])
    (m : TetTri) (hm : Made tol G P m) (x : Pt) (hx : real x ∈ Hull (· ∈ P.1)) :
    (∀ f, AffineMap f → m.interpolateAt tol (fun i => f (m.positions.getD i 0)) x = some (f x)) ∧
    ∀ (data : Nat → ℚ) (lo hi : ℚ), (∀ i < m.positions.length, lo ≤ data i ∧ data i ≤ hi) →
      ∃ y, m.interpolateAt tol data x = some y ∧ lo ≤ y ∧ y ≤ hi := by
  obtain ⟨vw, e, hw⟩ := C77_locate tol htol G hG P hP hne m hm x hx
  have hne' : vw ≠ [] := by
    rintro rfl
    simpa using hw.one
  have val : ∀ data, m.interpolateAt tol data x = some (vw.map fun p => p.2 * data p.1).sum := by
    intro data
    unfold TetTri.interpolateAt
    rw [e]
    rcases vw with _ | ⟨p, l⟩
    · exact absurd rfl hne'
    · simp only
      rw [foldl_weighted, zero_add]
  refine ⟨fun f hf => by rw [val, weighted_affine hw hf], fun data lo hi hd => ⟨_, val data, ?_⟩⟩
  have key : ∀ l : List (Nat × ℚ), (∀ p ∈ l, p ∈ vw) → lo * (l.map Prod.snd).sum ≤ (l.map fun p => p.2 * data p.1).sum ∧
      (l.map fun p => p.2 * data p.1).sum ≤ hi * (l.map Prod.snd).sum := by
    intro l
    induction l with
    | nil => intro _; simp
    | cons p l ih =>
      intro hl
      obtain ⟨h1, h2⟩ := ih fun q hq => hl q (by simp [hq])
      have hp := hl p (by simp)
      obtain ⟨d1, d2⟩ := hd p.1 (hw.valid p hp)
      have pos := hw.positive p hp
      simp only [List.map_cons, List.sum_cons]
      constructor <;> nlinarith
  have := key vw fun _ h => h
  rw [hw.one, mul_one, mul_one] at this
  exact this

/-- **C77 (neighbours).** The neighbours of a vertex of a layer are the other vertices of the tetrahedra it belongs to, each once; for a
number that is not that of a vertex an exception is thrown. -/
theorem C77_neighbours (tol : Tolerance) (htol : Exact tol) (G : Mesher) (hG : Dependable G) (P : Poly) (hP : ConvexSolid P.1 P.2) (hne : P.2 ≠ [])
    (m : TetTri) (hm : Made tol G P m) (L : Layer) (hL : L ∈ m.layers) (v : Nat) :
    (L.positions.length ≤ v → L.neighbours v = none) ∧
    (v < L.positions.length → ∃ n, L.neighbours v = some n ∧ n.Nodup ∧
      ∀ u, u ∈ n ↔ u ≠ v ∧ ∃ t ∈ L.tets, (∃ j, t j = v) ∧ ∃ j, t j = u) := by
  have hg := (made_good htol hG hP hne hm).2.1 L hL
  unfold Layer.neighbours
  refine ⟨fun h => by rw [if_pos h], fun h => ?_⟩
  rw [if_neg (by omega)]
  have key : ∀ (l n : List Nat), n.Nodup → (l.foldl (fun n u => if u ≠ v ∧ u ∉ n then n ++ [u] else n) n).Nodup ∧
      ∀ u, u ∈ l.foldl (fun n u => if u ≠ v ∧ u ∉ n then n ++ [u] else n) n ↔ u ∈ n ∨ (u ≠ v ∧ u ∈ l) := by
    intro l
    induction l with
    | nil => intro n hn; simpa using hn
    | cons a l ih =>
      intro n hn
      rw [List.foldl_cons]
      by_cases hc : a ≠ v ∧ a ∉ n
      · rw [if_pos hc]
        obtain ⟨h1, h2⟩ := ih (n ++ [a]) (List.nodup_append.mpr ⟨hn, by simp, by
          intro x hx y hy e
          simp only [List.mem_singleton] at hy
          exact hc.2 (hy ▸ e ▸ hx)⟩)
        refine ⟨h1, fun u => (h2 u).trans ?_⟩
        simp only [List.mem_append, List.mem_cons, List.not_mem_nil, or_false]
        constructor
        · rintro ((h | rfl) | h)
          exacts [.inl h, .inr ⟨hc.1, .inl rfl⟩, .inr ⟨h.1, .inr h.2⟩]
        · rintro (h | ⟨h, rfl | h'⟩)
          exacts [.inl (.inl h), .inl (.inr rfl), .inr ⟨h, h'⟩]
      · rw [if_neg hc]
        obtain ⟨h1, h2⟩ := ih n hn
        refine ⟨h1, fun u => (h2 u).trans ?_⟩
        simp only [List.mem_cons]
        constructor
        · rintro (h | h)
          exacts [.inl h, .inr ⟨h.1, .inr h.2⟩]
        · rintro (h | ⟨h, rfl | h'⟩)
          · exact .inl h
          · left
            by_contra hn'
            exact hc ⟨h, hn'⟩
          · exact .inr ⟨h, h'⟩
  obtain ⟨h1, h2⟩ := key ((L.perVertex.getD v []).flatMap fun t => (List.finRange 4).map fun j => L.tets.getD t (fun _ => 0) j) [] (by simp)
  refine ⟨_, rfl, h1, fun u => (h2 u).trans ?_⟩
  simp only [List.not_mem_nil, false_or, List.mem_flatMap, hg.per v h, List.mem_map, List.mem_finRange, true_and]
  refine and_congr_right fun _ => ?_
  constructor
  · rintro ⟨t, ⟨ht, j, hj⟩, k, hk⟩
    rw [Convex.getD_lt _ _ ht] at hj hk
    exact ⟨_, List.getElem_mem ht, ⟨j, hj⟩, k, hk⟩
  · rintro ⟨t, ht, ⟨j, hj⟩, k, hk⟩
    obtain ⟨i, hi, rfl⟩ := List.getElem_of_mem ht
    refine ⟨i, ⟨hi, j, ?_⟩, k, ?_⟩
    · rw [Convex.getD_lt _ _ hi]; exact hj
    · rw [Convex.getD_lt _ _ hi]; exact hk

/-- **C77 (keys).** Whatever the order in which the threads handle the tetrahedra, the keys collected for sorting are those of the ordered
pairs of different vertices that belong to a common tetrahedron. -/
theorem C77_keys (L : Layer) (order : List Nat) (ho : ∀ i, i ∈ order ↔ i < L.tets.length) (k : Nat) :
    k ∈ L.collectKeys order ↔ ∃ t ∈ L.tets, ∃ a b, t a ≠ t b ∧ k = t a * L.positions.length + t b := by
  unfold Layer.collectKeys
  simp only [List.mem_flatMap, C07_keys_from_indices, ho, List.mem_map, List.mem_finRange, true_and]
  constructor
  · rintro ⟨i, hi, a, ⟨p, rfl⟩, b, ⟨q, rfl⟩, hab, rfl⟩
    rw [Convex.getD_lt _ _ hi] at hab ⊢
    exact ⟨_, List.getElem_mem hi, p, q, hab, rfl⟩
  · rintro ⟨t, ht, p, q, hab, rfl⟩
    obtain ⟨i, hi, rfl⟩ := List.getElem_of_mem ht
    refine ⟨i, hi, _, ⟨p, rfl⟩, _, ⟨q, rfl⟩, ?_, ?_⟩
    · rw [Convex.getD_lt _ _ hi]; exact hab
    · rw [Convex.getD_lt _ _ hi]

/-- **C77 (volumes).** The statistics of a layer are the sum, the smallest and the largest of the volumes of its tetrahedra, if these are in
the range of the numbers. -/
theorem C77_statistics (L : Layer) (top bottom : ℚ) (hL : L.tets ≠ [])
    (hr : ∀ i < L.tets.length, bottom < L.volume i ∧ L.volume i < top) :
    (L.volumeStatistics top bottom).1 = ((List.range L.tets.length).map L.volume).sum ∧
    (∃ i < L.tets.length, L.volume i = (L.volumeStatistics top bottom).2.1) ∧
    (∃ i < L.tets.length, L.volume i = (L.volumeStatistics top bottom).2.2) ∧
    ∀ i < L.tets.length, (L.volumeStatistics top bottom).2.1 ≤ L.volume i ∧ L.volume i ≤ (L.volumeStatistics top bottom).2.2 := by
  unfold Layer.volumeStatistics
  have key : ∀ (l : List Nat) (s a b : ℚ), a ≤ top → bottom ≤ b →
      let r := l.foldl (fun (vs : ℚ × ℚ × ℚ) i => (vs.1 + L.volume i, (if L.volume i < vs.2.1 then L.volume i else vs.2.1),
        if L.volume i > vs.2.2 then L.volume i else vs.2.2)) (s, a, b)
      r.1 = s + (l.map L.volume).sum ∧ (r.2.1 = a ∨ ∃ i ∈ l, L.volume i = r.2.1) ∧ (r.2.2 = b ∨ ∃ i ∈ l, L.volume i = r.2.2) ∧
        r.2.1 ≤ a ∧ b ≤ r.2.2 ∧ ∀ i ∈ l, r.2.1 ≤ L.volume i ∧ L.volume i ≤ r.2.2 := by
    intro l
    induction l with
    | nil => intro s a b _ _; simp
    | cons j l ih =>
      intro s a b ha hb
      simp only [List.foldl_cons]
      obtain ⟨h1, h2, h3, h4, h5, h6⟩ := ih (s + L.volume j) (if L.volume j < a then L.volume j else a) (if L.volume j > b then L.volume j else b)
        (by split <;> linarith) (by split <;> linarith)
      refine ⟨?_, ?_, ?_, ?_, ?_, ?_⟩
      · rw [h1, List.map_cons, List.sum_cons]; ring
      · rcases h2 with h | ⟨i, hi, h⟩
        · rw [h]
          split
          · exact .inr ⟨j, by simp, rfl⟩
          · exact .inl rfl
        · exact .inr ⟨i, by simp [hi], h⟩
      · rcases h3 with h | ⟨i, hi, h⟩
        · rw [h]
          split
          · exact .inr ⟨j, by simp, rfl⟩
          · exact .inl rfl
        · exact .inr ⟨i, by simp [hi], h⟩
      · refine h4.trans ?_
        split <;> linarith
      · refine le_trans ?_ h5
        split <;> linarith
      · intro i hi
        rcases List.mem_cons.mp hi with rfl | hi
        · refine ⟨h4.trans ?_, le_trans ?_ h5⟩
          · split <;> linarith
          · split <;> linarith
        · exact h6 i hi
  obtain ⟨h1, h2, h3, -, -, h6⟩ := key (List.range L.tets.length) 0 top bottom le_rfl le_rfl
  simp only [List.mem_range] at h2 h3 h6
  have h0 : 0 < L.tets.length := List.length_pos_of_ne_nil hL
  refine ⟨by rw [h1, zero_add], ?_, ?_, h6⟩
  · rcases h2 with h | h
    · exact absurd (h6 0 h0).1 (by rw [h]; exact not_le.mpr (hr 0 h0).2)
    · exact h
  · rcases h3 with h | h
    · exact absurd (h6 0 h0).2 (by rw [h]; exact not_le.mpr (hr 0 h0).1)
    · exact h

/-- Locating a point outside of the polyhedron: with one layer nothing is found, and interpolation throws; with more layers the list of
connections is read beyond its end. -/
theorem C77_outside_counterexample (tol : Tolerance) (htol : Exact tol) (G : Mesher) (hG : Dependable G) (P : Poly) (hP : ConvexSolid P.1 P.2)
    (hne : P.2 ≠ []) (m : TetTri) (hm : Made tol G P m) (x : Pt) (hx : real x ∉ Hull (· ∈ P.1)) :
    m.locate tol x = if m.layers.length = 1 then some [] else none := by
  obtain ⟨hl, hg, hc⟩ := made_good htol hG hP hne hm
  obtain ⟨layers, connections⟩ := m
  simp only at hl hg hc ⊢
  subst hc
  rcases layers with _ | ⟨L, rest⟩
  · exact absurd rfl hl
  have hL := hg L (by simp)
  have hnone : (List.range L.tets.length).find? (fun i => L.mightContain tol i x && L.contains tol i x) = none := by
    rw [List.find?_eq_none]
    intro i hi h
    rw [List.mem_range] at hi
    rw [Bool.and_eq_true] at h
    have := (inTet_iff _ (hL.vol6_pos hi).ne' x).mp ((hL.contains_iff htol hi x).mp h.2)
    refine hx ?_
    rw [tet_hull] at this
    refine convexHull_min ?_ (convex_convexHull ℝ _) this
    rintro _ ⟨j, rfl⟩
    refine hL.fills.inside _ ?_
    unfold Layer.corners
    have hv := hL.fills.valid _ (List.getElem_mem hi) j
    rw [Convex.getD_lt _ _ hi, Convex.getD_lt _ _ hv]
    exact List.getElem_mem _
  unfold TetTri.locate Layer.locate
  simp only
  rw [hnone]
  rcases rest with _ | ⟨low, rest⟩
  · rfl
  · rw [rows, descend]
    have : ((List.range L.tets.length).map (rowOf L low))[L.tets.length]? = none := by simp
    simp only
    rw [this]
    simp

/-! ### a case -/

/-- a stand-in for TetGen -/
noncomputable def someMesher : Mesher :=
  { tetrahedralize := fun P _ => some (allTets (P.1 ++ [])), circumsphere := fun c => ((someSphere c).1, ((someSphere c).2 : ℝ)) }

theorem someMesher_dependable : Dependable someMesher := by
  refine ⟨fun P _ h hne => ⟨_, rfl, by simpa using allTets_spec P false h hne (by simp)⟩, fun c _ j => ?_⟩
  have h := someSphere_spec c j
  unfold euclid
  refine Real.sqrt_le_iff.mpr ⟨?_, ?_⟩
  · have : 0 ≤ (someSphere c).2 := by
      unfold someSphere
      positivity
    simpa [someMesher] using this
  · simp only [someMesher, real]
    exact_mod_cast h

/-- comparisons without tolerance -/
noncomputable def noTolerance : Tolerance :=
  { isZero := fun z => decide (z = 0), near := fun a b => decide (a = b), le := fun a b => @decide (a ≤ b) (Classical.propDecidable _) }

theorem noTolerance_exact : Exact noTolerance := ⟨fun z => by simp [noTolerance], fun a => by simp [noTolerance], fun a b h => by simp [noTolerance, h]⟩

/-- there are meshes with five layers in the unit cube, and the centre of the cube is located in them -/
example : ∃ m, m.layers.length = 5 ∧ Made noTolerance someMesher (boxPoints ![0, 0, 0] ![1, 1, 1], Faces.boxFaces) m ∧
    ∃ vw, m.locate noTolerance ![1/2, 1/2, 1/2] = some vw ∧ Weighs m.positions vw ![1/2, 1/2, 1/2] := by
  have hb : ConvexSolid (boxPoints ![0, 0, 0] ![1, 1, 1]) Faces.boxFaces := C67_box _ _ (by decide +kernel)
  obtain ⟨layers, hlen, -, connections, -, h, -⟩ := C77_construct noTolerance noTolerance_exact someMesher someMesher_dependable
    (boxPoints ![0, 0, 0] ![1, 1, 1], Faces.boxFaces) hb (by decide) 1000000 (-1000000)
    (fun _ lo i => lo * i) (1/10) 5
  have ho : Shared (layers.map fun L => List.range L.tets.length) layers := by
    intro k high hk _
    have : (layers.map fun L => List.range L.tets.length).getD k [] = List.range high.tets.length := by
      rw [List.getD_eq_getElem?_getD, List.getElem?_map, hk]; rfl
    rw [this]
    exact ⟨List.nodup_range, fun i => List.mem_range⟩
  have hm : Made noTolerance someMesher (boxPoints ![0, 0, 0] ![1, 1, 1], Faces.boxFaces) ⟨layers, connections⟩ := ⟨_, _, _, _, _, _, ho, h _ ho⟩
  refine ⟨⟨layers, connections⟩, by rw [hlen]; norm_num, hm, ?_⟩
  refine C77_locate _ noTolerance_exact _ someMesher_dependable _ hb (by decide) _ hm _ ?_
  rw [box_hull _ _ (by decide +kernel)]
  intro d
  fin_cases d <;> norm_num [real]

end Brille.Props
