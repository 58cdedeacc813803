/-
The layers of the tetrahedral mesh, the connections between them, and the search.
-/
import Verif.Proofs.MeshOverlap

namespace Brille.Props

open Brille.Spec Brille.Tetra Brille.Mesh Brille.Faces
open Brille.IrCheck (Poly)
open Brille.TrellisWire (Triangulation)

/-- a layer as it is constructed -/
structure GoodLayer (P : Poly) (L : Layer) : Prop where
  fills : Fills P L
  sphere : ∀ i < L.tets.length, ∀ j, euclid (real (L.corners i j)) (real (L.centres.getD i 0)) ≤ L.radii.getD i 0
  per : ∀ v < L.positions.length, ∀ t, t ∈ L.perVertex.getD v [] ↔ t < L.tets.length ∧ ∃ j, L.tets.getD t (fun _ => 0) j = v

theorem mem_perVertex (n : Nat) (tets : List (Fin 4 → Nat)) (v : Nat) (hv : v < n) (t : Nat) :
    t ∈ (perVertex n tets).getD v [] ↔ t < tets.length ∧ ∃ j, tets.getD t (fun _ => 0) j = v := by
  unfold perVertex
  rw [Convex.getD_lt _ _ (by simpa using hv)]
  simp only [List.getElem_map, List.getElem_range, List.mem_flatMap, List.mem_range, List.mem_filterMap, List.mem_finRange, true_and]
  constructor
  · rintro ⟨j, hj, k, hk⟩
    split at hk
    · rename_i h
      obtain rfl := Option.some.inj hk
      exact ⟨hj, k, h⟩
    · cases hk
  · rintro ⟨ht, k, hk⟩
    exact ⟨t, ht, k, by rw [if_pos hk]⟩

theorem layer_good {G : Mesher} (hG : Dependable G) {P : Poly} {T : Triangulation} (h : Triangulates P false T) : GoodLayer P (layer G T) := by
  obtain ⟨h1, h2⟩ := correct_spec h
  have hvol : ∀ t ∈ T.correct.tets, 0 < vol6 (T.corners t) := by
    intro t ht
    have := (h1 t ht).2
    have e := volume_vol6 T.correct t
    have : 0 < vol6 (T.correct.corners t) := by rw [← e]; linarith
    exact this
  have hlen : (T.correct).tets.length = T.tets.length := by simp [Triangulation.correct]
  refine ⟨⟨h.inside, h.distinct, fun t ht => (h1 t ht).1, hvol, h2⟩, ?_, ?_⟩
  · intro i hi j
    have hi' : i < T.correct.tets.length := hi
    have hm := List.getElem_mem hi'
    have := hG.sphere _ (hvol _ hm).ne' j
    have e1 : (layer G T).centres.getD i 0 = (G.circumsphere (T.corners T.correct.tets[i])).1 := by
      rw [Convex.getD_lt _ _ (by simpa [layer] using hi')]; simp [layer]
    have e2 : (layer G T).radii.getD i 0 = (G.circumsphere (T.corners T.correct.tets[i])).2 := by
      rw [Convex.getD_lt _ _ (by simpa [layer] using hi')]; simp [layer]
    have e3 : (layer G T).corners i j = T.corners T.correct.tets[i] j := by
      unfold Layer.corners
      rw [Convex.getD_lt _ _ hi]
      rfl
    rw [e1, e2, e3]
    exact this
  · intro v hv t
    have := mem_perVertex T.points.length T.tets v hv t
    refine this.trans ?_
    rw [← hlen]
    refine and_congr_right fun ht => ?_
    have ht' : t < T.tets.length := by rwa [← hlen]
    change _ ↔ ∃ j, T.correct.tets.getD t (fun _ => 0) j = v
    rw [Convex.getD_lt _ _ ht, Convex.getD_lt _ _ ht']
    have e : T.correct.tets[t] = if T.volume T.tets[t] < 0 then T.tets[t] ∘ Equiv.swap 0 1 else T.tets[t] := by
      simp only [Triangulation.correct, List.getElem_map]
    rw [e]
    split
    · constructor
      · rintro ⟨j, hj⟩
        exact ⟨Equiv.swap 0 1 j, by simpa using hj⟩
      · rintro ⟨j, hj⟩
        exact ⟨_, hj⟩
    · rfl

section layer
variable {P : Poly} {L : Layer} {tol : Tolerance}

theorem GoodLayer.vol6_pos (h : GoodLayer P L) {i : Nat} (hi : i < L.tets.length) : 0 < vol6 (L.corners i) := by
  have := h.fills.positive _ (List.getElem_mem hi)
  unfold Layer.corners
  rw [Convex.getD_lt _ _ hi]
  exact this

theorem volume6 (L : Layer) (i : Nat) : L.volume i * 6 = vol6 (L.corners i) := by
  unfold Layer.volume
  simp [orient3d, dot, cross, diff, vol6]

theorem GoodLayer.places (h : GoodLayer P L) {i : Nat} (hi : i < L.tets.length) (x : Pt) :
    Places (L.corners i) (L.weights i x) x ∧ ∀ w, Places (L.corners i) w x → w = L.weights i x := by
  have hv := volume6 L i
  refine C26_barycentric (fun k => L.positions.getD k 0) { vi := L.tets.getD i fun _ => 0, centre := 0, radius := 0, vol := L.volume i } x hv ?_
  have := h.vol6_pos hi
  intro e
  simp only at e
  rw [e] at hv
  linarith

theorem GoodLayer.contains_iff (h : GoodLayer P L) (htol : Exact tol) {i : Nat} (hi : i < L.tets.length) (x : Pt) :
    L.contains tol i x = true ↔ InTet (L.corners i) x := by
  obtain ⟨h1, h2⟩ := h.places hi x
  have e : L.contains tol i x = true ↔ ∀ j, 0 ≤ L.weights i x j := by
    unfold Layer.contains
    simp only [List.all_eq_true, List.mem_finRange, true_implies, Bool.or_eq_true, decide_eq_true_eq, htol.zero]
    refine forall_congr' fun j => ?_
    rw [le_iff_lt_or_eq, eq_comm (a := (0 : ℚ))]
  rw [e]
  constructor
  · intro hw
    exact ⟨_, hw, h1⟩
  · rintro ⟨w, hw, hp⟩
    rw [← h2 w hp]
    exact hw

theorem GoodLayer.mightContain (h : GoodLayer P L) (htol : Exact tol) {i : Nat} (hi : i < L.tets.length) {x : Pt} (hx : InTet (L.corners i) x) :
    L.mightContain tol i x = true := by
  unfold Layer.mightContain
  refine htol.le _ _ ?_
  rw [distance_eq]
  exact ball_of_hull (L.corners i) _ _ (h.sphere i hi) _ ((inTet_iff _ (h.vol6_pos hi).ne' x).mp hx)

theorem GoodLayer.vi_inj (h : GoodLayer P L) {i : Nat} (hi : i < L.tets.length) : Function.Injective (L.tets.getD i fun _ => 0) := by
  intro a b e
  by_contra hne
  have hv := (h.vol6_pos hi).ne'
  have hc : L.corners i a = L.corners i b := by unfold Layer.corners; rw [e]
  apply hv
  revert hc hne
  unfold vol6
  fin_cases a <;> fin_cases b <;> simp <;> intro hc <;> rw [hc] <;> ring

theorem GoodLayer.weighs (h : GoodLayer P L) (htol : Exact tol) {i : Nat} (hi : i < L.tets.length) {x : Pt} (hx : InTet (L.corners i) x) :
    Weighs L.positions (nonzero tol.isZero { vi := L.tets.getD i fun _ => 0, centre := 0, radius := 0, vol := L.volume i } (L.weights i x)) x := by
  obtain ⟨h1, h2⟩ := h.places hi x
  set t : Tet := { vi := L.tets.getD i fun _ => 0, centre := 0, radius := 0, vol := L.volume i } with ht
  have hw : ∀ j, 0 ≤ L.weights i x j := by
    obtain ⟨w, hw, hp⟩ := hx
    rw [← h2 w hp]; exact hw
  have key : ∀ g : Nat → ℚ, ((nonzero tol.isZero t (L.weights i x)).map fun p => p.2 * g p.1).sum = ∑ j, L.weights i x j * g (t.vi j) := by
    intro g
    have := combine_nonzero tol.isZero t (L.weights i x) g
    unfold Spec.combine at this
    rw [this]
    refine Finset.sum_congr rfl fun j _ => ?_
    split
    · rename_i hz
      rw [(htol.zero _).mp hz, zero_mul]
    · rfl
  have hmem : ∀ p ∈ nonzero tol.isZero t (L.weights i x), ∃ j, tol.isZero (L.weights i x j) = false ∧ p = (t.vi j, L.weights i x j) := by
    intro p hp
    unfold nonzero at hp
    simp only [List.mem_map, List.mem_filter, List.mem_finRange, true_and, Bool.not_eq_true'] at hp
    obtain ⟨j, hj, rfl⟩ := hp
    exact ⟨j, hj, rfl⟩
  refine ⟨?_, ?_, ?_, ?_, ?_⟩
  · unfold nonzero
    rw [List.map_map]
    refine List.Nodup.map ?_ ((List.nodup_finRange 4).filter _)
    intro a b e
    exact h.vi_inj hi e
  · intro p hp
    obtain ⟨j, -, rfl⟩ := hmem p hp
    have := h.fills.valid _ (List.getElem_mem hi) j
    simp only [ht]
    rwa [Convex.getD_lt _ _ hi]
  · intro p hp
    obtain ⟨j, hj, rfl⟩ := hmem p hp
    refine lt_of_le_of_ne (hw j) fun e => ?_
    have := (htol.zero _).mpr e.symm
    rw [hj] at this
    cases this
  · have := key fun _ => 1
    simp only [mul_one] at this
    rw [this]
    exact h1.1
  · intro d
    rw [key fun k => L.positions.getD k 0 d, h1.2 d]
    rfl

/-- the search in a list of tetrahedra, one of which contains the point -/
theorem GoodLayer.locate (h : GoodLayer P L) (htol : Exact tol) {S : List Nat} (hS : ∀ i ∈ S, i < L.tets.length) {x : Pt}
    (hx : ∃ i ∈ S, InTet (L.corners i) x) :
    (L.locate tol S x).1 < L.tets.length ∧ InTet (L.corners (L.locate tol S x).1) x ∧ Weighs L.positions (L.locate tol S x).2 x := by
  unfold Layer.locate
  cases hf : S.find? fun i => L.mightContain tol i x && L.contains tol i x with
  | none =>
    exfalso
    obtain ⟨i, hi, hin⟩ := hx
    have := List.find?_eq_none.mp hf i hi
    rw [h.mightContain htol (hS i hi) hin, (h.contains_iff htol (hS i hi) x).mpr hin] at this
    exact this rfl
  | some i =>
    have hm := hS i (List.mem_of_find?_eq_some hf)
    have hc := List.find?_some hf
    rw [Bool.and_eq_true] at hc
    have hin := (h.contains_iff htol hm x).mp hc.2
    exact ⟨hm, hin, h.weighs htol hm hin⟩

end layer

/-! ### connections -/

/-- the two tetrahedra overlap, or the lower one has a corner in the higher one -/
def Touch (high low : Layer) (i j : Nat) : Prop :=
  (∃ k, InTet (high.corners i) (low.corners j k)) ∨
    (interior (Hull (· ∈ fourCorners (low.corners j))) ∩ interior (Hull (· ∈ fourCorners (high.corners i)))).Nonempty

theorem intersects_iff (near : ℚ → ℚ → Bool) (hnear : ∀ a, near a 0 = true ↔ a = 0) (v w : List Pt) (f g : List Face) (hv : ConvexSolid v f)
    (hw : ConvexSolid w g) (hf : f ≠ []) (hg : g ≠ []) :
    ∃ b, IrCheck.intersects near (v, f) (w, g) = some b ∧ (b = true ↔ (interior (Hull (· ∈ v)) ∩ interior (Hull (· ∈ w))).Nonempty) := by
  by_cases hi : (interior (Hull (· ∈ v)) ∩ interior (Hull (· ∈ w))).Nonempty
  · obtain ⟨x, hx, hy⟩ := hi
    exact ⟨true, C70_intersects near (fun a ha => by
      cases h : near a 0 with
      | false => rfl
      | true => exact absurd ((hnear a).mp h) ha.ne') v w f g hv hw x hx hy, by simpa using ⟨x, hx, hy⟩⟩
  · refine ⟨false, ?_, by simpa using hi⟩
    obtain ⟨v', f', e, hc, -⟩ := C67_cut_any (g.map (IrCheck.facePlane w)) v f hv hf
    have hf' : f' = [] := by
      by_contra hne
      obtain ⟨hs, hm⟩ := hc hne
      obtain ⟨x, hx⟩ := solid_interior hs hne
      refine hi ⟨x, interior_mono (fun y hy => ((hm y).mp hy).1) hx, interior_mono (fun y hy => ?_) hx⟩
      rw [hull_first w g hw hg]
      intro face hface
      exact ((hm y).mp hy).2 _ (List.mem_map_of_mem hface)
    subst hf'
    unfold IrCheck.intersects IrCheck.intersection
    simp only
    rw [e, Option.map_some]
    have : IrCheck.volume (v', []) = 0 := by simp [IrCheck.volume, Faces.volume]
    rw [this, zero_div, (hnear 0).mpr rfl]
    rfl

section connect
variable {P : Poly} {high low : Layer} {tol : Tolerance}

theorem tetrahedron_eq (L : Layer) (i : Nat) : L.tetrahedron i = (fourCorners (L.corners i), fourFaces) := rfl

theorem joins_iff (hh : GoodLayer P high) (hl : GoodLayer P low) (htol : Exact tol) {i j : Nat} (hi : i < high.tets.length) (hj : j < low.tets.length) :
    ∃ b, joins tol high low i j = some b ∧ (b = true ↔ Touch high low i j) := by
  have shi := tet_solid _ (hh.vol6_pos hi)
  have slo := tet_solid _ (hl.vol6_pos hj)
  have hcl : Touch high low i j →
      tol.le (distance (low.centres.getD j 0) (high.centres.getD i 0)) (high.radii.getD i 0 + low.radii.getD j 0) = true := by
    intro ht
    have hz : ∃ z, z ∈ Hull (· ∈ fourCorners (low.corners j)) ∧ z ∈ Hull (· ∈ fourCorners (high.corners i)) := by
      rcases ht with ⟨k, hk⟩ | ⟨z, h1, h2⟩
      · refine ⟨real (low.corners j k), ?_, (inTet_iff _ (hh.vol6_pos hi).ne' _).mp hk⟩
        rw [tet_hull]
        exact subset_convexHull ℝ _ ⟨k, rfl⟩
      · exact ⟨z, interior_subset h1, interior_subset h2⟩
    obtain ⟨z, z1, z2⟩ := hz
    refine htol.le _ _ ?_
    rw [distance_eq]
    have b1 := ball_of_hull (low.corners j) _ _ (hl.sphere j hj) z z1
    have b2 := ball_of_hull (high.corners i) _ _ (hh.sphere i hi) z z2
    have := euclid_triangle (real (low.centres.getD j 0)) (real (high.centres.getD i 0)) z
    linarith
  unfold joins
  have hany : ((List.finRange 4).any fun k => high.contains tol i (low.corners j k)) = true ↔ ∃ k, InTet (high.corners i) (low.corners j k) := by
    simp only [List.any_eq_true, List.mem_finRange, true_and, hh.contains_iff htol hi]
  split
  · split
    · rename_i h
      exact ⟨true, rfl, iff_of_true rfl (Or.inl (hany.mp h))⟩
    · rename_i h
      obtain ⟨b, e, hb⟩ := intersects_iff tol.near htol.near _ _ _ _ slo shi (by decide) (by decide)
      refine ⟨b, e, hb.trans ?_⟩
      unfold Touch
      rw [← hany]
      simp [h]
  · rename_i h
    exact ⟨false, rfl, by simpa using fun ht => h (hcl ht)⟩

open Classical in
/-- the list of a tetrahedron -/
noncomputable def rowOf (high low : Layer) (i : Nat) : List Nat := (List.range low.tets.length).filter fun j => decide (Touch high low i j)

theorem connectOne_eq (hh : GoodLayer P high) (hl : GoodLayer P low) (htol : Exact tol) {i : Nat} (hi : i < high.tets.length) :
    connectOne tol high low i = some (rowOf high low i) := by
  classical
  unfold connectOne rowOf
  have : ∀ (l acc : List Nat), (∀ j ∈ l, j < low.tets.length) →
      l.foldlM (fun out j => (joins tol high low i j).map fun add => if add then out ++ [j] else out) acc =
        some (acc ++ l.filter fun j => decide (Touch high low i j)) := by
    intro l
    induction l with
    | nil => intro acc _; simp
    | cons j l ih =>
      intro acc hl'
      obtain ⟨b, e, hb⟩ := joins_iff hh hl htol hi (hl' j (by simp))
      rw [List.foldlM_cons, e]
      simp only [Option.map_some, Option.bind_eq_bind, Option.bind_some]
      rw [ih _ fun k hk => hl' k (by simp [hk])]
      by_cases ht : Touch high low i j
      · rw [hb.mpr ht, List.filter_cons_of_pos (by simpa using ht)]; simp
      · have hb' : b = false := by
          cases b with
          | false => rfl
          | true => exact absurd (hb.mp rfl) ht
        rw [hb', List.filter_cons_of_neg (by simpa using ht)]; simp
  rw [this _ [] fun j hj => List.mem_range.mp hj, List.nil_append]

theorem connect_eq (hh : GoodLayer P high) (hl : GoodLayer P low) (htol : Exact tol) {order : List Nat}
    (ho : ∀ i, i ∈ order ↔ i < high.tets.length) :
    connect tol order high low = some ((List.range high.tets.length).map (rowOf high low)) := by
  unfold connect
  have key : ∀ (l : List Nat) (acc : List (List Nat)), (∀ i ∈ l, i < high.tets.length) →
      ∃ r, l.foldlM (fun map i => (connectOne tol high low i).map fun row => map.set i row) acc = some r ∧ r.length = acc.length ∧
        ∀ i, i < acc.length → r[i]? = if i ∈ l then some (rowOf high low i) else acc[i]? := by
    intro l
    induction l with
    | nil => intro acc _; exact ⟨acc, rfl, rfl, fun i _ => by simp⟩
    | cons j l ih =>
      intro acc hlt
      obtain ⟨r, e, hlen, hr⟩ := ih (acc.set j (rowOf high low j)) fun i hi => hlt i (by simp [hi])
      refine ⟨r, ?_, by simpa using hlen, ?_⟩
      · rw [List.foldlM_cons, connectOne_eq hh hl htol (hlt j (by simp))]
        exact e
      · intro i hi
        rw [hr i (by simpa using hi)]
        by_cases hil : i ∈ l
        · simp [hil]
        · by_cases hij : i = j
          · subst hij
            simp [hil, hi]
          · rw [if_neg hil, if_neg (by simp [hil, hij]), List.getElem?_set_ne (Ne.symm hij)]
  obtain ⟨r, e, hlen, hr⟩ := key order (List.replicate high.tets.length []) fun i hi => (ho i).mp hi
  rw [e]
  congr 1
  refine List.ext_getElem? fun i => ?_
  rw [List.length_replicate] at hlen hr
  by_cases hi : i < high.tets.length
  · rw [hr i hi, if_pos ((ho i).mpr hi)]
    simp [hi]
  · rw [List.getElem?_eq_none (by omega), List.getElem?_eq_none (by simpa using hi)]

/-- **the search goes on**: a tetrahedron of the lower layer that contains the point is in the list of every tetrahedron of the higher layer
that contains it -/
theorem row_contains (hh : GoodLayer P high) (hl : GoodLayer P low) {i : Nat} (hi : i < high.tets.length) {x : Pt} (hx : InTet (high.corners i) x) :
    ∃ j ∈ rowOf high low i, InTet (low.corners j) x := by
  classical
  have hne := (hh.vol6_pos hi).ne'
  have hsub : Hull (· ∈ fourCorners (high.corners i)) ⊆ Hull (· ∈ P.1) := by
    rw [tet_hull]
    refine convexHull_min ?_ (convex_convexHull ℝ _)
    rintro _ ⟨j, rfl⟩
    refine hh.fills.inside _ ?_
    unfold Layer.corners
    have hv := hh.fills.valid _ (List.getElem_mem hi) j
    rw [Convex.getD_lt _ _ hi, Convex.getD_lt _ _ hv]
    exact List.getElem_mem _
  obtain ⟨j, hj, hxj, z, hz1, hz2⟩ := common_interior (Hull (· ∈ fourCorners (high.corners i))) (convex_convexHull ℝ _)
    (solid_interior (tet_solid _ (hh.vol6_pos hi)) (by decide)) (Finset.range low.tets.length) (fun j => Hull (· ∈ fourCorners (low.corners j)))
    (fun j _ => hull_closed _) (fun j _ => convex_convexHull ℝ _) (fun q hq => by
      obtain ⟨t, ht, hin⟩ := hl.fills.cover q (hsub hq)
      obtain ⟨j, hj, rfl⟩ := List.getElem_of_mem ht
      refine ⟨j, Finset.mem_range.mpr hj, (inTet_iff _ (hl.vol6_pos hj).ne' q).mp ?_⟩
      unfold Layer.corners
      rwa [Convex.getD_lt _ _ hj]) (real x) ((inTet_iff _ hne x).mp hx)
  rw [Finset.mem_range] at hj
  refine ⟨j, ?_, (inTet_iff _ (hl.vol6_pos hj).ne' x).mpr hxj⟩
  unfold rowOf
  rw [List.mem_filter, decide_eq_true_eq, List.mem_range]
  exact ⟨hj, Or.inr ⟨z, hz2, hz1⟩⟩

end connect

/-! ### the whole mesh -/

/-- the connections between layers -/
noncomputable def rows : List Layer → List (List (List Nat))
  | [] => []
  | [_] => []
  | high :: low :: rest => (List.range high.tets.length).map (rowOf high low) :: rows (low :: rest)

theorem findConnections_eq {P : Poly} {tol : Tolerance} (htol : Exact tol) (layers : List Layer) (hne : layers ≠ []) (hg : ∀ L ∈ layers, GoodLayer P L)
    (orders : List (List Nat)) (ho : Shared orders layers) : findConnections tol orders layers = some (rows layers) := by
  induction layers generalizing orders with
  | nil => exact absurd rfl hne
  | cons high rest ih =>
    rcases rest with _ | ⟨low, rest⟩
    · rfl
    · have h2 := (ho 0 high rfl (by simp)).2
      have e0 : orders.headD [] = orders.getD 0 [] := by cases orders <;> rfl
      rw [findConnections, e0, connect_eq (hg high (by simp)) (hg low (by simp)) htol h2]
      have := ih (by simp) (fun L hL => hg L (by simp [hL])) orders.tail (by
        intro k L hL hk
        have := ho (k + 1) L (by simpa using hL) (by simpa using hk)
        have e : orders.tail.getD k [] = orders.getD (k + 1) [] := by cases orders <;> simp
        rw [e]
        exact this)
      simp only [Option.bind_eq_bind, Option.bind_some, this]
      rfl

theorem descend_spec {P : Poly} {tol : Tolerance} (htol : Exact tol) (x : Pt) (first : Layer) (rest : List Layer)
    (hg : ∀ L ∈ first :: rest, GoodLayer P L) (found : Nat × List (Nat × ℚ)) (h1 : found.1 < first.tets.length) (h2 : InTet (first.corners found.1) x)
    (h3 : Weighs first.positions found.2 x) :
    ∃ vw, descend tol x rest (rows (first :: rest)) found = some vw ∧ Weighs (((first :: rest).getLast?.map Layer.positions).getD []) vw x := by
  induction rest generalizing first found with
  | nil => exact ⟨found.2, rfl, by simpa using h3⟩
  | cons low rest ih =>
    have hf := hg first (by simp)
    have hl := hg low (by simp)
    rw [rows, descend]
    have e : ((List.range first.tets.length).map (rowOf first low))[found.1]? = some (rowOf first low found.1) := by
      simp [h1]
    rw [e]
    simp only
    have hS : ∀ j ∈ rowOf first low found.1, j < low.tets.length := by
      intro j hj
      classical
      unfold rowOf at hj
      exact List.mem_range.mp (List.mem_filter.mp hj).1
    obtain ⟨a, b, c⟩ := hl.locate htol hS (row_contains hf hl h1 h2)
    obtain ⟨vw, e', hw⟩ := ih low (fun L hL => hg L (by simp at hL ⊢; tauto)) _ a b c
    exact ⟨vw, e', by simpa using hw⟩

theorem oneLayer_good {G : Mesher} (hG : Dependable G) {P : Poly} (hP : ConvexSolid P.1 P.2) (hne : P.2 ≠ []) (size : ℚ) :
    ∃ L, oneLayer G P size = some L ∧ GoodLayer P L := by
  unfold oneLayer
  obtain ⟨T, e, hT⟩ := hG.tets P (if 0 < size then some size else none) hP hne
  rw [e]
  exact ⟨_, rfl, layer_good hG hT⟩

theorem makeLayers_good {G : Mesher} (hG : Dependable G) {P : Poly} (hP : ConvexSolid P.1 P.2) (hne : P.2 ≠ []) (top bottom : ℚ)
    (size : ℚ → ℚ → Nat → ℚ) (maxCell : ℚ) (layerCount : Nat) :
    ∃ layers, makeLayers G top bottom size P maxCell layerCount = some layers ∧ (∀ L ∈ layers, GoodLayer P L) ∧
      layers.length = if 2 ≤ layerCount ∧ 0 < maxCell then layerCount else 1 := by
  unfold makeLayers
  split
  · rename_i h
    obtain ⟨L, e, hL⟩ := oneLayer_good hG hP hne maxCell
    rw [e]
    exact ⟨[L], rfl, by simpa using hL, by rw [if_neg (by omega)]; rfl⟩
  · rename_i h
    obtain ⟨H, eH, hH⟩ := oneLayer_good hG hP hne (-1)
    rw [eH]
    simp only [Option.bind_eq_bind, Option.bind_some]
    split
    · rename_i hm
      obtain ⟨L, eL, hL⟩ := oneLayer_good hG hP hne maxCell
      rw [eL]
      simp only [Option.bind_some]
      have key : ∀ (l : List Nat) (f : Nat → ℚ), ∃ r, l.mapM (fun i => oneLayer G P (f i)) = some r ∧ (∀ L ∈ r, GoodLayer P L) ∧ r.length = l.length := by
        intro l f
        induction l with
        | nil => exact ⟨[], rfl, by simp, rfl⟩
        | cons a l ih =>
          obtain ⟨r, e, hr, hlen⟩ := ih
          obtain ⟨A, eA, hA⟩ := oneLayer_good hG hP hne (f a)
          refine ⟨A :: r, ?_, ?_, by simp [hlen]⟩
          · rw [List.mapM_cons, eA, e]; rfl
          · intro L hL
            rcases List.mem_cons.mp hL with rfl | hL
            exacts [hA, hr L hL]
      obtain ⟨r, e, hr, hlen⟩ := key (List.range' 2 (layerCount - 2)).reverse
        (size (H.volumeStatistics top bottom).2.2 (L.volumeStatistics top bottom).2.2)
      rw [e]
      refine ⟨H :: r ++ [L], rfl, ?_, ?_⟩
      · intro K hK
        simp only [List.cons_append, List.mem_cons, List.mem_append, List.not_mem_nil, or_false] at hK
        rcases hK with rfl | hK | rfl
        exacts [hH, hr K hK, hL]
      · rw [if_pos ⟨by omega, hm⟩]
        simp only [List.cons_append, List.length_cons, List.length_append, hlen, List.length_reverse, List.length_range', List.length_nil]
        omega
    · rename_i hm
      exact ⟨[H], rfl, by simpa using hH, by rw [if_neg (by tauto)]; rfl⟩

end Brille.Props
