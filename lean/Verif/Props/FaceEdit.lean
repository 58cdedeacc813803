/- C37 (removing points keeps what the faces describe) and C52 (dangling faces). -/
import Verif.Proofs.FaceEdit

namespace Brille.Props

open Brille.Faces Brille.FaceEdit Brille.Spec

variable {α : Type}

theorem corners_congr (points points' : List α) (faces : List (List Nat)) (g : Nat → Nat)
    (h : ∀ f ∈ faces, ∀ i ∈ f, points'[g i]? = points[i]?) :
    corners points' (faces.map fun f => f.map g) = corners points faces := by
  unfold corners
  rw [List.map_map]
  apply List.map_congr_left
  intro f hf
  simp only [Function.comp, List.map_map]
  apply List.map_congr_left
  intro i hi
  exact h f hf i hi

/-- each point that is left is on a face -/
theorem used_of_extract (points : List α) (faces : List (List Nat)) (g : Nat → Nat)
    (hg : ∀ i, (onFace points.length faces)[i]? = some true → g i = rank (onFace points.length faces) i)
    (k : Nat) (hk : k < (extract (onFace points.length faces) points).length) :
    ∃ f ∈ faces.map fun f => f.map g, k ∈ f := by
  rw [extract_length _ _ (onFace_length _ _)] at hk
  obtain ⟨i, h1, h2⟩ := extract_mem_rank _ k hk
  obtain ⟨_, f, hf, hif⟩ := (onFace_true _ _ _).mp h1
  exact ⟨f.map g, List.mem_map_of_mem hf, List.mem_map.mpr ⟨i, hif, by rw [hg i h1, h2]⟩⟩

/-- **C37.** `polygon_face_vertex_purge` leaves the corners of the faces where they are, drops exactly the points on
no face and keeps the others in order, and tells whether it dropped any. -/
theorem C37_purge (points : List α) (faces : List (List Nat)) (hv : ∀ f ∈ faces, ∀ i ∈ f, i < points.length) :
    corners (purge points faces).2.1 (purge points faces).2.2 = corners points faces ∧
    (purge points faces).2.1.Sublist points ∧
    (∀ k < (purge points faces).2.1.length, ∃ f ∈ (purge points faces).2.2, k ∈ f) ∧
    ((purge points faces).1 = true ↔ ∃ i < points.length, ∀ f ∈ faces, i ∉ f) := by
  have hfalse : (onFace points.length faces).count true < points.length ↔ ∃ i < points.length, ∀ f ∈ faces, i ∉ f := by
    have := count_lt_iff (onFace points.length faces)
    rw [onFace_length] at this
    rw [this]
    simp only [onFace, List.mem_map, List.mem_range]
    refine exists_congr fun i => and_congr_right fun _ => ?_
    simp
  unfold purge
  simp only
  split
  · rename_i h
    have hg : ∀ i, (onFace points.length faces)[i]? = some true →
        (if (newIndex ((onFace points.length faces).count true) 0 (onFace points.length faces)).getD i
            ((onFace points.length faces).count true) < (onFace points.length faces).count true then
          (newIndex ((onFace points.length faces).count true) 0 (onFace points.length faces)).getD i
            ((onFace points.length faces).count true) else i) = rank (onFace points.length faces) i := by
      intro i hi
      rw [List.getD_eq_getElem?_getD, newIndex_get _ _ _ _ hi]
      simp [rank_lt _ _ hi]
    refine ⟨?_, extract_sublist _ _, ?_, by simp [hfalse.mp h]⟩
    · apply corners_congr
      intro f hf i hi
      have ht : (onFace points.length faces)[i]? = some true := (onFace_true _ _ _).mpr ⟨hv f hf i hi, f, hf, hi⟩
      rw [hg i ht, extract_get _ _ _ (onFace_length _ _) ht]
    · intro k hk
      exact used_of_extract points faces _ hg k hk
  · rename_i h
    refine ⟨rfl, List.Sublist.refl _, ?_, ?_⟩
    · intro k hk
      by_contra hc
      push Not at hc
      exact h (hfalse.mpr ⟨k, hk, hc⟩)
    · constructor
      · simp
      · intro hh
        exact absurd (hfalse.mpr hh) h

example : purge ["a", "b", "c", "d"] [[0, 3, 1]] = (true, ["a", "b", "d"], [[0, 2, 1]]) := by decide

/-- **C37.** The same for `remove_faceless_points`. -/
theorem C37_faceless (points : List α) (faces : List (List Nat)) (hv : ∀ f ∈ faces, ∀ i ∈ f, i < points.length) :
    corners (removeFaceless points faces).1 (removeFaceless points faces).2 = corners points faces ∧
    (removeFaceless points faces).1.Sublist points ∧
    (∀ k < (removeFaceless points faces).1.length, ∃ f ∈ (removeFaceless points faces).2, k ∈ f) ∧
    (∀ f ∈ (removeFaceless points faces).2, ∀ i ∈ f, i < (removeFaceless points faces).1.length) := by
  unfold removeFaceless
  simp only
  split
  · have hg : ∀ i, (onFace points.length faces)[i]? = some true →
        (newIndex points.length 0 (onFace points.length faces)).getD i points.length =
          rank (onFace points.length faces) i := by
      intro i hi
      rw [List.getD_eq_getElem?_getD, newIndex_get _ _ _ _ hi]
      simp
    refine ⟨?_, extract_sublist _ _, ?_, ?_⟩
    · apply corners_congr
      intro f hf i hi
      have ht : (onFace points.length faces)[i]? = some true := (onFace_true _ _ _).mpr ⟨hv f hf i hi, f, hf, hi⟩
      rw [hg i ht, extract_get _ _ _ (onFace_length _ _) ht]
    · intro k hk
      exact used_of_extract points faces _ hg k hk
    · intro f' hf' i' hi'
      obtain ⟨f, hf, rfl⟩ := List.mem_map.mp hf'
      obtain ⟨i, hi, rfl⟩ := List.mem_map.mp hi'
      have ht : (onFace points.length faces)[i]? = some true := (onFace_true _ _ _).mpr ⟨hv f hf i hi, f, hf, hi⟩
      rw [hg i ht, extract_length _ _ (onFace_length _ _)]
      exact rank_lt _ _ ht
  · rename_i h
    refine ⟨rfl, List.Sublist.refl _, ?_, hv⟩
    intro k hk
    by_contra hc
    push Not at hc
    apply h
    simp only [onFace, List.mem_map, List.mem_range]
    exact ⟨k, hk, by simpa using hc⟩

example : removeFaceless ["a", "b", "c", "d"] [[0, 3, 1]] = (["a", "b", "d"], [[0, 2, 1]]) := by decide

/-- **C37.** `remove_points_and_update_face_indexing` without sorting: what is left of each face are its kept corners in
their order, and faces with fewer than three are dropped. -/
theorem C37_remove_points (keep : List Bool) (points : List α) (faces : List (List Nat))
    (hl : keep.length = points.length) (hfalse : false ∈ keep) :
    corners (removePoints keep points faces).1 (removePoints keep points faces).2 =
      corners points ((faces.map fun f => f.filter fun i => decide (keep[i]? = some true)).filter
        fun f => decide (3 ≤ f.length)) ∧
    (removePoints keep points faces).1.length = keep.count true ∧
    (∀ p, p ∈ (removePoints keep points faces).1 ↔ ∃ i : Nat, keep[i]? = some true ∧ points[i]? = some p) ∧
    ∀ f ∈ (removePoints keep points faces).2, ∀ i ∈ f, i < (removePoints keep points faces).1.length := by
  unfold removePoints
  rw [if_pos hfalse]
  simp only
  have hgD : ∀ i, keep.getD i false = decide (keep[i]? = some true) := by
    intro i
    rw [List.getD_eq_getElem?_getD]
    cases h : keep[i]? with
    | none => simp
    | some b => cases b <;> simp
  have hmap : ((faces.map fun f => (f.filter fun x => keep.getD x false).map fun x =>
        (newIndex points.length 0 keep).getD x points.length).filter fun one => !decide (one.length < 3)) =
      ((faces.map fun f => f.filter fun i => decide (keep[i]? = some true)).filter
        fun f => decide (3 ≤ f.length)).map fun f => f.map fun x => (newIndex points.length 0 keep).getD x points.length := by
    simp only [hgD]
    rw [List.filter_map, List.filter_map, List.map_map]
    congr 1
    apply List.filter_congr
    intro f _
    simp only [Function.comp, List.length_map]
    rw [Bool.eq_iff_iff]
    simp only [Bool.not_eq_true', decide_eq_false_iff_not, decide_eq_true_eq, not_lt]
  rw [hmap]
  have hr : ∀ f ∈ ((faces.map fun f => f.filter fun i => decide (keep[i]? = some true)).filter
      fun f => decide (3 ≤ f.length)), ∀ i ∈ f, keep[i]? = some true := by
    intro f hf i hi
    obtain ⟨g, hg, rfl⟩ := List.mem_map.mp (List.mem_filter.mp hf).1
    simpa using (List.mem_filter.mp hi).2
  have hget : ∀ i, keep[i]? = some true → (newIndex points.length 0 keep).getD i points.length = rank keep i := by
    intro i hi
    rw [List.getD_eq_getElem?_getD, newIndex_get _ _ _ _ hi]
    simp
  refine ⟨?_, extract_length _ _ hl, ?_, ?_⟩
  · apply corners_congr
    intro f hf i hi
    rw [hget i (hr f hf i hi), extract_get _ _ _ hl (hr f hf i hi)]
  · intro p
    constructor
    · intro hp
      obtain ⟨k, hk, hkp⟩ := List.getElem_of_mem hp
      rw [extract_length _ _ hl] at hk
      obtain ⟨i, h1, h2⟩ := extract_mem_rank keep k hk
      refine ⟨i, h1, ?_⟩
      rw [← extract_get keep points i hl h1, h2, ← hkp]
      exact List.getElem?_eq_getElem _
    · rintro ⟨i, h1, h2⟩
      rw [← extract_get keep points i hl h1] at h2
      exact List.mem_of_getElem? h2
  · intro f' hf' i' hi'
    obtain ⟨f, hf, rfl⟩ := List.mem_map.mp hf'
    obtain ⟨i, hi, rfl⟩ := List.mem_map.mp hi'
    rw [hget i (hr f hf i hi), extract_length _ _ hl]
    exact rank_lt _ _ (hr f hf i hi)

example : removePoints [true, false, true, true] ["a", "b", "c", "d"] [[0, 3, 1, 2], [0, 1, 2]] =
    (["a", "c", "d"], [[0, 2, 1]]) := by decide

/-- **C37.** `remove_duplicate_points_and_update_face_indexing`, for a comparison that is an equivalence: each corner is
replaced by an equal point, no two of the points left are equal, and the points keep their order. -/
theorem C37_duplicates_partial (eq : α → α → Bool) (hrefl : ∀ x, eq x x = true)
    (htrans : ∀ x y z, eq x y = true → eq y z = true → eq x z = true) (points : List α) (faces : List (List Nat))
    (hv : ∀ f ∈ faces, ∀ i ∈ f, i < points.length) :
    List.Forall₂ (List.Forall₂ fun i k => ∃ p q, points[i]? = some p ∧
        (removeDuplicates eq points faces).1[k]? = some q ∧ eq p q = true)
      faces (removeDuplicates eq points faces).2 ∧
    (removeDuplicates eq points faces).1.Sublist points ∧
    (removeDuplicates eq points faces).1.Pairwise (fun x y => eq y x = false) := by
  have hun : ∀ points : List α, extract (Approx.isUnique (fun x y => !eq x y) points) points =
      Approx.unique (fun x y => !eq x y) points := fun _ => rfl
  unfold removeDuplicates
  simp only
  split
  · refine ⟨?_, extract_sublist _ _, ?_⟩
    · rw [List.forall₂_map_right_iff, List.forall₂_same]
      intro f hf
      rw [List.forall₂_map_right_iff, List.forall₂_same]
      intro i hi
      obtain ⟨p, q, k, h1, h2, h3, h4⟩ := removeDuplicates_index eq hrefl htrans points i (hv f hf i hi)
      refine ⟨p, q, h1, ?_, h2⟩
      rw [List.getD_eq_getElem?_getD, h3]
      exact h4
    · rw [hun]
      exact (C46_unique eq points).2.1
  · rename_i h
    refine ⟨?_, List.Sublist.refl _, ?_⟩
    · rw [List.forall₂_same]
      intro f hf
      rw [List.forall₂_same]
      intro i hi
      exact ⟨_, _, List.getElem?_eq_getElem (hv f hf i hi), List.getElem?_eq_getElem (hv f hf i hi), hrefl _⟩
    · rw [List.pairwise_iff_getElem]
      intro i j hi hj hij
      obtain ⟨l1, l2⟩ := C46_is_unique (fun x y => !eq x y) points
      have hj' : (Approx.isUnique (fun x y => !eq x y) points)[j]? = some true := by
        rw [List.getElem?_eq_getElem (by rw [l1]; exact hj)]
        congr 1
        by_contra hc
        rw [Bool.not_eq_true] at hc
        exact h (hc ▸ List.getElem_mem _)
      have := (l2 j _ (List.getElem?_eq_getElem hj)).mp hj' i _ hij (List.getElem?_eq_getElem hi)
      simpa using this

/-- **C37.** With plain equality of points the corners of the faces do not change at all. -/
theorem C37_duplicates_exact [DecidableEq α] (points : List α) (faces : List (List Nat))
    (hv : ∀ f ∈ faces, ∀ i ∈ f, i < points.length) :
    corners (removeDuplicates (fun x y => decide (x = y)) points faces).1
      (removeDuplicates (fun x y => decide (x = y)) points faces).2 = corners points faces ∧
    (removeDuplicates (fun x y => decide (x = y)) points faces).1.Nodup := by
  obtain ⟨h1, h2, h3⟩ := C37_duplicates_partial (fun x y : α => decide (x = y)) (by simp)
    (by intro x y z; simp only [decide_eq_true_eq]; exact Eq.trans) points faces hv
  constructor
  · generalize removeDuplicates (fun x y : α => decide (x = y)) points faces = r at *
    obtain ⟨ps, fs⟩ := r
    simp only at *
    clear h2 h3 hv
    induction h1 with
    | nil => rfl
    | cons hh _ ih =>
      simp only [corners, List.map_cons] at *
      rw [ih]
      congr 1
      clear ih
      induction hh with
      | nil => rfl
      | cons hp _ ih2 =>
        obtain ⟨p, q, a, b, c⟩ := hp
        simp only [List.map_cons]
        rw [ih2, a, b, of_decide_eq_true c]
  · exact h3.imp fun h => by
      have := of_decide_eq_false h
      exact fun e => this e.symm

example : removeDuplicates (fun x y : Nat => decide (x = y)) [5, 7, 5, 9, 7] [[0, 1, 3], [4, 2, 3]] =
    ([5, 7, 9], [[0, 1, 2], [1, 0, 2]]) := by decide

/-- **C37.** With a tolerance, equality is no equivalence, and the renumbering can leave indices beyond the end of the
reduced list of points: of three points in a row, each within tolerance of the next but the outer two not of each other,
one is kept, and a face at the third point refers to a point number 2. -/
theorem C37_duplicates_counterexample :
    removeDuplicates (fun x y : ℤ => decide (|x - y| ≤ 1)) [0, 1, 2] [[0, 1, 2]] = ([0], [[0, 0, 2]]) := by
  decide +kernel

/-- **C37.** `finish_convex_hull` drops exactly the vertices on no face; the corners stay where they are. -/
theorem C37_finish_hull (points : List α) (faces : List (List Nat)) (hv : ∀ f ∈ faces, ∀ i ∈ f, i < points.length) :
    corners (finishHull points faces).1 (finishHull points faces).2 = corners points faces ∧
    (finishHull points faces).1.Sublist points ∧
    (∀ k < (finishHull points faces).1.length, ∃ f ∈ (finishHull points faces).2, k ∈ f) := by
  obtain ⟨i1, i2⟩ := C51_indexes faces
  have hmem : ∀ i, i ∈ (indexes faces).insertionSort (· ≤ ·) ↔ ∃ f ∈ faces, i ∈ f := by
    intro i
    rw [List.mem_insertionSort, i2]
  have hsort := insertionSort_pairwise_lt _ i1
  unfold finishHull
  simp only
  generalize (indexes faces).insertionSort (· ≤ ·) = present at *
  have hkeep : ((List.range points.length).map fun i => decide (i ∈ present)) = onFace points.length faces := by
    unfold onFace
    apply List.map_congr_left
    intro i _
    rw [Bool.eq_iff_iff, decide_eq_true_eq, hmem, List.any_eq_true]
    simp
  split
  · rename_i h
    refine ⟨rfl, List.Sublist.refl _, fun k hk => ?_⟩
    rw [List.all_eq_true] at h
    exact (hmem k).mp (by simpa using h k (List.mem_range.mpr hk))
  · have hlt : ∀ x ∈ present, x < points.length := by
      intro x hx
      obtain ⟨f, hf, hxf⟩ := (hmem x).mp hx
      exact hv f hf x hxf
    have hget : ∀ i, (onFace points.length faces)[i]? = some true →
        (hullIndex points.length present).getD i points.length = rank (onFace points.length faces) i := by
      intro i hi
      obtain ⟨hin, hf⟩ := (onFace_true _ _ _).mp hi
      have hp : i ∈ present := (hmem i).mpr hf
      obtain ⟨j, hj, rfl⟩ := List.getElem_of_mem hp
      rw [← hkeep, rank_present _ present hsort j hj hin, List.getD_eq_getElem?_getD]
      unfold hullIndex
      rw [foldl_set_get points.length present 0 _ (hsort.imp fun h => Nat.ne_of_lt h) (by simp) hlt j hj]
      simp
    rw [hkeep]
    refine ⟨?_, extract_sublist _ _, ?_⟩
    · apply corners_congr
      intro f hf i hi
      have ht : (onFace points.length faces)[i]? = some true := (onFace_true _ _ _).mpr ⟨hv f hf i hi, f, hf, hi⟩
      rw [hget i ht, extract_get _ _ _ (onFace_length _ _) ht]
    · intro k hk
      exact used_of_extract points faces _ hget k hk

example : finishHull ["a", "b", "c", "d"] [[3, 0, 1]] = (["a", "b", "d"], [[2, 0, 1]]) := by decide

theorem facesOf_spec [DecidableEq α] (proto : List α → List (List Nat)) (points : List α)
    (hv : ∀ f ∈ proto (Approx.unique (fun x y => !decide (x = y)) points), ∀ i ∈ f,
      i < (Approx.unique (fun x y => !decide (x = y)) points).length)
    (hok : points.Nodup ∨
      (purge (Approx.unique (fun x y => !decide (x = y)) points)
        (proto (Approx.unique (fun x y => !decide (x = y)) points))).1 = true) :
    corners points (facesOf (fun x y => decide (x = y)) proto points) =
      corners (Approx.unique (fun x y => !decide (x = y)) points) (proto (Approx.unique (fun x y => !decide (x = y)) points)) ∧
    ∀ f ∈ facesOf (fun x y => decide (x = y)) proto points, ∀ i ∈ f, i < points.length := by
  obtain ⟨p1, p2, p3, p4⟩ := C37_purge _ _ hv
  generalize hU : Approx.unique (fun x y => !decide (x = y)) points = U at *
  have hsub : U.Sublist points := hU ▸ (C46_unique (fun x y : α => decide (x = y)) points).1
  unfold facesOf
  rw [hU]
  simp only
  split
  · rename_i hp
    have valid : ∀ f ∈ (purge U (proto U)).2.2, ∀ i ∈ f, ∃ p, (purge U (proto U)).2.1[i]? = some p ∧ p ∈ points := by
      intro f hf i hi
      have hc : f.map (fun i => (purge U (proto U)).2.1[i]?) ∈ corners (purge U (proto U)).2.1 (purge U (proto U)).2.2 :=
        List.mem_map_of_mem hf
      rw [p1] at hc
      obtain ⟨g, hg, hgf⟩ := List.mem_map.mp hc
      have : (purge U (proto U)).2.1[i]? ∈ f.map (fun i => (purge U (proto U)).2.1[i]?) := List.mem_map_of_mem hi
      rw [← hgf] at this
      obtain ⟨j, hj, hje⟩ := List.mem_map.mp this
      rw [← hje]
      exact ⟨_, List.getElem?_eq_getElem (hv g hg j hj), hsub.subset (List.getElem_mem _)⟩
    have step : ∀ p ∈ points, points.findIdx (fun q => decide (q = p)) < points.length ∧
        points[points.findIdx (fun q => decide (q = p))]? = some p := by
      intro p hp
      have hlt : points.findIdx (fun q => decide (q = p)) < points.length :=
        List.findIdx_lt_length_of_exists ⟨p, hp, by simp⟩
      refine ⟨hlt, ?_⟩
      rw [List.getElem?_eq_getElem hlt]
      have := List.findIdx_getElem (w := hlt)
      simpa using this
    constructor
    · rw [← p1]
      apply corners_congr
      intro f hf i hi
      obtain ⟨p, hp1, hp2⟩ := valid f hf i hi
      simp only [hp1]
      exact (step p hp2).2
    · intro f' hf' i' hi'
      obtain ⟨f, hf, rfl⟩ := List.mem_map.mp hf'
      obtain ⟨i, hi, rfl⟩ := List.mem_map.mp hi'
      obtain ⟨p, hp1, hp2⟩ := valid f hf i hi
      simp only [hp1]
      exact (step p hp2).1
  · rename_i hp
    have hnd : points.Nodup := hok.resolve_right hp
    have hUe : U = points := by
      rw [← hU]
      unfold Approx.unique
      have hall : ∀ b ∈ Approx.isUnique (fun x y => !decide (x = y)) points, b = true := by
        intro b hb
        obtain ⟨l1, l2⟩ := C46_is_unique (fun x y : α => !decide (x = y)) points
        obtain ⟨i, hi, rfl⟩ := List.getElem_of_mem hb
        rw [l1] at hi
        have h := (l2 i _ (List.getElem?_eq_getElem hi)).mpr (by
          intro j y hj hy
          simp only [Bool.not_eq_true', decide_eq_false_iff_not]
          rintro rfl
          obtain ⟨hjl, hje⟩ := List.getElem?_eq_some_iff.mp hy
          have := (List.Nodup.getElem_inj_iff hnd).mp hje
          omega)
        rw [List.getElem?_eq_getElem (by rw [l1]; exact hi)] at h
        exact Option.some.inj h
      rw [List.filter_eq_self.mpr (fun a ha => hall a.2 (List.of_mem_zip ha).2)]
      exact List.map_fst_zip (by rw [(C46_is_unique (fun x y : α => !decide (x = y)) points).1])
    have hpp : (purge U (proto U)).2.2 = proto U := by
      unfold purge at hp ⊢
      simp only at hp ⊢
      split
      · rename_i hc; simp [hc] at hp
      · rfl
    rw [hpp]
    subst hUe
    exact ⟨rfl, hv⟩

/-- **C37.** The hull of points: if the points are all different, or if one of them is on no face, the faces found among
the different points are those of the result. -/
theorem C37_hull_partial [DecidableEq α] (proto : List α → List (List Nat)) (points : List α)
    (hv : ∀ f ∈ proto (Approx.unique (fun x y => !decide (x = y)) points), ∀ i ∈ f,
      i < (Approx.unique (fun x y => !decide (x = y)) points).length)
    (hok : points.Nodup ∨
      (purge (Approx.unique (fun x y => !decide (x = y)) points)
        (proto (Approx.unique (fun x y => !decide (x = y)) points))).1 = true) :
    corners (hullOf (fun x y => decide (x = y)) proto points).1 (hullOf (fun x y => decide (x = y)) proto points).2 =
      corners (Approx.unique (fun x y => !decide (x = y)) points)
        (proto (Approx.unique (fun x y => !decide (x = y)) points)) := by
  have key := facesOf_spec proto points hv hok
  rw [hullOf, (C37_finish_hull points _ key.2).1, key.1]

/-- **C37.** In every other case the faces refer to the reduced list of vertices, while the vertices are those given: the
hull of the corners of a tetrahedron, one of them given twice, is a body with a missing corner. -/
theorem C37_hull_counterexample :
    let proto := fun _ : List (List ℤ) => tetFaces
    let points : List (List ℤ) := [[0, 0, 0], [0, 0, 0], [1, 0, 0], [0, 1, 0], [0, 0, 1]]
    let unique := Approx.unique (fun x y => !decide (x = y)) points
    unique = [[0, 0, 0], [1, 0, 0], [0, 1, 0], [0, 0, 1]] ∧
    hullOf (fun x y => decide (x = y)) proto points = ([[0, 0, 0], [0, 0, 0], [1, 0, 0], [0, 1, 0]], tetFaces) ∧
    corners (hullOf (fun x y => decide (x = y)) proto points).1 (hullOf (fun x y => decide (x = y)) proto points).2 ≠
      corners unique (proto unique) := by
  decide +kernel

/-! ### C52 -/

/-- every face has three corners or more, and every corner is on three faces or more -/
def Solid (faces : List (List Nat)) : Prop :=
  ∀ f ∈ faces, 3 ≤ f.length ∧ ∀ i ∈ f, 3 ≤ (faces.filter fun g => decide (i ∈ g)).length

/-- `a` has some of the faces of `b`, each with some of its corners, in order -/
def PartOf (a b : List (List Nat)) : Prop := List.SublistForall₂ List.Sublist a b

theorem faceCount_eq (faces : List (List Nat)) (i : Nat) :
    faceCount faces i = (faces.filter fun g => decide (i ∈ g)).length := by
  rw [faceCount, List.countP_eq_length_filter]

theorem partOf_count {a b : List (List Nat)} (h : PartOf a b) (i : Nat) : faceCount a i ≤ faceCount b i := by
  induction h with
  | nil => simp [faceCount]
  | cons hs _ ih =>
    simp only [faceCount, List.countP_cons] at *
    have : ∀ {x y : List Nat}, x.Sublist y → (if decide (i ∈ x) = true then 1 else 0) ≤ if decide (i ∈ y) = true then 1 else 0 := by
      intro x y hxy
      by_cases hx : i ∈ x
      · simp [hx, hxy.subset hx]
      · simp [hx]
    have := this hs
    omega
  | cons_right _ ih =>
    simp only [faceCount, List.countP_cons] at *
    omega

/-- a solid part survives one turn -/
theorem dangle_keeps {g source : List (List Nat)} (hg : Solid g) (h : PartOf g source) : PartOf g (dangleStep source).2 := by
  unfold dangleStep
  split
  · exact h
  · rename_i hne
    clear hne
    simp only
    have hc : ∀ f ∈ g, ∀ i ∈ f, faceCount source i > 2 := by
      intro f hf i hi
      have h1 := (hg f hf).2 i hi
      rw [← faceCount_eq] at h1
      have h2 := partOf_count h i
      omega
    have hlen : ∀ f ∈ g, 3 ≤ f.length := fun f hf => (hg f hf).1
    generalize faceCount source = co at *
    clear hg
    induction h with
    | nil => exact List.SublistForall₂.nil
    | @cons x y l1 l2 hs ht ih =>
      have hx : x.Sublist (y.filter fun i => decide (co i > 2)) := by
        have : x.filter (fun i => decide (co i > 2)) = x :=
          List.filter_eq_self.mpr fun i hi => by simpa using hc x (by simp) i hi
        rw [← this]
        exact hs.filter _
      have hl : (y.filter fun i => decide (co i > 2)).length > 2 := by
        have := hx.length_le
        have := hlen x (by simp)
        omega
      rw [List.map_cons, List.filter_cons_of_pos (by simpa using hl)]
      exact List.SublistForall₂.cons hx (ih (fun f hf => hlen f (by simp [hf])) (fun f hf => hc f (by simp [hf])))
    | @cons_right y l1 l2 ht ih =>
      have := ih hlen hc
      rw [List.map_cons]
      by_cases hk : decide ((y.filter fun i => decide (co i > 2)).length > 2) = true
      · rw [List.filter_cons_of_pos (by simpa using hk)]
        exact List.SublistForall₂.cons_right this
      · rw [List.filter_cons_of_neg (by simpa using hk)]
        exact this

theorem partOf_trans {a b c : List (List Nat)} (h1 : PartOf a b) (h2 : PartOf b c) : PartOf a c := by
  unfold PartOf at *
  have : IsTrans (List Nat) List.Sublist := ⟨fun _ _ _ => List.Sublist.trans⟩
  exact _root_.trans h1 h2

theorem dangle_part (source : List (List Nat)) : PartOf (dangleStep source).2 source := by
  unfold dangleStep
  split
  · exact List.sublistForall₂_iff.mpr ⟨source, List.forall₂_same.mpr fun _ _ => .refl _, .refl _⟩
  · simp only
    generalize faceCount source = co
    rename_i hne
    clear hne
    induction source with
    | nil => exact List.SublistForall₂.nil
    | cons f fs ih =>
      rw [List.map_cons]
      by_cases hk : decide ((f.filter fun i => decide (co i > 2)).length > 2) = true
      · rw [List.filter_cons_of_pos (by simpa using hk)]
        exact List.SublistForall₂.cons List.filter_sublist ih
      · rw [List.filter_cons_of_neg (by simpa using hk)]
        exact List.SublistForall₂.cons_right ih

/-- when no face is dropped the result is solid -/
theorem dangle_solid (source : List (List Nat)) (h : (dangleStep source).1 = false) : Solid (dangleStep source).2 := by
  unfold dangleStep at h ⊢
  by_cases hs : source.length < 1
  · have : source = [] := List.eq_nil_of_length_eq_zero (by omega)
    subst this
    intro f hf
    simp at hf
  · rw [if_neg hs] at h ⊢
    simp only [decide_eq_false_iff_not, gt_iff_lt, not_lt] at h
    simp only
    generalize hco : faceCount source = co at *
    have hall : (source.map fun f => f.filter fun x => decide (co x > 2)).filter (fun f => decide (f.length > 2)) =
        source.map fun f => f.filter fun x => decide (co x > 2) := by
      apply List.filter_eq_self.mpr
      have h2 : (source.map fun f => f.filter fun x => decide (co x > 2)).length ≤
          ((source.map fun f => f.filter fun x => decide (co x > 2)).filter fun f => decide (f.length > 2)).length := by
        simpa using h
      have := List.length_filter_eq_length_iff.mp (le_antisymm (List.length_filter_le _ _) h2)
      exact this
    intro f hf
    refine ⟨by have := (List.mem_filter.mp hf).2; rw [decide_eq_true_eq] at this; omega, ?_⟩
    intro i hi
    rw [hall] at hf ⊢
    obtain ⟨s, _, rfl⟩ := List.mem_map.mp hf
    have hic : co i > 2 := by simpa using (List.mem_filter.mp hi).2
    rw [← List.countP_eq_length_filter, List.countP_map]
    have : co i = source.countP fun f => decide (i ∈ f) := by rw [← hco]; rfl
    rw [this] at hic
    refine le_trans hic (le_of_eq ?_)
    apply List.countP_congr
    intro f _
    have h3 : co i > 2 := by rw [this]; exact hic
    simp [h3]

/-- **C52.** `remove_dangling_faces` ends, after at most as many turns as there are faces, plus one; the faces left are parts of
the faces given; each has three corners or more and each corner is on three faces or more; and it is the largest such
part: any other is a part of it. -/
theorem C52_dangling (faces : List (List Nat)) (fuel : Nat) (hf : faces.length < fuel) :
    ∃ out, removeDangling fuel faces = some out ∧ Solid out ∧ PartOf out faces ∧
      ∀ g, Solid g → PartOf g faces → PartOf g out := by
  induction fuel generalizing faces with
  | zero => omega
  | succ fuel ih =>
    unfold removeDangling
    cases h : (dangleStep faces).1 with
    | true =>
      have hl : (dangleStep faces).2.length < faces.length := by
        unfold dangleStep at h ⊢
        split at h
        · cases h
        · rename_i hs
          rw [if_neg hs]
          simpa using h
      obtain ⟨out, h1, h2, h3, h4⟩ := ih (dangleStep faces).2 (by omega)
      simp only [if_true]
      exact ⟨out, h1, h2, partOf_trans h3 (dangle_part faces), fun g hg hp => h4 g hg (dangle_keeps hg hp)⟩
    | false =>
      simp only [Bool.false_eq_true, if_false]
      exact ⟨_, rfl, dangle_solid faces h, dangle_part faces, fun g hg hp => dangle_keeps hg hp⟩

/-- **C52.** Faces that are a solid already are left as they are. -/
theorem C52_solid_unchanged (faces : List (List Nat)) (h : Solid faces) (fuel : Nat) (hf : faces.length < fuel) :
    removeDangling fuel faces = some faces := by
  cases fuel with
  | zero => omega
  | succ fuel =>
    have e : (dangleStep faces).2 = faces := by
      unfold dangleStep
      split
      · rfl
      · simp only
        have : (faces.map fun f => f.filter fun x => decide (faceCount faces x > 2)) = faces := by
          conv_rhs => rw [← List.map_id faces]
          apply List.map_congr_left
          intro f hf
          apply List.filter_eq_self.mpr
          intro i hi
          have := (h f hf).2 i hi
          rw [← faceCount_eq] at this
          rw [decide_eq_true_eq]
          omega
        rw [this]
        exact List.filter_eq_self.mpr fun f hf => by
          have := (h f hf).1
          rw [decide_eq_true_eq]
          omega
    have e2 : (dangleStep faces).1 = false := by
      have : (dangleStep faces).1 = decide (faces.length > (dangleStep faces).2.length) := by
        unfold dangleStep
        split
        · rename_i hs
          have : faces = [] := List.eq_nil_of_length_eq_zero (by omega)
          simp [this]
        · rfl
      rw [this, e]
      simp
    unfold removeDangling
    rw [e2, e]
    simp

instance (faces : List (List Nat)) : Decidable (Solid faces) := by unfold Solid; infer_instance

example : Solid tetFaces := by decide
example : removeDangling 6 (tetFaces ++ [[3, 4, 5]]) = some tetFaces := by decide

end Brille.Props
