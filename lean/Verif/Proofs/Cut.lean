/- Cutting polyhedra. -/
import Verif.Model.Cut
import Verif.Props.FaceEdit
import Verif.Props.ListUtil

namespace Brille.Cut

open Brille.Tetra Brille.Faces Brille.FaceEdit

theorem orient_normal (P : Plane) (x : Pt) : P.orient x = dot P.normal (diff P.a x) := by
  simp only [Plane.orient, Plane.normal, orient3d, dot, cross, diff, Matrix.cons_val_zero, Matrix.cons_val_one,
    Matrix.cons_val]
  ring

theorem orient_between (P : Plane) (p q : Pt) (t : ℚ) :
    P.orient (fun d => p d + t * (q d - p d)) = (1 - t) * P.orient p + t * P.orient q := by
  rw [orient_normal, orient_normal, orient_normal]
  simp only [dot, diff]
  ring

theorem orient_closure (P : Plane) (S : Pt → Prop) (hS : ∀ p, S p → 0 ≤ P.orient p) (p : Pt)
    (h : Spec.ConvexClosure S p) : 0 ≤ P.orient p := by
  induction h with
  | given p hp => exact hS p hp
  | between p q t _ _ h0 h1 ihp ihq =>
    rw [orient_between]
    have : 0 ≤ 1 - t := by linarith
    positivity

theorem closure_trans (S T : Pt → Prop) (hST : ∀ p, S p → Spec.ConvexClosure T p) (p : Pt)
    (h : Spec.ConvexClosure S p) : Spec.ConvexClosure T p := by
  induction h with
  | given p hp => exact hST p hp
  | between p q t _ _ h0 h1 ihp ihq => exact .between p q t ihp ihq h0 h1

/-- the edge from a vertex beyond to one behind the plane meets it -/
theorem intersection_spec (P : Plane) (v : List Pt) (e : Nat × Nat) (h1 : P.orient (v.getD e.1 0) < 0)
    (h2 : 0 ≤ P.orient (v.getD e.2 0)) :
    ∃ t : ℚ, 0 < t ∧ t ≤ 1 ∧
      intersection P v e = some (fun d => v.getD e.1 0 d + t * (v.getD e.2 0 d - v.getD e.1 0 d)) ∧
      P.orient (fun d => v.getD e.1 0 d + t * (v.getD e.2 0 d - v.getD e.1 0 d)) = 0 := by
  have hd : dot P.normal (diff (v.getD e.2 0) (v.getD e.1 0)) = P.orient (v.getD e.1 0) - P.orient (v.getD e.2 0) := by
    rw [orient_normal, orient_normal]
    simp only [dot, diff]
    ring
  have hneg : P.orient (v.getD e.1 0) - P.orient (v.getD e.2 0) < 0 := by linarith
  have hf : dot P.normal (diff P.a (v.getD e.1 0)) / dot P.normal (diff (v.getD e.2 0) (v.getD e.1 0)) =
      P.orient (v.getD e.1 0) / (P.orient (v.getD e.1 0) - P.orient (v.getD e.2 0)) := by
    rw [hd, ← orient_normal]
  have t0 : 0 < P.orient (v.getD e.1 0) / (P.orient (v.getD e.1 0) - P.orient (v.getD e.2 0)) := div_pos_of_neg_of_neg h1 hneg
  have t1 : P.orient (v.getD e.1 0) / (P.orient (v.getD e.1 0) - P.orient (v.getD e.2 0)) ≤ 1 := by
    rw [div_le_one_of_neg hneg]; linarith
  refine ⟨_, t0, t1, ?_, ?_⟩
  · unfold intersection
    simp only
    rw [if_neg (by rw [hd]; exact hneg.ne), hf, if_neg (not_lt.mpr t0.le), if_neg (not_lt.mpr t1)]
    rfl
  · rw [orient_between]
    have hne := hneg.ne
    field_simp
    ring

theorem inside_get (P : Plane) (v : List Pt) (i : Nat) (hi : i < v.length) :
    (inside P v)[i]? = some (decide (P.orient (v.getD i 0) ≥ 0)) := by
  simp [inside, List.getD_eq_getElem?_getD, List.getElem?_eq_getElem hi]

theorem mem_cutEdges (keep : List Bool) (edges : List (List (Nat × Nat))) (x : Nat × Nat × (Nat × Nat))
    (h : x ∈ cutEdges keep edges) : x.2.2.1 < keep.length ∧ keep.getD x.2.2.1 false = false ∧
      keep.getD x.2.2.2 false = true ∧ x.1 < edges.length ∧ x.2.1 < edges.length ∧ x.2.1 ≠ x.1 ∧
      x.2.2 ∈ edges.getD x.1 [] ∧ (x.2.2.2, x.2.2.1) ∈ edges.getD x.2.1 [] := by
  unfold cutEdges at h
  simp only [List.mem_flatMap, List.mem_range] at h
  obtain ⟨j, hj, h⟩ := h
  split at h
  · simp at h
  · rename_i hk
    simp only [List.mem_flatMap, List.mem_range] at h
    obtain ⟨first, hf, edge, he, h⟩ := h
    split at h
    · rename_i hc
      simp only [List.mem_flatMap, List.mem_range] at h
      obtain ⟨second, hs, h⟩ := h
      split at h
      · rename_i hne
        simp only [List.mem_flatMap] at h
        obtain ⟨oppo, ho, h⟩ := h
        split at h
        · rename_i ho2
          rw [List.mem_singleton] at h
          subst h
          simp only
          obtain ⟨o1, o2⟩ := oppo
          obtain ⟨e1, e2⟩ := edge
          simp only at *
          obtain ⟨rfl, rfl⟩ := ho2
          obtain ⟨rfl, hc⟩ := hc
          exact ⟨hj, by simpa using hk, hc, hf, hs, hne, he, ho⟩
        · simp at h
      · simp at h
    · simp at h

theorem addBetween_mem (v : List Nat) (p f x : Nat) (w : List Nat) (b : Bool)
    (h : ListUtil.addBetweenIfMissing v p f x = some (w, b)) : ∀ i ∈ w, i ∈ v ∨ i = x := by
  obtain ⟨h1, h2⟩ := Props.C41_add_between v p f x
  by_cases hx : x ∈ v
  · rw [h1 hx] at h
    cases h
    exact fun i hi => Or.inl hi
  · obtain ⟨_, front, back, hv, _, _, rfl⟩ := (h2 hx w b).mp h
    intro i hi
    rw [hv]
    simp only [List.mem_append, List.mem_cons] at hi ⊢
    tauto

/-- what holds all along the loop of `one_cut` -/
structure Inv (P : Plane) (vin : List Pt) (nf : Nat) (st : St) : Prop where
  keep : st.keep = inside P vin
  v : ∃ new, st.v = vin ++ new ∧ new.length = st.count ∧ ∀ p ∈ new, P.orient p = 0 ∧ Spec.ConvexClosure (· ∈ vin) p
  f : st.f.length = nf
  ok : ∀ face ∈ st.f, ∀ i ∈ face, i < st.v.length
  okn : ∀ i ∈ st.newFace, i < st.v.length

theorem cutStep_inv (P : Plane) (vin : List Pt) (nf : Nat) (st st' : St) (x : Nat × Nat × (Nat × Nat) × Pt)
    (hi : Inv P vin nf st) (ho : P.orient x.2.2.2 = 0) (hc : Spec.ConvexClosure (· ∈ vin) x.2.2.2)
    (hs : cutStep st x = some st') : Inv P vin nf st' := by
  obtain ⟨new, hv, hnew, hall⟩ := hi.v
  have hlen : st.v.length = vin.length + new.length := by rw [hv, List.length_append]
  have hkl : st.keep.length = vin.length := by rw [hi.keep]; simp [inside]
  unfold cutStep at hs
  simp only at hs
  set index := st.v.findIdx fun p => decide (p = x.2.2.2) with hindex
  have hle : index ≤ st.v.length := List.findIdx_le_length
  have hkeep : (if index < st.keep.length then st.keep.set index true else st.keep) = st.keep := by
    split
    · rename_i hlt
      have hvl : index < st.v.length := by omega
      have hp := List.findIdx_getElem (w := hvl)
      simp only [← hindex, decide_eq_true_eq] at hp
      have hin : index < vin.length := by omega
      have : st.v[index] = vin[index] := by simp only [hv, List.getElem_append_left hin]
      apply List.ext_getElem?
      intro i
      by_cases hii : i = index
      · subst hii
        rw [List.getElem?_set_self hlt, hi.keep, inside_get P vin _ hin, List.getD_eq_getElem?_getD,
          List.getElem?_eq_getElem hin, Option.getD_some, ← this, hp, ho]
        simp
      · rw [List.getElem?_set_ne (Ne.symm hii)]
    · rfl
  rw [hkeep] at hs
  split at hs
  · cases hs
  · rename_i hdup
    cases h1 : ListUtil.addBetweenIfMissing (st.f.getD x.1 []) x.2.2.1.1 x.2.2.1.2 index with
    | none => simp only [h1] at hs; cases hs
    | some r1 =>
      obtain ⟨f1, b1⟩ := r1
      simp only [h1] at hs
      cases h2 : ListUtil.addBetweenIfMissing ((st.f.set x.1 f1).getD x.2.1 []) x.2.2.1.2 x.2.2.1.1 index with
      | none => simp only [h2] at hs; cases hs
      | some r2 =>
        obtain ⟨f2, b2⟩ := r2
        simp only [h2, Option.some.injEq] at hs
        subst hs
        have hidx : index < (if index = st.v.length then st.v ++ [x.2.2.2] else st.v).length := by
          split
          · simp; omega
          · omega
        have hmono : st.v.length ≤ (if index = st.v.length then st.v ++ [x.2.2.2] else st.v).length := by
          split <;> simp
        have hgd : ∀ (f : List Face) (k : Nat), (∀ face ∈ f, ∀ i ∈ face, i < (if index = st.v.length then st.v ++ [x.2.2.2] else st.v).length) →
            ∀ i ∈ f.getD k [], i < (if index = st.v.length then st.v ++ [x.2.2.2] else st.v).length := by
          intro f k hf i hik
          rw [List.getD_eq_getElem?_getD] at hik
          cases hk : f[k]? with
          | none => rw [hk] at hik; simp at hik
          | some g =>
            rw [hk] at hik
            exact hf g (List.mem_of_getElem? hk) i hik
        have hset : ∀ (f : List Face) (k : Nat) (w : Face), (∀ face ∈ f, ∀ i ∈ face, i < (if index = st.v.length then st.v ++ [x.2.2.2] else st.v).length) →
            (∀ i ∈ w, i ∈ f.getD k [] ∨ i = index) → ∀ face ∈ f.set k w, ∀ i ∈ face, i < (if index = st.v.length then st.v ++ [x.2.2.2] else st.v).length := by
          intro f k w hf hw face hface i hif
          rcases List.mem_or_eq_of_mem_set hface with h | h
          · exact hf face h i hif
          · subst h
            rcases hw i hif with h | h
            · exact hgd f k hf i h
            · rw [h]; exact hidx
        have ok0 : ∀ face ∈ st.f, ∀ i ∈ face, i < (if index = st.v.length then st.v ++ [x.2.2.2] else st.v).length :=
          fun face hf i hif => lt_of_lt_of_le (hi.ok face hf i hif) hmono
        have ok1 := hset _ _ _ ok0 (addBetween_mem _ _ _ _ _ _ h1)
        have ok2 := hset _ _ _ ok1 (addBetween_mem _ _ _ _ _ _ h2)
        refine ⟨hi.keep, ?_, by simp [hi.f], ok2, ?_⟩
        · simp only
          split
          · refine ⟨new ++ [x.2.2.2], by rw [hv, List.append_assoc], by simp [hnew], ?_⟩
            intro p hp
            rcases List.mem_append.mp hp with h | h
            · exact hall p h
            · rw [List.mem_singleton] at h
              subst h
              exact ⟨ho, hc⟩
          · exact ⟨new, hv, hnew, hall⟩
        · intro i hin
          simp only [ListUtil.addIfMissing] at hin
          split at hin
          · exact lt_of_lt_of_le (hi.okn i hin) hmono
          · rcases List.mem_append.mp hin with h | h
            · exact lt_of_lt_of_le (hi.okn i h) hmono
            · rw [List.mem_singleton] at h
              rw [h]
              exact hidx

theorem foldlM_inv (P : Plane) (vin : List Pt) (nf : Nat) : ∀ (xs : List (Nat × Nat × (Nat × Nat) × Pt)) (st st' : St),
    Inv P vin nf st → (∀ x ∈ xs, P.orient x.2.2.2 = 0 ∧ Spec.ConvexClosure (· ∈ vin) x.2.2.2) →
    xs.foldlM cutStep st = some st' → Inv P vin nf st'
  | [], st, st', hi, _, h => by
    rw [List.foldlM_nil] at h
    cases h
    exact hi
  | x :: xs, st, st', hi, hx, h => by
    rw [List.foldlM_cons] at h
    cases h1 : cutStep st x with
    | none => rw [h1] at h; cases h
    | some st1 =>
      rw [h1] at h
      have hx1 := hx x (by simp)
      exact foldlM_inv P vin nf xs st1 st' (cutStep_inv P vin nf st st1 x hi hx1.1 hx1.2 h1)
        (fun y hy => hx y (by simp [hy])) h

theorem intersections_mem (P : Plane) (vin : List Pt) (faces : List Face)
    (x : Nat × Nat × (Nat × Nat) × Pt)
    (hx : x ∈ intersections P vin (cutEdges (inside P vin) (edgesPerFace faces))) :
    P.orient x.2.2.2 = 0 ∧ Spec.ConvexClosure (· ∈ vin) x.2.2.2 := by
  unfold intersections at hx
  rw [List.mem_filterMap] at hx
  obtain ⟨e, he, hx⟩ := hx
  obtain ⟨m1, m2, m3, _⟩ := mem_cutEdges _ _ _ he
  have hl : (inside P vin).length = vin.length := by simp [inside]
  have l1 : e.2.2.1 < vin.length := by omega
  have l2 : e.2.2.2 < vin.length := by
    by_contra hc
    rw [List.getD_eq_getElem?_getD, List.getElem?_eq_none (by omega)] at m3
    simp at m3
  rw [List.getD_eq_getElem?_getD, inside_get P vin _ l1] at m2
  rw [List.getD_eq_getElem?_getD, inside_get P vin _ l2] at m3
  simp only [Option.getD_some, decide_eq_false_iff_not, decide_eq_true_eq, ge_iff_le, not_le] at m2 m3
  obtain ⟨t, t0, t1, ht, ho⟩ := intersection_spec P vin e.2.2 m2 m3
  rw [ht] at hx
  simp only [Option.map_some, Option.some.injEq] at hx
  subst hx
  refine ⟨ho, ?_⟩
  have hm : ∀ i, i < vin.length → vin.getD i 0 ∈ vin := by
    intro i hi
    rw [List.getD_eq_getElem?_getD, List.getElem?_eq_getElem hi]
    exact List.getElem_mem _
  exact .between _ _ t (.given _ (hm _ l1)) (.given _ (hm _ l2)) t0.le t1

theorem removeMiddle_mem (v : List Pt) (face : Face) : ∀ i ∈ removeMiddle v face, i ∈ face := by
  intro i hi
  unfold removeMiddle at hi
  split at hi
  · rename_i hl
    have hm : ∀ k, k < face.length → face.getD k 0 ∈ face := by
      intro k hk
      rw [List.getD_eq_getElem?_getD, List.getElem?_eq_getElem hk]
      exact List.getElem_mem _
    rcases List.mem_cons.mp hi with h | h
    · rw [h]; exact hm 0 (by omega)
    · rw [List.mem_filterMap] at h
      obtain ⟨k, hk, h⟩ := h
      rw [List.mem_range'_1] at hk
      simp only at h
      split at h
      · cases h
        exact hm k (by omega)
      · cases h
  · simp at hi

theorem partOf_mem {a b : List Face} (h : Props.PartOf a b) : ∀ f ∈ a, ∃ g ∈ b, ∀ i ∈ f, i ∈ g := by
  induction h with
  | nil => intro f hf; simp at hf
  | cons hs _ ih =>
    intro f hf
    rcases List.mem_cons.mp hf with rfl | h
    · exact ⟨_, List.mem_cons_self, fun i hi => hs.subset hi⟩
    · obtain ⟨g, hg, hi⟩ := ih f h
      exact ⟨g, List.mem_cons_of_mem _ hg, hi⟩
  | cons_right _ ih =>
    intro f hf
    obtain ⟨g, hg, hi⟩ := ih f hf
    exact ⟨g, List.mem_cons_of_mem _ hg, hi⟩

/-- what `cleanUp` does with points and indices -/
theorem cleanUp_spec (keep : List Bool) (v : List Pt) (f : List Face) (hl : keep.length = v.length)
    (hfalse : false ∈ keep) (r : List Pt × List Face) (hr : cleanUp keep v f = some r) :
    (∀ p ∈ r.1, ∃ i : Nat, keep[i]? = some true ∧ v[i]? = some p) ∧
    (∀ face ∈ r.2, ∀ i ∈ face, i < r.1.length) ∧
    (∀ i < r.1.length, ∃ face ∈ r.2, i ∈ face) ∧ (f = [] → r.2 = []) := by
  obtain ⟨p1, p2, p3, p4⟩ := Props.C37_remove_points keep v f hl hfalse
  unfold cleanUp at hr
  set R := removePoints keep v f with hR
  simp only at hr
  set F := (removeMiddles R.1 R.2).filter (fun face => !decide (((ListUtil.unique face).getD []).length < 3)) with hF
  obtain ⟨out, h1, h2, h3, h4⟩ := Props.C52_dangling F (F.length + 1) (by omega)
  rw [h1] at hr
  simp only [Option.some.injEq] at hr
  have hFok : ∀ face ∈ F, ∀ i ∈ face, i < R.1.length := by
    intro face hf i hi
    have := (List.mem_filter.mp hf).1
    have := (List.mem_filter.mp this).1
    obtain ⟨g, hg, rfl⟩ := List.mem_map.mp this
    exact p4 g hg i (removeMiddle_mem _ _ i hi)
  have hout : ∀ face ∈ out, ∀ i ∈ face, i < R.1.length := by
    intro face hf i hi
    obtain ⟨g, hg, hgi⟩ := partOf_mem h3 face hf
    exact hFok g hg i (hgi i hi)
  obtain ⟨q1, q2, q3, q4⟩ := Props.C37_faceless R.1 out hout
  rw [hr] at q1 q2 q3 q4
  refine ⟨fun p hp => (p3 p).mp (q2.subset hp), q4, q3, ?_⟩
  intro hf
  have : R.2 = [] := by
    rw [hR]
    unfold removePoints
    rw [hf]
    split <;> simp
  have hF0 : F = [] := by rw [hF, removeMiddles, this]; rfl
  have : out = [] := by
    rw [hF0] at h3
    cases h3
    rfl
  rw [← hr, this]
  unfold removeFaceless
  simp only
  split <;> simp

end Brille.Cut
