/- C38: cutting a polyhedron with planes. -/
import Verif.Proofs.Cut

namespace Brille.Props

open Brille.Tetra Brille.Faces Brille.FaceEdit Brille.Cut

/-- the faces use only existing vertices -/
def Indexed (n : Nat) (faces : List Face) : Prop := ∀ face ∈ faces, ∀ i ∈ face, i < n

/-- C38.  What remains after a cut lies on or behind the plane and within the convex closure of what was there: each
vertex is a vertex of the input or lies on the plane; the faces refer to existing vertices and use them all. -/
theorem C38_one_cut (sort : Plane → Face → List Pt → Face) (P : Plane) (v : List Pt)
    (faces : List Face) (hok : Indexed v.length faces) (v' : List Pt) (f' : List Face)
    (h : oneCut sort P v faces = some (v', f')) (hne : f' ≠ []) :
    (∀ p ∈ v', 0 ≤ P.orient p) ∧
    (∀ p ∈ v', p ∈ v ∨ (P.orient p = 0 ∧ Spec.ConvexClosure (· ∈ v) p)) ∧
    Indexed v'.length f' ∧
    ((∀ p ∈ v, 0 ≤ P.orient p) ∧ v' = v ∧ f' = faces ∨ ∀ i < v'.length, ∃ face ∈ f', i ∈ face) := by
  unfold oneCut at h
  split at h
  · cases h; exact absurd rfl hne
  · simp only at h
    split at h
    · rename_i hk
      cases h
      have hin : ∀ p ∈ v, 0 ≤ P.orient p := by
        intro p hp
        by_contra hc
        exact hk (List.mem_map.mpr ⟨p, hp, by simpa using hc⟩)
      exact ⟨hin, fun p hp => Or.inl hp, hok, Or.inl ⟨hin, rfl, rfl⟩⟩
    · rename_i hk
      split at h
      · cases h; exact absurd rfl hne
      · cases hfold : (intersections P v (cutEdges (inside P v) (edgesPerFace faces))).foldlM cutStep
            { keep := inside P v, v := v, f := faces, newFace := [], count := 0 } with
        | none => rw [hfold] at h; cases h
        | some st =>
          rw [hfold] at h
          simp only at h
          have inv : Inv P v faces.length st := by
            refine foldlM_inv P v faces.length _ _ st ?_ (fun x hx => intersections_mem P v faces x hx) hfold
            exact ⟨rfl, ⟨[], by simp, rfl, by simp⟩, rfl, hok, by simp⟩
          obtain ⟨new, hv, hnew, hall⟩ := inv.v
          rw [inv.keep, if_neg (by simpa using hk)] at h
          have hkl : (inside P v ++ List.replicate st.count true).length = st.v.length := by
            simp [inside, hv, hnew]
          obtain ⟨c1, c2, c3, _⟩ := cleanUp_spec _ _ _ hkl (List.mem_append_left _ (by simpa using hk)) (v', f') h
          have hpt : ∀ p ∈ v', (p ∈ v ∧ 0 ≤ P.orient p) ∨ (P.orient p = 0 ∧ Spec.ConvexClosure (· ∈ v) p) := by
            intro p hp
            obtain ⟨i, hi1, hi2⟩ := c1 p hp
            by_cases hiv : i < v.length
            · left
              rw [List.getElem?_append_left (by simpa [inside] using hiv), inside_get P v i hiv] at hi1
              rw [hv, List.getElem?_append_left hiv] at hi2
              rw [List.getD_eq_getElem?_getD, hi2] at hi1
              exact ⟨List.mem_of_getElem? hi2, by simpa using hi1⟩
            · right
              rw [hv, List.getElem?_append_right (by omega)] at hi2
              exact hall p (List.mem_of_getElem? hi2)
          refine ⟨?_, ?_, c2, Or.inr c3⟩
          · intro p hp
            rcases hpt p hp with h | h
            · exact h.2
            · exact h.1.ge
          · intro p hp
            rcases hpt p hp with h | h
            · exact Or.inl h.1
            · exact Or.inr h

theorem oneCut_nil (sort : Plane → Face → List Pt → Face) (P : Plane) (v v' : List Pt) (f' : List Face)
    (h : oneCut sort P v [] = some (v', f')) : f' = [] := by
  unfold oneCut at h
  split at h
  · cases h; rfl
  · simp only at h
    split at h
    · cases h; rfl
    · rename_i hk
      split at h
      · cases h; rfl
      · have he : intersections P v (cutEdges (inside P v) (edgesPerFace [])) = [] := by
          have : cutEdges (inside P v) (edgesPerFace []) = [] := by
            simp only [cutEdges, edgesPerFace, List.map_nil, List.length_nil, List.range_zero, List.flatMap_nil,
              ite_self]
            simp
          rw [this]; rfl
        rw [he, List.foldlM_nil] at h
        simp only [List.length_nil, gt_iff_lt, not_lt_zero, false_and, if_false] at h
        change (if ¬ false ∈ inside P v then some (v, []) else
          cleanUp (inside P v ++ List.replicate 0 true) v []) = some (v', f') at h
        split at h
        · cases h; rfl
        · rename_i hk2
          exact (cleanUp_spec _ _ _ (by simp [inside]) (List.mem_append_left _ (by simpa using hk2)) (v', f') h).2.2.2 rfl

/-- C38.  After any number of cuts, if anything is left, it lies on or behind every one of the planes and within the
convex closure of what there was, and the faces refer to existing vertices. -/
theorem C38_cut (sort : Plane → Face → List Pt → Face) (planes : List Plane) :
    ∀ (v : List Pt) (faces : List Face), Indexed v.length faces → ∀ (v' : List Pt) (f' : List Face),
    cut sort planes v faces = some (v', f') → f' ≠ [] →
    (∀ p ∈ v', ∀ P ∈ planes, 0 ≤ P.orient p) ∧ (∀ p ∈ v', Spec.ConvexClosure (· ∈ v) p) ∧ Indexed v'.length f' := by
  have nil : ∀ (planes : List Plane) (v v' : List Pt) (f' : List Face), cut sort planes v [] = some (v', f') → f' = [] := by
    intro planes
    induction planes with
    | nil => intro v v' f' h; cases h; rfl
    | cons P planes ih =>
      intro v v' f' h
      unfold cut at h
      rw [List.foldlM_cons] at h
      cases h1 : oneCut sort P v [] with
      | none => simp only [h1] at h; cases h
      | some r =>
        obtain ⟨v1, f1⟩ := r
        have := oneCut_nil sort P v v1 f1 h1
        subst this
        simp only [h1] at h
        exact ih v1 v' f' h
  induction planes with
  | nil =>
    intro v faces hok v' f' h _
    cases h
    exact ⟨by simp, fun p hp => .given p hp, hok⟩
  | cons P planes ih =>
    intro v faces hok v' f' h hne
    unfold cut at h
    rw [List.foldlM_cons] at h
    cases h1 : oneCut sort P v faces with
    | none => simp only [h1] at h; cases h
    | some r =>
      obtain ⟨v1, f1⟩ := r
      simp only [h1] at h
      have hf1 : f1 ≠ [] := by
        rintro rfl
        exact hne (nil planes v1 v' f' h)
      obtain ⟨a1, a2, a3, _⟩ := C38_one_cut sort P v faces hok v1 f1 h1 hf1
      obtain ⟨b1, b2, b3⟩ := ih v1 f1 a3 v' f' h hne
      refine ⟨?_, ?_, b3⟩
      · intro p hp Q hQ
        rcases List.mem_cons.mp hQ with rfl | hQ
        · exact orient_closure _ _ a1 p (b2 p hp)
        · exact b1 p hp Q hQ
      · intro p hp
        refine closure_trans _ _ (fun q hq => ?_) p (b2 p hp)
        rcases a2 q hq with h | h
        · exact .given q h
        · exact h.2

end Brille.Props
