/- Equality of lists of faces. -/
import Verif.Model.Faces
import Verif.Spec.Polyhedron
import Mathlib.Data.List.Cycle
import Mathlib.Tactic.Ring

namespace Brille.Faces

theorem rolled_eq (g : Face) (r : Nat) : rolled g r = g.rotate r := by
  unfold rolled
  apply List.ext_getElem
  · simp
  · intro i h1 h2
    have hi : i < g.length := by simpa using h1
    have hp : (i + r) % g.length < g.length := Nat.mod_lt _ (by omega)
    simp [List.getElem_rotate, List.getD_eq_getElem?_getD, List.getElem?_eq_getElem hp]

theorem sameFace_iff (f g : Face) : sameFace f g = true ↔ f ≠ [] ∧ Spec.SamePolygon f g := by
  unfold sameFace Spec.SamePolygon
  simp only [Bool.and_eq_true, decide_eq_true_eq, List.any_eq_true, List.mem_range, rolled_eq]
  constructor
  · rintro ⟨hl, r, hr, h⟩
    refine ⟨?_, r, h⟩
    rintro rfl
    simp at hl
    simp [hl] at hr
  · rintro ⟨hne, n, h⟩
    have hl : g.length = f.length := by rw [← h]; simp
    have hp : 0 < g.length := by rw [hl]; exact List.length_pos_iff.mpr hne
    exact ⟨hl, n % g.length, Nat.mod_lt _ hp, by rw [List.rotate_mod]; exact h⟩

theorem sameFace_symm (f g : Face) (h : sameFace f g = true) : sameFace g f = true := by
  rw [sameFace_iff] at *
  obtain ⟨hne, n, h⟩ := h
  have hr : f ~r g := List.IsRotated.symm ⟨n, h⟩
  refine ⟨?_, hr⟩
  rintro rfl
  simp at h
  exact hne h

theorem sameFace_trans (f g h : Face) (h1 : sameFace f g = true) (h2 : sameFace g h = true) :
    sameFace f h = true := by
  rw [sameFace_iff] at *
  have a : g ~r f := h1.2
  have b : h ~r g := h2.2
  exact ⟨h1.1, b.trans a⟩

theorem forall₂_replace {α β : Type*} {R : α → β → Prop} {h g : β} (hr : ∀ x, R x h → R x g) :
    ∀ (l : List α) (l1 l2 : List β), List.Forall₂ R l (l1 ++ h :: l2) → List.Forall₂ R l (l1 ++ g :: l2)
  | _, [], _, H => by
    cases H with
    | cons a b => exact List.Forall₂.cons (hr _ a) b
  | _, _ :: l1, l2, H => by
    cases H with
    | cons a b => exact List.Forall₂.cons a (forall₂_replace hr _ l1 l2 b)

/-- taking the first partner that fits finds a matching if there is one -/
theorem matchAll_iff : ∀ (a b : List Face),
    matchAll a b = true ↔ ∃ c, c.Subperm b ∧ List.Forall₂ (fun f g => sameFace f g = true) a c
  | [], b => by
    simp only [matchAll, List.forall₂_nil_left_iff, true_iff]
    exact ⟨[], List.nil_subperm, rfl⟩
  | f :: fs, b => by
    unfold matchAll
    cases hk : b.findIdx? (sameFace f) with
    | none =>
      simp only [Bool.false_eq_true, false_iff]
      rintro ⟨c, hc, hR⟩
      cases hR with
      | cons hfg _ =>
        rw [List.findIdx?_eq_none_iff] at hk
        have := hk _ (hc.subset List.mem_cons_self)
        simp [this] at hfg
    | some k =>
      obtain ⟨hkl, hkR, -⟩ := List.findIdx?_eq_some_iff_getElem.mp hk
      simp only
      rw [matchAll_iff fs]
      have hperm : b.Perm (b[k] :: b.eraseIdx k) := (List.getElem_cons_eraseIdx_perm hkl).symm
      constructor
      · rintro ⟨c, hc, hR⟩
        refine ⟨b[k] :: c, ?_, List.Forall₂.cons hkR hR⟩
        exact ((List.subperm_cons _).mpr hc).trans hperm.symm.subperm
      · rintro ⟨c, hc, hR⟩
        cases hR with
        | @cons _ g _ c' hfg hR =>
          have hc2 : (g :: c').Subperm (b[k] :: b.eraseIdx k) := hc.trans hperm.subperm
          generalize b[k] = h at *
          generalize b.eraseIdx k = b' at *
          by_cases hg : g = h
          · subst hg
            exact ⟨c', (List.subperm_cons _).mp hc2, hR⟩
          · by_cases hm : h ∈ c'
            · obtain ⟨l1, l2, rfl⟩ := List.append_of_mem hm
              refine ⟨l1 ++ g :: l2, ?_, forall₂_replace ?_ _ l1 l2 hR⟩
              · have p1 : (h :: (l1 ++ g :: l2)).Perm (g :: (l1 ++ h :: l2)) :=
                  (List.Perm.cons h List.perm_middle).trans
                    ((List.Perm.swap g h _).trans (List.Perm.cons g List.perm_middle.symm))
                exact (List.subperm_cons _).mp (p1.subperm.trans hc2)
              · intro x hx
                exact sameFace_trans _ _ _ (sameFace_trans _ _ _ hx (sameFace_symm _ _ hkR)) hfg
            · refine ⟨c', ?_, hR⟩
              have hn : h ∉ g :: c' := by simp [Ne.symm hg, hm]
              have := hc2.erase h
              rw [List.erase_of_not_mem hn, List.erase_cons_head] at this
              exact ((List.sublist_cons_self g c').subperm).trans this

theorem foldl_add_eq_sum (l : List Nat) : l.foldl (· + ·) 0 = l.sum := by
  rw [List.sum_eq_foldl]

theorem forall₂_length_sum : ∀ (a c : List Face), List.Forall₂ (fun f g => sameFace f g = true) a c →
    (a.map List.length).sum = (c.map List.length).sum
  | _, _, .nil => rfl
  | _, _, .cons h t => by
    obtain ⟨_, n, hn⟩ := (sameFace_iff _ _).mp h
    simp [forall₂_length_sum _ _ t, ← hn]

theorem facesEq_iff (a b : List Face) :
    facesEq a b = true ↔ ∃ c, c.Perm b ∧ List.Forall₂ (fun f g => sameFace f g = true) a c := by
  unfold facesEq
  simp only [Bool.and_eq_true, decide_eq_true_eq, foldl_add_eq_sum, matchAll_iff]
  constructor
  · rintro ⟨⟨hl, _⟩, c, hc, hR⟩
    exact ⟨c, hc.perm_of_length_le (by rw [← hR.length_eq, hl]), hR⟩
  · rintro ⟨c, hc, hR⟩
    refine ⟨⟨by rw [hR.length_eq, hc.length_eq], ?_⟩, c, hc.subperm, hR⟩
    rw [forall₂_length_sum a c hR, (hc.map List.length).sum_eq]

/-- a polygon with three or more different vertices is not the same as its reverse -/
theorem not_rotated_reverse (l : List Nat) (hn : l.Nodup) (h3 : 3 ≤ l.length) : ¬ l ~r l.reverse := by
  intro h
  have h0 : 0 < l.length := by omega
  have hm : l[0] ∈ l := List.getElem_mem h0
  have e1 := List.isRotated_next_eq h hn hm
  have e2 := List.next_reverse_eq_prev l hn l[0] hm
  have e3 : l.next l[0] hm = l.prev l[0] hm := by rw [e1, e2]
  have e4 := List.next_getElem l hn 0 h0
  have e5 := List.prev_getElem l hn 0 h0
  rw [e4, e5] at e3
  have := (List.Nodup.getElem_inj_iff hn).mp e3
  rw [Nat.mod_eq_of_lt (by omega), Nat.mod_eq_of_lt (by omega)] at this
  omega

end Brille.Faces
