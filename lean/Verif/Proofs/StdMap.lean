/- Lemmas about the association-list model of `std::map`. -/
import Verif.Model.StdMap
import Mathlib.Data.List.Perm.Basic
import Mathlib.Data.List.Perm.Subperm
import Mathlib.Order.Basic
import Mathlib.Data.Nat.Init

namespace Brille.StdMap

variable {α : Type}

/-- Keys are distinct. -/
def NodupKeys (m : Map α) : Prop := (m.map Prod.fst).Nodup

theorem find_set (m : Map α) (k : Nat) (v : α) (j : Nat) :
    find (set m k v) j = if j = k then some v else find m j := by
  induction m with
  | nil => simp [set, find]
  | cons p m ih =>
    obtain ⟨k', v'⟩ := p
    unfold set
    by_cases h1 : k < k'
    · rw [if_pos h1]; rfl
    · rw [if_neg h1]
      by_cases h2 : k = k'
      · subst h2; rw [if_pos rfl]; simp only [find]; split_ifs <;> rfl
      · rw [if_neg h2]; simp only [find]; rw [ih]
        by_cases h3 : j = k
        · subst h3; simp [h2]
        · simp [h3]

theorem set_perm (m : Map α) (k : Nat) (v : α) (h : find m k = none) : (set m k v).Perm ((k, v) :: m) := by
  induction m with
  | nil => simp [set]
  | cons p m ih =>
    obtain ⟨k', v'⟩ := p
    unfold set
    simp only [find] at h
    split_ifs at h with h0
    split_ifs with h1
    · exact List.Perm.refl _
    · exact ((ih h).cons _).trans (List.Perm.swap _ _ _)

theorem find_eq_none (m : Map α) (k : Nat) : find m k = none ↔ k ∉ m.map Prod.fst := by
  induction m with
  | nil => simp [find]
  | cons p m ih =>
    obtain ⟨k', v'⟩ := p
    simp only [find, List.map_cons, List.mem_cons, not_or]
    split_ifs with h0
    · simp [h0]
    · simp [ih, h0]

theorem mem_of_find {m : Map α} {k : Nat} {v : α} (h : find m k = some v) : (k, v) ∈ m := by
  induction m with
  | nil => simp [find] at h
  | cons p m ih =>
    obtain ⟨k', v'⟩ := p
    simp only [find] at h
    split_ifs at h with h0
    · simp_all
    · exact List.mem_cons_of_mem _ (ih h)

theorem find_iff_mem {m : Map α} (hm : NodupKeys m) (k : Nat) (v : α) : find m k = some v ↔ (k, v) ∈ m := by
  refine ⟨mem_of_find, fun h => ?_⟩
  induction m with
  | nil => simp at h
  | cons p m ih =>
    obtain ⟨k', v'⟩ := p
    rw [NodupKeys, List.map_cons, List.nodup_cons] at hm
    simp only [find]
    rcases List.mem_cons.1 h with h | h
    · simp_all
    · have : k ∈ m.map Prod.fst := List.mem_map.2 ⟨_, h, rfl⟩
      rw [if_neg, ih hm.2 h]
      rintro rfl
      exact hm.1 this

theorem NodupKeys.perm {m m' : Map α} (h : NodupKeys m) (hp : m.Perm m') : NodupKeys m' :=
  (hp.map Prod.fst).nodup_iff.1 h

theorem find_perm {m m' : Map α} (h : NodupKeys m) (hp : m.Perm m') (k : Nat) : find m k = find m' k := by
  ext v
  rw [find_iff_mem h, find_iff_mem (h.perm hp), hp.mem_iff]

/-- Keys are increasing. -/
def Sorted (m : Map α) : Prop := (m.map Prod.fst).Pairwise (· < ·)

theorem Sorted.nodup {m : Map α} (h : Sorted m) : NodupKeys m := h.imp (fun h => Nat.ne_of_lt h)

theorem Sorted.set {m : Map α} (h : Sorted m) (k : Nat) (v : α) : Sorted (set m k v) := by
  induction m with
  | nil => simp [StdMap.set, Sorted]
  | cons p m ih =>
    obtain ⟨k', v'⟩ := p
    have h' := h
    rw [Sorted, List.map_cons, List.pairwise_cons] at h
    unfold StdMap.set
    split_ifs with h1 h2
    · rw [Sorted, List.map_cons, List.pairwise_cons]
      refine ⟨fun a ha => ?_, h'⟩
      rcases List.mem_cons.1 ha with rfl | ha
      · exact h1
      · exact Nat.lt_trans h1 (h.1 a ha)
    · subst h2; exact h'
    · rw [Sorted, List.map_cons, List.pairwise_cons]
      refine ⟨fun a ha => ?_, ih h.2⟩
      have hn : find (StdMap.set m k v) a ≠ none := by
        rw [Ne, find_eq_none]; exact fun hh => hh ha
      rw [find_set] at hn
      split_ifs at hn with h3
      · subst h3; exact Nat.lt_of_le_of_ne (Nat.not_lt.1 h1) (Ne.symm h2)
      · rw [Ne, find_eq_none, not_not] at hn
        exact h.1 a hn

theorem length_set (m : Map α) (k : Nat) (v : α) (h : find m k = none) :
    (set m k v).length = m.length + 1 := by
  rw [(set_perm m k v h).length_eq, List.length_cons]

end Brille.StdMap
