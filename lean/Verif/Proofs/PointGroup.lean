import Verif.Model.PointGroup
import Mathlib.Data.List.Count
import Mathlib.Data.List.Perm.Basic
import Mathlib.Data.List.Dedup
import Mathlib.Tactic.Common

namespace Brille.PG
open Brille.Mat

abbrev M3 := Fin 3 → Fin 3 → ℤ

/-- how many have the type `k` -/
def typeCount (ops : List M3) (k : Fin 10) : Nat := ops.countP fun R => decide (Sym.isometryType R = some k)

theorem bump_get (t : List Nat) (ht : t.length = 10) (k j : Fin 10) :
    (bump t k).getD j.1 0 = t.getD j.1 0 + if k = j then 1 else 0 := by
  unfold bump
  have hj : j.1 < t.length := by rw [ht]; exact j.2
  have hk : k.1 < t.length := by rw [ht]; exact k.2
  rw [List.getD_eq_getElem?_getD, List.getElem?_set, List.getD_eq_getElem?_getD, List.getD_eq_getElem?_getD]
  by_cases h : k = j
  · subst h; simp [hk]
  · have : ¬ k.1 = j.1 := fun he => h (Fin.ext he)
    simp [this, h]

theorem classLoop_some : ∀ {ops : List M3} {t t' : List Nat}, t.length = 10 → classLoop ops t = some t' →
    (∀ R ∈ ops, (Sym.isometryType R).isSome) ∧ t'.length = 10 ∧
      ∀ j : Fin 10, t'.getD j.1 0 = t.getD j.1 0 + typeCount ops j := by
  intro ops
  induction ops with
  | nil =>
    intro t t' ht h
    rw [classLoop] at h; cases h
    exact ⟨by simp, ht, by simp [typeCount]⟩
  | cons R ops ih =>
    intro t t' ht h
    rw [classLoop] at h
    cases hR : Sym.isometryType R with
    | none => rw [hR] at h; cases h
    | some k =>
      rw [hR] at h
      obtain ⟨h1, h2, h3⟩ := ih (by unfold bump; rw [List.length_set]; exact ht) h
      refine ⟨?_, h2, ?_⟩
      · intro R' hR'
        rcases List.mem_cons.mp hR' with rfl | hR'
        · rw [hR]; rfl
        · exact h1 R' hR'
      · intro j
        rw [h3, bump_get t ht]
        unfold typeCount
        rw [List.countP_cons, hR]
        simp only [Option.some.injEq, decide_eq_true_eq]
        omega

theorem classLoop_isSome : ∀ {ops : List M3} {t : List Nat}, (∀ R ∈ ops, (Sym.isometryType R).isSome) →
    ∃ t', classLoop ops t = some t' := by
  intro ops
  induction ops with
  | nil => intro t _; exact ⟨t, rfl⟩
  | cons R ops ih =>
    intro t h
    obtain ⟨k, hk⟩ := Option.isSome_iff_exists.mp (h R (List.mem_cons_self ..))
    rw [classLoop, hk]
    exact ih fun R' hR' => h R' (List.mem_cons_of_mem _ hR')

theorem agree_iff (a b : List Nat) : 10 = agree a b ↔ ∀ j : Fin 10, a.getD j.1 0 = b.getD j.1 0 := by
  unfold agree
  constructor
  · intro h j
    have h1 : ((List.range 10).filter fun j => decide (a.getD j 0 = b.getD j 0)).length = (List.range 10).length := by
      rw [← h]; rfl
    have := (List.length_filter_eq_length_iff.mp h1) j.1 (List.mem_range.mpr j.2)
    simpa using this
  · intro h
    rw [List.filter_eq_self.mpr]
    · rfl
    · intro j hj
      simpa using h ⟨j, List.mem_range.mp hj⟩

theorem numberLoop_spec (t : List Nat) : ∀ (l : List Data) (i : Nat),
    (numberLoop t i l = 0 ∨ i ≤ numberLoop t i l) ∧
    (∀ n, 0 < i → numberLoop t i l = n → n ≠ 0 →
      ∃ d, l[n - i]? = some d ∧ 10 = agree d.table t) ∧
    (0 < i → ∀ j d, l[j]? = some d → 10 = agree d.table t → numberLoop t i l ≠ 0 ∧ numberLoop t i l ≤ i + j) := by
  intro l
  induction l with
  | nil => intro i; exact ⟨Or.inl rfl, fun n _ h hn => absurd h.symm hn, fun _ j d h => by simp at h⟩
  | cons d l ih =>
    intro i
    obtain ⟨h1, h2, h3⟩ := ih (i + 1)
    by_cases h : 10 = agree d.table t
    · have e : numberLoop t i (d :: l) = i := by rw [numberLoop, if_pos h]
      rw [e]
      refine ⟨Or.inr (Nat.le_refl _), ?_, ?_⟩
      · rintro n _ rfl _; exact ⟨d, by simp, h⟩
      · intro hi j d' _ _; exact ⟨by omega, by omega⟩
    · have e : numberLoop t i (d :: l) = numberLoop t (i + 1) l := by rw [numberLoop, if_neg h]
      rw [e]
      refine ⟨by rcases h1 with h1 | h1 <;> [exact Or.inl h1; exact Or.inr (by omega)], ?_, ?_⟩
      · intro n hi hn hn0
        obtain ⟨d', hd', ha⟩ := h2 n (by omega) hn hn0
        have : n - i = (n - (i + 1)) + 1 := by
          rcases h1 with h1 | h1
          · exact absurd (hn.symm.trans h1) hn0
          · omega
        exact ⟨d', by rw [this, List.getElem?_cons_succ]; exact hd', ha⟩
      · intro hi j d' hj ha
        cases j with
        | zero => simp at hj; subst hj; exact absurd ha h
        | succ j =>
          rw [List.getElem?_cons_succ] at hj
          obtain ⟨a, b⟩ := h3 (by omega) j d' hj ha
          exact ⟨a, by omega⟩

/-- no two rows of the table, the empty first one included, have equal counts -/
theorem tables_distinct : ∀ i : Fin 33, ∀ j : Fin 33, (data.map Data.table)[i.1]? = (data.map Data.table)[j.1]? → i = j := by
  decide +kernel

theorem tables_length : ∀ d ∈ data, d.table.length = 10 := by decide +kernel

theorem list_ext10 {a b : List Nat} (ha : a.length = 10) (hb : b.length = 10)
    (h : ∀ j : Fin 10, a.getD j.1 0 = b.getD j.1 0) : a = b := by
  apply List.ext_getElem (by rw [ha, hb])
  intro i h1 h2
  have := h ⟨i, by omega⟩
  rw [List.getD_eq_getElem?_getD, List.getD_eq_getElem?_getD, List.getElem?_eq_getElem h1, List.getElem?_eq_getElem h2] at this
  simpa using this

/-- the number of operations of each type decides -/
theorem pointgroupNumber_iff (ops : List M3) (n : Nat) : (pointgroupNumber ops = n ∧ n ≠ 0) ↔
    (∀ R ∈ ops, (Sym.isometryType R).isSome) ∧ 1 ≤ n ∧ ∃ d, data[n]? = some d ∧
      ∀ k : Fin 10, d.table.getD k.1 0 = typeCount ops k := by
  unfold pointgroupNumber
  cases ht : classTable ops with
  | none =>
    simp only
    constructor
    · rintro ⟨h, h0⟩; exact absurd h.symm h0
    · rintro ⟨h, _⟩
      obtain ⟨t, h'⟩ := classLoop_isSome (t := List.replicate 10 0) h
      unfold classTable at ht
      rw [h'] at ht; cases ht
  | some t =>
    simp only
    obtain ⟨h1, h2, h3⟩ := classLoop_some (by simp) ht
    have h3' : ∀ j : Fin 10, t.getD j.1 0 = typeCount ops j := by
      intro j
      have : ∀ j : Fin 10, (List.replicate 10 0).getD j.1 0 = 0 := by decide
      rw [h3, this, Nat.zero_add]
    obtain ⟨s1, s2, s3⟩ := numberLoop_spec t data.tail 1
    have tl : ∀ m, 1 ≤ m → data.tail[m - 1]? = data[m]? := by
      intro m hm; rw [List.getElem?_tail]; congr 1; omega
    constructor
    · rintro ⟨h, h0⟩
      obtain ⟨d, hd, ha⟩ := s2 n (by omega) h h0
      rw [tl n (by omega)] at hd
      exact ⟨h1, by omega, d, hd, fun k => by rw [(agree_iff _ _).mp ha, h3']⟩
    · rintro ⟨_, hn, d, hd, hk⟩
      have ha : 10 = agree d.table t := (agree_iff _ _).mpr fun j => by rw [hk, h3']
      obtain ⟨a, b⟩ := s3 (by omega) (n - 1) d (by rw [tl n hn]; exact hd) ha
      refine ⟨?_, by omega⟩
      obtain ⟨d', hd', ha'⟩ := s2 _ (by omega) rfl a
      rw [tl _ (by omega)] at hd'
      have hlt : ∀ {m d}, data[m]? = some d → m < 33 := by
        intro m d h
        have := (List.getElem?_eq_some_iff.mp h).1
        exact this
      have e : d'.table = d.table := by
        apply list_ext10 (tables_length _ (List.mem_of_getElem? hd')) (tables_length _ (List.mem_of_getElem? hd))
        intro j
        rw [(agree_iff _ _).mp ha', (agree_iff _ _).mp ha]
      have := tables_distinct ⟨_, hlt hd'⟩ ⟨n, hlt hd⟩ (by
        rw [List.getElem?_map, List.getElem?_map, hd', hd]; simp [e])
      exact Fin.mk.inj_iff.mp this

theorem pointgroupNumber_perm {a b : List M3} (h : a.Perm b) : pointgroupNumber a = pointgroupNumber b := by
  have key : ∀ {a b : List M3}, a.Perm b → pointgroupNumber a ≠ 0 → pointgroupNumber b = pointgroupNumber a := by
    intro a b h h0
    obtain ⟨h1, h2, d, h3, h4⟩ := (pointgroupNumber_iff a _).mp ⟨rfl, h0⟩
    refine ((pointgroupNumber_iff b _).mpr ⟨fun R hR => h1 R (h.mem_iff.mpr hR), h2, d, h3, fun k => ?_⟩).1
    rw [h4 k]
    exact h.countP_eq _
  by_cases h0 : pointgroupNumber a = 0
  · by_cases h1 : pointgroupNumber b = 0
    · rw [h0, h1]
    · exact key h.symm h1
  · exact (key h h0).symm

theorem uniqueLoop_spec : ∀ (l unique : List M3), unique.Nodup → (uniqueLoop l unique).Nodup ∧
    (∀ R, R ∈ uniqueLoop l unique ↔ R ∈ unique ∨ R ∈ l) ∧ ∃ l', uniqueLoop l unique = unique ++ l' ∧ l'.Sublist l := by
  intro l
  induction l with
  | nil => intro u h; exact ⟨h, by simp [uniqueLoop], [], by simp [uniqueLoop], List.Sublist.refl _⟩
  | cons R l ih =>
    intro u h
    rw [uniqueLoop]
    by_cases hR : R ∈ u
    · have : (u.any fun x => decide (x = R)) = true := List.any_eq_true.mpr ⟨R, hR, by simp⟩
      simp only [if_pos this]
      obtain ⟨h1, h2, l', h3, h4⟩ := ih u h
      refine ⟨h1, fun X => ?_, l', h3, h4.cons _⟩
      rw [h2, List.mem_cons]
      constructor
      · rintro (h | h) <;> tauto
      · rintro (h | rfl | h) <;> tauto
    · have : ¬ (u.any fun x => decide (x = R)) = true := by
        rw [List.any_eq_true]; rintro ⟨x, hx, he⟩; simp at he; exact hR (he ▸ hx)
      simp only [if_neg this]
      obtain ⟨h1, h2, l', h3, h4⟩ := ih (u ++ [R]) (by
        rw [List.nodup_append]
        refine ⟨h, by simp, ?_⟩
        intro a ha b hb hab
        rw [List.mem_singleton] at hb
        rw [hab, hb] at ha
        exact hR ha)
      refine ⟨h1, fun X => ?_, R :: l', by rw [h3, List.append_assoc]; rfl, h4.cons_cons _⟩
      rw [h2, List.mem_append, List.mem_singleton, List.mem_cons]
      tauto

theorem uniqueRotations_some {rots u : List M3} {tr : Bool} (h : uniqueRotations rots tr = some u) :
    u.Nodup ∧ ∀ R, R ∈ u ↔ R ∈ rots ∨ (tr = true ∧ ∃ S ∈ rots, R = mulArrays Sym.inversion S) := by
  unfold uniqueRotations at h
  dsimp only at h
  split at h
  · cases h
  · rename_i R l ht
    cases h
    obtain ⟨h1, h2, _⟩ := uniqueLoop_spec l [R] (by simp)
    refine ⟨h1, fun X => ?_⟩
    rw [h2, List.mem_singleton, ← List.mem_cons, ← ht]
    cases tr
    · simp
    · simp only [if_true, List.mem_append, List.mem_map, true_and]
      constructor
      · rintro (h | ⟨a, h, rfl⟩)
        · exact Or.inl h
        · exact Or.inr ⟨a, h, rfl⟩
      · rintro (h | ⟨a, h, rfl⟩)
        · exact Or.inl h
        · exact Or.inr ⟨a, h, rfl⟩

theorem uniqueRotations_isSome {rots : List M3} (tr : Bool) (h : rots ≠ []) : ∃ u, uniqueRotations rots tr = some u := by
  cases rots with
  | nil => exact absurd rfl h
  | cons R l => cases tr <;> exact ⟨_, rfl⟩

end Brille.PG
