import Verif.Model.Neighbours
import Mathlib.Data.List.Nodup
import Mathlib.Data.List.ProdSigma
import Mathlib.Data.Finset.Prod
import Mathlib.Data.Int.Interval
import Mathlib.Tactic.Ring
import Mathlib.Tactic.IntervalCases

namespace Brille.Props

open Brille.Neighbours

/-! **C40.** Relative neighbour offsets. -/

theorem mem_allFromExtent (e i : ℤ) : i ∈ allFromExtent e ↔ -e ≤ i ∧ i ≤ e := by
  unfold allFromExtent
  rw [List.mem_map]
  constructor
  · rintro ⟨n, hn, rfl⟩
    rw [List.mem_range] at hn
    omega
  · intro h
    exact ⟨(i + e).toNat, by rw [List.mem_range]; omega, by omega⟩

theorem nodup_allFromExtent (e : ℤ) : (allFromExtent e).Nodup := by
  unfold allFromExtent
  refine List.Nodup.map ?_ List.nodup_range
  intro a b h
  simpa using h

theorem length_allFromExtent (e : ℤ) (he : 0 ≤ e) : (allFromExtent e).length = 2 * e.toNat + 1 := by
  unfold allFromExtent
  rw [List.length_map, List.length_range]
  omega

theorem grid_nodup (e : ℤ) : ((allFromExtent e).flatMap fun i => (allFromExtent e).flatMap fun j =>
    (allFromExtent e).map fun k => (i, j, k)).Nodup := by
  have h : ((allFromExtent e) ×ˢ ((allFromExtent e) ×ˢ (allFromExtent e))).Nodup :=
    (nodup_allFromExtent e).product ((nodup_allFromExtent e).product (nodup_allFromExtent e))
  have : ((allFromExtent e) ×ˢ ((allFromExtent e) ×ˢ (allFromExtent e))) =
    ((allFromExtent e).flatMap fun i => (allFromExtent e).flatMap fun j =>
      (allFromExtent e).map fun k => (i, j, k)) := by
    show List.product _ (List.product _ _) = _
    simp only [List.product, List.map_flatMap, List.map_map, Function.comp_def]
  rw [← this]; exact h

/-- The offsets wanted: the components are between `-extent` and `extent` and not all zero. -/
def IsOffset (extent : ℤ) (o : ℤ × ℤ × ℤ) : Prop :=
  (-extent ≤ o.1 ∧ o.1 ≤ extent) ∧ (-extent ≤ o.2.1 ∧ o.2.1 ≤ extent) ∧ (-extent ≤ o.2.2 ∧ o.2.2 ≤ extent) ∧ o ≠ (0, 0, 0)

theorem offsets_mem (e : ℤ) (o : ℤ × ℤ × ℤ) : o ∈ offsets e ↔ IsOffset e o := by
  obtain ⟨i, j, k⟩ := o
  simp only [offsets, IsOffset, List.mem_filter, List.mem_flatMap, List.mem_map, mem_allFromExtent, Prod.mk.injEq,
    Bool.or_eq_true, decide_eq_true_eq, ne_eq]
  constructor
  · rintro ⟨⟨_, h1, _, h2, _, h3, rfl, rfl, rfl⟩, h⟩
    exact ⟨h1, h2, h3, by rintro ⟨rfl, rfl, rfl⟩; simp at h⟩
  · rintro ⟨h1, h2, h3, h⟩
    exact ⟨⟨i, h1, j, h2, k, h3, rfl, rfl, rfl⟩, by tauto⟩

/-- The number of offsets is the size of the vector the code allocates. -/
theorem offsets_finset_card (e : ℤ) (he : 0 ≤ e) (s : Finset (ℤ × ℤ × ℤ)) (hs : ∀ o, o ∈ s ↔ IsOffset e o) :
    s.card = size e := by
  have : s = (Finset.Icc (-e) e ×ˢ (Finset.Icc (-e) e ×ˢ Finset.Icc (-e) e)).erase (0, 0, 0) := by
    ext o
    rw [hs, Finset.mem_erase, Finset.mem_product, Finset.mem_product, Finset.mem_Icc, Finset.mem_Icc, Finset.mem_Icc]
    unfold IsOffset
    tauto
  rw [this, Finset.card_erase_of_mem, Finset.card_product, Finset.card_product, Int.card_Icc, size,
    length_allFromExtent e he, ← mul_assoc]
  · congr 1
    have : (e + 1 - -e).toNat = 2 * e.toNat + 1 := by omega
    rw [this]
  · simp [he]

/-- **C40.** For every non-negative extent the vector is filled exactly, with every non-zero offset within the extent
once. -/
theorem C40_offsets (e : ℤ) (he : 0 ≤ e) :
    (∀ o, o ∈ offsets e ↔ IsOffset e o) ∧ (offsets e).Nodup ∧ (offsets e).length = size e := by
  have hn : (offsets e).Nodup := (grid_nodup e).filter _
  refine ⟨offsets_mem e, hn, ?_⟩
  rw [← List.toFinset_card_of_nodup hn]
  exact offsets_finset_card e he _ fun o => by rw [List.mem_toFinset, offsets_mem]

theorem offsetsPrime_mem (e : ℤ) (he : 0 ≤ e) (o : ℤ × ℤ × ℤ) : o ∈ offsetsPrime e ↔ IsOffset e o := by
  obtain ⟨i, j, k⟩ := o
  simp only [offsetsPrime, IsOffset, List.mem_append, List.mem_filter, List.mem_flatMap, List.mem_map,
    mem_allFromExtent, ne_eq, decide_not, Bool.and_eq_true, Bool.not_eq_true', decide_eq_false_iff_not,
    Prod.mk.injEq, List.mem_range, Prod.exists, List.mem_range'_1]
  constructor
  · rintro ((⟨ax, hax, v, ⟨hv, hne⟩, h⟩ | ⟨e0, h0, e1, h1, a, b, ⟨⟨a', ha, b', hb, rfl, rfl⟩, hz⟩, h⟩) | ⟨⟨_, h1, _, h2, _, h3, rfl, rfl, rfl⟩, h⟩)
    · interval_cases ax <;> simp [onAxis] at h <;> obtain ⟨rfl, rfl, rfl⟩ := h <;>
        simp [hv, he, hne]
    · interval_cases e0
      · obtain ⟨h1, h2⟩ := h1
        simp at h1 h2
        interval_cases e1 <;> simp [onPlane] at h <;> obtain ⟨rfl, rfl, rfl⟩ := h <;>
          simp [ha, hb, he, hz]
      · obtain ⟨h1, h2⟩ := h1
        simp at h1 h2
        interval_cases e1 <;> simp [onPlane] at h <;> obtain ⟨rfl, rfl, rfl⟩ := h <;>
          simp [ha, hb, he, hz]
    · exact ⟨h1, h2, h3, by tauto⟩
  · rintro ⟨h1, h2, h3, h⟩
    by_cases hi : i = 0
    · subst hi
      by_cases hj : j = 0
      · subst hj
        exact Or.inl (Or.inl ⟨2, by omega, k, ⟨h3, fun hk => h (by simp [hk])⟩, by simp [onAxis]⟩)
      · by_cases hk : k = 0
        · subst hk
          exact Or.inl (Or.inl ⟨1, by omega, j, ⟨h2, hj⟩, by simp [onAxis]⟩)
        · exact Or.inl (Or.inr ⟨1, by omega, 2, by omega, j, k, ⟨⟨j, h2, k, h3, rfl, rfl⟩, hj, hk⟩, by simp [onPlane]⟩)
    · by_cases hj : j = 0
      · subst hj
        by_cases hk : k = 0
        · subst hk
          exact Or.inl (Or.inl ⟨0, by omega, i, ⟨h1, hi⟩, by simp [onAxis]⟩)
        · exact Or.inl (Or.inr ⟨0, by omega, 2, by omega, i, k, ⟨⟨i, h1, k, h3, rfl, rfl⟩, hi, hk⟩, by simp [onPlane]⟩)
      · by_cases hk : k = 0
        · subst hk
          exact Or.inl (Or.inr ⟨0, by omega, 1, by omega, i, j, ⟨⟨i, h1, j, h2, rfl, rfl⟩, hi, hj⟩, by simp [onPlane]⟩)
        · exact Or.inr ⟨⟨i, h1, j, h2, k, h3, rfl, rfl, rfl⟩, ⟨hi, hj⟩, hk⟩

theorem length_nonzero (e : ℤ) (he : 0 ≤ e) :
    ((allFromExtent e).filter fun j => j ≠ 0).length = 2 * e.toNat := by
  have hn : ((allFromExtent e).filter fun j => j ≠ 0).Nodup := (nodup_allFromExtent e).filter _
  rw [← List.toFinset_card_of_nodup hn]
  have : ((allFromExtent e).filter fun j => j ≠ 0).toFinset = (Finset.Icc (-e) e).erase 0 := by
    ext i
    simp [mem_allFromExtent, and_comm]
  rw [this, Finset.card_erase_of_mem (by simp [he]), Int.card_Icc]
  omega

/-- A filtered product is the product of the filtered lists. -/
theorem filter_pairs (l : List ℤ) :
    (l.flatMap fun k => l.map fun j => (k, j)).filter (fun (k, j) => k ≠ 0 && j ≠ 0) =
      (l.filter fun k => k ≠ 0).flatMap fun k => (l.filter fun j => j ≠ 0).map fun j => (k, j) := by
  have : ∀ (l' : List ℤ), (l'.flatMap fun k => l.map fun j => (k, j)).filter (fun (k, j) => k ≠ 0 && j ≠ 0) =
      (l'.filter fun k => k ≠ 0).flatMap fun k => (l.filter fun j => j ≠ 0).map fun j => (k, j) := by
    intro l'
    induction l' with
    | nil => rfl
    | cons a t ih =>
      rw [List.flatMap_cons, List.filter_append, ih, List.filter_map]
      by_cases ha : a = 0
      · subst ha
        rw [List.filter_cons_of_neg (by simp)]
        simp [Function.comp_def]
      · rw [List.filter_cons_of_pos (by simpa using ha), List.flatMap_cons]
        congr 2
        simp [Function.comp_def, ha]
  exact this l

theorem filter_triples (l : List ℤ) :
    ((l.flatMap fun i => l.flatMap fun j => l.map fun k => (i, j, k)).filter
      (fun (i, j, k) => i ≠ 0 && j ≠ 0 && k ≠ 0)).length =
      (l.filter fun k => k ≠ 0).length * ((l.filter fun k => k ≠ 0).length * (l.filter fun k => k ≠ 0).length) := by
  have : ∀ (l' : List ℤ), ((l'.flatMap fun i => l.flatMap fun j => l.map fun k => (i, j, k)).filter
      (fun (i, j, k) => i ≠ 0 && j ≠ 0 && k ≠ 0)).length =
      (l'.filter fun k => k ≠ 0).length * ((l.filter fun k => k ≠ 0).length * (l.filter fun k => k ≠ 0).length) := by
    intro l'
    induction l' with
    | nil => simp
    | cons a t ih =>
      rw [List.flatMap_cons, List.filter_append, List.length_append, ih]
      have hm : (l.flatMap fun j => l.map fun k => (a, j, k)) =
          (l.flatMap fun j => l.map fun k => (j, k)).map fun p => (a, p.1, p.2) := by
        simp [List.map_flatMap, Function.comp_def]
      rw [hm, List.filter_map, List.length_map]
      by_cases ha : a = 0
      · subst ha
        rw [List.filter_cons_of_neg (by simp)]
        simp [Function.comp_def]
      · rw [List.filter_cons_of_pos (by simpa using ha), List.length_cons]
        have hc : ((fun (x : ℤ × ℤ × ℤ) => match x with | (i, j, k) => decide (i ≠ 0) && decide (j ≠ 0) && decide (k ≠ 0)) ∘
            fun (p : ℤ × ℤ) => (a, p.1, p.2)) = fun (k, j) => decide (k ≠ 0) && decide (j ≠ 0) := by
          funext p
          simp [ha]
        rw [hc, filter_pairs]
        simp [List.length_flatMap]
        ring
  exact this l

theorem offsetsPrime_length (e : ℤ) (he : 0 ≤ e) : (offsetsPrime e).length = size e := by
  unfold offsetsPrime size
  rw [List.length_append, List.length_append, filter_triples, filter_pairs, length_allFromExtent e he]
  have h := length_nonzero e he
  have hp : (((allFromExtent e).filter fun k => k ≠ 0).flatMap fun k =>
      ((allFromExtent e).filter fun j => j ≠ 0).map fun j => (k, j)).length = (2 * e.toNat) * (2 * e.toNat) := by
    rw [List.length_flatMap]
    simp only [List.length_map, h]
    rw [List.map_const', List.sum_replicate, h]
    simp
  have h1 : ((List.range 3).flatMap fun a => ((allFromExtent e).filter fun j => j ≠ 0).map (onAxis a)).length =
      3 * (2 * e.toNat) := by
    rw [List.length_flatMap]
    simp only [List.length_map, h]
    simp
    omega
  have h2 : ((List.range 2).flatMap fun e0 => (List.range' (e0 + 1) (3 - (e0 + 1))).flatMap fun e1 =>
      ((((allFromExtent e).filter fun k => k ≠ 0).flatMap fun k =>
      ((allFromExtent e).filter fun j => j ≠ 0).map fun j => (k, j))).map fun (k, j) => onPlane e0 e1 k j).length =
      3 * ((2 * e.toNat) * (2 * e.toNat)) := by
    simp only [List.length_flatMap, List.length_map, h, List.map_const', List.sum_replicate]
    simp [List.range_succ]
    ring
  rw [h1, h2, h]
  generalize e.toNat = n
  have : (2 * n + 1) * (2 * n + 1) * (2 * n + 1) =
    (3 * (2 * n) + 3 * (2 * n * (2 * n)) + 2 * n * (2 * n * (2 * n))) + 1 := by ring
  omega

/-- **C40 (axes first).** The variant that lists the axes and planes first has the same offsets, each once, and fills
its vector exactly. -/
theorem C40_offsets_prime (e : ℤ) (he : 0 ≤ e) :
    (∀ o, o ∈ offsetsPrime e ↔ IsOffset e o) ∧ (offsetsPrime e).Nodup ∧ (offsetsPrime e).length = size e := by
  refine ⟨offsetsPrime_mem e he, ?_, offsetsPrime_length e he⟩
  have h := offsets_finset_card e he (offsetsPrime e).toFinset
    fun o => by rw [List.mem_toFinset, offsetsPrime_mem e he]
  rw [← offsetsPrime_length e he] at h
  exact Multiset.toFinset_card_eq_card_iff_nodup.mp h

/-- **C40 (axes first, order).** The offsets along one axis precede those in a plane, which precede the rest. -/
theorem C40_prime_order (e : ℤ) : (offsetsPrime e).Pairwise fun a b =>
    (if a.1 = 0 then 0 else 1) + (if a.2.1 = 0 then 0 else 1) + (if a.2.2 = 0 then 0 else 1) ≤
    (if b.1 = 0 then 0 else 1) + (if b.2.1 = 0 then 0 else 1) + (if b.2.2 = 0 then 0 else (1 : ℕ)) := by
  let w : ℤ × ℤ × ℤ → ℕ := fun a => (if a.1 = 0 then 0 else 1) + (if a.2.1 = 0 then 0 else 1) + (if a.2.2 = 0 then 0 else 1)
  have hconst : ∀ (l : List (ℤ × ℤ × ℤ)) (n : ℕ), (∀ a ∈ l, w a = n) → l.Pairwise fun a b => w a ≤ w b := by
    intro l n h
    exact List.pairwise_of_forall_mem_list fun a ha b hb => by rw [h a ha, h b hb]
  have h1 : ∀ a ∈ ((List.range 3).flatMap fun x => ((allFromExtent e).filter fun j => j ≠ 0).map (onAxis x)), w a = 1 := by
    intro a ha
    simp only [List.mem_flatMap, List.mem_map, List.mem_filter, List.mem_range, decide_eq_true_eq, ne_eq, decide_not,
      Bool.not_eq_true', decide_eq_false_iff_not] at ha
    obtain ⟨x, hx, j, ⟨_, hj⟩, rfl⟩ := ha
    interval_cases x <;> simp [w, onAxis, hj]
  have h2 : ∀ a ∈ ((List.range 2).flatMap fun e0 => (List.range' (e0 + 1) (3 - (e0 + 1))).flatMap fun e1 =>
    (((allFromExtent e).flatMap fun k => (allFromExtent e).map fun j => (k, j)).filter
      fun (k, j) => k ≠ 0 && j ≠ 0).map fun (k, j) => onPlane e0 e1 k j), w a = 2 := by
    intro a ha
    simp only [List.mem_flatMap, List.mem_map, List.mem_filter, List.mem_range, ne_eq, decide_not,
      Bool.and_eq_true, Bool.not_eq_true', decide_eq_false_iff_not, Prod.exists, List.mem_range'_1] at ha
    obtain ⟨e0, h0, e1, ⟨h1, h2⟩, k, j, ⟨_, hk, hj⟩, rfl⟩ := ha
    interval_cases e0 <;> simp at h1 h2 <;> interval_cases e1 <;> simp [w, onPlane, hj, hk]
  have h3 : ∀ a ∈ (((allFromExtent e).flatMap fun i => (allFromExtent e).flatMap fun j =>
    (allFromExtent e).map fun k => (i, j, k)).filter fun (i, j, k) => i ≠ 0 && j ≠ 0 && k ≠ 0), w a = 3 := by
    intro a ha
    obtain ⟨i, j, k⟩ := a
    simp only [List.mem_filter, ne_eq, decide_not, Bool.and_eq_true, Bool.not_eq_true', decide_eq_false_iff_not] at ha
    simp [w, ha.2]
  show (offsetsPrime e).Pairwise fun a b => w a ≤ w b
  unfold offsetsPrime
  rw [List.pairwise_append, List.pairwise_append]
  refine ⟨⟨hconst _ 1 h1, hconst _ 2 h2, ?_⟩, hconst _ 3 h3, ?_⟩
  · intro a ha b hb
    rw [h1 a ha, h2 b hb]; omega
  · intro a ha b hb
    rw [h3 b hb]
    rcases List.mem_append.mp ha with ha | ha
    · rw [h1 a ha]; omega
    · rw [h2 a ha]; omega

/-- **C40 (four dimensions).** -/
theorem C40_offsets4 (e : ℤ) :
    (∀ i j k l, (i, j, k, l) ∈ offsets4 e ↔ (-e ≤ i ∧ i ≤ e) ∧ (-e ≤ j ∧ j ≤ e) ∧ (-e ≤ k ∧ k ≤ e) ∧
      (-e ≤ l ∧ l ≤ e) ∧ ¬ (i = 0 ∧ j = 0 ∧ k = 0 ∧ l = 0)) ∧ (offsets4 e).Nodup := by
  constructor
  · intro i j k l
    simp only [offsets4, List.mem_filter, List.mem_flatMap, List.mem_map, mem_allFromExtent, Prod.mk.injEq,
      Bool.or_eq_true, decide_eq_true_eq, ne_eq]
    constructor
    · rintro ⟨⟨_, h1, _, h2, _, h3, _, h4, rfl, rfl, rfl, rfl⟩, h⟩
      exact ⟨h1, h2, h3, h4, by rintro ⟨rfl, rfl, rfl, rfl⟩; simp at h⟩
    · rintro ⟨h1, h2, h3, h4, h⟩
      exact ⟨⟨i, h1, j, h2, k, h3, l, h4, rfl, rfl, rfl, rfl⟩, by tauto⟩
  · have h : ((allFromExtent e) ×ˢ ((allFromExtent e) ×ˢ ((allFromExtent e) ×ˢ (allFromExtent e)))).Nodup :=
      (nodup_allFromExtent e).product ((nodup_allFromExtent e).product
        ((nodup_allFromExtent e).product (nodup_allFromExtent e)))
    have : ((allFromExtent e) ×ˢ ((allFromExtent e) ×ˢ ((allFromExtent e) ×ˢ (allFromExtent e)))) =
      ((allFromExtent e).flatMap fun i => (allFromExtent e).flatMap fun j =>
        (allFromExtent e).flatMap fun k => (allFromExtent e).map fun l => (i, j, k, l)) := by
      show List.product _ (List.product _ (List.product _ _)) = _
      simp only [List.product, List.map_flatMap, List.map_map, Function.comp_def]
    unfold offsets4
    rw [← this]
    exact h.filter _

example : (offsets 1).length = 26 ∧ (offsetsPrime 1).take 7 = [(-1, 0, 0), (1, 0, 0), (0, -1, 0), (0, 1, 0), (0, 0, -1),
    (0, 0, 1), (-1, -1, 0)] ∧ offsets 0 = [] ∧ (offsets4 1).length = 80 := by decide +kernel

end Brille.Props
