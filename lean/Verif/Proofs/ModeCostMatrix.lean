/-
Proofs about the loops which fill the cost matrix.
-/
import Mathlib.Data.List.ProdSigma
import Mathlib.Data.List.Nodup
import Verif.Proofs.ModeCost

namespace Brille.ModeCost
open Finset Brille.Spec

theorem addAll {α : Type} (key : α → Nat) (g : α → ℝ) (step : List ℝ → α → Option (List ℝ)) :
    ∀ (l : List α) (cost : List ℝ), (∀ c x, x ∈ l → step c x = addTo c (key x) (g x)) →
      (∀ x ∈ l, key x < cost.length) → (l.map key).Nodup →
      ∃ c', l.foldlM step cost = some c' ∧ c'.length = cost.length ∧
        (∀ x ∈ l, c'.getD (key x) 0 = cost.getD (key x) 0 + g x) ∧
        ∀ k, k ∉ l.map key → c'.getD k 0 = cost.getD k 0 := by
  intro l
  induction l with
  | nil => intro cost _ _ _; exact ⟨cost, rfl, rfl, by simp, by simp⟩
  | cons x l ih =>
    intro cost hs hl hn
    rw [List.map_cons, List.nodup_cons] at hn
    have hx := hl x (by simp)
    have e1 : step cost x = some (cost.set (key x) (cost.getD (key x) 0 + g x)) := by
      rw [hs cost x (by simp), addTo]
      simp [hx]
    obtain ⟨c', h1, h2, h3, h4⟩ := ih (cost.set (key x) (cost.getD (key x) 0 + g x))
      (fun c y hy => hs c y (by simp [hy])) (by intro y hy; simpa using hl y (by simp [hy])) hn.2
    refine ⟨c', ?_, by simpa using h2, ?_, ?_⟩
    · rw [List.foldlM_cons, e1]; exact h1
    · intro y hy
      rcases List.mem_cons.mp hy with rfl | hy
      · rw [h4 _ hn.1]; simp [hx]
      · rw [h3 y hy]
        have hne : key x ≠ key y := fun e => hn.1 (by rw [e]; exact List.mem_map_of_mem hy)
        simp [List.getElem?_set, hne]
    · intro k hk
      rw [List.map_cons, List.mem_cons, not_or] at hk
      rw [h4 k hk.2]
      simp [List.getElem?_set, Ne.symm hk.1]

theorem mem_pairs {n i j : Nat} : (i, j) ∈ pairs n ↔ i < n ∧ j < n := by
  simp [pairs]

theorem key_inj {n i j i' j' : Nat} (hj : j < n) (hj' : j' < n) (h : i * n + j = i' * n + j') :
    i = i' ∧ j = j' := by
  have hn : 0 < n := by omega
  have h1 : (i * n + j) / n = i := by rw [mul_comm, Nat.mul_add_div hn, Nat.div_eq_of_lt hj]; rfl
  have h2 : (i' * n + j') / n = i' := by rw [mul_comm, Nat.mul_add_div hn, Nat.div_eq_of_lt hj']; rfl
  have : i = i' := by rw [← h1, ← h2, h]
  subst this
  exact ⟨rfl, by omega⟩

theorem pairs_nodup (n : Nat) : ((pairs n).map fun x => x.1 * n + x.2).Nodup := by
  have h1 : (pairs n).Nodup := List.Nodup.product List.nodup_range List.nodup_range
  refine List.Nodup.map_on ?_ h1
  rintro ⟨i, j⟩ hx ⟨i', j'⟩ hy h
  obtain ⟨a, b⟩ := key_inj (mem_pairs.mp hx).2 (mem_pairs.mp hy).2 h
  exact Prod.ext a b

section
variable {T : Type} [RCLike T]

theorem addCost_spec (s : Scalars T) (d : Data T) (i0 i1 : Nat) (cost : List ℝ) (phase : Bool)
    (hl : cost.length = d.branches * d.branches) (g : Nat → Nat → ℝ)
    (hg : ∀ i j, i < d.branches → j < d.branches →
      ((second s d phase (fun k => d.row i0 (i * d.span + k)) (fun k => d.row i1 (j * d.span + k))).bind
        fun b => pairCost s d (fun k => d.row i0 (i * d.span + k)) b) = some (g i j)) :
    ∃ c, addCost s d i0 i1 cost phase = some c ∧ c.length = cost.length ∧
      ∀ i j, i < d.branches → j < d.branches →
        c.getD (i * d.branches + j) 0 = cost.getD (i * d.branches + j) 0 + g i j := by
  obtain ⟨c, h1, h2, h3, _⟩ := addAll (fun x : Nat × Nat => x.1 * d.branches + x.2) (fun x => g x.1 x.2)
    (addPair s d phase i0 i1) (pairs d.branches) cost (by
      rintro c ⟨i, j⟩ hx
      obtain ⟨hi, hj⟩ := mem_pairs.mp hx
      have := hg i j hi hj
      unfold addPair
      rw [Option.bind_eq_some_iff] at this
      obtain ⟨b, hb, hp⟩ := this
      dsimp only
      rw [hb, Option.bind_some, hp, Option.bind_some])
    (by
      rintro ⟨i, j⟩ hx
      obtain ⟨hi, hj⟩ := mem_pairs.mp hx
      dsimp only
      rw [hl]
      calc i * d.branches + j < i * d.branches + d.branches := by omega
        _ = (i + 1) * d.branches := by ring
        _ ≤ d.branches * d.branches := Nat.mul_le_mul_right _ hi)
    (pairs_nodup _)
  exact ⟨c, h1, h2, fun i j hi hj => h3 (i, j) (mem_pairs.mpr ⟨hi, hj⟩)⟩

/-- the cost of two modes which are scalars only -/
theorem pairCost_scalars (s : Scalars T) (d : Data T) (h1 : d.vectors = 0) (h2 : d.matrices = 0)
    (a b : Nat → T) : pairCost s d a b = some (d.mult.1 * ∑ k ∈ range d.scalars, ‖a k - b k‖) := by
  unfold pairCost
  by_cases h : d.scalars = 0
  · simp [h1, h2, h]
  · simp [h1, h2, h, scalarFun, sumLoop_eq]

end

/-- the cost of two modes which are vectors only -/
theorem pairCost_vectors (d : Data ℂ) (h1 : d.scalars = 0) (h2 : d.matrices = 0) (h3 : d.vectors ≠ 0)
    (a b : Nat → ℂ) :
    ((second complexes d true a b).bind fun b => pairCost complexes d a b) =
      some (d.mult.2.1 * vectorCost d.vcf d.vectors a b) := by
  have hs : d.span = d.vectors := by simp [Data.span, h1, h2]
  have h := vectorFun_phased d.vcf d.vectors a b
  unfold second pairCost
  rw [hs]
  simp only [if_true, h3, if_false, h1, h2, complexes, Option.bind_some, ne_eq, not_true, not_false_eq_true, Nat.zero_add] at h ⊢
  rw [h]
  simp

section
variable {T : Type} [RCLike T]

/-- The cost matrix of scalar values and complex vectors. -/
theorem costMatrix_spec (st : Scalars T) (values : Data T) (vectors : Data ℂ)
    (hb : vectors.branches = values.branches) (hv1 : values.vectors = 0) (hv2 : values.matrices = 0)
    (hw1 : vectors.scalars = 0) (hw2 : vectors.matrices = 0) (hw3 : vectors.vectors ≠ 0) (i0 i1 : Nat)
    (hne : i0 ≠ i1) :
    ∃ c, costMatrix st complexes values vectors i0 i1 = some c ∧
      c.length = values.branches * values.branches ∧
      ∀ i j, i < values.branches → j < values.branches →
        c.getD (i * values.branches + j) 0 =
          values.mult.1 * ∑ k ∈ range values.scalars,
            ‖values.row i0 (i * values.scalars + k) - values.row i1 (j * values.scalars + k)‖ +
          vectors.mult.2.1 * vectorCost vectors.vcf vectors.vectors
            (fun k => vectors.row i0 (i * vectors.vectors + k))
            (fun k => vectors.row i1 (j * vectors.vectors + k)) := by
  have hs : values.span = values.scalars := by simp [Data.span, hv1, hv2]
  have hs' : vectors.span = vectors.vectors := by simp [Data.span, hw1, hw2]
  obtain ⟨c1, h1, h2, h3⟩ := addCost_spec st values i0 i1
    (List.replicate (values.branches * values.branches) (0 : ℝ)) false (by simp)
    (fun i j => values.mult.1 * ∑ k ∈ range values.scalars,
      ‖values.row i0 (i * values.scalars + k) - values.row i1 (j * values.scalars + k)‖) (by
      intro i j _ _
      simp only [second, Bool.false_eq_true, if_false, Option.bind_some]
      rw [pairCost_scalars st values hv1 hv2, hs])
  obtain ⟨c2, k1, k2, k3⟩ := addCost_spec complexes vectors i0 i1 c1 true
    (by rw [h2, hb]; simp)
    (fun i j => vectors.mult.2.1 * vectorCost vectors.vcf vectors.vectors
      (fun k => vectors.row i0 (i * vectors.vectors + k)) (fun k => vectors.row i1 (j * vectors.vectors + k)))
    (by
      intro i j _ _
      rw [hs', pairCost_vectors vectors hw1 hw2 hw3])
  refine ⟨c2, ?_, by rw [k2, h2]; simp, ?_⟩
  · unfold costMatrix
    simp only [hne, if_false]
    rw [h1, Option.bind_some, k1]
  · intro i j hi hj
    have e2 := k3 i j (hb ▸ hi) (hb ▸ hj)
    rw [hb] at e2
    rw [e2, h3 i j hi hj]
    have : (List.replicate (values.branches * values.branches) (0 : ℝ)).getD
        (i * values.branches + j) 0 = 0 := by
      rw [List.getD_eq_getElem?_getD, List.getElem?_replicate]
      split <;> rfl
    rw [this, zero_add]

end

end Brille.ModeCost
