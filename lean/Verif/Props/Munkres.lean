/-
C20: the Munkres solver ends and returns an assignment of least total cost.
-/
import Verif.Proofs.Munkres
import Verif.Spec.Assignment
import Mathlib.Data.Rat.Defs
import Mathlib.Algebra.Order.Ring.Int

namespace Brille.Props

open Brille.Munkres Brille.Spec

theorem cells_sum_nonpos {N : Nat} {K : Type} [AddCommGroup K] [LinearOrder K] [IsOrderedAddMonoid K]
    (cost : Fin N → Fin N → K) :
    ((cells N).map fun p => |cost p.1 p.2|).sum ≤ 0 ↔ ∀ r c, cost r c = 0 := by
  constructor
  · intro h r c
    have h1 : |cost r c| ≤ ((cells N).map fun p => |cost p.1 p.2|).sum := by
      apply List.single_le_sum
      · intro x hx
        obtain ⟨p, _, rfl⟩ := List.mem_map.mp hx
        exact abs_nonneg _
      · exact List.mem_map.mpr ⟨(r, c), mem_cells _, rfl⟩
    exact abs_eq_zero.mp (le_antisymm (h1.trans h) (abs_nonneg _))
  · intro h
    have : (cells N).map (fun p => |cost p.1 p.2|) = (cells N).map (fun _ => (0 : K)) := by
      apply List.map_congr_left
      intro p _
      rw [h]; simp
    rw [this]
    simp

/-- **C20.** For every cost matrix of every size which is not zero everywhere, the solver ends after some
number of turns, reports success, and what it writes is a permutation of the columns whose total cost is the
least of all permutations. -/
theorem C20_optimal {N : Nat} {K : Type} [AddCommGroup K] [LinearOrder K] [IsOrderedAddMonoid K]
    (cost : Fin N → Fin N → K) (h0 : ∃ r c, cost r c ≠ 0) :
    ∃ (k : Nat) (σ : Equiv.Perm (Fin N)), (∀ k', k ≤ k' → solve cost k' = some (some fun r => some (σ r))) ∧
      IsOptimal cost σ := by
  obtain ⟨k, s, h1, h2, h3, h4⟩ := run_spec cost
  choose f hf using h4
  have hinj : Function.Injective f := by
    intro c c' he
    exact h3.starRow (f c) c c' (hf c) (by rw [he]; exact hf c')
  let e : Equiv.Perm (Fin N) := Equiv.ofBijective f (Finite.injective_iff_bijective.mp hinj)
  have he : ∀ r, s.mask r (e.symm r) = .stared := by
    intro r
    have : f (e.symm r) = r := e.apply_symm_apply r
    have h := hf (e.symm r)
    rw [this] at h
    exact h
  refine ⟨k, e.symm, ?_, ?_⟩
  · intro k' hk
    unfold solve
    rw [if_neg, h1 k' hk]
    · dsimp only
      rw [if_pos h2]
      congr 2
      funext r
      exact outOf_spec s r _ (he r) (fun c' hc' => h3.starRow r _ _ hc' (he r))
    · rw [cells_sum_nonpos]
      obtain ⟨r, c, hrc⟩ := h0
      exact fun h => hrc (h r c)
  · intro τ
    obtain ⟨u, v, huv⟩ := h3.pot
    have hsum : ∀ ρ : Equiv.Perm (Fin N), totalCost cost ρ = ∑ r, s.cost r (ρ r) + (∑ r, u r + ∑ c, v c) := by
      intro ρ
      unfold totalCost
      rw [← Equiv.sum_comp ρ v, ← Finset.sum_add_distrib, ← Finset.sum_add_distrib]
      apply Finset.sum_congr rfl
      intro r _
      rw [huv r (ρ r), add_assoc]
    rw [hsum, hsum]
    apply add_le_add_left
    have hz : ∑ r, s.cost r (e.symm r) = 0 := Finset.sum_eq_zero fun r _ => h3.starZero r _ (he r)
    rw [hz]
    exact Finset.sum_nonneg fun r _ => h3.nonneg r _

/-- a matrix which is not zero everywhere, with negative entries and ties -/
example : ∃ r c : Fin 3, (fun i j : Fin 3 => ((i.val : Int) - 1) * (j.val - 2)) r c ≠ 0 :=
  ⟨0, 0, by decide⟩

/-- a run: the least total cost is on the other diagonal -/
example : solve (N := 2) (fun i j => if i = j then (2 : Int) else 1) 3 =
    some (some fun r => some (if r = 0 then 1 else 0)) := by decide

/-- If all costs are zero every permutation has the least cost, but the solver reports failure. -/
theorem C20_zero_counterexample {N : Nat} {K : Type} [AddCommGroup K] [LinearOrder K]
    [IsOrderedAddMonoid K] (k : Nat) : solve (N := N) (fun _ _ => (0 : K)) k = some none := by
  unfold solve
  rw [if_pos]
  exact (cells_sum_nonpos (fun _ _ => 0)).mpr (fun _ _ => rfl)

end Brille.Props
