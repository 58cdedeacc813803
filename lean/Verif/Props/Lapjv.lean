/-
C21: the Jonker-Volgenant solver ends and returns a permutation and its inverse — but not always one of
least cost.
-/
import Verif.Proofs.LapjvAugment
import Verif.Spec.Assignment
import Mathlib.Algebra.Order.Field.Rat
import Mathlib.Data.Fin.VecNotation

namespace Brille.Props

open Brille.Lapjv Brille.Spec

theorem match_nil_perm {n : Nat} {rowsol colsol : Fin n → Option (Fin n)}
    (h2 : ∀ i, ∃ j, rowsol i = some j ∧ colsol j = some i) :
    ∃ σ : Equiv.Perm (Fin n), (∀ i, rowsol i = some (σ i)) ∧ ∀ j, colsol j = some (σ.symm j) := by
  choose f hf using h2
  have hinj : Function.Injective f := by
    intro a b hab
    have h := (hf a).2
    rw [hab, (hf b).2] at h
    exact (Option.some.inj h).symm
  let e : Equiv.Perm (Fin n) := Equiv.ofBijective f (Finite.injective_iff_bijective.mp hinj)
  refine ⟨e, fun i => (hf i).1, fun j => ?_⟩
  have h := (hf (e.symm j)).2
  have : f (e.symm j) = j := e.apply_symm_apply j
  rwa [this] at h

/-- finitely many rational numbers have a common denominator -/
theorem common_denominator {n : Nat} (c : Fin n → Fin n → ℚ) :
    ∃ q : ℚ, 0 < q ∧ ∀ i j, ∃ z : ℤ, c i j = q * z := by
  let D : ℕ := ∏ i, ∏ j, (c i j).den
  have hD : (D : ℚ) ≠ 0 := by
    simp only [D, ne_eq, Nat.cast_eq_zero, Finset.prod_eq_zero_iff, not_exists, not_and]
    intro i _ j _
    exact (c i j).den_nz
  refine ⟨1 / D, by positivity, fun i j => ?_⟩
  have hd : (c i j).den ∣ D :=
    (Finset.dvd_prod_of_mem (fun j => (c i j).den) (Finset.mem_univ j)).trans
      (Finset.dvd_prod_of_mem (fun i => ∏ j, (c i j).den) (Finset.mem_univ i))
  obtain ⟨m, hm⟩ := hd
  refine ⟨(c i j).num * m, ?_⟩
  have h0 : ((c i j).den : ℚ) ≠ 0 := by exact_mod_cast (c i j).den_nz
  have hm0 : (m : ℚ) ≠ 0 := by
    intro h
    apply hD
    rw [hm]; push_cast; rw [h, mul_zero]
  rw [hm]
  push_cast
  conv_lhs => rw [← Rat.num_div_den (c i j)]
  field_simp

/-- **C21 (without the minimality).** For every square matrix of rational costs of every size the solver ends
after some number of turns of its loops; what it then leaves for the rows is a permutation, and what it
leaves for the columns is the inverse of this permutation.  Missing from the full property: that the
permutation has the least total cost, which is false (`C21_optimal_counterexample`). -/
theorem C21_inverse_permutations_partial {n : Nat} (c : Fin n → Fin n → ℚ) :
    ∃ (k : Nat) (r : Result n ℚ) (σ : Equiv.Perm (Fin n)), (∀ k', k ≤ k' → lapjv c k' = some r) ∧
      (∀ i, r.rowsol i = some (σ i)) ∧ ∀ j, r.colsol j = some (σ.symm j) := by
  match n, c with
  | 0, c => exact ⟨0, _, Equiv.refl _, fun _ _ => rfl, fun i => i.elim0, fun i => i.elim0⟩
  | 1, c =>
    refine ⟨0, _, Equiv.refl _, fun _ _ => rfl, fun i => ?_, fun i => ?_⟩
    · rw [Subsingleton.elim i 0]; rfl
    · rw [Subsingleton.elim i 0]; rfl
  | m + 2, c =>
    obtain ⟨q, hq, hc⟩ := common_denominator c
    obtain ⟨f, r, h1, h2⟩ := lapjvMain_spec (by omega) hq hc
    obtain ⟨σ, h3, h4⟩ := match_nil_perm (rowsol := r.rowsol) (colsol := r.colsol)
      (fun i => h2.row i (by simp))
    exact ⟨f, r, σ, h1, h3, h4⟩

/-- … and so the two lists which `jv_permutation_fill` hands to its caller are inverse to each other. -/
theorem C21_fill_inverse_partial {n : Nat} (c : Fin n → Fin n → ℚ) :
    ∃ (k : Nat) (row col : List Nat), (∀ k', k ≤ k' → jvFill c k' = some (row, col)) ∧
      row.length = n ∧ col.length = n ∧
      ∀ b, b < n → col[row.getD b 0]? = some b ∧ row[col.getD b 0]? = some b := by
  obtain ⟨k, r, σ, h1, h2, h3⟩ := C21_inverse_permutations_partial c
  refine ⟨k, readSolution r.rowsol, readSolution r.colsol, fun k' hk => by rw [jvFill, h1 k' hk]; rfl,
    by simp [readSolution], by simp [readSolution], ?_⟩
  intro b hb
  have hr : ∀ x (hx : x < n), (readSolution r.rowsol)[x]? = some (σ ⟨x, hx⟩).val := by
    intro x hx
    simp [readSolution, hx, h2]
  have hc : ∀ x (hx : x < n), (readSolution r.colsol)[x]? = some (σ.symm ⟨x, hx⟩).val := by
    intro x hx
    simp [readSolution, hx, h3]
  constructor
  · rw [List.getD_eq_getElem?_getD, hr b hb, Option.getD_some, hc _ (Fin.isLt _)]
    simp
  · rw [List.getD_eq_getElem?_getD, hc b hb, Option.getD_some, hr _ (Fin.isLt _)]
    simp

/-- three rows and columns with one very large cost -/
def skewed : Fin 3 → Fin 3 → ℚ := ![![0, 1, 1], ![1, 100000, 2], ![0, 3, 3]]

/-- The permutation `lapjv` returns for `skewed` costs 5, although another one costs 3: ties are broken with
an allowance which is proportional to the sum of all costs. -/
theorem C21_optimal_counterexample :
    ∃ σ : Equiv.Perm (Fin 3), (∃ r, lapjv skewed 20 = some r ∧ ∀ i, r.rowsol i = some (σ i)) ∧
      ¬ IsOptimal skewed σ := by
  refine ⟨⟨![2, 0, 1], ![1, 2, 0], by decide, by decide⟩, ?_, ?_⟩
  · have h : ((lapjv skewed 20).map fun r => (List.finRange 3).map r.rowsol) =
        some [some 2, some 0, some 1] := by decide +kernel
    rw [Option.map_eq_some_iff] at h
    obtain ⟨r, hr, h⟩ := h
    refine ⟨r, hr, ?_⟩
    have h3 : (List.finRange 3) = [0, 1, 2] := by decide
    rw [h3] at h
    simp only [List.map_cons, List.map_nil, List.cons.injEq, and_true] at h
    intro i
    match i with
    | 0 => exact h.1
    | 1 => exact h.2.1
    | 2 => exact h.2.2
  · intro h
    have := h ⟨![1, 2, 0], ![2, 0, 1], by decide, by decide⟩
    revert this
    unfold totalCost
    simp only [Fin.sum_univ_succ]
    decide +kernel

/-- a run in which rows compete for a column: two rows want column 0, and two want column 1 -/
example : ((lapjv (n := 4) (![![1, 2, 9, 9], ![1, 3, 9, 9], ![9, 1, 4, 9], ![9, 9, 2, 1]] : Fin 4 → Fin 4 → ℚ)
    20).map fun r => (List.finRange 4).map r.rowsol) = some [some 1, some 0, some 2, some 3] := by
  decide +kernel

end Brille.Props
