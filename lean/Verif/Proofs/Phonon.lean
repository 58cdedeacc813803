import Verif.Spec.Phonon
import Verif.Props.Rotate
import Mathlib.Algebra.BigOperators.Ring.Finset
import Mathlib.Algebra.BigOperators.Fin
import Mathlib.Tactic.Ring

/-
Symmetry of lattice dynamics: an operation of the crystal takes modes at one point to modes at the turned point.
-/
namespace Brille.Spec

open Brille.Mot Brille.Atoms Brille.Props Brille.Rot

variable {K : Type} [CommRing K]

theorem whole_int (R : Fin 3 → Fin 3 → ℤ) : (whole R : Fin 3 → Fin 3 → ℤ) = R := by
  funext i j; simp [whole]

theorem times_inverse {R S : Fin 3 → Fin 3 → ℤ} (h : InverseOps R S) (v : Fin 3 → ℤ) : times R (times S v) = v := by
  rw [times_times]
  have := whole_inverse (K := ℤ) h
  rw [whole_int, whole_int] at this
  rw [this, times_id]

/-- An operation and a translation, as a rearrangement of the lattice vectors. -/
def latticeMove (R S : Fin 3 → Fin 3 → ℤ) (h : InverseOps R S) (s : Fin 3 → ℤ) : (Fin 3 → ℤ) ≃ (Fin 3 → ℤ) where
  toFun L := fun i => times S L i + s i
  invFun M := times R fun i => M i - s i
  left_inv L := by
    have e : (fun i => (times S L i + s i) - s i) = times S L := by funext i; ring
    dsimp only
    rw [e, times_inverse h]
  right_inv M := by
    dsimp only
    rw [times_inverse h.symm]; funext i; ring

/-- The dynamical matrix between the images of two atoms. -/
theorem dynamical_image (e : ℚ → K) (F : Forces K) (hF : FiniteRange F) (q Q : Fin 3 → ℚ) (k k' l l' : ℕ)
    (C D : Fin 3 → Fin 3 → K) (τ : (Fin 3 → ℤ) ≃ (Fin 3 → ℤ)) (u : K)
    (hforce : ∀ L, F l l' (τ L) = timesM C (timesM (F k k' L) D))
    (hphase : ∀ L, e (dotQ Q fun i => (τ L i : ℚ)) = u * e (dotQ q fun i => (L i : ℚ))) (a a' : Fin 3) :
    dynamical e F Q l l' a a' = u * timesM C (timesM (fun c d => dynamical e F q k k' c d) D) a a' := by
  have hs : ∀ c d, dynamical e F q k k' c d =
      ∑ L ∈ (hF k k').toFinset, e (dotQ q fun i => (L i : ℚ)) * F k k' L c d := by
    intro c d
    refine finsum_eq_sum_of_support_subset _ fun L hL => ?_
    rw [Set.Finite.coe_toFinset]
    intro h0
    exact hL (by dsimp only; rw [h0, mul_zero])
  have ht : dynamical e F Q l l' a a' = ∑ L ∈ (hF k k').toFinset,
      u * e (dotQ q fun i => (L i : ℚ)) * timesM C (timesM (F k k' L) D) a a' := by
    unfold dynamical
    rw [← finsum_comp_equiv τ]
    simp only [hforce, hphase]
    refine finsum_eq_sum_of_support_subset _ fun L hL => ?_
    rw [Set.Finite.coe_toFinset]
    intro h0
    exact hL (by simp only [h0]; simp [timesM])
  rw [ht]
  simp only [timesM, hs, Fin.sum_univ_three, Finset.mul_sum, Finset.sum_mul, ← Finset.sum_add_distrib]
  refine Finset.sum_congr rfl fun L _ => ?_
  ring

theorem turned_back (C D X : Fin 3 → Fin 3 → K) (h : timesM D C = whole idMat) (v : Fin 3 → K) :
    times (timesM C (timesM X D)) (times C v) = times C (times X v) := by
  rw [times_times, timesM_assoc, timesM_assoc, h, (timesM_id X).2, ← times_times]

/-- Modes go to modes. -/
theorem mode_image (e : ℚ → K) (F : Forces K) (n : ℕ) (q Q : Fin 3 → ℚ) (σ : Equiv.Perm (Fin n))
    (C D : Fin 3 → Fin 3 → K) (hC : timesM D C = whole idMat) (f g : Fin n → K) (hfg : ∀ k, g k * f k = 1)
    (hdyn : ∀ (k k' : Fin n) a a', dynamical e F Q (σ k) (σ k') a a' =
      f k * g k' * timesM C (timesM (fun c d => dynamical e F q k k' c d) D) a a')
    (ε ε' : ℕ → Fin 3 → K) (hε : ∀ k : Fin n, ε' (σ k) = fun a => f k * times C (ε k) a) (ev : K)
    (h : IsMode e F n q ε ev) : IsMode e F n Q ε' ev := by
  intro l hl a
  obtain ⟨k, hk⟩ := σ.surjective ⟨l, hl⟩
  have hkl : ((σ k : Fin n) : ℕ) = l := by rw [hk]
  rw [← hkl, Finset.sum_range fun k' => ∑ a' : Fin 3, dynamical e F Q (σ k) k' a a' * ε' k' a',
    ← Equiv.sum_comp σ]
  have inner : ∀ k' : Fin n, ∑ a' : Fin 3, dynamical e F Q (σ k) (σ k') a a' * ε' (σ k') a' =
      f k * times C (times (fun c d => dynamical e F q k k' c d) (ε k')) a := by
    intro k'
    rw [← turned_back C D _ hC]
    rw [hε k']
    simp only [hdyn k k']
    unfold times
    rw [Finset.mul_sum]
    refine Finset.sum_congr rfl fun a' _ => ?_
    linear_combination f k * (timesM C (timesM (fun c d => dynamical e F q k k' c d) D) a a' *
      ∑ j, C a' j * ε k' j) * hfg k'
  simp only [inner]
  rw [hε k]
  have hm : ∀ c, ∑ k' : Fin n, times (fun c d => dynamical e F q k k' c d) (ε k') c = ev * ε k c := by
    intro c
    have := h k k.2 c
    rw [Finset.sum_range fun k' => ∑ a' : Fin 3, dynamical e F q k k' c a' * ε k' a'] at this
    exact this
  rw [← Finset.mul_sum]
  have : ∑ k' : Fin n, times C (times (fun c d => dynamical e F q k k' c d) (ε k')) a =
      ev * times C (ε k) a := by
    unfold times at hm ⊢
    rw [Finset.sum_comm]
    simp only [← Finset.mul_sum]
    rw [Finset.mul_sum]
    refine Finset.sum_congr rfl fun c _ => ?_
    rw [hm c]; ring
  rw [this]
  ring

/-- The phase at a turned point. -/
theorem phase_turned {e : ℚ → K} (he : PhaseFactor e) {R S : Fin 3 → Fin 3 → ℤ} (h : InverseOps R S) (q Q : Fin 3 → ℚ)
    (z : Fin 3 → ℤ) (hQ : ∀ i, Q i = (∑ j, (R j i : ℚ) * q j) + z i) (y : Fin 3 → ℤ) :
    e (dotQ Q fun i => ((times S y i : ℤ) : ℚ)) = e (dotQ q fun i => (y i : ℚ)) := by
  have hy := times_inverse h y
  have e1 : dotQ Q (fun i => ((times S y i : ℤ) : ℚ)) = dotQ q (fun i => (y i : ℚ)) +
      ((z 0 * times S y 0 + z 1 * times S y 1 + z 2 * times S y 2 : ℤ) : ℚ) := by
    generalize times S y = w at hy ⊢
    rw [← hy]
    simp only [dotQ, hQ, Fin.sum_univ_three, times]
    push_cast
    ring
  rw [e1, he.add, he.whole, mul_one]

end Brille.Spec
