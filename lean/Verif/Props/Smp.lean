/-
C22: the stable matching solver ends and returns a permutation and its inverse — but the matching is not
stable.
-/
import Verif.Proofs.Smp
import Verif.Spec.StableMatching
import Mathlib.Order.Basic
import Mathlib.Data.Fin.VecNotation

namespace Brille.Props

open Brille.Smp Brille.Spec

/-- **C22 (without the stability).** For every square matrix whose entries are smaller than the largest value
of their type the solver throws no exception, ends within its limit of passes, and has then matched
all rows and columns: the row solution is a permutation and the column solution its inverse.  Missing from the
full property: that the matching is stable, which is false (`C22_stable_counterexample`). -/
theorem C22_matching_partial {n : Nat} [NeZero n] {P : Type} [LinearOrder P] (big : P)
    (prefs : Fin n → Fin n → P) (hb : ∀ i j, prefs i j < big) :
    ∃ σ : Equiv.Perm (Fin n), smp big prefs = some (⇑σ, ⇑σ.symm) := by
  obtain ⟨rsol, csol, h1, h2, h3⟩ := smp_spec (big := big) (prefs := prefs) hb
  exact ⟨⟨rsol, csol, h2, h3⟩, h1⟩

/-- **C22 (no rivals).** If every row has a strictly preferred column and no two rows prefer the same one, every
row gets the column it prefers, which is the stable matching. -/
theorem C22_no_rivals_partial {n : Nat} [NeZero n] {P : Type} [LinearOrder P] (big : P)
    (prefs : Fin n → Fin n → P) (hb : ∀ i j, prefs i j < big) (σ : Equiv.Perm (Fin n))
    (hσ : ∀ r c, c ≠ σ r → prefs r (σ r) < prefs r c) :
    smp big prefs = some (⇑σ, ⇑σ.symm) ∧ Stable prefs σ := by
  constructor
  · obtain ⟨csol, h⟩ := smp_favourite (big := big) hb σ.injective hσ
    obtain ⟨τ, h'⟩ := C22_matching_partial big prefs hb
    rw [h] at h'
    obtain ⟨h1, h2⟩ := Prod.mk.inj (Option.some.inj h')
    have : σ = τ := Equiv.ext fun x => congrFun h1 x
    rw [h, h2, ← this]
  · rintro r c ⟨h1, _⟩
    by_cases hc : c = σ r
    · rw [hc] at h1; exact lt_irrefl _ h1
    · exact lt_asymm h1 (hσ r c hc)

/-- rows that prefer the columns 1, 2, 0 -/
example : ∀ r c : Fin 3, c ≠ (![1, 2, 0] : Fin 3 → Fin 3) r →
    (![![5, 1, 3], ![2, 2, 0], ![1, 4, 9]] : Fin 3 → Fin 3 → Nat) r ((![1, 2, 0] : Fin 3 → Fin 3) r) <
      (![![5, 1, 3], ![2, 2, 0], ![1, 4, 9]] : Fin 3 → Fin 3 → Nat) r c := by decide

/-- Already for two rows and columns the matching need not be stable: row 0 and column 0 prefer each other
but each is given the other partner. -/
theorem C22_stable_counterexample :
    ∃ (prefs : Fin 2 → Fin 2 → Nat) (σ : Equiv.Perm (Fin 2)), (∀ i j, prefs i j < 4294967295) ∧
      smp 4294967295 prefs = some (⇑σ, ⇑σ.symm) ∧ Blocking prefs σ 0 0 := by
  refine ⟨![![0, 3], ![1, 2]], ⟨![1, 0], ![1, 0], by decide, by decide⟩, by decide, ?_, ?_⟩
  · have h : (smp 4294967295 (![![0, 3], ![1, 2]] : Fin 2 → Fin 2 → Nat)).map
        (fun p => (p.1 0, p.1 1, p.2 0, p.2 1)) = some (1, 0, 1, 0) := by decide
    rw [Option.map_eq_some_iff] at h
    obtain ⟨⟨f, g⟩, hr, h⟩ := h
    simp only [Prod.mk.injEq] at h
    rw [hr]
    congr 2
    · funext i
      match i with
      | 0 => exact h.1
      | 1 => exact h.2.1
    · funext i
      match i with
      | 0 => exact h.2.2.1
      | 1 => exact h.2.2.2
  · unfold Blocking
    decide

end Brille.Props
