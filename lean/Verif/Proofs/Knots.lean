/-
The knots of the hybrid grid: the loop of `construct` ends and divides the extent of the polyhedron into equal parts.
-/
import Verif.Model.TrellisBuild
import Verif.Spec.Trellis
import Mathlib.Tactic.Linarith
import Mathlib.Tactic.Positivity
import Mathlib.Tactic.FieldSimp
import Mathlib.Tactic.Ring
import Mathlib.Algebra.Order.Floor.Ring
import Mathlib.Data.Rat.Floor

namespace Brille.TrellisBuild

open Brille.Trellis hiding Pt
open Brille.Tetra Brille.Cut Brille.IrCheck Brille.Zone Brille.Spec

/-- equal steps from `mn`, of which `n` reach `mx` -/
def equalSteps (mn st : ℚ) (n : Nat) : List ℚ := (List.range (n + 1)).map fun j : Nat => mn + (j : ℚ) * st

theorem parts {len side : ℚ} (hl : 0 < len) (hs : 0 < side) :
    ∃ n : Nat, 0 < n ∧ (⌈len / side⌉ : ℤ) = n ∧ 0 < knotStep len side ∧ n * knotStep len side = len ∧ knotStep len side ≤ side := by
  have h0 : 0 < ⌈len / side⌉ := Int.ceil_pos.mpr (div_pos hl hs)
  obtain ⟨n, hn⟩ := Int.eq_ofNat_of_zero_le h0.le
  have hn0 : 0 < n := by rw [hn] at h0; exact_mod_cast h0
  have hq : (0 : ℚ) < n := by exact_mod_cast hn0
  refine ⟨n, hn0, hn, ?_, ?_, ?_⟩
  · unfold knotStep; rw [hn]; exact div_pos hl (by exact_mod_cast hn0)
  · unfold knotStep; rw [hn]; push_cast; field_simp
  · unfold knotStep
    have hle := Int.le_ceil (len / side)
    rw [hn] at hle ⊢
    push_cast at hle ⊢
    rw [div_le_iff₀ hs] at hle
    rw [div_le_iff₀ hq]; linarith

theorem knotLoop_spec {mx st : ℚ} (hst : 0 < st) (n : Nat) : ∀ (turns : Nat) (last : ℚ), n ≤ turns → last + n * st = mx →
    knotLoop mx st turns last = some (equalSteps last st n) := by
  induction n with
  | zero =>
    intro turns last _ h
    have : ¬ last < mx := by rw [← h]; simp
    cases turns <;> simp [knotLoop, this, equalSteps]
  | succ n ih =>
    intro turns last ht h
    obtain ⟨turns, rfl⟩ : ∃ m, turns = m + 1 := ⟨turns - 1, by omega⟩
    have hlt : last < mx := by
      rw [← h]
      have : (0 : ℚ) < ((n + 1 : Nat) : ℚ) * st := mul_pos (by positivity) hst
      linarith
    rw [knotLoop, if_pos hlt, ih turns (last + st) (by omega) (by rw [← h]; push_cast; ring)]
    simp only [Option.map_some, equalSteps]
    rw [List.range_succ_eq_map (n := n + 1), List.map_cons, List.map_map]
    congr 2
    · simp
    · refine List.map_congr_left fun j _ => ?_
      simp only [Function.comp_apply]; push_cast; ring

/-- with a step that is not positive the loop does not end -/
theorem knotLoop_endless {mx st : ℚ} (hst : st ≤ 0) : ∀ (turns : Nat) (last : ℚ), last < mx → knotLoop mx st turns last = none := by
  intro turns
  induction turns with
  | zero => intro last h; rw [knotLoop, if_pos h]
  | succ turns ih => intro last h; rw [knotLoop, if_pos h, ih _ (by linarith)]; rfl

theorem equalSteps_getElem? {mn st : ℚ} {n j : Nat} {a : ℚ} : (equalSteps mn st n)[j]? = some a ↔ j ≤ n ∧ a = mn + j * st := by
  unfold equalSteps
  rw [List.getElem?_map]
  by_cases h : j < n + 1
  · rw [List.getElem?_range h]
    simp only [Option.map_some, Option.some.injEq]
    constructor
    · rintro rfl; exact ⟨by omega, rfl⟩
    · rintro ⟨-, rfl⟩; rfl
  · rw [List.getElem?_eq_none (by simp; omega)]
    simp; omega

theorem equalSteps_increasing {mn st : ℚ} (hst : 0 < st) (n : Nat) : Increasing (equalSteps mn st n) := by
  unfold Increasing equalSteps
  rw [List.pairwise_map]
  refine List.Pairwise.imp ?_ List.pairwise_lt_range
  intro a b h
  have : (a : ℚ) < b := by exact_mod_cast h
  nlinarith

theorem equalSteps_length {mn st : ℚ} (n : Nat) : (equalSteps mn st n).length = n + 1 := by simp [equalSteps]

end Brille.TrellisBuild
