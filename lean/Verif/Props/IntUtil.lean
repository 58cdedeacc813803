import Verif.Model.IntUtil
import Mathlib.Data.Nat.Choose.Basic
import Mathlib.Data.Nat.Factorial.Basic
import Mathlib.Data.Nat.GCD.Basic
import Mathlib.Algebra.Order.Ring.Int
import Mathlib.Tactic.Ring

namespace Brille.Props

open Brille.IntUtil

theorem gcd_eq (a b : Nat) : gcd a b = Nat.gcd a b := by
  induction b using Nat.strong_induction_on generalizing a with
  | _ b ih =>
    unfold gcd
    by_cases h : b = 0
    · subst h; simp
    · rw [dif_neg h, ih (a % b) (Nat.mod_lt _ (Nat.pos_of_ne_zero h)) b, Nat.gcd_comm a b, Nat.gcd_rec b a, Nat.gcd_comm]

/-- **C42.** `gcd` divides both arguments, and every common divisor divides it. -/
theorem C42_gcd (a b : Nat) : gcd a b ∣ a ∧ gcd a b ∣ b ∧ ∀ d, d ∣ a → d ∣ b → d ∣ gcd a b := by
  rw [gcd_eq]
  exact ⟨Nat.gcd_dvd_left a b, Nat.gcd_dvd_right a b, fun d => Nat.dvd_gcd⟩

example : gcd 84 36 = 12 := by rw [gcd_eq]; decide

/-- The loop ends within `2 (m - i) + 1` turns, or one more if the two numbers may have a common divisor. -/
theorem binomialLoop_ends (n m : Nat) : ∀ (fuel i a b : Nat),
    2 * (m - i) + (if Nat.gcd a b = 1 then 0 else 1) < fuel → binomialLoop n m fuel i a b ≠ none := by
  intro fuel
  induction fuel with
  | zero => intro i a b h; omega
  | succ fuel ih =>
    intro i a b h
    unfold binomialLoop
    split
    · dsimp only
      split
      · split
        · rename_i hc
          rw [gcd_eq] at hc ⊢
          apply ih
          have : Nat.gcd (a / Nat.gcd a b) (b / Nat.gcd a b) = 1 := Nat.coprime_div_gcd_div_gcd (by omega)
          rw [if_pos this]
          rw [if_neg (by omega)] at h
          omega
        · simp
      · apply ih
        split <;> split at h <;> omega
    · simp

/-- **C42.** `binomial_coefficient` always ends; it refuses exactly the cases with more choices than objects. -/
theorem C42_binomial_ends (n k : Nat) : binomialCoefficient n k = none ↔ n < k := by
  unfold binomialCoefficient
  split
  · simp [*]
  · rename_i h
    simp only [h, iff_false]
    exact binomialLoop_ends n _ _ 0 1 1 (by simp)

theorem factorial_le_descFactorial (n i : Nat) (h : i ≤ n) : i.factorial ≤ n.descFactorial i := by
  rw [Nat.descFactorial_eq_factorial_mul_choose]
  exact Nat.le_mul_of_pos_right _ (Nat.choose_pos h)

theorem descFactorial_mono (n i j : Nat) (hij : i ≤ j) (hj : j ≤ n) : n.descFactorial i ≤ n.descFactorial j := by
  induction j with
  | zero => have : i = 0 := by omega
            subst this; exact le_refl _
  | succ j ih =>
    by_cases h : i = j + 1
    · rw [h]
    · refine le_trans (ih (by omega) (by omega)) ?_
      rw [Nat.descFactorial_succ]
      exact Nat.le_mul_of_pos_left _ (by omega)

theorem binomialLoop_exact (n m : Nat) (hm : m ≤ n) (hw : n.descFactorial m < word) :
    ∀ (fuel i : Nat), i ≤ m → m - i < fuel →
      binomialLoop n m fuel i (n.descFactorial i) i.factorial = some (.exact (n.choose m)) := by
  intro fuel
  induction fuel with
  | zero => intro i _ h; omega
  | succ fuel ih =>
    intro i hi hf
    unfold binomialLoop
    by_cases him : i < m
    · rw [if_pos him]
      have e1 : n.descFactorial i * (n - i) = n.descFactorial (i + 1) := by
        rw [Nat.descFactorial_succ, Nat.mul_comm]
      have e2 : i.factorial * (i + 1) = (i + 1).factorial := by
        rw [Nat.factorial_succ, Nat.mul_comm]
      have l1 : n.descFactorial (i + 1) < word := lt_of_le_of_lt (descFactorial_mono n _ _ (by omega) hm) hw
      have l2 : (i + 1).factorial < word := lt_of_le_of_lt (factorial_le_descFactorial n _ (by omega)) l1
      dsimp only
      rw [e1, e2, Nat.mod_eq_of_lt l1, Nat.mod_eq_of_lt l2, if_neg]
      · exact ih (i + 1) (by omega) (by omega)
      · have h1 := descFactorial_mono n i (i + 1) (by omega) (by omega)
        have h2 : i.factorial ≤ (i + 1).factorial := Nat.factorial_le (by omega)
        omega
    · rw [if_neg him]
      have : i = m := by omega
      subst this
      rw [Nat.choose_eq_descFactorial_div_factorial]

/-- **C42 (partial).** `binomial_coefficient(n,k)` is `n` choose `k` whenever the product of the `min(k, n-k)` factors
`n (n-1) …` is a value of an `unsigned long long`.  Missing: larger arguments, for which the statement is false. -/
theorem C42_binomial_partial (n k : Nat) (hk : k ≤ n) (hw : n.descFactorial (min k (n - k)) < word) :
    binomialCoefficient n k = some (.exact (n.choose k)) := by
  have hm : fewer n k = min k (n - k) := by unfold fewer; split <;> omega
  unfold binomialCoefficient
  rw [if_neg (by omega), hm]
  have := binomialLoop_exact n (min k (n - k)) (by omega) hw (2 * min k (n - k) + 1) 0 (by omega) (by omega)
  rw [Nat.descFactorial_zero, Nat.factorial_zero] at this
  rw [this]
  congr 2
  rcases Nat.le_total k (n - k) with h | h
  · rw [min_eq_left h]
  · rw [min_eq_right h, Nat.choose_symm hk]

example : (6 : Nat) ≤ 49 ∧ Nat.descFactorial 49 (min 6 (49 - 6)) < word ∧
    binomialCoefficient 49 6 = some (.exact 13983816) := by
  have h : Nat.descFactorial 49 (min 6 (49 - 6)) < word := by decide +kernel
  refine ⟨by decide, h, ?_⟩
  rw [C42_binomial_partial 49 6 (by decide) h]
  decide +kernel

/-- The loop with the library's `gcd`, which the kernel evaluates quickly. -/
def binomialLoop' (n m : Nat) : Nat → Nat → Nat → Nat → Option Result
  | 0, _, _, _ => none
  | fuel + 1, i, a, b =>
    if i < m then
      if a * (n - i) % word < a ∨ b * (i + 1) % word < b then
        if 1 < Nat.gcd a b then binomialLoop' n m fuel i (a / Nat.gcd a b) (b / Nat.gcd a b)
        else some .approximate
      else binomialLoop' n m fuel (i + 1) (a * (n - i) % word) (b * (i + 1) % word)
    else some (.exact (a / b))

theorem binomialLoop_eq (n m : Nat) : ∀ fuel i a b, binomialLoop n m fuel i a b = binomialLoop' n m fuel i a b := by
  intro fuel
  induction fuel with
  | zero => intro i a b; rfl
  | succ fuel ih =>
    intro i a b
    unfold binomialLoop binomialLoop'
    simp only [gcd_eq, ih]

/-- **C42 (small numbers).** For up to 29 objects every result is right; here the check for a wrapped product and the
division by the greatest common divisor take part. -/
theorem C42_binomial_small_partial (n k : Nat) (hn : n ≤ 29) (hk : k ≤ n) :
    binomialCoefficient n k = some (.exact (n.choose k)) := by
  have h : ∀ n ∈ List.range 30, ∀ k ∈ List.range (n + 1),
      binomialLoop' n (fewer n k) (2 * fewer n k + 1) 0 1 1 = some (.exact (n.choose k)) := by decide +kernel
  unfold binomialCoefficient
  rw [if_neg (by omega), binomialLoop_eq]
  exact h n (List.mem_range.mpr (by omega)) k (List.mem_range.mpr (by omega))

/-- **C42 (counterexample).** Thirty objects, fifteen chosen: a product wraps around without becoming smaller, and the
result is 14052247 instead of 155117520. -/
theorem C42_binomial_counterexample : binomialCoefficient 30 15 = some (.exact 14052247) ∧
    Nat.choose 30 15 = 155117520 := by
  refine ⟨?_, by decide +kernel⟩
  unfold binomialCoefficient
  rw [if_neg (by omega), binomialLoop_eq]
  decide +kernel

/-! **C49.** Conversions between signed and unsigned integers. -/

/-- **C49.** `u2s` keeps the value, and refuses exactly the values the signed type cannot hold, whatever the two widths. -/
theorem C49_u2s (ws wu u : Nat) (hu : u < 2 ^ wu) :
    (u2s ws wu u = some (u : Int) ↔ (u : Int) < 2 ^ (ws - 1)) ∧ (u2s ws wu u = none ↔ (2 : Int) ^ (ws - 1) ≤ u) := by
  have hmod : (2 ^ (ws - 1) - 1) % 2 ^ wu = 2 ^ min (ws - 1) wu - 1 := by
    rcases Nat.le_total (ws - 1) wu with h | h
    · rw [min_eq_left h]
      apply Nat.mod_eq_of_lt
      have := Nat.pow_le_pow_right (n := 2) (by omega) h
      have := Nat.one_le_two_pow (n := ws - 1)
      omega
    · rw [min_eq_right h]
      obtain ⟨d, hd⟩ := Nat.exists_eq_add_of_le h
      rw [hd, Nat.pow_add]
      have h1 : 0 < 2 ^ d := Nat.two_pow_pos d
      have h2 : 0 < 2 ^ wu := Nat.two_pow_pos wu
      have : 2 ^ wu * 2 ^ d - 1 = (2 ^ wu - 1) + 2 ^ wu * (2 ^ d - 1) := by
        rw [Nat.mul_sub, Nat.mul_one]
        have : 2 ^ wu ≤ 2 ^ wu * 2 ^ d := Nat.le_mul_of_pos_right _ h1
        omega
      rw [this, Nat.add_mul_mod_self_left, Nat.mod_eq_of_lt (by omega)]
  have hiff : 2 ^ min (ws - 1) wu - 1 < u ↔ 2 ^ (ws - 1) ≤ u := by
    rcases Nat.le_total (ws - 1) wu with h | h
    · rw [min_eq_left h]
      have := Nat.one_le_two_pow (n := ws - 1)
      omega
    · rw [min_eq_right h]
      have := Nat.pow_le_pow_right (n := 2) (by omega) h
      omega
  have hcast : ((2 : Int) ^ (ws - 1) ≤ u) ↔ 2 ^ (ws - 1) ≤ u := by
    rw [← Int.ofNat_le]; push_cast; rfl
  have hlt : ((u : Int) < 2 ^ (ws - 1)) ↔ ¬ 2 ^ min (ws - 1) wu - 1 < u := by rw [hiff, ← hcast, not_le]
  unfold u2s
  rw [hmod, hlt, hcast, ← hiff]
  by_cases h : 2 ^ min (ws - 1) wu - 1 < u
  · simp only [if_pos h]; simp [h]
  · simp only [if_neg h]; simp [h]

example : u2s 64 32 4294967295 = some 4294967295 ∧ u2s 32 32 2147483648 = none := by decide

/-- **C49 (partial).** `s2u` refuses negative numbers and keeps the others if the unsigned type can hold them.  Missing: it
does not refuse numbers too large for the unsigned type. -/
theorem C49_s2u_partial (wu : Nat) (s : Int) :
    (s2u wu s = none ↔ s < 0) ∧ (0 ≤ s → s < 2 ^ wu → ∃ u, s2u wu s = some u ∧ (u : Int) = s) := by
  unfold s2u
  constructor
  · split <;> simp [*]
  · intro h0 h1
    rw [if_neg (by omega)]
    refine ⟨s.toNat, ?_, by omega⟩
    rw [Nat.mod_eq_of_lt]
    have : ((s.toNat : Nat) : Int) < ((2 ^ wu : Nat) : Int) := by push_cast; omega
    exact_mod_cast this

/-- **C49 (counterexample).** A `long long` of `2^32 + 5` becomes the `unsigned int` 5 without an exception. -/
theorem C49_s2u_counterexample : s2u 32 (2 ^ 32 + 5) = some 5 := by decide

/-- **C49 (round trip).** A value which `u2s` accepts is given back by `s2u`. -/
theorem C49_roundtrip (ws wu u : Nat) (hu : u < 2 ^ wu) (s : Int) (h : u2s ws wu u = some s) : s2u wu s = some u := by
  unfold u2s at h
  split at h
  · exact absurd h (by simp)
  · have := Option.some.inj h
    subst this
    unfold s2u
    rw [if_neg (by omega)]
    simp [Nat.mod_eq_of_lt hu]

end Brille.Props
