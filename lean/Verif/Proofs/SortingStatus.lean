import Verif.Model.SortingStatus
import Verif.Spec.SortingStatus
import Mathlib.Tactic.Ring
import Mathlib.Tactic.Linarith
import Mathlib.Tactic.IntervalCases

namespace Brille.Sorting
open Brille.Spec

/-- the abstraction function -/
def absS (w : Word) : Status :=
  ⟨w.getLsbD 0, w.getLsbD 1, w.getLsbD 2, w.getLsbD 3, w.toNat / 16⟩

theorem and_twoPow_ne (w : Word) (k : Nat) (hk : k < 32) :
    ((w &&& BitVec.twoPow 32 k) != 0) = w.getLsbD k := by
  rw [BitVec.and_twoPow]
  cases h : w.getLsbD k
  · simp
  · simp only [if_true]
    rw [bne_iff_ne]
    intro h0
    have h2 : (BitVec.twoPow 32 k).getLsbD k = (0 : Word).getLsbD k := by rw [h0]
    simp [BitVec.getLsbD_twoPow, hk] at h2

/-- generic flag setter -/
def flagSet (w m r : Word) (b : Bool) : Word :=
  if ((w &&& m) != 0) != b then (w &&& r) + (if b then m else 0) else w

theorem flagSet_bits (w : Word) (k : Nat) (hk : k < 32) (b : Bool) (i : Nat) (hi : i < 32) :
    (flagSet w (BitVec.twoPow 32 k) (~~~ (BitVec.twoPow 32 k)) b).getLsbD i =
      if i = k then b else w.getLsbD i := by
  simp only [flagSet, and_twoPow_ne w k hk]
  by_cases hb : w.getLsbD k = b
  · simp only [hb, bne_self_eq_false, Bool.false_eq_true, if_false]
    split
    · next h => subst h; exact hb
    · rfl
  · have : (w.getLsbD k != b) = true := by simpa using hb
    simp only [this, if_true]
    have hdis : (w &&& ~~~ (BitVec.twoPow 32 k)) &&& (if b then BitVec.twoPow 32 k else 0) = 0 := by
      cases b
      · simp
      · ext j hj
        simp
    rw [BitVec.add_eq_or_of_and_eq_zero _ _ hdis]
    cases b
    · simp [BitVec.getLsbD_twoPow, hi, hk]
      by_cases h : i = k
      · simp [h]
      · have : ¬ k = i := fun h' => h h'.symm
        simp [h, this]
    · simp [BitVec.getLsbD_twoPow, hi, hk]
      by_cases h : i = k
      · simp [h]
      · have : ¬ k = i := fun h' => h h'.symm
        simp [h, this]

theorem toNat_div16_eq (w w' : Word) (h : ∀ i, 4 ≤ i → i < 32 → w'.getLsbD i = w.getLsbD i) :
    w'.toNat / 16 = w.toNat / 16 := by
  have e : w' >>> 4 = w >>> 4 := by
    apply BitVec.eq_of_getLsbD_eq
    intro i hi
    rw [BitVec.getLsbD_ushiftRight, BitVec.getLsbD_ushiftRight]
    by_cases hh : 4 + i < 32
    · exact h _ (by omega) hh
    · rw [BitVec.getLsbD_of_ge _ _ (by omega), BitVec.getLsbD_of_ge _ _ (by omega)]
  have := congrArg BitVec.toNat e
  simpa [BitVec.toNat_ushiftRight, Nat.shiftRight_eq_div_pow] using this

theorem setSorted_eq (w : Word) (b : Bool) : setSorted w b =
    flagSet w (BitVec.twoPow 32 0) (~~~ (BitVec.twoPow 32 0)) b := by
  have h1 : sMask = BitVec.twoPow 32 0 := by decide
  have h2 : lMask + qMask + cMask + vMask = ~~~ (BitVec.twoPow 32 0) := by decide
  simp only [setSorted, sorted, flagSet, h1, h2]
theorem setLocked_eq (w : Word) (b : Bool) : setLocked w b =
    flagSet w (BitVec.twoPow 32 1) (~~~ (BitVec.twoPow 32 1)) b := by
  have h1 : lMask = BitVec.twoPow 32 1 := by decide
  have h2 : sMask + qMask + cMask + vMask = ~~~ (BitVec.twoPow 32 1) := by decide
  simp only [setLocked, locked, flagSet, h1, h2]
theorem setQueued_eq (w : Word) (b : Bool) : setQueued w b =
    flagSet w (BitVec.twoPow 32 2) (~~~ (BitVec.twoPow 32 2)) b := by
  have h1 : qMask = BitVec.twoPow 32 2 := by decide
  have h2 : sMask + lMask + cMask + vMask = ~~~ (BitVec.twoPow 32 2) := by decide
  simp only [setQueued, queued, flagSet, h1, h2]
theorem setClaimed_eq (w : Word) (b : Bool) : setClaimed w b =
    flagSet w (BitVec.twoPow 32 3) (~~~ (BitVec.twoPow 32 3)) b := by
  have h1 : cMask = BitVec.twoPow 32 3 := by decide
  have h2 : sMask + lMask + qMask + vMask = ~~~ (BitVec.twoPow 32 3) := by decide
  simp only [setClaimed, claimed, flagSet, h1, h2]

theorem abs_setSorted (w : Word) (b : Bool) : absS (setSorted w b) = { absS w with sorted := b } := by
  have hb := fun i hi => flagSet_bits w 0 (by omega) b i hi
  simp only [absS, setSorted_eq]
  rw [hb 0 (by omega), hb 1 (by omega), hb 2 (by omega), hb 3 (by omega),
    toNat_div16_eq w _ (fun i h1 h2 => by rw [hb i h2, if_neg (by omega)])]
  simp
theorem abs_setLocked (w : Word) (b : Bool) : absS (setLocked w b) = { absS w with locked := b } := by
  have hb := fun i hi => flagSet_bits w 1 (by omega) b i hi
  simp only [absS, setLocked_eq]
  rw [hb 0 (by omega), hb 1 (by omega), hb 2 (by omega), hb 3 (by omega),
    toNat_div16_eq w _ (fun i h1 h2 => by rw [hb i h2, if_neg (by omega)])]
  simp
theorem abs_setQueued (w : Word) (b : Bool) : absS (setQueued w b) = { absS w with queued := b } := by
  have hb := fun i hi => flagSet_bits w 2 (by omega) b i hi
  simp only [absS, setQueued_eq]
  rw [hb 0 (by omega), hb 1 (by omega), hb 2 (by omega), hb 3 (by omega),
    toNat_div16_eq w _ (fun i h1 h2 => by rw [hb i h2, if_neg (by omega)])]
  simp
theorem abs_setClaimed (w : Word) (b : Bool) :
    absS (setClaimed w b) = { absS w with claimed := b } := by
  have hb := fun i hi => flagSet_bits w 3 (by omega) b i hi
  simp only [absS, setClaimed_eq]
  rw [hb 0 (by omega), hb 1 (by omega), hb 2 (by omega), hb 3 (by omega),
    toNat_div16_eq w _ (fun i h1 h2 => by rw [hb i h2, if_neg (by omega)])]
  simp

theorem low_bits {a b : Word} (h : a.toNat % 16 = b.toNat % 16) (i : Nat) (hi : i < 4) :
    a.getLsbD i = b.getLsbD i := by
  have ha : (a.toNat % 2 ^ 4).testBit i = a.toNat.testBit i := by
    rw [Nat.testBit_mod_two_pow]; simp [hi]
  have hb : (b.toNat % 2 ^ 4).testBit i = b.toNat.testBit i := by
    rw [Nat.testBit_mod_two_pow]; simp [hi]
  simp only [BitVec.getLsbD]
  rw [← ha, ← hb, show (2 : Nat) ^ 4 = 16 by norm_num, h]

theorem abs_eq_of {a b : Word} (h : a.toNat % 16 = b.toNat % 16) :
    absS a = { absS b with visits := a.toNat / 16 } := by
  simp only [absS]
  rw [low_bits h 0 (by omega), low_bits h 1 (by omega), low_bits h 2 (by omega),
    low_bits h 3 (by omega)]

theorem vMask_toNat : vMask.toNat = 2 ^ 32 - 16 := by decide

theorem addVisit_spec (w : Word) : (addVisit w).map absS = (absS w).step .addVisit := by
  have hlt := w.isLt
  simp only [addVisit, Status.step]
  have hM : maxVisits = 2 ^ 28 - 1 := rfl
  have e : (absS w).visits = w.toNat / 16 := rfl
  rw [e]
  by_cases h : w < vMask
  · have h' : w.toNat < 2 ^ 32 - 16 := by
      have := BitVec.lt_def.1 h; rwa [vMask_toNat] at this
    rw [if_pos h, if_pos (by omega)]
    have ht : (w + 16).toNat = w.toNat + 16 := by
      rw [BitVec.toNat_add]
      have : (16 : Word).toNat = 16 := by decide
      rw [this]; omega
    have ht2 : (w + 16).toNat / 16 = w.toNat / 16 + 1 := by rw [ht]; omega
    rw [Option.map_some, abs_eq_of (a := w + 16) (b := w) (by rw [ht]; omega)]
    rw [ht2]
  · have h' : ¬ w.toNat < 2 ^ 32 - 16 := by
      intro hh; apply h; rw [BitVec.lt_def, vMask_toNat]; exact hh
    rw [if_neg h, if_neg (by omega)]
    rfl

theorem visits_toNat (w : Word) : (visits w).toNat = w.toNat / 16 := by
  simp [visits, BitVec.toNat_ushiftRight, Nat.shiftRight_eq_div_pow]

theorem addVisitMax_spec (w max : Word) :
    (addVisitMax w max).map absS = (absS w).step (.addVisitMax max.toNat) := by
  simp only [addVisitMax]
  have e : (absS w).visits = w.toNat / 16 := rfl
  by_cases h : visits w < max
  · have h' := BitVec.lt_def.1 h
    rw [visits_toNat] at h'
    rw [if_pos h, addVisit_spec]
    simp only [Status.step]
    rw [e, if_pos h']
  · have h' : ¬ (w.toNat / 16 < max.toNat) := by
      intro hh; apply h; rw [BitVec.lt_def, visits_toNat]; exact hh
    rw [if_neg h]
    simp only [Status.step]
    rw [e, if_neg h', Option.map_some, abs_setLocked]
    rfl

end Brille.Sorting
