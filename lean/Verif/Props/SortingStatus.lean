import Verif.Proofs.SortingStatus

/-! C08: the packed sorting status behaves as independent flags and a counter. -/
namespace Brille.Props
open Brille.Sorting Brille.Spec

/-- Concrete operations on the status word. -/
def statusStep (w : Word) : StatusOp → Option Word
  | .setSorted b => some (setSorted w b)
  | .setLocked b => some (setLocked w b)
  | .setQueued b => some (setQueued w b)
  | .setClaimed b => some (setClaimed w b)
  | .addVisit => addVisit w
  | .addVisitMax m => addVisitMax w (BitVec.ofNat 32 m)

def statusRun (w : Word) : List StatusOp → Option Word
  | [] => some w
  | o :: os => (statusStep w o).bind (statusRun · os)

/-- what the getters report -/
def observe (w : Word) : Status := ⟨sorted w, locked w, queued w, claimed w, (visits w).toNat⟩

theorem observe_eq_abs (w : Word) : observe w = absS w := by
  have h1 : sMask = BitVec.twoPow 32 0 := by decide
  have h2 : lMask = BitVec.twoPow 32 1 := by decide
  have h3 : qMask = BitVec.twoPow 32 2 := by decide
  have h4 : cMask = BitVec.twoPow 32 3 := by decide
  simp only [observe, absS, sorted, locked, queued, claimed, visits_toNat, h1, h2, h3, h4]
  rw [and_twoPow_ne _ _ (by omega), and_twoPow_ne _ _ (by omega), and_twoPow_ne _ _ (by omega),
    and_twoPow_ne _ _ (by omega)]

/-- the limits passed to `addvisit(max)` are 32-bit numbers -/
def LimitsFit : List StatusOp → Prop
  | [] => True
  | .addVisitMax m :: os => m < 2 ^ 32 ∧ LimitsFit os
  | _ :: os => LimitsFit os

/-- **C08.** For every starting word and every history of flag settings and visit increments, the
getters report exactly what four independent flags and a counter would, and the operation throws
exactly when the counter is full. -/
theorem C08_flags_and_counter_independent (w : Word) (ops : List StatusOp) (hl : LimitsFit ops) :
    (statusRun w ops).map observe = (observe w).run ops := by
  have ho : observe = absS := funext observe_eq_abs
  rw [ho]
  induction ops generalizing w with
  | nil => rfl
  | cons o os ih =>
    have key : (statusStep w o).map absS = (absS w).step o := by
      cases o with
      | setSorted b => simp [statusStep, abs_setSorted, Status.step]
      | setLocked b => simp [statusStep, abs_setLocked, Status.step]
      | setQueued b => simp [statusStep, abs_setQueued, Status.step]
      | setClaimed b => simp [statusStep, abs_setClaimed, Status.step]
      | addVisit => exact addVisit_spec w
      | addVisitMax m =>
        have hm : m < 2 ^ 32 := hl.1
        have := addVisitMax_spec w (BitVec.ofNat 32 m)
        rw [BitVec.toNat_ofNat, Nat.mod_eq_of_lt hm] at this
        exact this
    have hos : LimitsFit os := by
      cases o with
      | addVisitMax m => exact hl.2
      | _ => exact hl
    simp only [statusRun, Status.run, ← key]
    cases hs : statusStep w o with
    | none => rfl
    | some w' => simpa using ih w' hos

example : (statusRun 0 [.setSorted true, .addVisit, .addVisitMax 1, .setSorted false, .addVisit]).map
    observe = some ⟨false, true, false, false, 2⟩ := by decide

/-- **C08 (unlocked_addvisit_unsorted).** Refuses (and changes nothing) exactly when locked;
otherwise it behaves as `addvisit(max)` and answers whether the item is still unsorted. -/
theorem C08_unlocked_addvisit (w : Word) (max : Nat) (hm : max < 2 ^ 32) :
    (unlockedAddvisitUnsorted w (BitVec.ofNat 32 max)).map (fun r => (observe r.1, r.2)) =
      if (observe w).locked then some (observe w, false)
      else ((observe w).step (.addVisitMax max)).map fun s => (s, !s.sorted) := by
  have h := addVisitMax_spec w (BitVec.ofNat 32 max)
  rw [BitVec.toNat_ofNat, Nat.mod_eq_of_lt hm] at h
  have ho : ∀ w, observe w = absS w := observe_eq_abs
  have hl : locked w = (observe w).locked := rfl
  have hs : ∀ w, sorted w = (observe w).sorted := fun _ => rfl
  simp only [unlockedAddvisitUnsorted, hl]
  cases (observe w).locked with
  | true => simp
  | false =>
    simp only [Bool.false_eq_true, if_false, Option.map_map]
    rw [ho w, ← h, Option.map_map]
    congr 1
    funext x
    simp only [Function.comp, hs, ho]

example : (unlockedAddvisitUnsorted 0 3).map (fun r => (observe r.1, r.2)) =
    some (⟨false, false, false, false, 1⟩, true) := by decide

/-- **C08 (visited / queable).** `visited()` is "at least one visit" and `is_queable()` is "no flag
set". -/
theorem C08_derived_getters (w : Word) :
    (visited w = true ↔ 0 < (observe w).visits) ∧
    (isQueable w = true ↔ (observe w).sorted = false ∧ (observe w).locked = false ∧
      (observe w).queued = false ∧ (observe w).claimed = false) := by
  constructor
  · simp only [visited, decide_eq_true_eq]
    rw [show (observe w).visits = w.toNat / 16 from visits_toNat w]
    have hgt : (w &&& vMask > 0) ↔ w &&& vMask ≠ 0 := by
      rw [gt_iff_lt, BitVec.lt_def]
      constructor
      · intro h h0; rw [h0] at h; exact absurd h (by decide)
      · intro h
        have h1 : (w &&& vMask).toNat ≠ 0 := by
          intro h0; apply h; exact BitVec.eq_of_toNat_eq (by simpa using h0)
        have h2 : (0 : Word).toNat = 0 := by decide
        rw [h2]; omega
    rw [hgt]
    have hv : ∀ i, i < 32 → vMask.getLsbD i = decide (4 ≤ i) := by decide
    have hz : w &&& vMask = 0 ↔ w.toNat / 16 = 0 := by
      constructor
      · intro h
        have := toNat_div16_eq (0 : Word) w (fun i h4 hi => by
          have h1 : (w &&& vMask).getLsbD i = (0 : Word).getLsbD i := by rw [h]
          rw [BitVec.getLsbD_and, hv i hi] at h1
          simpa [h4] using h1)
        rw [this]; decide
      · intro h
        apply BitVec.eq_of_getLsbD_eq
        intro i hi
        rw [BitVec.getLsbD_and, hv i hi]
        by_cases h4 : 4 ≤ i
        · have : w.getLsbD i = false := by
            simp only [BitVec.getLsbD]
            apply Nat.testBit_lt_two_pow
            have h5 : (2 : Nat) ^ 4 ≤ 2 ^ i := Nat.pow_le_pow_right (by norm_num) h4
            have h6 : w.toNat < 16 := by omega
            omega
          simp [this]
        · simp [h4]
    rw [ne_eq, hz]; omega
  · simp only [isQueable, observe]
    cases sorted w <;> cases locked w <;> cases queued w <;> cases claimed w <;> simp

/-- **C08 (limits).** `visits(v)` does not store `v`: starting from a count `k` it leaves the flags
alone and the count becomes `v + (2^28-1-k)` modulo `2^28`; it is refused exactly for `v ≥ 2^28`. -/
theorem C08_setVisits_actual (w v : Word) :
    (setVisits w v = none ↔ 2 ^ 28 ≤ v.toNat) ∧
    ∀ w', setVisits w v = some w' →
      observe w' = { observe w with
        visits := (v.toNat + (2 ^ 28 - 1 - (observe w).visits)) % 2 ^ 28 } := by
  have hk : ((BitVec.allOnes 32 : Word) >>> 4).toNat = 2 ^ 28 - 1 := by decide
  have hlt := w.isLt
  simp only [setVisits]
  by_cases h : v ≤ (BitVec.allOnes 32) >>> 4
  · have h' := BitVec.le_def.1 h
    rw [hk] at h'
    rw [if_pos h]
    refine ⟨by simp; omega, ?_⟩
    intro w' hw
    obtain rfl := Option.some.inj hw
    rw [observe_eq_abs, observe_eq_abs]
    have hx : w ^^^ vMask = (w ^^^ 15) ^^^ (BitVec.allOnes 32) := by
      rw [vMask, ← BitVec.xor_assoc, BitVec.xor_assoc, BitVec.xor_comm (BitVec.allOnes 32),
        ← BitVec.xor_assoc]
    have h15 : (w ^^^ (15 : Word)).toNat = w.toNat / 16 * 16 + (15 - w.toNat % 16) := by
      rw [BitVec.toNat_xor]
      have h2 : (15 : Word).toNat = 15 := by decide
      rw [h2]
      have hm : (w.toNat ^^^ 15) % 2 ^ 4 = 15 - w.toNat % 16 := by
        rw [Nat.xor_mod_two_pow]
        have : w.toNat % 2 ^ 4 < 16 := by omega
        have e : w.toNat % 16 = w.toNat % 2 ^ 4 := by norm_num
        rw [e]
        generalize w.toNat % 2 ^ 4 = r at this
        interval_cases r <;> decide
      have hd : (w.toNat ^^^ 15) / 2 ^ 4 = w.toNat / 16 := by
        rw [← Nat.shiftRight_eq_div_pow, Nat.shiftRight_xor_distrib, Nat.shiftRight_eq_div_pow]
        simp
      have := Nat.div_add_mod (w.toNat ^^^ 15) (2 ^ 4)
      rw [hd, hm] at this
      omega
    have hxn : (w ^^^ vMask).toNat = (2 ^ 28 - 1 - w.toNat / 16) * 16 + w.toNat % 16 := by
      rw [hx, BitVec.xor_allOnes, BitVec.toNat_not, h15]
      omega
    have hsh : (v <<< 4).toNat = v.toNat * 16 := by
      rw [BitVec.toNat_shiftLeft, Nat.shiftLeft_eq]; omega
    have hsum : ((w ^^^ vMask) + v <<< 4).toNat =
        ((v.toNat + (2 ^ 28 - 1 - w.toNat / 16)) % 2 ^ 28) * 16 + w.toNat % 16 := by
      rw [BitVec.toNat_add, hxn, hsh]
      omega
    rw [abs_eq_of (a := (w ^^^ vMask) + v <<< 4) (b := w) (by rw [hsum]; omega)]
    rw [show ((w ^^^ vMask) + v <<< 4).toNat / 16 =
      (v.toNat + (2 ^ 28 - 1 - w.toNat / 16)) % 2 ^ 28 by rw [hsum]; omega]
    have : (absS w).visits = w.toNat / 16 := rfl
    rw [this]
  · have h' : ¬ v.toNat ≤ 2 ^ 28 - 1 := by
      intro hh; apply h; rw [BitVec.le_def, hk]; exact hh
    rw [if_neg h]
    refine ⟨by simp; omega, by simp⟩

/-- **C08 (limits), witness.** The constructor `SortingStatus(true,false,5)` reports 4 visits. -/
theorem C08_setVisits_counterexample :
    (Sorting.mk true false 5).map observe = some ⟨true, false, false, false, 4⟩ := by decide

end Brille.Props
