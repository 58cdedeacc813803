/-
C32: the threaded `interpolate_at` gives what the serial one gives, for every number of threads and every
interleaving, and reports every failure.
-/
import Verif.Proofs.ParallelInterpolate
import Mathlib.Data.Rat.Defs

namespace Brille.Props

open Brille.ParInterp Brille.Spec

/-- **C32.** If every point can be evaluated, then whatever the number of threads and the order in which
they run, once all are done the threaded version returns exactly the arrays the serial version returns. -/
theorem C32_parallel_eq_serial {K : Type} [AddMonoid K] {T : Nat} (pt : Nat → Outcome K) (n : Nat)
    (sched : List (Fin T)) (hf : Finished n (run pt n (start T K) sched))
    (hpt : ∀ i, i < n → ∃ l, pt i = .adds l) :
    ∃ o, finish (run pt n (start T K) sched) = .ok o ∧ serial pt n = .ok o := by
  obtain ⟨done, ws, hi⟩ := inv_run sched (inv_start (T := T) pt n)
  obtain ⟨h1, h2, h3, h4, h5, h6⟩ := finished_spec hi hf
  obtain ⟨o, ho, ho1, ho2⟩ := serialLoop_ok pt (List.range n) zeroOut List.nodup_range
    (fun i h => hpt i (List.mem_range.mp h)) (fun _ _ _ _ => rfl)
  have hw : ws = [] := by
    have : (List.range n).filterMap (fun i => textOf (pt i)) = [] := by
      rw [List.filterMap_eq_nil_iff]
      intro i h
      obtain ⟨l, hl⟩ := hpt i (List.mem_range.mp h)
      rw [hl]; rfl
    rw [this] at h1
    exact h1.eq_nil
  have hm : (List.range n).filter (fun i => isMissing (pt i)) = [] := by
    rw [List.filter_eq_nil_iff]
    intro i h
    obtain ⟨l, hl⟩ := hpt i (List.mem_range.mp h)
    rw [hl]; simp [isMissing]
  refine ⟨o, ?_, ho⟩
  have ho' : (run pt n (start T K) sched).out = o := by
    funext a i k
    by_cases hin : i < n
    · rw [h5 i hin, ho1 i (List.mem_range.mpr hin)]
    · rw [h6 i (by omega), ho2 i (fun h => hin (List.mem_range.mp h))]; rfl
  unfold finish rethrow
  rw [h2, h3, hw]
  simp only [List.length_nil, gt_iff_lt, Nat.not_lt_zero, if_false, if_true]
  rw [h4, hm]
  simp [ho']

/-- The threaded and the serial version fail on the same inputs: those with a point that throws or is not
found. -/
theorem C32_fails_together {K : Type} [AddMonoid K] {T : Nat} (pt : Nat → Outcome K) (n : Nat)
    (sched : List (Fin T)) (hf : Finished n (run pt n (start T K) sched)) :
    ((∃ e, finish (run pt n (start T K) sched) = .error e) ↔ ∃ i, i < n ∧ ∀ l, pt i ≠ .adds l) ∧
    ((∃ e, serial pt n = .error e) ↔ ∃ i, i < n ∧ ∀ l, pt i ≠ .adds l) := by
  have hall : (¬ ∃ i, i < n ∧ ∀ l, pt i ≠ .adds l) → ∀ i, i < n → ∃ l, pt i = .adds l := by
    intro h i hi
    by_contra hc
    exact h ⟨i, hi, fun l hl => hc ⟨l, hl⟩⟩
  constructor
  · constructor
    · rintro ⟨e, he⟩
      by_contra hc
      obtain ⟨o, h1, _⟩ := C32_parallel_eq_serial pt n sched hf (hall hc)
      rw [h1] at he; cases he
    · rintro ⟨i, hin, hne⟩
      obtain ⟨done, ws, hi⟩ := inv_run sched (inv_start (T := T) pt n)
      obtain ⟨h1, h2, h3, h4, _, _⟩ := finished_spec hi hf
      unfold finish rethrow
      rw [h2, h3]
      by_cases hw : ws = []
      · subst hw
        simp only [List.length_nil, gt_iff_lt, Nat.not_lt_zero, if_false, if_true]
        have hmiss : pt i = .missing := by
          cases hp : pt i with
          | adds l => exact absurd hp (hne l)
          | missing => rfl
          | threw w =>
            have hmem : w ∈ (List.range n).filterMap (fun i => textOf (pt i)) :=
              List.mem_filterMap.mpr ⟨i, List.mem_range.mpr hin, by rw [hp]; rfl⟩
            exact absurd (h1.mem_iff.mpr hmem) (by simp)
        have hpos : 0 < ((List.range n).filter fun i => isMissing (pt i)).length := by
          apply List.length_pos_of_mem (a := i)
          rw [List.mem_filter]
          exact ⟨List.mem_range.mpr hin, by rw [hmiss]; rfl⟩
        rw [h4, if_pos (by omega)]
        exact ⟨_, rfl⟩
      · rw [if_neg hw]
        by_cases hl : ws.length > 1
        · rw [if_pos hl]; exact ⟨_, rfl⟩
        · rw [if_neg hl]; exact ⟨_, rfl⟩
  · constructor
    · rintro ⟨e, he⟩
      by_contra hc
      obtain ⟨o, _, h2⟩ := C32_parallel_eq_serial pt n sched hf (hall hc)
      rw [h2] at he; cases he
    · rintro ⟨i, hin, hne⟩
      exact serialLoop_error pt _ _ ⟨i, List.mem_range.mpr hin, hne⟩

/-- No failure is lost.  With no exception, the thrown error gives the exact number of points not found.
With one exception, it is rethrown as it is.  With more, the thrown text gives their number and the text of
each of them, in some order. -/
theorem C32_reports {K : Type} [AddMonoid K] {T : Nat} (pt : Nat → Outcome K) (n : Nat)
    (sched : List (Fin T)) (hf : Finished n (run pt n (start T K) sched)) :
    ∃ ws : List String, ws.Perm ((List.range n).filterMap fun i => textOf (pt i)) ∧
      (2 ≤ ws.length → finish (run pt n (start T K) sched) =
        .error (.exception (toString ws.length ++ " exceptions occurred:\n" ++ lines ws))) ∧
      (∀ w, ws = [w] → finish (run pt n (start T K) sched) = .error (.exception w)) ∧
      (ws = [] → ∀ m, m = ((List.range n).filter fun i => isMissing (pt i)).length → m ≠ 0 →
        finish (run pt n (start T K) sched) = .error (.failedToFind m)) := by
  obtain ⟨done, ws, hi⟩ := inv_run sched (inv_start (T := T) pt n)
  obtain ⟨h1, h2, h3, h4, _, _⟩ := finished_spec hi hf
  refine ⟨ws, h1, ?_, ?_, ?_⟩
  · intro hl
    have hw : ws ≠ [] := by rintro rfl; simp at hl
    unfold finish rethrow
    rw [h2, h3, if_pos (by omega), if_neg hw]
  · rintro w rfl
    unfold finish rethrow
    rw [h2, h3]
    rfl
  · rintro rfl m hm hm0
    unfold finish rethrow
    rw [h2, h3]
    simp only [List.length_nil, gt_iff_lt, Nat.not_lt_zero, if_false, if_true]
    rw [h4, ← hm, if_pos hm0]

/-- There is no deadlock: from every reachable state of at least one thread the work can be completed. -/
theorem C32_can_finish {K : Type} [AddMonoid K] {T : Nat} (hT : 0 < T) (pt : Nat → Outcome K) (n : Nat)
    (sched : List (Fin T)) : ∃ more, Finished n (run pt n (start T K) (sched ++ more)) := by
  obtain ⟨more, h⟩ := can_finish pt n ⟨0, hT⟩ _ (run pt n (start T K) sched) rfl
  exact ⟨more, by rw [run_append]; exact h⟩

/-- On points that are all found, the serial version of `Nest` does the same. -/
theorem C32_nest_serial_partial {K : Type} [AddMonoid K] (pt : Nat → Outcome K) :
    ∀ (is : List Nat) (o : Out K), (∀ i ∈ is, pt i ≠ .missing) →
      serialNestLoop pt is o = some (serialLoop pt is o) := by
  intro is
  induction is with
  | nil => intro o _; rfl
  | cons i is ih =>
    intro o h
    rw [serialNestLoop, serialLoop]
    cases hp : pt i with
    | threw w => rfl
    | missing => exact absurd hp (h i (by simp))
    | adds l => exact ih _ (fun j hj => h j (by simp [hj]))

/-- The serial version of `Nest` does not report a point which is not found: it has undefined behaviour
where the threaded version throws. -/
theorem C32_nest_counterexample : ∃ (pt : Nat → Outcome ℚ) (n : Nat),
    serialNestLoop pt (List.range n) zeroOut = none ∧
    ∃ sched : List (Fin 2), Finished n (run pt n (start 2 ℚ) sched) ∧
      finish (run pt n (start 2 ℚ) sched) = .error (.failedToFind 1) := by
  refine ⟨fun _ => .missing, 1, rfl, [0, 0], ⟨by decide, ?_⟩, ?_⟩
  · intro k
    match k with
    | 0 => rfl
    | 1 => rfl
  · rfl

/-- two threads, interleaved inside the points, three points: all found -/
example : Finished 2 (run (fun i => .adds [(false, 0, (i : ℚ)), (true, 1, 2)]) 2 (start 2 ℚ)
    [0, 1, 1, 0, 0, 1, 1, 0, 1, 0]) := by
  refine ⟨by decide, ?_⟩
  intro k
  match k with
  | 0 => rfl
  | 1 => rfl

/-- two exceptions and a point which is not found -/
example : Finished 3 (run (fun i => if i = 1 then .missing else .threw s!"e{i}") 3 (start 2 ℚ)
    [0, 1, 1, 0, 0, 0]) := by
  refine ⟨by decide, ?_⟩
  intro k
  match k with
  | 0 => rfl
  | 1 => rfl

end Brille.Props
