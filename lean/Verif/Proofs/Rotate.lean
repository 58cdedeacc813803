import Verif.Spec.Rotate
import Verif.Proofs.Motion
import Mathlib.Tactic.FinCases
import Mathlib.Tactic.Set
import Mathlib.Tactic.Ring

/-
Lemmas on rotating rows in place.
-/
namespace Brille.Rot

open Brille.Mat Brille.Spec Brille.Mot

variable {K : Type}

theorem writeVec_in (x : ℕ → K) (o : ℕ) (t : Fin 3 → K) : readVec (writeVec x o t) o = t := by
  funext j
  have e : List.finRange 3 = [0, 1, 2] := by decide
  unfold readVec writeVec
  rw [e]
  simp only [List.foldl_cons, List.foldl_nil]
  fin_cases j <;> simp

theorem writeVec_out (x : ℕ → K) (o : ℕ) (t : Fin 3 → K) (i : ℕ) (h : i < o ∨ o + 3 ≤ i) : writeVec x o t i = x i := by
  have e : List.finRange 3 = [0, 1, 2] := by decide
  unfold writeVec
  rw [e]
  simp only [List.foldl_cons, List.foldl_nil]
  rw [Function.update_of_ne, Function.update_of_ne, Function.update_of_ne] <;> simp <;> omega

theorem writeMat_in (x : ℕ → K) (o : ℕ) (t : Fin 3 → Fin 3 → K) : readMat (writeMat x o t) o = t := by
  funext i j
  have e : List.finRange 3 = [0, 1, 2] := by decide
  unfold readMat writeMat
  rw [e]
  simp only [List.foldl_cons, List.foldl_nil]
  fin_cases i <;> fin_cases j <;> simp [Function.update_apply]
  iterate 4 rw [if_neg (by omega)]


theorem writeMat_out (x : ℕ → K) (o : ℕ) (t : Fin 3 → Fin 3 → K) (i : ℕ) (h : i < o ∨ o + 9 ≤ i) :
    writeMat x o t i = x i := by
  have e : List.finRange 3 = [0, 1, 2] := by decide
  unfold writeMat
  rw [e]
  simp only [List.foldl_cons, List.foldl_nil]
  iterate 9 rw [Function.update_of_ne]
  all_goals simp
  all_goals omega

theorem vecLoop_spec (f : (Fin 3 → K) → Fin 3 → K) (n : ℕ) (x : ℕ → K) (o : ℕ) :
    (vecLoop f n (x, o)).2 = o + 3 * n ∧
    (∀ v < n, readVec (vecLoop f n (x, o)).1 (o + 3 * v) = f (readVec x (o + 3 * v))) ∧
    ∀ i, i < o ∨ o + 3 * n ≤ i → (vecLoop f n (x, o)).1 i = x i := by
  induction n generalizing x o with
  | zero => exact ⟨rfl, fun v hv => absurd hv (by omega), fun _ _ => rfl⟩
  | succ n ih =>
    obtain ⟨h1, h2, h3⟩ := ih (writeVec x o (f (readVec x o))) (o + 3)
    rw [vecLoop]
    dsimp only
    refine ⟨by rw [h1]; omega, fun v hv => ?_, fun i hi => ?_⟩
    · cases v with
      | zero =>
        have : readVec (vecLoop f n (writeVec x o (f (readVec x o)), o + 3)).1 o =
            readVec (writeVec x o (f (readVec x o))) o := by
          funext j; exact h3 _ (by omega)
        show readVec _ o = f (readVec x o)
        rw [this, writeVec_in]
      | succ v =>
        have e : o + 3 * (v + 1) = o + 3 + 3 * v := by omega
        rw [e, h2 v (by omega)]
        congr 1
        funext j
        exact writeVec_out x o _ _ (by omega)
    · rw [h3 i (by omega)]
      exact writeVec_out x o _ i (by omega)

theorem matLoop_spec (f : (Fin 3 → Fin 3 → K) → Fin 3 → Fin 3 → K) (n : ℕ) (x : ℕ → K) (o : ℕ) :
    (∀ v < n, readMat (matLoop f n (x, o)).1 (o + 9 * v) = f (readMat x (o + 9 * v))) ∧
    ∀ i, i < o ∨ o + 9 * n ≤ i → (matLoop f n (x, o)).1 i = x i := by
  induction n generalizing x o with
  | zero => exact ⟨fun v hv => absurd hv (by omega), fun _ _ => rfl⟩
  | succ n ih =>
    obtain ⟨h2, h3⟩ := ih (writeMat x o (f (readMat x o))) (o + 9)
    rw [matLoop]
    dsimp only
    refine ⟨fun v hv => ?_, fun i hi => ?_⟩
    · cases v with
      | zero =>
        have : readMat (matLoop f n (writeMat x o (f (readMat x o)), o + 9)).1 o =
            readMat (writeMat x o (f (readMat x o))) o := by
          funext i j; exact h3 _ (by omega)
        show readMat _ o = f (readMat x o)
        rw [this, writeMat_in]
      | succ v =>
        have e : o + 9 * (v + 1) = o + 9 + 9 * v := by omega
        rw [e, h2 v (by omega)]
        congr 1
        funext i j
        exact writeMat_out x o _ _ (by omega)
    · rw [h3 i (by omega)]
      exact writeMat_out x o _ i (by omega)

/-- one branch -/
theorem branch_spec (fv : (Fin 3 → K) → Fin 3 → K) (fm : (Fin 3 → Fin 3 → K) → Fin 3 → Fin 3 → K) (n1 n2 : ℕ)
    (x : ℕ → K) (o : ℕ) :
    (∀ v < n1, readVec (matLoop fm n2 (vecLoop fv n1 (x, o))).1 (o + 3 * v) = fv (readVec x (o + 3 * v))) ∧
    (∀ m < n2, readMat (matLoop fm n2 (vecLoop fv n1 (x, o))).1 (o + 3 * n1 + 9 * m) =
      fm (readMat x (o + 3 * n1 + 9 * m))) ∧
    ∀ i, i < o ∨ o + 3 * n1 + 9 * n2 ≤ i → (matLoop fm n2 (vecLoop fv n1 (x, o))).1 i = x i := by
  obtain ⟨h1, h2, h3⟩ := vecLoop_spec fv n1 x o
  have e : vecLoop fv n1 (x, o) = ((vecLoop fv n1 (x, o)).1, o + 3 * n1) := Prod.ext rfl h1
  obtain ⟨h4, h5⟩ := matLoop_spec fm n2 (vecLoop fv n1 (x, o)).1 (o + 3 * n1)
  rw [e]
  refine ⟨fun v hv => ?_, fun m hm => ?_, fun i hi => ?_⟩
  · rw [← h2 v hv]; funext j; exact h5 _ (by omega)
  · rw [h4 m hm]; congr 1; funext i j; exact h3 _ (by omega)
  · rw [h5 i (by omega), h3 i (by omega)]

theorem rotRow_turned (l : Layout) (h1 : 3 ∣ l.e1) (h2 : 9 ∣ l.e2) (fv : (Fin 3 → K) → Fin 3 → K)
    (fm : (Fin 3 → Fin 3 → K) → Fin 3 → Fin 3 → K) (x : ℕ → K) :
    RowTurned l.e0 l.e1 l.e2 l.branches fv fm x (rotRow l fv fm x) := by
  obtain ⟨c1, hc1⟩ := h1
  obtain ⟨c2, hc2⟩ := h2
  have n1 : l.n1 = c1 := by rw [Layout.n1, hc1]; omega
  have n2 : l.n2 = c2 := by rw [Layout.n2, hc2]; omega
  have hs : l.span = l.e0 + l.e1 + l.e2 := rfl
  unfold rotRow
  generalize l.branches = n
  induction n with
  | zero => exact ⟨fun b hb => absurd hb (by omega), fun b hb => absurd hb (by omega), fun b hb => absurd hb (by omega),
      fun _ _ => rfl⟩
  | succ n ih =>
    rw [List.range_succ, List.foldl_append, List.foldl_cons, List.foldl_nil]
    set y := (List.range n).foldl (fun x b => (matLoop fm l.n2 (vecLoop fv l.n1 (x, b * l.span + l.e0))).1) x with hy
    obtain ⟨g1, g2, g3⟩ := branch_spec fv fm l.n1 l.n2 y (n * l.span + l.e0)
    have below : ∀ b < n, b * l.span + l.span ≤ n * l.span := fun b hb => by
      have := Nat.mul_le_mul_right l.span (show b + 1 ≤ n from hb)
      rw [Nat.add_mul, Nat.one_mul] at this; exact this
    have hn : (n + 1) * (l.e0 + l.e1 + l.e2) = n * l.span + l.span := by rw [hs]; ring
    have div1 : l.e1 / 3 = c1 := by omega
    have div2 : l.e2 / 9 = c2 := by omega
    refine ⟨fun b hb s hsc => ?_, fun b hb v hv => ?_, fun b hb m hm => ?_, fun i hi => ?_⟩
    · unfold scalarOf
      rw [← hs]
      by_cases e : b < n
      · rw [g3 _ (by have := below b e; omega)]
        have := ih.scalars b e s hsc
        unfold scalarOf at this
        rw [← hs] at this; exact this
      · have e' : b = n := by omega
        subst e'
        rw [g3 _ (by omega)]
        exact ih.rest _ (by rw [← hs]; omega)
    · by_cases e : b < n
      · rw [← ih.vectors b e v hv]
        funext j
        unfold vectorOf
        rw [← hs]
        exact g3 _ (by have := below b e; omega)
      · have e' : b = n := by omega
        subst e'
        have := g1 v (by omega)
        have hb2 : vectorOf l.e0 l.e1 l.e2 x b v = readVec y (b * l.span + l.e0 + 3 * v) := by
          funext j
          exact (ih.rest _ (by rw [← hs]; omega)).symm
        rw [hb2, ← this]; rfl
    · by_cases e : b < n
      · rw [← ih.matrices b e m hm]
        funext i j
        unfold matrixOf
        rw [← hs]
        exact g3 _ (by have := below b e; omega)
      · have e' : b = n := by omega
        subst e'
        have := g2 m (by omega)
        have ho : b * l.span + l.e0 + 3 * l.n1 + 9 * m = b * (l.e0 + l.e1 + l.e2) + l.e0 + l.e1 + 9 * m := by
          rw [hs]; omega
        rw [ho] at this
        have hb2 : matrixOf l.e0 l.e1 l.e2 x b m = readMat y (b * (l.e0 + l.e1 + l.e2) + l.e0 + l.e1 + 9 * m) := by
          funext i j
          exact (ih.rest _ (by omega)).symm
        rw [hb2, ← this]; rfl
    · rw [hn] at hi
      rw [g3 i (by omega)]
      exact ih.rest i (by rw [← hs]; omega)

variable [CommRing K]

theorem mulVec_times (A : Fin 3 → Fin 3 → K) (v : Fin 3 → K) : mulVec A v = times A v := by
  funext i
  rw [mulVec3, times, Fin.sum_univ_three]

theorem mulArrays_times (A B : Fin 3 → Fin 3 → K) : mulArrays A B = timesM A B := by
  funext i j
  rw [mulArrays3, timesM, Fin.sum_univ_three]

theorem whole_id : (whole Mot.idMat : Fin 3 → Fin 3 → K) = fun i j => if i = j then 1 else 0 := by
  funext i j
  unfold whole Mot.idMat
  split <;> simp

theorem times_id (v : Fin 3 → K) : times (whole Mot.idMat) v = v := by
  funext i
  rw [whole_id, times, Fin.sum_univ_three]
  fin_cases i <;> simp

theorem timesM_id (m : Fin 3 → Fin 3 → K) : timesM (whole Mot.idMat) m = m ∧ timesM m (whole Mot.idMat) = m := by
  constructor <;> funext i j <;> rw [whole_id, timesM, Fin.sum_univ_three]
  · fin_cases i <;> simp
  · fin_cases j <;> simp

end Brille.Rot
