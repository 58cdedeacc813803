import Verif.Proofs.Rotate
import Mathlib.Data.Fin.VecNotation
import Mathlib.Tactic.LinearCombination
import Mathlib.Tactic.NormNum
import Mathlib.Data.Rat.Defs

/-
C58: rotating interpolated results in place.
-/
namespace Brille.Props

open Brille.Rot Brille.Spec Brille.Mat Brille.Mot

variable {K : Type} [CommRing K]

/-- Two integer matrices are inverse to each other. -/
def InverseOps (R S : Fin 3 → Fin 3 → ℤ) : Prop :=
  (∀ i j, ∑ k, R i k * S k j = if i = j then 1 else 0) ∧ ∀ i j, ∑ k, S i k * R k j = if i = j then 1 else 0

theorem InverseOps.symm {R S : Fin 3 → Fin 3 → ℤ} (h : InverseOps R S) : InverseOps S R := ⟨h.2, h.1⟩

theorem InverseOps.of_id {S : Fin 3 → Fin 3 → ℤ} (h : InverseOps idMat S) : S = idMat := by
  funext i j
  have := h.1 i j
  rw [Fin.sum_univ_three] at this
  unfold idMat at this ⊢
  rw [← this]
  fin_cases i <;> simp

theorem whole_inverse {R S : Fin 3 → Fin 3 → ℤ} (h : InverseOps R S) :
    timesM (whole R : Fin 3 → Fin 3 → K) (whole S) = whole idMat := by
  funext i j
  have := h.1 i j
  unfold timesM whole idMat
  rw [← this]
  push_cast
  rfl

theorem wholeT_inverse {R S : Fin 3 → Fin 3 → ℤ} (h : InverseOps R S) :
    timesM (wholeT S : Fin 3 → Fin 3 → K) (wholeT R) = whole idMat := by
  funext i j
  have := h.1 j i
  unfold timesM whole wholeT idMat
  have e : (if i = j then (1 : ℤ) else 0) = if j = i then 1 else 0 := by simp [eq_comm]
  rw [e, ← this]
  push_cast
  exact Finset.sum_congr rfl fun k _ => by ring

theorem times_times (A B : Fin 3 → Fin 3 → K) (v : Fin 3 → K) : times A (times B v) = times (timesM A B) v := by
  funext i; simp only [times, timesM, Fin.sum_univ_three]; ring

theorem timesM_assoc (A B C : Fin 3 → Fin 3 → K) : timesM (timesM A B) C = timesM A (timesM B C) := by
  funext i j; simp only [timesM, Fin.sum_univ_three]; ring

theorem get_some {ps : List (Fin 3 → Fin 3 → ℤ)} {i : ℕ} {R : Fin 3 → Fin 3 → ℤ} (h : ps[i]? = some R) :
    Rot.get ps i = R := by
  rw [Rot.get, List.getD_eq_getElem?_getD, h]; rfl

omit [CommRing K] in
theorem RowTurned.id (e0 e1 e2 n : ℕ) (fv : (Fin 3 → K) → Fin 3 → K) (fm : (Fin 3 → Fin 3 → K) → Fin 3 → Fin 3 → K)
    (hv : ∀ v, fv v = v) (hm : ∀ m, fm m = m) (x : ℕ → K) : RowTurned e0 e1 e2 n fv fm x x :=
  ⟨fun _ _ _ _ => rfl, fun _ _ _ _ => (hv _).symm, fun _ _ _ _ => (hm _).symm, fun _ _ => rfl⟩

omit [CommRing K] in
/-- a row is made of scalars, vectors and matrices -/
theorem RowTurned.unique {e0 e1 e2 n : ℕ} (h1 : 3 ∣ e1) (h2 : 9 ∣ e2) {fv : (Fin 3 → K) → Fin 3 → K}
    {fm : (Fin 3 → Fin 3 → K) → Fin 3 → Fin 3 → K} {x y z : ℕ → K} (hy : RowTurned e0 e1 e2 n fv fm x y)
    (hz : RowTurned e0 e1 e2 n fv fm x z) : y = z := by
  obtain ⟨c1, hc1⟩ := h1
  obtain ⟨c2, hc2⟩ := h2
  funext i
  by_cases hi : n * (e0 + e1 + e2) ≤ i
  · rw [hy.rest i hi, hz.rest i hi]
  · push Not at hi
    have hs : 0 < e0 + e1 + e2 := by
      rcases Nat.eq_zero_or_pos (e0 + e1 + e2) with e | e
      · rw [e, Nat.mul_zero] at hi; omega
      · exact e
    have hb : i / (e0 + e1 + e2) < n := Nat.div_lt_of_lt_mul (by rw [Nat.mul_comm]; exact hi)
    have hr : i % (e0 + e1 + e2) < e0 + e1 + e2 := Nat.mod_lt _ hs
    have hd : i / (e0 + e1 + e2) * (e0 + e1 + e2) + i % (e0 + e1 + e2) = i := by
      rw [Nat.mul_comm]; exact Nat.div_add_mod _ _
    generalize i / (e0 + e1 + e2) = b at hb hd
    generalize i % (e0 + e1 + e2) = r at hr hd
    by_cases c0 : r < e0
    · have a := hy.scalars b hb r c0
      have a' := hz.scalars b hb r c0
      unfold scalarOf at a a'
      rw [hd] at a a'
      rw [a, a']
    · by_cases c : r < e0 + e1
      · have a := congrFun (hy.vectors b hb ((r - e0) / 3) (by omega)) ⟨(r - e0) % 3, by omega⟩
        have a' := congrFun (hz.vectors b hb ((r - e0) / 3) (by omega)) ⟨(r - e0) % 3, by omega⟩
        have e : b * (e0 + e1 + e2) + e0 + 3 * ((r - e0) / 3) + (r - e0) % 3 = i := by omega
        simp only [vectorOf, e] at a a'
        rw [a, a']
      · have a := congrFun (congrFun (hy.matrices b hb ((r - e0 - e1) / 9) (by omega))
          ⟨(r - e0 - e1) % 9 / 3, by omega⟩) ⟨(r - e0 - e1) % 3, by omega⟩
        have a' := congrFun (congrFun (hz.matrices b hb ((r - e0 - e1) / 9) (by omega))
          ⟨(r - e0 - e1) % 9 / 3, by omega⟩) ⟨(r - e0 - e1) % 3, by omega⟩
        have e : b * (e0 + e1 + e2) + e0 + e1 + 9 * ((r - e0 - e1) / 9) + 3 * ((r - e0 - e1) % 9 / 3) +
            (r - e0 - e1) % 3 = i := by omega
        simp only [matrixOf, e] at a a'
        rw [a, a']

omit [CommRing K] in
theorem RowTurned.trans {e0 e1 e2 n : ℕ} {fv gv : (Fin 3 → K) → Fin 3 → K}
    {fm gm : (Fin 3 → Fin 3 → K) → Fin 3 → Fin 3 → K} {x y z : ℕ → K} (h : RowTurned e0 e1 e2 n fv fm x y)
    (h' : RowTurned e0 e1 e2 n gv gm y z) : RowTurned e0 e1 e2 n (fun v => gv (fv v)) (fun m => gm (fm m)) x z where
  scalars := fun b hb s hs => (h'.scalars b hb s hs).trans (h.scalars b hb s hs)
  vectors := fun b hb v hv => by rw [h'.vectors b hb v hv, h.vectors b hb v hv]
  matrices := fun b hb m hm => by rw [h'.matrices b hb m hm, h.matrices b hb m hm]
  rest := fun i hi => (h'.rest i hi).trans (h.rest i hi)

/-- The layout of a row: whole numbers of vectors and matrices, and at least one of them. -/
structure ProperLayout (l : Layout) : Prop where
  vectors : 3 ∣ l.e1
  matrices : 9 ∣ l.e2
  some : 0 < l.e1 ∨ 0 < l.e2

theorem ProperLayout.anything {l : Layout} (h : ProperLayout l) : l.anything = true := by
  obtain ⟨⟨a, ha⟩, ⟨b, hb⟩, hs⟩ := h
  simp only [Layout.anything, Bool.or_eq_true, decide_eq_true_iff]
  unfold Layout.n1 Layout.n2
  omega

/-- **C58 (real-space vectors).** With operation `R` of the point group and its inverse `S`, every vector `v` of the row
becomes `R v` and every matrix `M` becomes `R M S`, in every branch; scalars do not change. -/
theorem C58_real (l : Layout) (hl : ProperLayout l) (ps : List (Fin 3 → Fin 3 → ℤ)) (r ir : ℕ)
    (R S : Fin 3 → Fin 3 → ℤ) (hR : ps[r]? = some R) (hS : ps[ir]? = some S) (hRS : InverseOps R S) (x : ℕ → K) :
    (ripReal l ps r ir x).1 = true ∧
    RowTurned l.e0 l.e1 l.e2 l.branches (times (whole R)) (fun m => timesM (whole R) (timesM m (whole S)))
      x (ripReal l ps r ir x).2 := by
  unfold ripReal
  rw [if_neg (by rw [hl.anything]; simp), get_some hR, get_some hS]
  split
  · rename_i e
    subst e
    rw [hRS.of_id]
    exact ⟨rfl, RowTurned.id _ _ _ _ _ _ times_id (fun m => by rw [(timesM_id m).2, (timesM_id m).1]) x⟩
  · refine ⟨rfl, ?_⟩
    have h := rotRow_turned l hl.vectors hl.matrices (fun v => mulVec (castMat R) v)
      (fun m => mulArrays (castMat R) (mulArrays m (castMat S))) x
    simp only [mulVec_times, mulArrays_times] at h ⊢
    exact h

/-- **C58 (reciprocal-space vectors).** Every vector `v` becomes `Rᵀ v` and every matrix `M` becomes `Rᵀ M Sᵀ`. -/
theorem C58_recip (l : Layout) (hl : ProperLayout l) (ps : List (Fin 3 → Fin 3 → ℤ)) (r ir : ℕ)
    (R S : Fin 3 → Fin 3 → ℤ) (hR : ps[r]? = some R) (hS : ps[ir]? = some S) (hRS : InverseOps R S) (x : ℕ → K) :
    (ripRecip l ps r ir x).1 = true ∧
    RowTurned l.e0 l.e1 l.e2 l.branches (times (wholeT R)) (fun m => timesM (wholeT R) (timesM m (wholeT S)))
      x (ripRecip l ps r ir x).2 := by
  unfold ripRecip
  rw [if_neg (by rw [hl.anything]; simp), get_some hR, get_some hS]
  have et : (wholeT idMat : Fin 3 → Fin 3 → K) = whole idMat := by
    funext i j; simp only [wholeT, whole, idMat, eq_comm]
  split
  · rename_i e
    subst e
    rw [hRS.of_id, et]
    exact ⟨rfl, RowTurned.id _ _ _ _ _ _ times_id (fun m => by rw [(timesM_id m).2, (timesM_id m).1]) x⟩
  · refine ⟨rfl, ?_⟩
    have h := rotRow_turned l hl.vectors hl.matrices (fun v => mulVec (castMat (transpose R)) v)
      (fun m => mulArrays (castMat (transpose R)) (mulArrays m (castMat (transpose S)))) x
    simp only [mulVec_times, mulArrays_times] at h ⊢
    exact h

/-- **C58 (pseudovectors).** Every vector `v` becomes `det R · S v` and every matrix `M` becomes `S M R`. -/
theorem C58_axial (l : Layout) (hl : ProperLayout l) (ps : List (Fin 3 → Fin 3 → ℤ)) (r ir : ℕ)
    (R S : Fin 3 → Fin 3 → ℤ) (hR : ps[r]? = some R) (hS : ps[ir]? = some S) (hRS : InverseOps R S) (x : ℕ → K) :
    (ripAxial l ps r ir x).1 = true ∧
    RowTurned l.e0 l.e1 l.e2 l.branches (fun v j => (det3 R : K) * times (whole S) v j)
      (fun m => timesM (whole S) (timesM m (whole R))) x (ripAxial l ps r ir x).2 := by
  unfold ripAxial
  rw [if_neg (by rw [hl.anything]; simp), get_some hR, get_some hS]
  split
  · rename_i e
    subst e
    have hd : det3 idMat = 1 := by decide
    rw [hRS.of_id, hd]
    exact ⟨rfl, RowTurned.id _ _ _ _ _ _ (fun v => by rw [times_id]; funext j; simp)
      (fun m => by rw [(timesM_id m).2, (timesM_id m).1]) x⟩
  · refine ⟨rfl, ?_⟩
    have h := rotRow_turned l hl.vectors hl.matrices
      (fun v j => ((determinant R : ℤ) : K) * mulVec (castMat S) v j)
      (fun m => mulArrays (castMat S) (mulArrays m (castMat R))) x
    simp only [mulVec_times, mulArrays_times, determinant3] at h ⊢
    exact h

/-- **C58 (nothing to do).** Without vectors and matrices, and for the unit operation, the row stays as it is. -/
theorem C58_unchanged (l : Layout) (ps : List (Fin 3 → Fin 3 → ℤ)) (r ir : ℕ) (x : ℕ → K)
    (h : (l.e1 < 3 ∧ l.e2 < 9) ∨ ps[r]? = some idMat) :
    (ripReal l ps r ir x).2 = x ∧ (ripRecip l ps r ir x).2 = x ∧ (ripAxial l ps r ir x).2 = x := by
  unfold ripReal ripRecip ripAxial
  rcases h with h | h
  · have : l.anything = false := by
      simp only [Layout.anything, Bool.or_eq_false_iff, decide_eq_false_iff_not]
      unfold Layout.n1 Layout.n2
      omega
    simp [this]
  · rw [get_some h]
    refine ⟨?_, ?_, ?_⟩ <;> split <;> simp

/-- **C58 (round trip).** Rotating with an operation and then with its inverse restores the row, for each of the three
kinds of data. -/
theorem C58_round_trip (l : Layout) (hl : ProperLayout l) (ps : List (Fin 3 → Fin 3 → ℤ)) (r ir : ℕ)
    (R S : Fin 3 → Fin 3 → ℤ) (hR : ps[r]? = some R) (hS : ps[ir]? = some S) (hRS : InverseOps R S)
    (hd : det3 R * det3 S = 1) (x : ℕ → K) :
    (ripReal l ps ir r (ripReal l ps r ir x).2).2 = x ∧
    (ripRecip l ps ir r (ripRecip l ps r ir x).2).2 = x ∧
    (ripAxial l ps ir r (ripAxial l ps r ir x).2).2 = x := by
  refine ⟨?_, ?_, ?_⟩
  · have a := (C58_real l hl ps r ir R S hR hS hRS x).2
    have b := (C58_real l hl ps ir r S R hS hR hRS.symm (ripReal l ps r ir x).2).2
    refine RowTurned.unique hl.vectors hl.matrices (RowTurned.trans a b) (RowTurned.id _ _ _ _ _ _ (fun v => ?_) (fun m => ?_) x)
    · rw [times_times, whole_inverse hRS.symm, times_id]
    · rw [timesM_assoc, timesM_assoc, whole_inverse hRS.symm, (timesM_id m).2, ← timesM_assoc, whole_inverse hRS.symm,
        (timesM_id _).1]
  · have a := (C58_recip l hl ps r ir R S hR hS hRS x).2
    have b := (C58_recip l hl ps ir r S R hS hR hRS.symm (ripRecip l ps r ir x).2).2
    refine RowTurned.unique hl.vectors hl.matrices (RowTurned.trans a b) (RowTurned.id _ _ _ _ _ _ (fun v => ?_) (fun m => ?_) x)
    · rw [times_times, wholeT_inverse hRS, times_id]
    · rw [timesM_assoc, timesM_assoc, wholeT_inverse hRS, (timesM_id m).2, ← timesM_assoc, wholeT_inverse hRS,
        (timesM_id _).1]
  · have a := (C58_axial l hl ps r ir R S hR hS hRS x).2
    have b := (C58_axial l hl ps ir r S R hS hR hRS.symm (ripAxial l ps r ir x).2).2
    refine RowTurned.unique hl.vectors hl.matrices (RowTurned.trans a b) (RowTurned.id _ _ _ _ _ _ (fun v => ?_) (fun m => ?_) x)
    · funext j
      have h1 := congrFun (times_times (whole R) (whole S) v) j
      rw [whole_inverse hRS, times_id] at h1
      have h2 : times (whole R) (fun j => (det3 R : K) * times (whole S) v j) j =
          (det3 R : K) * times (whole R) (times (whole S) v) j := by
        simp only [times, Fin.sum_univ_three]; ring
      rw [h2, h1]
      have hd' : (det3 R : K) * (det3 S : K) = 1 := by exact_mod_cast congrArg (Int.cast : ℤ → K) hd
      linear_combination v j * hd'
    · rw [timesM_assoc, timesM_assoc, whole_inverse hRS, (timesM_id m).2, ← timesM_assoc, whole_inverse hRS,
        (timesM_id _).1]

theorem pairing_adjoint (A : Fin 3 → Fin 3 → ℤ) (q v : Fin 3 → K) :
    pairing (times (wholeT A) q) v = pairing q (times (whole A) v) := by
  simp only [pairing, times, whole, wholeT, Fin.sum_univ_three]; ring

/-- **C58 (reciprocal-space vectors turn with the point).** The point was moved with `Q = Rᵀ q + τ`; real-space vectors
turn by the inverse `S`, such that the scalar product with `q` is kept.  The scalar products of the vectors in the row
with real-space vectors are kept. -/
theorem C58_recip_covariant (l : Layout) (hl : ProperLayout l) (ps : List (Fin 3 → Fin 3 → ℤ)) (r ir : ℕ)
    (R S : Fin 3 → Fin 3 → ℤ) (hR : ps[r]? = some R) (hS : ps[ir]? = some S) (hRS : InverseOps R S) (x : ℕ → K)
    (b v : ℕ) (hb : b < l.branches) (hv : v < l.e1 / 3) (u : Fin 3 → K) :
    pairing (vectorOf l.e0 l.e1 l.e2 (ripRecip l ps r ir x).2 b v) (times (whole S) u) =
      pairing (vectorOf l.e0 l.e1 l.e2 x b v) u := by
  rw [(C58_recip l hl ps r ir R S hR hS hRS x).2.vectors b hb v hv, pairing_adjoint, times_times, whole_inverse hRS,
    times_id]

/-- **C58 (pseudovectors turn with the point).** The scalar products with the moved point are kept, up to the sign of an
improper operation. -/
theorem C58_axial_covariant (l : Layout) (hl : ProperLayout l) (ps : List (Fin 3 → Fin 3 → ℤ)) (r ir : ℕ)
    (R S : Fin 3 → Fin 3 → ℤ) (hR : ps[r]? = some R) (hS : ps[ir]? = some S) (hRS : InverseOps R S) (x : ℕ → K)
    (b v : ℕ) (hb : b < l.branches) (hv : v < l.e1 / 3) (q : Fin 3 → K) :
    pairing (times (wholeT R) q) (vectorOf l.e0 l.e1 l.e2 (ripAxial l ps r ir x).2 b v) =
      det3 R * pairing q (vectorOf l.e0 l.e1 l.e2 x b v) := by
  rw [(C58_axial l hl ps r ir R S hR hS hRS x).2.vectors b hb v hv, pairing_adjoint]
  have h2 : times (whole R) (fun j => (det3 R : K) * times (whole S) (vectorOf l.e0 l.e1 l.e2 x b v) j) =
      fun j => (det3 R : K) * vectorOf l.e0 l.e1 l.e2 x b v j := by
    have h1 := times_times (whole R) (whole S) (vectorOf l.e0 l.e1 l.e2 x b v)
    rw [whole_inverse hRS, times_id] at h1
    funext j
    have h3 := congrFun h1 j
    simp only [times, Fin.sum_univ_three] at h3 ⊢
    linear_combination (det3 R : K) * h3
  rw [h2]
  simp only [pairing, Fin.sum_univ_three]; ring

/-- **C58 (matrices turn with vectors).** For each kind of data: a turned matrix takes a turned vector to the turned
image. -/
theorem C58_matrices (l : Layout) (hl : ProperLayout l) (ps : List (Fin 3 → Fin 3 → ℤ)) (r ir : ℕ)
    (R S : Fin 3 → Fin 3 → ℤ) (hR : ps[r]? = some R) (hS : ps[ir]? = some S) (hRS : InverseOps R S) (x : ℕ → K)
    (b m : ℕ) (hb : b < l.branches) (hm : m < l.e2 / 9) (v : Fin 3 → K) :
    times (matrixOf l.e0 l.e1 l.e2 (ripReal l ps r ir x).2 b m) (times (whole R) v) =
      times (whole R) (times (matrixOf l.e0 l.e1 l.e2 x b m) v) ∧
    times (matrixOf l.e0 l.e1 l.e2 (ripRecip l ps r ir x).2 b m) (times (wholeT R) v) =
      times (wholeT R) (times (matrixOf l.e0 l.e1 l.e2 x b m) v) ∧
    times (matrixOf l.e0 l.e1 l.e2 (ripAxial l ps r ir x).2 b m) (times (whole S) v) =
      times (whole S) (times (matrixOf l.e0 l.e1 l.e2 x b m) v) := by
  refine ⟨?_, ?_, ?_⟩
  · rw [(C58_real l hl ps r ir R S hR hS hRS x).2.matrices b hb m hm, times_times, timesM_assoc, timesM_assoc,
      whole_inverse hRS.symm, (timesM_id _).2, times_times]
  · rw [(C58_recip l hl ps r ir R S hR hS hRS x).2.matrices b hb m hm, times_times, timesM_assoc, timesM_assoc,
      wholeT_inverse hRS, (timesM_id _).2, times_times]
  · rw [(C58_axial l hl ps r ir R S hR hS hRS x).2.matrices b hb m hm, times_times, timesM_assoc, timesM_assoc,
      whole_inverse hRS, (timesM_id _).2, times_times]

/-- **C58 (real-space vectors and the point, partial).** If the operation is its own inverse, the scalar products with the
moved point `Q = Rᵀ q` are kept.  Missing: any other operation, for which the claim is wrong
(`C58_real_counterexample`): the vectors are turned by `R` where the point requires the inverse. -/
theorem C58_real_covariant_partial (l : Layout) (hl : ProperLayout l) (ps : List (Fin 3 → Fin 3 → ℤ)) (r ir : ℕ)
    (R : Fin 3 → Fin 3 → ℤ) (hR : ps[r]? = some R) (hS : ps[ir]? = some R) (hRR : InverseOps R R) (x : ℕ → K)
    (b v : ℕ) (hb : b < l.branches) (hv : v < l.e1 / 3) (q : Fin 3 → K) :
    pairing (times (wholeT R) q) (vectorOf l.e0 l.e1 l.e2 (ripReal l ps r ir x).2 b v) =
      pairing q (vectorOf l.e0 l.e1 l.e2 x b v) := by
  rw [(C58_real l hl ps r ir R R hR hS hRR x).2.vectors b hb v hv, pairing_adjoint, times_times, whole_inverse hRR,
    times_id]

/-- The unit operation and the four-fold rotations about the third axis. -/
def fourFold : List (Fin 3 → Fin 3 → ℤ) :=
  [![![1, 0, 0], ![0, 1, 0], ![0, 0, 1]], ![![0, -1, 0], ![1, 0, 0], ![0, 0, 1]],
    ![![-1, 0, 0], ![0, -1, 0], ![0, 0, 1]], ![![0, 1, 0], ![-1, 0, 0], ![0, 0, 1]]]

/-- one branch of one scalar, one vector and one matrix -/
def oneEach : Layout := ⟨1, 3, 9, 1⟩

theorem oneEach_proper : ProperLayout oneEach := ⟨⟨1, rfl⟩, ⟨1, rfl⟩, Or.inl (by decide)⟩

theorem fourFold_inverse : InverseOps ![![0, -1, 0], ![1, 0, 0], ![0, 0, 1]] ![![0, 1, 0], ![-1, 0, 0], ![0, 0, 1]] :=
  ⟨by decide, by decide⟩

/-- **C58 (real-space vectors: counterexample).** For a four-fold rotation, a vector along the point `q` comes out opposite
to the moved point `Q = Rᵀ q`: their scalar product changes its sign. -/
theorem C58_real_counterexample :
    ∃ (x : ℕ → ℚ) (q : Fin 3 → ℚ), pairing q (vectorOf 1 3 9 x 0 0) = 1 ∧
      pairing (times (wholeT ![![0, -1, 0], ![1, 0, 0], ![0, 0, 1]]) q)
        (vectorOf 1 3 9 (ripReal oneEach fourFold 1 3 x).2 0 0) = -1 := by
  refine ⟨fun i => if i = 1 then 1 else 0, ![1, 0, 0], by decide +kernel, by decide +kernel⟩

-- the hypotheses are met by four-fold rotations
example : fourFold[1]? = some ![![0, -1, 0], ![1, 0, 0], ![0, 0, 1]] ∧
    fourFold[3]? = some ![![0, 1, 0], ![-1, 0, 0], ![0, 0, 1]] ∧
    det3 ![![0, -1, 0], ![1, 0, 0], ![0, 0, 1]] * det3 ![![0, 1, 0], ![-1, 0, 0], ![0, 0, 1]] = 1 := by decide

-- and a row is turned: scalar 7, vector (1, 2, 3), matrix with entries 11 … 19
example : (List.range 13).map (ripReal oneEach fourFold 1 3
      (fun i => ([7, 1, 2, 3, 11, 12, 13, 14, 15, 16, 17, 18, 19] : List ℚ).getD i 0)).2 =
    [7, -2, 1, 3, 15, -14, -16, -12, 11, 13, -18, 17, 19] := by decide +kernel

example : (List.range 13).map (ripRecip oneEach fourFold 1 3
      (fun i => ([7, 1, 2, 3, 11, 12, 13, 14, 15, 16, 17, 18, 19] : List ℚ).getD i 0)).2 =
    [7, 2, -1, 3, 15, -14, 16, -12, 11, -13, 18, -17, 19] := by decide +kernel

-- an operation that does not exist makes the vectors vanish
example : (List.range 4).map (ripReal oneEach fourFold 9 9
      (fun i => ([7, 1, 2, 3] : List ℚ).getD i 0)).2 = [7, 0, 0, 0] := by decide +kernel

/-- **C58 (which data can be turned).** The combinations of length unit and kind of rotation other than these five are
refused, as is real data said to consist of phonon eigenvectors. -/
theorem C58_dispatch (e : ℚ → K) (g : Atoms.Gamma) (toXyz fromXyz : Fin 3 → Fin 3 → K) (unit : LengthUnit)
    (like : RotatesLike) (complex : Bool) (l : Layout) (ps : List (Fin 3 → Fin 3 → ℤ)) (q : Fin 3 → ℚ) (r ir : ℕ)
    (x : ℕ → K) (t : List K)
    (h : rotateInPlace e g toXyz fromXyz unit like complex l ps q r ir x t ≠ none) :
    (unit = .realLattice ∧ (like = .gamma → complex = true)) ∨ (unit = .reciprocalLattice ∧ like = .vector) ∨
      (unit = .angstrom ∧ like = .gamma ∧ complex = true) := by
  cases unit <;> cases like <;> cases complex <;> simp [rotateInPlace] at h ⊢

end Brille.Props
