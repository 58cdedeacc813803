import Verif.Model.PointGroupAxes
import Verif.Props.MatrixMem
import Verif.Props.PointGroup

/-! C87: the transformation of a point group to its standard setting. -/
namespace Brille.Props
open Brille.PG Brille.Sym Brille.MatMem

/-- a rotation that is not among those found is compared with the null pointer -/
theorem isUnique_new (R : Fin 3 → Fin 3 → ℤ) (found : List (Fin 3 → Fin 3 → ℤ)) (hR : R ∉ found) (j left : ℕ)
    (h : found.length < j + left) (hj : j ≤ found.length) : isUnique R found j left = none := by
  induction left generalizing j with
  | zero => omega
  | succ left ih =>
    unfold isUnique
    by_cases e : j = found.length
    · rw [List.getElem?_eq_none (by omega)]
    · have hl : j < found.length := by omega
      rw [List.getElem?_eq_getElem hl]
      have : R ≠ found[j] := fun e => hR (e ▸ List.getElem_mem hl)
      simp only [this, decide_false, Bool.false_eq_true, if_false]
      exact ih (j + 1) (by omega) (by omega)

theorem pointsym_same (n : ℕ) (R : Fin 3 → Fin 3 → ℤ) (l : List (Fin 3 → Fin 3 → ℤ)) (hn : 0 < n) (h : ∀ x ∈ l, x = R) :
    pointsymLoop n l [R] = some [R] := by
  induction l with
  | nil => rfl
  | cons x l ih =>
    obtain rfl := h x List.mem_cons_self
    obtain ⟨k, rfl⟩ : ∃ k, n = k + 1 := ⟨n - 1, by omega⟩
    simp only [pointsymLoop, isUnique, List.getElem?_cons_zero, decide_true, if_true, Bool.false_eq_true, if_false]
    exact ih fun y hy => h y (List.mem_cons_of_mem _ hy)

theorem pointsym_differ (n : ℕ) (R : Fin 3 → Fin 3 → ℤ) (l : List (Fin 3 → Fin 3 → ℤ)) (hn : 1 < n) (h : ∃ x ∈ l, x ≠ R) :
    pointsymLoop n l [R] = none := by
  induction l with
  | nil => obtain ⟨x, hx, _⟩ := h; cases hx
  | cons x l ih =>
    unfold pointsymLoop
    by_cases e : x = R
    · subst e
      obtain ⟨k, rfl⟩ : ∃ k, n = k + 1 := ⟨n - 1, by omega⟩
      simp only [isUnique, List.getElem?_cons_zero, decide_true, if_true, Bool.false_eq_true, if_false]
      obtain ⟨y, hy, hne⟩ := h
      rcases List.mem_cons.1 hy with rfl | hy
      · exact absurd rfl hne
      · exact ih ⟨y, hy, hne⟩
    · rw [isUnique_new x [R] (by simpa using e) 0 n (by simpa using hn) (by simp)]

/-- **C87 (collecting).** The unique rotations are returned only if all are the same. -/
theorem C87_collect (R : Fin 3 → Fin 3 → ℤ) (l : List (Fin 3 → Fin 3 → ℤ)) :
    ptgPointsymmetry (R :: l) = if ∀ x ∈ l, x = R then some [R] else none := by
  show pointsymLoop (l.length + 1) l [R] = _
  split
  · next h => exact pointsym_same _ R l (by omega) h
  · next h =>
    push Not at h
    obtain ⟨x, hx, hne⟩ := h
    exact pointsym_differ _ R l (by have := List.length_pos_of_mem hx; omega) ⟨x, hx, hne⟩

theorem number_single (R : Fin 3 → Fin 3 → ℤ) : pointgroupNumber [R] = if isometryType R = some 5 then 1 else 0 := by
  unfold pointgroupNumber classTable classLoop
  cases h : isometryType R with
  | none => simp
  | some k =>
    simp only [classLoop]
    revert k
    have key : ∀ k : Fin 10, numberLoop (bump (List.replicate 10 0) k) 1 PG.data.tail = if some k = some (5 : Fin 10) then 1 else 0 := by
      decide +kernel
    intro k _
    exact key k

theorem type_identity {R : Fin 3 → Fin 3 → ℤ} (hfin : ∃ k, 0 < k ∧ Matrix.of R ^ k = 1) :
    isometryType R = some 5 ↔ Matrix.of R = 1 := by
  obtain ⟨k, hk, h⟩ := hfin
  rw [isometryType_iff hk h]
  show TypeIs 1 R ↔ _
  constructor
  · rintro ⟨_, h2⟩
    simpa using h2.2.1
  · intro e
    refine ⟨by rw [e]; simp, by simp, by simp [e], fun m h1 h2 => ?_⟩
    have : m < 1 := h2
    omega

/-- **C87 (transformation).** For every non-empty list of rotations, each of finite order, and every way of choosing
axes for the higher Laue classes: undefined behaviour if two rotations differ; else, if they are the identity, the
first point group with the identity; else no point group and a zero matrix. -/
theorem C87_transformation (other : Laue → List (Fin 3 → Fin 3 → ℤ) → Fin 3 → ℤ) (R : Fin 3 → Fin 3 → ℤ)
    (l : List (Fin 3 → Fin 3 → ℤ)) (hfin : ∃ k, 0 < k ∧ Matrix.of R ^ k = 1) :
    ((∃ x ∈ l, x ≠ R) → ptgTransformation other (R :: l) = .undefined) ∧
    ((∀ x ∈ l, x = R) → Matrix.of R = 1 → ptgTransformation other (R :: l) = .found 1 (1 : Matrix (Fin 3) (Fin 3) ℤ)) ∧
    ((∀ x ∈ l, x = R) → Matrix.of R ≠ 1 → ptgTransformation other (R :: l) = .found 0 0) := by
  refine ⟨fun ⟨x, hx, hne⟩ => ?_, fun h h1 => ?_, fun h h1 => ?_⟩
  · unfold ptgTransformation
    rw [C87_collect, if_neg fun h => hne (h x hx)]
  · unfold ptgTransformation
    rw [C87_collect, if_pos h]
    simp only [number_single, if_pos ((type_identity hfin).2 h1)]
    have e : pointgroup ((1 : ℕ) : ℤ) = some ⟨[0, 0, 0, 0, 0, 1, 0, 0, 0, 0], "1", "C1", .triclinic, .l_1⟩ := by
      simp [pointgroup, PG.data]
    rw [e]
    have e2 : setTransformation ![0, 1, 2] = some (1 : Matrix (Fin 3) (Fin 3) ℤ) := by
      unfold setTransformation
      rw [if_pos (by decide)]
      congr 1
      funext i j
      fin_cases i <;> fin_cases j <;> simp [rotAxes]
    simp only [getAxes, gt_iff_lt, Nat.lt_one_iff, if_true, Bool.true_eq_false, if_false]
    rw [e2]
  · unfold ptgTransformation
    rw [C87_collect, if_pos h]
    have hn : isometryType R ≠ some 5 := fun e => h1 ((type_identity hfin).1 e)
    simp only [number_single, if_neg hn]
    have e : pointgroup ((0 : ℕ) : ℤ) = some ⟨[0, 0, 0, 0, 0, 0, 0, 0, 0, 0], "", "", .none, .none⟩ := by
      simp [pointgroup, PG.data]
    rw [e]
    simp only [gt_iff_lt, lt_irrefl, if_false]
    rfl

/-- a two-fold rotation about the second axis -/
def twofoldB : Fin 3 → Fin 3 → ℤ := ![![-1, 0, 0], ![0, 1, 0], ![0, 0, -1]]

example : ∃ k, 0 < k ∧ Matrix.of twofoldB ^ k = 1 := ⟨2, by norm_num, by decide +kernel⟩

/-- so no point group but the first has a transformation: not the one of a single two-fold axis -/
theorem C87_transformation_counterexample (other : Laue → List (Fin 3 → Fin 3 → ℤ) → Fin 3 → ℤ) :
    pointgroupNumber [Mot.idMat, twofoldB] = 3 ∧
    ptgTransformation other [Mot.idMat, twofoldB] = .undefined := by
  refine ⟨by decide +kernel, (C87_transformation other Mot.idMat [twofoldB] ⟨1, by norm_num, by decide +kernel⟩).1
    ⟨twofoldB, by simp, by decide +kernel⟩⟩

/-- **C87 (orthogonal axes).** The search for the axes perpendicular to a rotation finds every axis of the table,
whatever the rotation and its order are: the powers of the rotation are zero matrices, because the product is to
replace its second factor. -/
theorem C87_orthogonal (R : Fin 3 → Fin 3 → ℤ) (order : ℕ) : orthogonalAxes R order = List.range 73 := by
  have key : ∀ n, ∀ x, x < 9 → orthogonalSum R n (18 + x) = 0 := by
    intro n
    induction n with
    | zero =>
      intro x hx
      show orthogonalFrame R (18 + x) = 0
      unfold orthogonalFrame
      rw [dif_neg (by omega), if_neg (by omega)]
    | succ n ih =>
      intro x hx
      unfold orthogonalSum
      rw [loop_succ]
      have hz := C86_multiply_counterexample (orthogonalSum R n) 9 0 3 3
      have e := (C86_elementwise (· + ·) (multiplyArrays (orthogonalSum R n) 9 0 9 3 3 3) 18 9 18 9
        (Or.inr (by norm_num)) (Or.inl (le_refl _))).1 x hx
      have e1 : multiplyArrays (orthogonalSum R n) 9 0 9 3 3 3 (9 + x) = 0 := by
        have := congrFun (congrFun hz ⟨x / 3, by omega⟩) ⟨x % 3, by omega⟩
        change multiplyArrays (orthogonalSum R n) 9 0 9 3 3 3 (9 + (x / 3 * 3 + x % 3)) = 0 at this
        rwa [Nat.mul_comm, Nat.div_add_mod] at this
      have e2 : multiplyArrays (orthogonalSum R n) 9 0 9 3 3 3 (18 + x) = 0 := by
        rw [← ih x hx]
        exact multiply_above (orthogonalSum R n) 9 0 9 3 3 3 (18 + x) (by omega)
      refine e.trans ?_
      show _ + _ = _
      rw [e1, e2, add_zero]
  unfold orthogonalAxes
  rw [List.filter_eq_self]
  intro i _
  simp only [decide_eq_true_eq]
  intro k
  simp only [Mat.mulVec, Mat.foldl_add_eq, zero_add, Mat.finRange_sum]
  refine Finset.sum_eq_zero fun j _ => ?_
  have : orthogonalSum R order (18 + (k.val * 3 + j.val)) = 0 := key order _ (by have := k.2; have := j.2; omega)
  show orthogonalSum R order (18 + (k.val * 3 + j.val)) * _ = 0
  rw [this, zero_mul]

/-- in particular the axis of the rotation itself -/
theorem C87_orthogonal_counterexample :
    1 ∈ orthogonalAxes twofoldB 2 ∧ rotationAxis twofoldB = some 1 := by
  refine ⟨by rw [C87_orthogonal]; decide, by decide +kernel⟩

end Brille.Props
