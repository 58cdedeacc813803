/-
C12: look-up, inverses and reordering in lists of point-group operations.  C48: adding the space inversion.
-/
import Verif.Props.Symmetry

namespace Brille.Props

open Brille.Sym Brille.Mot Brille.Spec

abbrev Op := Fin 3 → Fin 3 → ℤ

/-! ### C12 -/

/-- **C12.**  Look-up: the position of the first occurrence of the operation; the number of operations if there is
none. -/
theorem C12_find_index (R : List Op) (a : Op) :
    (a ∈ R → R[findIndex R a]? = some a) ∧ (∀ i < findIndex R a, R[i]? ≠ some a) ∧
    (a ∉ R ↔ findIndex R a = R.length) := by
  have hb : ∀ r, matBeq a r = true ↔ r = a := fun r => by rw [matBeq_iff, eq_comm]
  have hlt : findIndex R a < R.length ↔ a ∈ R := by
    unfold findIndex
    rw [List.findIdx_lt_length]
    simp only [hb]
    simp
  refine ⟨?_, ?_, ?_⟩
  · intro h
    have h' := hlt.mpr h
    rw [List.getElem?_eq_getElem h']
    exact congrArg some ((hb _).mp (List.findIdx_getElem (w := h')))
  · intro i hi h
    have := List.not_of_lt_findIdx hi
    obtain ⟨hl, he⟩ := List.getElem?_eq_some_iff.mp h
    have h2 : matBeq a R[i] = true := (hb _).mpr he
    rw [this] at h2
    exact Bool.noConfusion h2
  · constructor
    · intro h
      have h1 : findIndex R a ≤ R.length := List.findIdx_le_length
      have h2 : ¬ findIndex R a < R.length := fun h' => h (hlt.mp h')
      omega
    · intro h hm
      have := hlt.mpr hm
      omega

/-- **C12.**  The index of the inverse: for an index in range, if an index `j` is returned the operation there is
the inverse, on both sides, of the operation `i`, and the first such; an exception is raised exactly if the list
has no inverse of the operation. -/
theorem C12_inverse_index (R : List Op) (i : Nat) (r : Op) (hi : R[i]? = some r) :
    (∀ j, getInverseIndex R i = some j → ∃ q, R[j]? = some q ∧ Matrix.of q * Matrix.of r = 1 ∧
      Matrix.of r * Matrix.of q = 1 ∧ ∀ k < j, ∀ q', R[k]? = some q' → Matrix.of q' * Matrix.of r ≠ 1) ∧
    (getInverseIndex R i = none ↔ ∀ q ∈ R, Matrix.of r * Matrix.of q ≠ 1) ∧
    getInverse R i = (getInverseIndex R i).bind fun j => R[j]? := by
  have hb : ∀ q, matBeq idMat (Mat.mulArrays q r) = true ↔ Matrix.of q * Matrix.of r = 1 := by
    intro q
    rw [matBeq_iff, ← mat_inj, mat_one, mat_mul, eq_comm]
    rfl
  have hidx : getInverseIndex R i = R.findIdx? fun q => matBeq idMat (Mat.mulArrays q r) := by
    unfold getInverseIndex; rw [hi]
  have hinv : getInverse R i = R.find? fun q => matBeq idMat (Mat.mulArrays q r) := by
    unfold getInverse; rw [hi]
  rw [hidx, hinv]
  refine ⟨?_, ?_, ?_⟩
  · intro j hj
    rw [List.findIdx?_eq_some_iff_getElem] at hj
    obtain ⟨hlt, h1, h2⟩ := hj
    have h1' := (hb _).mp h1
    refine ⟨R[j], List.getElem?_eq_getElem hlt, h1', mul_eq_one_comm.mp h1', ?_⟩
    intro k hk q' hq' hne
    obtain ⟨hkl, rfl⟩ := List.getElem?_eq_some_iff.mp hq'
    exact h2 k hk ((hb _).mpr hne)
  · rw [List.findIdx?_eq_none_iff]
    constructor
    · intro h q hq hne
      have := h q hq
      rw [(hb q).mpr (mul_eq_one_comm.mp hne)] at this
      exact Bool.noConfusion this
    · intro h q hq
      rw [Bool.eq_false_iff]
      intro h'
      exact h q hq (mul_eq_one_comm.mp ((hb q).mp h'))
  · cases hj : R.findIdx? fun q => matBeq idMat (Mat.mulArrays q r) with
    | none =>
      rw [List.findIdx?_eq_none_iff] at hj
      rw [Option.bind_none, List.find?_eq_none]
      intro q hq
      rw [hj q hq]; exact Bool.false_ne_true
    | some j =>
      rw [List.findIdx?_eq_some_iff_getElem] at hj
      obtain ⟨hlt, h1, h2⟩ := hj
      rw [Option.bind_some, List.getElem?_eq_getElem hlt, List.find?_eq_some_iff_getElem]
      refine ⟨h1, j, hlt, rfl, ?_⟩
      intro k hk
      simpa using h2 k hk

/-- **C12.**  In a group the inverse is always found: no exception. -/
theorem C12_inverse_in_group (R : List Op) (hgroup : ∀ r ∈ R, ∃ q ∈ R, Matrix.of r * Matrix.of q = 1) (i : Nat) :
    getInverseIndex R i ≠ none := by
  cases hi : R[i]? with
  | none => unfold getInverseIndex; rw [hi]; exact Option.some_ne_none i
  | some r =>
    intro h
    obtain ⟨q, hq, he⟩ := hgroup r (List.mem_of_getElem? hi)
    exact (C12_inverse_index R i r hi).2.1.mp h q hq he

/-- **C12.**  Reordering: an argument that is a rearrangement of `0, …, n-1` puts at each position `j` the
operation that was at `p[j]`; any other argument is refused. -/
theorem C12_permute (p : List Nat) (R : List Op) :
    (p.Perm (List.range R.length) →
      ∃ R', permute p R = some R' ∧ R'.length = R.length ∧ ∀ j < R.length, R'[j]? = R[p.getD j 0]?) ∧
    (¬ p.Perm (List.range R.length) → permute p R = none) :=
  ⟨fun h => permute_spec h, fun h => permute_none h⟩

/-- What it means to be in the order asked for by `sort(mode)`: by kind for modes ±2, by order otherwise;
decreasing for -2 and -1. -/
def InOrder (mode : ℤ) (R : List Op) : Prop :=
  if mode = -2 then (R.map isometryValue).Pairwise (· ≥ ·)
  else if mode = -1 then (R.map rotationOrder).Pairwise (· ≥ ·)
  else if mode = 2 then (R.map isometryValue).Pairwise (· ≤ ·)
  else (R.map rotationOrder).Pairwise (· ≤ ·)

/-- **C12.**  Sorting: the comparison meets the requirements of the standard library, it is a strict weak order;
hence every outcome that the standard library permits has the same operations, as often, in the order asked
for. -/
theorem C12_sort (mode : ℤ) :
    (∀ a, sortLess mode a a = false) ∧
    (∀ a b c, sortLess mode a b = true → sortLess mode b c = true → sortLess mode a c = true) ∧
    (∀ a b c, sortLess mode a b = false → sortLess mode b c = false → sortLess mode a c = false) ∧
    ∀ R R' : List Op, StdSorted (sortLess mode) R R' → (∀ a, R'.count a = R.count a) ∧ InOrder mode R' := by
  unfold sortLess InOrder StdSorted
  by_cases h1 : mode = -2
  · simp only [if_pos h1, decide_eq_true_eq, decide_eq_false_iff_not]
    refine ⟨fun a => by omega, fun a b c => by omega, fun a b c => by omega, ?_⟩
    rintro R R' ⟨hp, hs⟩
    refine ⟨fun a => hp.count_eq a, ?_⟩
    rw [List.pairwise_map]
    exact hs.imp fun h => by omega
  · simp only [if_neg h1]
    by_cases h2 : mode = -1
    · simp only [if_pos h2, decide_eq_true_eq, decide_eq_false_iff_not]
      refine ⟨fun a => by omega, fun a b c => by omega, fun a b c => by omega, ?_⟩
      rintro R R' ⟨hp, hs⟩
      refine ⟨fun a => hp.count_eq a, ?_⟩
      rw [List.pairwise_map]
      exact hs.imp fun h => by omega
    · simp only [if_neg h2]
      by_cases h3 : mode = 2
      · simp only [if_pos h3, decide_eq_true_eq, decide_eq_false_iff_not]
        refine ⟨fun a => by omega, fun a b c => by omega, fun a b c => by omega, ?_⟩
        rintro R R' ⟨hp, hs⟩
        refine ⟨fun a => hp.count_eq a, ?_⟩
        rw [List.pairwise_map]
        exact hs.imp fun h => by omega
      · simp only [if_neg h3, decide_eq_true_eq, decide_eq_false_iff_not]
        refine ⟨fun a => by omega, fun a b c => by omega, fun a b c => by omega, ?_⟩
        rintro R R' ⟨hp, hs⟩
        refine ⟨fun a => hp.count_eq a, ?_⟩
        rw [List.pairwise_map]
        exact hs.imp fun h => by omega

/-- three of the rotations of the tetrahedron: a rotation, its inverse and another one -/
example : getInverseIndex tetrahedral 0 = some 8 ∧ getInverseIndex [swapXY, Mat.mulArrays swapXY swapYZ] 1 = none ∧
    findIndex tetrahedral idMat = 11 ∧
    (permute [2, 0, 1] [swapXY, swapYZ, idMat]) = some [idMat, swapXY, swapYZ] ∧
    permute [0, 0, 1] [swapXY, swapYZ, idMat] = none := by decide +kernel

/-! ### C48: adding the space inversion -/

theorem inversion_eq : Matrix.of inversion = -1 := by decide

/-- For symmetry operations, of finite order, only the inversion has the kind -1. -/
theorem isometryValue_neg_one {R : Op} {k : Nat} (hk : 0 < k) (h : Matrix.of R ^ k = 1) :
    isometryValue R = -1 ↔ R = inversion := by
  obtain ⟨hdet, hord, hval, _⟩ := C14_rotation_order R k hk h
  constructor
  · intro hv
    have hpos := hord.1
    rcases hdet with hd | hd
    · rw [hval, hd] at hv; omega
    · rw [hd] at hval hord
      have h1 : rotationOrder R = 1 := by omega
      rw [h1] at hord
      have := hord.2.1
      rw [pow_one, neg_one_smul] at this
      apply mat_inj.mp
      show Matrix.of R = Matrix.of inversion
      rw [inversion_eq, ← this, neg_neg]
  · rintro rfl; decide +kernel

/-- **C48, partial.**  Adding the space inversion to a list of operations of finite order: a list that has it is
returned as it is; otherwise the result has, once each, exactly the operations generated by the generators of the
list, and their products with the inversion.  So if the generators regenerate the list, the result has exactly
the operations of the list and their products with the inversion.  What is missing is that they do, see C11 and
`C48_add_space_inversion_counterexample`. -/
theorem C48_add_space_inversion_partial (R : List Op) (hfin : ∀ g ∈ R, ∃ k, 0 < k ∧ (Matrix.of g) ^ k = 1) :
    (inversion ∈ R → addSpaceInversion R = R) ∧
    (inversion ∉ R → (addSpaceInversion R).Nodup ∧
      (∀ y, y ∈ addSpaceInversion R ↔
        ∃ h ∈ generate pointOps (generators pointOps R), y = h ∨ Matrix.of y = -Matrix.of h) ∧
      ((∀ r, r ∈ R ↔ r ∈ generate pointOps (generators pointOps R)) →
        ∀ y, y ∈ addSpaceInversion R ↔ ∃ r ∈ R, y = r ∨ Matrix.of y = -Matrix.of r)) := by
  have hhas : hasSpaceInversion R = true ↔ inversion ∈ R := by
    unfold hasSpaceInversion
    rw [List.any_eq_true]
    constructor
    · rintro ⟨r, hr, h⟩
      obtain ⟨k, hk, hp⟩ := hfin r hr
      have : isometryValue r = -1 := by simpa using (of_decide_eq_true h).symm
      rw [← (isometryValue_neg_one hk hp).mp this]; exact hr
    · intro h
      exact ⟨inversion, h, by decide +kernel⟩
  constructor
  · intro h
    unfold addSpaceInversion
    rw [if_pos (hhas.mpr h)]
  · intro h
    have e : addSpaceInversion R = generate pointOps (generators pointOps R ++ [inversion]) := by
      unfold addSpaceInversion
      rw [if_neg (fun h' => h (hhas.mp h'))]
    have key : ∀ y, y ∈ addSpaceInversion R ↔
        ∃ h ∈ generate pointOps (generators pointOps R), y = h ∨ Matrix.of y = -Matrix.of h := by
      intro y
      rw [e, ← mem_mat, generate_snoc (o := pointOps) reads_point (fun _ _ => trivial) trivial]
      have ht : tri (pointOps.order inversion) = 1 := by decide +kernel
      have hi : mat inversion = -1 := inversion_eq
      rw [ht, hi]
      constructor
      · rintro ⟨k, hk, x, hx, hy⟩
        obtain ⟨m, hm, rfl⟩ := List.mem_map.mp hx
        refine ⟨m, hm, ?_⟩
        obtain rfl | rfl : k = 0 ∨ k = 1 := by omega
        · left; rw [pow_zero, one_mul] at hy; exact mat_inj.mp hy
        · right; rw [pow_one, neg_one_mul] at hy; exact hy
      · rintro ⟨m, hm, rfl | hy⟩
        · exact ⟨0, by omega, mat y, List.mem_map_of_mem hm, by rw [pow_zero, one_mul]⟩
        · exact ⟨1, by omega, mat m, List.mem_map_of_mem hm, by rw [pow_one, neg_one_mul]; exact hy⟩
    refine ⟨?_, key, ?_⟩
    · rw [e]
      exact List.Nodup.of_map _ (generate_distinct (o := pointOps) reads_point (fun _ _ => trivial)).2
    · intro hreg y
      rw [key]
      constructor
      · rintro ⟨m, hm, h'⟩; exact ⟨m, (hreg m).mpr hm, h'⟩
      · rintro ⟨m, hm, h'⟩; exact ⟨m, (hreg m).mp hm, h'⟩

/-- **C48 is false in general**: the group of the twelve rotations of the tetrahedron becomes, with inversion, a
list of 18 operations instead of the group of 24, and operations of the original are missing from it. -/
theorem C48_add_space_inversion_counterexample :
    (addSpaceInversion tetrahedral).length = 18 ∧ ∃ r ∈ tetrahedral, r ∉ addSpaceInversion tetrahedral := by
  unfold addSpaceInversion
  rw [pointOps_plain]
  decide +kernel

/-- an instance where nothing is lost: a rotation by a half, with the identity -/
example : let R : List Op := [idMat, ![![-1, 0, 0], ![0, -1, 0], ![0, 0, 1]]]
    inversion ∉ R ∧ (∀ r ∈ R, r ∈ generate pointOps (generators pointOps R)) ∧
    (∀ r ∈ generate pointOps (generators pointOps R), r ∈ R) ∧ (addSpaceInversion R).length = 4 := by
  unfold addSpaceInversion
  rw [pointOps_plain]
  decide +kernel

end Brille.Props
