/-
C45: point groups are recognised from the numbers of operations of each type.
-/
import Verif.Proofs.PointGroup
import Verif.Props.RotationOrder
import Mathlib.Data.Int.Order.Units
import Mathlib.Tactic.FinCases

namespace Brille.Props
open Brille.PG Brille.Sym

/-- The ten types of operations: a rotation by `2π/v`, for negative `v` the rotation by `2π/(-v)` times the
inversion. -/
def opTypes : Fin 10 → ℤ := ![-6, -4, -3, -2, -1, 1, 2, 3, 4, 6]

/-- The matrix is an operation of type `v`. -/
def TypeIs (v : ℤ) (R : Fin 3 → Fin 3 → ℤ) : Prop :=
  (Matrix.of R).det = v.sign ∧ HasOrder (v.sign • Matrix.of R) v.natAbs

theorem hasOrder_unique {A : Matrix (Fin 3) (Fin 3) ℤ} {m n : Nat} (hm : HasOrder A m) (hn : HasOrder A n) : m = n := by
  rcases Nat.lt_trichotomy m n with h | h | h
  · exact absurd hm.2.1 (hn.2.2 m hm.1 h)
  · exact h
  · exact absurd hn.2.1 (hm.2.2 n hn.1 h)

theorem opTypes_inj : ∀ i j, opTypes i = opTypes j → i = j := by decide

theorem isometryType_iff {R : Fin 3 → Fin 3 → ℤ} {k : Nat} (hk : 0 < k) (h : Matrix.of R ^ k = 1) (j : Fin 10) :
    isometryType R = some j ↔ TypeIs (opTypes j) R := by
  obtain ⟨hdet, hord, hval, _⟩ := C14_rotation_order R k hk h
  have hsome : ∃ i, isometryType R = some i := by
    cases hi : isometryType R with
    | some i => exact ⟨i, rfl⟩
    | none => have := hord.1; simp [rotationOrder, hi] at this
  obtain ⟨i, hi⟩ := hsome
  have e1 : rotationOrder R = (opTypes i).natAbs := by
    have key : ∀ i : Fin 10, (![6, 4, 3, 2, 1, 1, 2, 3, 4, 6] : Fin 10 → Nat) i = (opTypes i).natAbs := by decide
    simp only [rotationOrder, hi]
    exact key i
  have e2 : isometryValue R = opTypes i := by simp only [isometryValue, hi]; rfl
  have e3 : (opTypes i).sign = (Matrix.of R).det := by
    rw [← e2, hval]
    have := hord.1
    rcases hdet with hd | hd <;> rw [hd]
    · rw [one_mul]; exact Int.sign_eq_one_of_pos (by exact_mod_cast this)
    · rw [neg_one_mul, Int.sign_neg, Int.sign_eq_one_of_pos (by exact_mod_cast this)]
  rw [hi, Option.some.injEq]
  constructor
  · rintro rfl
    refine ⟨e3.symm, ?_⟩
    rw [e3, ← e1]; exact hord
  · rintro ⟨h1, h2⟩
    rw [← h1] at h2
    have h3 := hasOrder_unique hord h2
    apply opTypes_inj
    rw [← e2, hval, h3, h1, Int.sign_mul_natAbs]

open Classical in
/-- **C45.**  For every list of integer matrices of finite order, and every `n`: the number returned is `n ≠ 0` exactly
if `n` is the number of a class whose tabulated counts are, type by type, the numbers of operations in the list. -/
theorem C45_lookup (ops : List (Fin 3 → Fin 3 → ℤ)) (hfin : ∀ R ∈ ops, ∃ k, 0 < k ∧ Matrix.of R ^ k = 1) (n : Nat) :
    (pointgroupNumber ops = n ∧ n ≠ 0) ↔
      1 ≤ n ∧ ∃ d, data[n]? = some d ∧
        ∀ j : Fin 10, d.table.getD j.1 0 = ops.countP fun R => decide (TypeIs (opTypes j) R) := by
  rw [pointgroupNumber_iff]
  have hcount : ∀ j, typeCount ops j = ops.countP fun R => decide (TypeIs (opTypes j) R) := by
    intro j
    unfold typeCount
    apply List.countP_congr
    intro R hR
    obtain ⟨k, hk, h⟩ := hfin R hR
    simp only [decide_eq_true_eq]
    exact isometryType_iff hk h j
  constructor
  · rintro ⟨_, h1, d, h2, h3⟩
    exact ⟨h1, d, h2, fun j => (h3 j).trans (hcount j)⟩
  · rintro ⟨h1, d, h2, h3⟩
    refine ⟨?_, h1, d, h2, fun j => (h3 j).trans (hcount j).symm⟩
    intro R hR
    obtain ⟨k, hk, h⟩ := hfin R hR
    have := (C14_rotation_order R k hk h).2.1.1
    cases hi : isometryType R with
    | some i => rfl
    | none => simp [rotationOrder, hi] at this

/-- the matrices of the group mm2 -/
example : pointgroupNumber [![![1, 0, 0], ![0, 1, 0], ![0, 0, 1]], ![![-1, 0, 0], ![0, -1, 0], ![0, 0, 1]],
    ![![-1, 0, 0], ![0, 1, 0], ![0, 0, 1]], ![![1, 0, 0], ![0, -1, 0], ![0, 0, 1]]] = 7 := by decide +kernel

example : ∀ R ∈ ([![![1, 0, 0], ![0, 1, 0], ![0, 0, 1]], ![![-1, 0, 0], ![0, -1, 0], ![0, 0, 1]],
    ![![-1, 0, 0], ![0, 1, 0], ![0, 0, 1]], ![![1, 0, 0], ![0, -1, 0], ![0, 0, 1]]] : List (Fin 3 → Fin 3 → ℤ)),
    ∃ k, 0 < k ∧ Matrix.of R ^ k = 1 := by
  intro R hR
  simp only [List.mem_cons, List.not_mem_nil, or_false] at hR
  refine ⟨2, by norm_num, ?_⟩
  rcases hR with rfl | rfl | rfl | rfl <;> decide +kernel

/-- The order of the operations does not matter. -/
theorem C45_order_irrelevant (a b : List (Fin 3 → Fin 3 → ℤ)) (h : a.Perm b) :
    pointgroupNumber a = pointgroupNumber b := pointgroupNumber_perm h

/-- **C45.**  The 32 classes have different counts, different symbols and different Schoenflies symbols; each
contains the identity once, and the inversion at most once. -/
theorem C45_tables_distinct : ∀ i : Fin 33, ∀ j : Fin 33, ∀ a ∈ data[i.1]?, ∀ b ∈ data[j.1]?,
    (a.table = b.table ∨ a.symbol = b.symbol ∨ a.schoenflies = b.schoenflies) → i = j := by decide +kernel

theorem C45_tables_identity : data.length = 33 ∧ ∀ d ∈ data.tail,
    d.table.length = 10 ∧ d.table.getD 5 0 = 1 ∧ d.table.getD 4 0 ≤ 1 ∧
    (d.table.sum ∣ 48 ∨ d.table.sum ∣ 24) := by decide +kernel

/-- **C45, Laue classes.**  Adding the inversion turns an operation of type `v` into one of type `-v`.  For every class
without inversion the counts obtained so are those of a class with inversion, in the same Laue class and
crystal system; and there is exactly one class with inversion in each Laue class. -/
theorem C45_laue_classes :
    (∀ d ∈ data.tail, d.table.getD 4 0 = 0 → ∃ c ∈ data.tail, c.laue = d.laue ∧ c.holohedry = d.holohedry ∧
      c.table.getD 4 0 = 1 ∧ c.table = List.zipWith (· + ·) d.table d.table.reverse) ∧
    (∀ d ∈ data.tail, ∀ c ∈ data.tail, d.table.getD 4 0 = 1 → c.table.getD 4 0 = 1 → c.laue = d.laue →
      c.table = d.table) ∧
    (∀ d ∈ data.tail, ∃ c ∈ data.tail, c.laue = d.laue ∧ c.table.getD 4 0 = 1) := by
  decide +kernel

theorem opTypes_reverse : ∀ j : Fin 10, opTypes j.rev = -opTypes j := by decide

/-- **C45.**  The constructor accepts the numbers 0 to 32 and no others. -/
theorem C45_constructor (n : ℤ) : (∃ d, pointgroup n = some d) ↔ 0 ≤ n ∧ n ≤ 32 := by
  unfold pointgroup
  constructor
  · rintro ⟨d, h⟩
    by_contra hc
    rw [if_pos (by omega)] at h
    cases h
  · intro h
    rw [if_neg (by omega)]
    have : n.toNat < data.length := by
      have : data.length = 33 := by decide
      omega
    exact ⟨_, List.getElem?_eq_getElem this⟩

/-- The counts decide, nothing else is looked at: three two-fold axes that do not make a group are class 222 (6). -/
theorem C45_not_a_group_counterexample :
    pointgroupNumber [![![1, 0, 0], ![0, 1, 0], ![0, 0, 1]], ![![1, 0, 0], ![0, -1, 0], ![0, 0, -1]],
      ![![-1, 0, 0], ![0, 1, 0], ![0, 0, -1]], ![![0, 1, 0], ![1, 0, 0], ![0, 0, -1]]] = 6 := by decide +kernel

/-- **C45, unique rotations.**  From any non-empty list, `get_unique_rotations` returns each rotation of the list once,
with time reversal also each product with the inversion, and nothing else.  The empty list is an access out
of bounds. -/
theorem C45_unique_rotations (rots : List (Fin 3 → Fin 3 → ℤ)) (timeReversal : Bool) :
    (uniqueRotations rots timeReversal = none ↔ rots = []) ∧
    ∀ u, uniqueRotations rots timeReversal = some u →
      u.Nodup ∧ ∀ R, R ∈ u ↔ R ∈ rots ∨ (timeReversal = true ∧ ∃ S ∈ rots, Matrix.of R = -Matrix.of S) := by
  constructor
  · constructor
    · intro h
      by_contra hne
      obtain ⟨u, hu⟩ := uniqueRotations_isSome timeReversal hne
      rw [hu] at h; cases h
    · rintro rfl; cases timeReversal <;> rfl
  · intro u hu
    obtain ⟨h1, h2⟩ := uniqueRotations_some hu
    refine ⟨h1, fun R => ?_⟩
    rw [h2]
    have : ∀ S, R = Mat.mulArrays Sym.inversion S ↔ Matrix.of R = -Matrix.of S := by
      intro S
      have e : Matrix.of (Mat.mulArrays Sym.inversion S) = -Matrix.of S := by
        ext i j
        rw [Matrix.neg_apply, Matrix.of_apply, Matrix.of_apply, Mot.mulArrays3]
        fin_cases i <;> simp [Sym.inversion]
      constructor
      · rintro rfl; exact e
      · intro h; rw [← e] at h; exact Matrix.of.injective h
    simp only [this]

example : uniqueRotations [![![1, 0, 0], ![0, 1, 0], ![0, 0, 1]], ![![1, 0, 0], ![0, 1, 0], ![0, 0, 1]]] true =
    some [![![1, 0, 0], ![0, 1, 0], ![0, 0, 1]], ![![-1, 0, 0], ![0, -1, 0], ![0, 0, -1]]] := by decide +kernel

/-! ### the axis of a rotation -/

/-- for an axis `u` of the list: the two vectors chosen as perpendicular to it -/
def perp (u : Fin 3 → ℤ) : (Fin 3 → ℤ) × (Fin 3 → ℤ) :=
  let ortho := orthogonal u
  let norm := ortho.map fun v => idot v v
  let i1 := argMin norm 0
  let i2 := argMin (norm.set i1 100) i1
  (ortho.getD i1 fun _ => 0, ortho.getD i2 fun _ => 0)

/-- the third component of the product etc. -/
def cross (u v : Fin 3 → ℤ) : Fin 3 → ℤ :=
  ![u 1 * v 2 - u 2 * v 1, u 2 * v 0 - u 0 * v 2, u 0 * v 1 - u 1 * v 0]

theorem perp_table : ∀ u ∈ rotAxes, u ≠ (fun _ => 0) ∧ idot (perp u).1 u = 0 ∧ idot (perp u).2 u = 0 ∧
    cross (perp u).1 (perp u).2 ≠ fun _ => 0 := by decide +kernel

/-- **C45, axes.**  Three vectors are returned: zeros for a proper part that is the identity or fixes none of the
listed axes; otherwise an axis that the proper part `det R · R` fixes, and two vectors that span the lattice plane
perpendicular to it, in the sense of the integer components. -/
theorem C45_axis (R : Fin 3 → Fin 3 → ℤ) (hdet : (Matrix.of R).det = 1 ∨ (Matrix.of R).det = -1) :
    ∃ u v w, axisAndPerpendicular R = [u, v, w] ∧
      ((u = 0 ∧ v = 0 ∧ w = 0 ∧ ((Matrix.of R).det • Matrix.of R = 1 ∨
          ∀ a ∈ rotAxes, ((Matrix.of R).det • Matrix.of R).mulVec a ≠ a)) ∨
       (u ≠ 0 ∧ ((Matrix.of R).det • Matrix.of R).mulVec u = u ∧ v ⬝ᵥ u = 0 ∧ w ⬝ᵥ u = 0 ∧ cross v w ≠ 0 ∧
          (Matrix.of R).det • Matrix.of R ≠ 1)) := by
  have hp : Matrix.of (properRotation R) = (Matrix.of R).det • Matrix.of R := by
    unfold properRotation
    rw [det_mat]
    rcases hdet with hd | hd
    · rw [if_neg (by rw [hd]; norm_num), hd, one_smul]
    · rw [if_pos hd, hd]
      ext i j
      rw [Matrix.smul_apply, Matrix.of_apply, Matrix.of_apply, Mot.mulArrays3]
      fin_cases i <;> simp [Sym.inversion]
  rw [← hp]
  have hid : properRotation R = Mot.idMat ↔ Matrix.of (properRotation R) = 1 := by
    have : Matrix.of Mot.idMat = (1 : Matrix (Fin 3) (Fin 3) ℤ) := mat_one
    rw [← this]
    exact Matrix.of.injective.eq_iff.symm
  have hmv : ∀ a : Fin 3 → ℤ, (decide (∀ i, Mat.mulVec (properRotation R) a i = a i) = true) ↔
      (Matrix.of (properRotation R)).mulVec a = a := by
    intro a
    rw [decide_eq_true_eq, Mat.mulVec_eq]
    exact ⟨fun h => funext h, fun h i => congrFun h i⟩
  have hdot : ∀ u v : Fin 3 → ℤ, u ⬝ᵥ v = idot u v := by
    intro u v; rw [dotProduct, Fin.sum_univ_three]; rfl
  unfold axisAndPerpendicular
  cases ha : rotationAxis (properRotation R) with
  | none =>
    refine ⟨0, 0, 0, rfl, Or.inl ⟨rfl, rfl, rfl, ?_⟩⟩
    unfold rotationAxis at ha
    by_cases h : properRotation R = Mot.idMat
    · exact Or.inl (hid.mp h)
    · right
      simp only [h, decide_false, Bool.false_eq_true, if_false] at ha
      rw [List.findIdx?_eq_none_iff] at ha
      intro a haa he
      have := ha a haa
      rw [(hmv a).mpr he] at this
      cases this
  | some k =>
    unfold rotationAxis at ha
    by_cases h : properRotation R = Mot.idMat
    · simp [h] at ha
    · simp only [h, decide_false, Bool.false_eq_true, if_false] at ha
      rw [List.findIdx?_eq_some_iff_getElem] at ha
      obtain ⟨hk, hf, _⟩ := ha
      have hu : rotAxes.getD k (fun _ => 0) = rotAxes[k] := by
        rw [List.getD_eq_getElem?_getD, List.getElem?_eq_getElem hk]; rfl
      obtain ⟨p0, p1, p2, p3⟩ := perp_table _ (List.getElem_mem hk)
      refine ⟨rotAxes[k], (perp rotAxes[k]).1, (perp rotAxes[k]).2, ?_, Or.inr ⟨p0, (hmv _).mp hf, ?_, ?_, p3, ?_⟩⟩
      · dsimp only
        rw [hu]
        rfl
      · rw [hdot]; exact p1
      · rw [hdot]; exact p2
      · exact fun he => h (hid.mpr he)

example : axisAndPerpendicular ![![0, -1, 0], ![1, -1, 0], ![0, 0, 1]] = [![0, 0, 1], ![1, 0, 0], ![0, 1, 0]] := by
  decide +kernel

/-- Not every rotation has its axis in the list: this one, of order two, has the axis (4, 1, 0), and zeros are
returned. -/
theorem C45_axis_counterexample :
    let R : Matrix (Fin 3) (Fin 3) ℤ := Matrix.of ![![7, -24, 0], ![2, -7, 0], ![0, 0, -1]]
    R ^ 2 = 1 ∧ R ≠ 1 ∧ R.det = 1 ∧ R.mulVec ![4, 1, 0] = ![4, 1, 0] ∧
    axisAndPerpendicular ![![7, -24, 0], ![2, -7, 0], ![0, 0, -1]] = [![0, 0, 0], ![0, 0, 0], ![0, 0, 0]] := by
  decide +kernel

end Brille.Props
