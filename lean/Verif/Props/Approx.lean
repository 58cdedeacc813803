import Verif.Proofs.Approx
import Verif.Spec.Approx

/-! C15: approximate equality.  C16: comparison operators and array reductions.
C46: unique rows. -/
namespace Brille.Props
open Brille.Approx Brille.Spec

/-- **C15 (reflexive).** Whatever the types and (non-negative) tolerances. -/
theorem C15_reflexive (T R : Num) (a Ttol Rtol : ℚ) (tol : ℤ) (hT : 0 ≤ Ttol) (hR : 0 ≤ Rtol) :
    scalar T R a a Ttol Rtol tol = true := by
  have h1 := relTol_nonneg T hT tol
  have h2 := relTol_nonneg R hR tol
  have h3 := absTol_nonneg T Ttol
  have h4 := absTol_nonneg R Rtol
  rw [scalar_eq]
  split
  · split
    · simp
    · exact within_refl h2 h4 a
  · exact within_refl h1 h3 a

example : scalar .double .double (1/3) (1/3) 0 0 1 = true := C15_reflexive _ _ _ _ _ _ le_rfl le_rfl

/-- **C15 (symmetric).** Comparing two values of one type does not depend on their order. -/
theorem C15_symmetric (T : Num) (a b Ttol Rtol : ℚ) (tol : ℤ) :
    scalar T T a b Ttol Rtol tol = scalar T T b a Ttol Rtol tol := by
  simp only [scalar, scalar_, tols, if_true, within_symm _ _ _ a b, eq_comm (a := a) (b := b)]

/-- **C15 (symmetric, mixed types).** The same between an integer and a floating point value, when
the tolerances are exchanged with the values. -/
theorem C15_symmetric_mixed (T R : Num) (h : T.isInt ≠ R.isInt) (a b Ttol Rtol : ℚ) (tol : ℤ) :
    scalar T R a b Ttol Rtol tol = scalar R T b a Rtol Ttol tol := by
  have hTR : T ≠ R := fun e => h (by rw [e])
  cases hT : T.isInt <;> cases hR : R.isInt <;> rw [hT, hR] at h <;> try exact absurd rfl h
  · simp [scalar, scalar_, tols, hT, hR, within_symm _ _ _ a b]
  · simp [scalar, scalar_, tols, hT, hR, within_symm _ _ _ a b]

example : scalar .int .double 1 (1 + 1/10^16) 0 0 1 = true ∧
    scalar .double .int (1 + 1/10^16) 1 0 0 1 = true := by
  constructor <;> norm_num [scalar, scalar_, tols, Num.isInt, within, absTol, relTol, Num.five,
    Num.eps, Num.min, tolMult]

/-- **C15 fails** between the two floating point types: the tolerance comes from the first argument's
type, so `scalar(1.f, 1.0001) ≠ scalar(1.0001, 1.f)`. -/
theorem C15_symmetric_float_double_counterexample :
    scalar .float .double 1 (1 + 1/10^4) 0 0 1 = true ∧
    scalar .double .float (1 + 1/10^4) 1 0 0 1 = false := by
  have hm := min_double_le
  constructor
  · norm_num [scalar, scalar_, tols, Num.isInt, within, absTol, relTol, Num.five,
      Num.eps, tolMult, abs_of_pos, abs_of_neg]
  · norm_num [scalar, scalar_, tols, Num.isInt, within, absTol, relTol, Num.five,
      Num.eps, tolMult, abs_of_pos, abs_of_neg]
    refine hm.trans ?_
    norm_num

/-- **C15 (integers).** Two integers compare equal exactly when they are, whatever the tolerances. -/
theorem C15_int_exact (a b Ttol Rtol : ℚ) (tol : ℤ) :
    scalar .int .int a b Ttol Rtol tol = true ↔ a = b := by
  simp [scalar, scalar_, Num.isInt]

/-- **C15 (monotone).** Loosening any tolerance never makes equal values unequal. -/
theorem C15_monotone (T R : Num) (a b Ttol Rtol Ttol' Rtol' : ℚ) (tol tol' : ℤ)
    (h1 : Ttol ≤ Ttol') (h2 : Rtol ≤ Rtol') (h3 : tol ≤ tol')
    (h : scalar T R a b Ttol Rtol tol = true) : scalar T R a b Ttol' Rtol' tol' = true := by
  have a1 := absTol_mono T h1
  have a2 := absTol_mono R h2
  have r1 := relTol_mono T h1 h3
  have r2 := relTol_mono R h2 h3
  rw [scalar_eq] at h ⊢
  split at h
  · next hT =>
    rw [if_pos hT]
    split at h
    · next hR => rwa [if_pos hR]
    · next hR => rw [if_neg hR]; exact within_mono r2 a2 h
  · next hT => rw [if_neg hT]; exact within_mono r1 a1 h

example : scalar .double .double 1 2 (1/2) 0 1 = true ∧ scalar .double .double 1 2 0 0 1 = false := by
  constructor
  · norm_num [scalar, scalar_, tols, Num.isInt, within, absTol, relTol, Num.five,
      Num.eps, tolMult, abs_of_pos, abs_of_neg]
  · norm_num [scalar, scalar_, tols, Num.isInt, within, absTol, relTol, Num.five,
      Num.eps, tolMult, abs_of_pos, abs_of_neg]
    refine min_double_le.trans ?_
    norm_num

/-- **C15 (meaning).** The default comparison of two doubles: they differ by no more than
`5e-15 + 10⁴ ε |a+b|` (the underflow clause never matters). -/
theorem C15_double_meaning (a b : ℚ) :
    scalar .double .double a b 0 0 1 = true ↔
      |a - b| ≤ 5 / 10 ^ 15 + 10 ^ 4 / 2 ^ 52 * |a + b| := by
  have e1 : absTol .double 0 = 5 / 10 ^ 15 := by norm_num [absTol, Num.five]
  have e2 : relTol .double 0 1 = 10 ^ 4 / 2 ^ 52 := by norm_num [relTol, Num.eps, tolMult]
  simp only [scalar, scalar_, tols, Num.isInt, within, e1, e2, Bool.false_and, Bool.false_eq_true,
    if_false, if_true, Bool.or_eq_true, decide_eq_true_eq]
  constructor
  · rintro (h | h)
    · exact h
    · have h0 : (Num.double.min : ℚ) ≤ 5 / 10 ^ 15 := min_double_le.trans (by norm_num)
      have := abs_nonneg (a + b)
      have : 0 ≤ (10 : ℚ) ^ 4 / 2 ^ 52 * |a + b| := by positivity
      linarith
  · exact Or.inl

/-- **C15 (arrays).** Unless both types are integer, vectors/matrices compare equal exactly when all
paired elements do. -/
theorem C15_array_conjunction (T R : Num) (h : ¬ (T.isInt = true ∧ R.isInt = true))
    (ab : List (ℚ × ℚ)) (Ttol Rtol : ℚ) (tol : ℤ) :
    array T R ab Ttol Rtol tol = true ↔ ∀ p ∈ ab, scalar T R p.1 p.2 Ttol Rtol tol = true := by
  simp only [array, array_, foldl_and, Bool.true_and]
  cases T <;> cases R <;>
    first
    | exact absurd ⟨rfl, rfl⟩ h
    | simp [tols, Num.eps, scalar, scalar_, Num.isInt]

/-- **C15 (integer arrays).** With the default tolerances integer arrays compare exactly. -/
theorem C15_int_array_exact (ab : List (ℚ × ℚ)) (tol : ℤ) :
    array .int .int ab 0 0 tol = true ↔ ∀ p ∈ ab, p.1 = p.2 := by
  simp only [array, array_, foldl_and, Bool.true_and, tols, Num.eps, within, absTol, relTol, Num.five]
  simp only [gt_iff_lt, lt_self_iff_false, decide_false, Bool.false_eq_true, if_false, zero_mul,
    List.all_eq_true, Bool.or_eq_true, decide_eq_true_eq, add_zero]
  constructor
  · intro h p hp
    rcases h p hp with h | h
    · exact sub_eq_zero.1 (abs_nonpos_iff.1 h)
    · have := abs_nonneg (p.1 - p.2)
      norm_num [Num.min] at h
      linarith
  · intro h p hp
    left
    rw [h p hp]; simp

example : array .int .int [(1, 1), (-3, -3)] 0 0 1 = true ∧ array .int .int [(1, 1), (2, 3)] 0 0 1 = false := by
  constructor
  · rw [C15_int_array_exact]; simp
  · rw [Bool.eq_false_iff, Ne, C15_int_array_exact]; simp

/-- **C15 (vectors).** Two `std::vector`s are equal only if they have the same length. -/
theorem C15_equal_vectors (T R : Num) (a b : List ℚ) (Ttol Rtol : ℚ) (tol : ℤ) :
    equalVec T R a b Ttol Rtol tol = true ↔
      a.length = b.length ∧ array T R (a.zip b) Ttol Rtol tol = true := by
  rw [equalVec, Bool.and_eq_true, decide_eq_true_eq, eq_comm]

/-- **C15 fails** for integer arrays with a tolerance: unlike the scalar form, the array form accepts
different integers. -/
theorem C15_int_array_tolerance_counterexample :
    array .int .int [(0, 1)] 1 1 1 = true ∧ scalar .int .int 0 1 1 1 1 = false := by
  constructor
  · norm_num [array, array_, tols, Num.eps, within, absTol, relTol, Num.five, tolMult]
  · rw [Bool.eq_false_iff, Ne, C15_int_exact]; norm_num

/-- **C15 (not transitive).** -/
theorem C15_not_transitive : ∃ a b c : ℚ, scalar .double .double a b 0 0 1 = true ∧
    scalar .double .double b c 0 0 1 = true ∧ scalar .double .double a c 0 0 1 = false := by
  refine ⟨0, 5 / 10 ^ 15, 10 / 10 ^ 15, ?_, ?_, ?_⟩
  · rw [C15_double_meaning]; norm_num [abs_of_pos, abs_of_neg]
  · rw [C15_double_meaning]; norm_num [abs_of_pos, abs_of_neg]
  · rw [Bool.eq_false_iff, Ne, C15_double_meaning]; norm_num [abs_of_pos, abs_of_neg]

/-- **C16 (trichotomy).** For all types, tolerances and values exactly one of `lt`, `eq`, `gt` holds. -/
theorem C16_trichotomy (T R : Num) (t : Tols) (ht : ∀ a, scalar_ T R t a a = true) (a b : ℚ) :
    ∃ lt eq gt, comparerScalar T R t .lt = some lt ∧ comparerScalar T R t .eq = some eq ∧
      comparerScalar T R t .gt = some gt ∧
      ((lt a b = true ∧ eq a b = false ∧ gt a b = false) ∨
       (lt a b = false ∧ eq a b = true ∧ gt a b = false) ∨
       (lt a b = false ∧ eq a b = false ∧ gt a b = true)) := by
  refine ⟨_, _, _, rfl, rfl, rfl, ?_⟩
  rcases lt_trichotomy a b with h | h | h
  · cases hs : scalar_ T R t a b <;> simp [h, not_lt.2 (le_of_lt h)]
  · subst h; simp [ht]
  · cases hs : scalar_ T R t a b <;> simp [h, not_lt.2 (le_of_lt h)]

/-- The tolerances the constructor computes satisfy the hypothesis of `C16_trichotomy`. -/
theorem C16_tolerances_reflexive (T R : Num) (Ttol Rtol : ℚ) (tol : ℤ) (hT : 0 ≤ Ttol) (hR : 0 ≤ Rtol)
    (a : ℚ) : scalar_ T R (tols T R Ttol Rtol tol) a a = true := C15_reflexive T R a Ttol Rtol tol hT hR

/-- **C16 (derived comparisons).** `le` is `lt or eq`, `ge` is `gt or eq`, and `neq`, `nle`, `nge` are
the complements of `eq`, `le`, `ge`. -/
theorem C16_derived (T R : Num) (t : Tols) (ht : ∀ a, scalar_ T R t a a = true) (a b : ℚ) :
    ∃ lt eq gt le ge neq nle nge,
      comparerScalar T R t .lt = some lt ∧ comparerScalar T R t .eq = some eq ∧
      comparerScalar T R t .gt = some gt ∧ comparerScalar T R t .le = some le ∧
      comparerScalar T R t .ge = some ge ∧ comparerScalar T R t .neq = some neq ∧
      comparerScalar T R t .nle = some nle ∧ comparerScalar T R t .nge = some nge ∧
      le a b = (lt a b || eq a b) ∧ ge a b = (gt a b || eq a b) ∧
      neq a b = !eq a b ∧ nle a b = !le a b ∧ nge a b = !ge a b := by
  refine ⟨_, _, _, _, _, _, _, _, rfl, rfl, rfl, rfl, rfl, rfl, rfl, rfl, ?_⟩
  rcases lt_trichotomy a b with h | h | h
  · cases hs : scalar_ T R t a b <;> simp [h, not_lt.2 (le_of_lt h)]
  · subst h; simp [ht]
  · cases hs : scalar_ T R t a b <;> simp [h, not_lt.2 (le_of_lt h)]

/-- **C16 (vectors).** A vector comparison holds for all elements, and the negated vector comparisons
are exactly the complements: `neq`, `nle`, `nge` hold when `eq`, `le`, `ge` fail for some element. -/
theorem C16_vector_complement (T R : Num) (t : Tols) (ht : ∀ a, scalar_ T R t a a = true)
    (l : List (ℚ × ℚ)) :
    ∃ eq le ge neq nle nge eqs les ges,
      comparerVector T R t .eq = some eq ∧ comparerVector T R t .le = some le ∧
      comparerVector T R t .ge = some ge ∧ comparerVector T R t .neq = some neq ∧
      comparerVector T R t .nle = some nle ∧ comparerVector T R t .nge = some nge ∧
      comparerScalar T R t .eq = some eqs ∧ comparerScalar T R t .le = some les ∧
      comparerScalar T R t .ge = some ges ∧
      (eq l = true ↔ ∀ p ∈ l, eqs p.1 p.2 = true) ∧ (le l = true ↔ ∀ p ∈ l, les p.1 p.2 = true) ∧
      (ge l = true ↔ ∀ p ∈ l, ges p.1 p.2 = true) ∧
      neq l = !eq l ∧ nle l = !le l ∧ nge l = !ge l := by
  refine ⟨_, _, _, _, _, _, _, _, _, rfl, rfl, rfl, rfl, rfl, rfl, rfl, rfl, rfl, ?_⟩
  have h1 : ∀ p : ℚ × ℚ, (!scalar_ T R t p.1 p.2 && decide (p.1 > p.2)) =
      !(scalar_ T R t p.1 p.2 || decide (p.1 < p.2)) := by
    intro p
    obtain ⟨_, _, _, le, _, _, nle, _, _, _, _, e1, _, _, e2, _, _, _, _, h, _⟩ :=
      C16_derived T R t ht p.1 p.2
    obtain rfl := Option.some.inj e1
    obtain rfl := Option.some.inj e2
    exact h
  have h2 : ∀ p : ℚ × ℚ, (!scalar_ T R t p.1 p.2 && decide (p.1 < p.2)) =
      !(scalar_ T R t p.1 p.2 || decide (p.1 > p.2)) := by
    intro p
    obtain ⟨_, _, _, _, ge, _, _, nge, _, _, _, _, e1, _, _, e2, _, _, _, _, h⟩ :=
      C16_derived T R t ht p.1 p.2
    obtain rfl := Option.some.inj e1
    obtain rfl := Option.some.inj e2
    exact h
  have key : ∀ (f g : ℚ × ℚ → Bool), (∀ p, f p = !g p) → l.any f = !l.all g := by
    intro f g h
    induction l with
    | nil => rfl
    | cons x l ih => simp [ih, h]
  refine ⟨by simp, by simp, by simp, ?_, ?_, ?_⟩
  · exact key _ _ fun p => rfl
  · exact key _ _ h1
  · exact key _ _ h2

example : ∃ f, comparerVector .int .int (tols .int .int 0 0 1) .le = some f ∧
    f [(1, 2), (3, 3)] = true ∧ f [(1, 2), (4, 3)] = false :=
  ⟨_, rfl, by simp [scalar_, Num.isInt], by simp [scalar_, Num.isInt]; norm_num⟩

/-- **C16 (unsupported).** `le_ge` is the only comparison for which a comparer cannot be made. -/
theorem C16_unsupported (T R : Num) (t : Tols) (op : Cmp) :
    comparerScalar T R t op = none ↔ op = .le_ge := by
  cases op <;> simp [comparerScalar]

theorem take_bound {α : Type} (data : List α) (n : Nat) :
    data.take (bound data n) = considered data n := by
  simp only [bound, considered]
  split
  · next h => rw [if_neg (by omega)]
  · next h =>
    split
    · simp
    · rw [List.take_of_length_le (by omega), List.take_of_length_le (by omega)]

theorem length_considered {α : Type} (data : List α) (n : Nat) :
    (considered data n).length = bound data n := by
  rw [← take_bound, List.length_take, bound]
  split <;> omega

/-- **C16 (reductions agree).** For every array, test and optional limit `n`: `all` is the
conjunction, `any` the disjunction, `count` the number of passing elements, `first`/`last` are the
positions of the first/last passing element, or the number of considered elements when none passes. -/
theorem C16_reductions {α : Type} (test : α → Bool) (data : List α) (n : Nat) :
    (Approx.all test data n = true ↔ ∀ x ∈ considered data n, test x = true) ∧
    (Approx.any test data n = true ↔ ∃ x ∈ considered data n, test x = true) ∧
    (Approx.count test data n = ((considered data n).filter test).length) ∧
    (Approx.any test data n = true → IsFirst test (considered data n) (Approx.first test data n) ∧
      IsLast test (considered data n) (Approx.last test data n)) ∧
    (Approx.any test data n = false → Approx.first test data n = (considered data n).length ∧
      Approx.last test data n = (considered data n).length) ∧
    (Approx.any test data n = true ↔ 0 < Approx.count test data n) ∧
    (Approx.all test data n = true ↔ Approx.count test data n = (considered data n).length) := by
  have hall : Approx.all test data n = (considered data n).all test := by
    rw [Approx.all, all_go, take_bound]
  have hany : Approx.any test data n = (considered data n).any test := by
    rw [Approx.any, any_go, take_bound]
  have hcount : Approx.count test data n = (considered data n).countP test := by
    rw [Approx.count, count_foldl, take_bound, Nat.zero_add]
  refine ⟨by rw [hall]; simp, by rw [hany]; simp, by rw [hcount, List.countP_eq_length_filter], ?_, ?_, ?_, ?_⟩
  · intro h
    rw [hany] at h
    constructor
    · rcases firstLoop_spec test (considered data n) 0 (bound data n) with ⟨h1, _⟩ | ⟨k, hk, ht, hb, he⟩
      · rw [h] at h1; exact absurd h1 (by simp)
      · rw [Approx.first, take_bound, he, Nat.zero_add]
        refine ⟨_, List.getElem?_eq_getElem hk, ht, ?_⟩
        intro j y hj hy
        rw [List.getElem?_eq_getElem (by omega)] at hy
        obtain rfl := Option.some.inj hy
        exact hb j hj
    · rcases lastLoop_spec test (considered data n).reverse (bound data n) with ⟨h1, _⟩ | ⟨k, hk, ht, hb, he⟩
      · rw [List.any_reverse, h] at h1; exact absurd h1 (by simp)
      · rw [List.length_reverse] at hk he
        rw [Approx.last, take_bound, he]
        rw [List.getElem_reverse] at ht
        refine ⟨_, List.getElem?_eq_getElem (by omega), ht, ?_⟩
        intro j y hj hy
        have hjl : j < (considered data n).length := by
          by_contra hc
          rw [List.getElem?_eq_none (by omega)] at hy
          exact absurd hy (by simp)
        have := hb ((considered data n).length - 1 - j) (by omega)
        rw [List.getElem_reverse] at this
        rw [List.getElem?_eq_getElem hjl] at hy
        obtain rfl := Option.some.inj hy
        convert this using 3
        omega
  · intro h
    rw [hany] at h
    constructor
    · rcases firstLoop_spec test (considered data n) 0 (bound data n) with ⟨_, h2⟩ | ⟨k, hk, ht, _, _⟩
      · rw [Approx.first, take_bound, h2, length_considered]
      · rw [List.any_eq_false] at h
        exact absurd ht (h _ (List.getElem_mem hk))
    · rcases lastLoop_spec test (considered data n).reverse (bound data n) with ⟨_, h2⟩ | ⟨k, hk, ht, _, _⟩
      · rw [Approx.last, take_bound, h2, length_considered]
      · rw [List.any_eq_false] at h
        exact absurd ht (h _ (List.mem_reverse.1 (List.getElem_mem hk)))
  · rw [hany, hcount, List.countP_pos_iff]; simp
  · rw [hall, hcount, List.countP_eq_length]; simp

example : Approx.first (· == 3) [1, 3, 2, 3] 0 = 1 ∧ Approx.last (· == 3) [1, 3, 2, 3] 0 = 3 ∧
    Approx.first (· == 7) [1, 3, 2, 3] 3 = 3 ∧ Approx.count (· == 3) [1, 3, 2, 3] 2 = 1 := by decide

/-- **C16 (find).** `find` lists, in increasing order and once each, exactly the positions of the
passing elements, and `any(cmp,val)` says whether there is one. -/
theorem C16_find {α : Type} (test : α → Bool) (data : List α) :
    (Approx.find test data).Pairwise (· < ·) ∧
    (∀ k, k ∈ Approx.find test data ↔ ∃ x, data[k]? = some x ∧ test x = true) ∧
    (Approx.find test data).length = Approx.count test data 0 ∧
    (anyCmp test data = true ↔ Approx.find test data ≠ []) := by
  have hf : Approx.find test data =
      (List.range data.length).filter fun k => (data.map test).getD k false := by
    rw [Approx.find, foldl_filter]; simp
  have hm : ∀ k, k ∈ Approx.find test data ↔ ∃ x, data[k]? = some x ∧ test x = true := by
    intro k
    rw [hf, List.mem_filter, List.mem_range]
    constructor
    · rintro ⟨h1, h2⟩
      exact ⟨data[k], List.getElem?_eq_getElem h1, by simpa [h1] using h2⟩
    · rintro ⟨x, h1, h2⟩
      have hk : k < data.length := by
        by_contra hc
        rw [List.getElem?_eq_none (by omega)] at h1
        exact absurd h1 (by simp)
      refine ⟨hk, ?_⟩
      rw [List.getElem?_eq_getElem hk] at h1
      simp [hk, Option.some.inj h1, h2]
  refine ⟨?_, hm, ?_, ?_⟩
  · rw [hf]; exact List.Pairwise.filter _ List.pairwise_lt_range
  · rw [hf, (C16_reductions test data 0).2.2.1]
    simp only [considered, if_true]
    rw [← List.countP_eq_length_filter, ← List.countP_eq_length_filter]
    have : data = (List.range data.length).pmap (fun k h => data[k]'h) (by simp) := by
      apply List.ext_getElem <;> simp
    conv_rhs => rw [this]
    rw [List.countP_eq_length_filter, List.countP_eq_length_filter]
    rw [List.pmap_eq_map_attach, List.filter_map, List.length_map]
    rw [← List.countP_eq_length_filter, ← List.countP_eq_length_filter]
    conv_lhs => rw [← List.attach_map_subtype_val (List.range data.length)]
    rw [List.countP_map]
    apply List.countP_congr
    rintro ⟨k, hk⟩ _
    have hk' : k < data.length := by simpa using hk
    simp [hk']
  · have h := C16_reductions test data 0
    rw [anyCmp, decide_eq_true_eq]
    constructor
    · intro hlt hnil
      have hno : Approx.any test data 0 = false := by
        by_contra hc
        obtain ⟨x, hx, ht⟩ := h.2.1.1 (by simpa using hc)
        obtain ⟨k, hk, rfl⟩ := List.getElem_of_mem hx
        have : k ∈ Approx.find test data := (hm k).2 ⟨_, List.getElem?_eq_getElem hk, ht⟩
        rw [hnil] at this
        exact absurd this (by simp)
      have := (h.2.2.2.2.1 hno).1
      simp only [considered, if_true] at this
      omega
    · intro hne
      obtain ⟨k, hk⟩ := List.exists_mem_of_ne_nil _ hne
      obtain ⟨x, hx, ht⟩ := (hm k).1 hk
      have hany : Approx.any test data 0 = true := h.2.1.2 ⟨x, List.mem_of_getElem? hx, ht⟩
      obtain ⟨y, hy, _⟩ := (h.2.2.2.1 hany).1
      simp only [considered, if_true] at hy
      by_contra hc
      rw [List.getElem?_eq_none (by omega)] at hy
      exact absurd hy (by simp)

example : Approx.find (· > 1) [1, 3, 2, 0] = [1, 2] := by decide

end Brille.Props
