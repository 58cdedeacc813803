import Verif.Model.Approx
import Mathlib.Tactic.Linarith
import Mathlib.Tactic.Positivity
import Mathlib.Tactic.NormNum
import Mathlib.Tactic.Ring

namespace Brille.Approx

theorem eps_nonneg (T : Num) : 0 ≤ T.eps := by cases T <;> norm_num [Num.eps]
theorem five_nonneg (T : Num) : 0 ≤ T.five := by cases T <;> norm_num [Num.five]

theorem min_double_le : Num.double.min ≤ 1 / 2 ^ 60 :=
  one_div_pow_le_one_div_pow_of_le (by norm_num) (by norm_num)

theorem absTol_nonneg (T : Num) (u : ℚ) : 0 ≤ absTol T u := by
  unfold absTol; have := five_nonneg T; split <;> linarith

theorem absTol_mono (T : Num) {u u' : ℚ} (h : u ≤ u') : absTol T u ≤ absTol T u' := by
  unfold absTol; split <;> split <;> linarith

theorem relTol_nonneg (T : Num) {u : ℚ} (h : 0 ≤ u) (tol : ℤ) : 0 ≤ relTol T u tol := by
  unfold relTol
  dsimp only
  split <;> linarith

theorem relTol_mono (T : Num) {u u' : ℚ} (h : u ≤ u') {tol tol' : ℤ} (ht : tol ≤ tol') :
    relTol T u tol ≤ relTol T u' tol' := by
  have h1 : T.eps * (tol * tolMult) ≤ T.eps * (tol' * tolMult) := by
    apply mul_le_mul_of_nonneg_left _ (eps_nonneg T)
    apply mul_le_mul_of_nonneg_right _ (by norm_num [tolMult])
    exact_mod_cast ht
  unfold relTol
  dsimp only
  split <;> split <;> linarith

theorem within_refl {tiny rel abs : ℚ} (hr : 0 ≤ rel) (ha : 0 ≤ abs) (a : ℚ) :
    within tiny rel abs a a = true := by
  simp only [within, Bool.or_eq_true, decide_eq_true_eq]
  left
  rw [sub_self, abs_zero]
  positivity

theorem within_symm (tiny rel abs a b : ℚ) : within tiny rel abs a b = within tiny rel abs b a := by
  simp only [within, abs_sub_comm a b, add_comm a b]

theorem within_mono {tiny rel abs rel' abs' a b : ℚ} (hr : rel ≤ rel') (ha : abs ≤ abs')
    (h : within tiny rel abs a b = true) : within tiny rel' abs' a b = true := by
  simp only [within, Bool.or_eq_true, decide_eq_true_eq] at h ⊢
  rcases h with h | h
  · left
    have := mul_le_mul_of_nonneg_right hr (abs_nonneg (a + b))
    linarith
  · right; exact h

/-- Which of the overloads is used. -/
theorem scalar_eq (T R : Num) (a b Ttol Rtol : ℚ) (tol : ℤ) :
    scalar T R a b Ttol Rtol tol =
      if T.isInt = true then
        (if R.isInt = true then decide (a = b)
          else within R.min (relTol R Rtol tol) (absTol R Rtol) a b)
      else within T.min (relTol T Ttol tol) (absTol T Ttol) a b := by
  have h1 : (tols T R Ttol Rtol tol).useT = !T.isInt := by
    cases T <;> norm_num [tols, Num.eps, Num.isInt]
  simp only [scalar, scalar_, h1]
  cases hT : T.isInt <;> cases hR : R.isInt <;> simp [tols]

theorem foldl_and {α : Type} (f : α → Bool) (l : List α) (b : Bool) :
    l.foldl (fun ans p => ans && f p) b = (b && l.all f) := by
  induction l generalizing b with
  | nil => simp
  | cons x l ih => simp [ih, Bool.and_assoc]

theorem within_double (a b : ℚ) :
    within Num.double.min (relTol .double 0 1) (absTol .double 0) a b = true ↔
      |a - b| ≤ 5 / 10 ^ 15 + 10 ^ 4 / 2 ^ 52 * |a + b| := by
  have e1 : absTol .double 0 = 5 / 10 ^ 15 := by norm_num [absTol, Num.five]
  have e2 : relTol .double 0 1 = 10 ^ 4 / 2 ^ 52 := by norm_num [relTol, Num.eps, tolMult]
  rw [within, Bool.or_eq_true, decide_eq_true_eq, decide_eq_true_eq, e1, e2]
  constructor
  · rintro (h | h)
    · exact h
    · have h0 : (Num.double.min : ℚ) ≤ 5 / 10 ^ 15 := min_double_le.trans (by norm_num)
      have : 0 ≤ (10 : ℚ) ^ 4 / 2 ^ 52 * |a + b| := by positivity
      linarith
  · exact Or.inl

theorem array_double (ab : List (ℚ × ℚ)) : array .double .double ab 0 0 1 = true ↔
    ∀ p ∈ ab, |p.1 - p.2| ≤ 5 / 10 ^ 15 + 10 ^ 4 / 2 ^ 52 * |p.1 + p.2| := by
  have u1 : (tols .double .double 0 0 1).useT = true := by norm_num [tols, Num.eps]
  rw [array, array_, u1, if_pos rfl, foldl_and, Bool.true_and, List.all_eq_true]
  exact forall_congr' fun p => imp_congr_right fun _ => within_double p.1 p.2

theorem array_int (ab : List (ℚ × ℚ)) (tol : ℤ) :
    array .int .int ab 0 0 tol = true ↔ ∀ p ∈ ab, p.1 = p.2 := by
  simp only [array, array_, foldl_and, Bool.true_and, tols, Num.eps, within, absTol, relTol, Num.five]
  simp only [gt_iff_lt, lt_self_iff_false, decide_false, Bool.false_eq_true, if_false, zero_mul,
    List.all_eq_true, Bool.or_eq_true, decide_eq_true_eq, add_zero]
  constructor
  · intro h p hp
    rcases h p hp with h | h
    · exact sub_eq_zero.1 (abs_nonpos_iff.1 h)
    · have := abs_nonneg (p.1 - p.2)
      norm_num [Num.min] at h
      linarith
  · intro h p hp
    left
    rw [h p hp]; simp

theorem firstLoop_spec {α : Type} (test : α → Bool) : ∀ (l : List α) (i no : Nat),
    (l.any test = false ∧ firstLoop test l i no = no) ∨
    ∃ k, ∃ h : k < l.length, test l[k] = true ∧ (∀ j, (hj : j < k) → test (l[j]'(by omega)) = false) ∧
      firstLoop test l i no = i + k
  | [], i, no => Or.inl ⟨rfl, rfl⟩
  | x :: xs, i, no => by
    by_cases hx : test x = true
    · refine Or.inr ⟨0, by simp, by simpa using hx, by intro j hj; omega, by simp [firstLoop, hx]⟩
    · rcases firstLoop_spec test xs (i + 1) no with ⟨h1, h2⟩ | ⟨k, hk, ht, hb, he⟩
      · left; simp [firstLoop, hx, h1, h2]
      · refine Or.inr ⟨k + 1, by simp; omega, by simpa using ht, ?_, by simp [firstLoop, hx, he]; omega⟩
        intro j hj
        cases j with
        | zero => simpa using hx
        | succ j => simpa using hb j (by omega)

theorem lastLoop_spec {α : Type} (test : α → Bool) : ∀ (l : List α) (no : Nat),
    (l.any test = false ∧ lastLoop test l no = no) ∨
    ∃ k, ∃ h : k < l.length, test l[k] = true ∧ (∀ j, (hj : j < k) → test (l[j]'(by omega)) = false) ∧
      lastLoop test l no = l.length - 1 - k
  | [], no => Or.inl ⟨rfl, rfl⟩
  | x :: xs, no => by
    by_cases hx : test x = true
    · refine Or.inr ⟨0, by simp, by simpa using hx, by intro j hj; omega, by simp [lastLoop, hx]⟩
    · rcases lastLoop_spec test xs no with ⟨h1, h2⟩ | ⟨k, hk, ht, hb, he⟩
      · left; simp [lastLoop, hx, h1, h2]
      · refine Or.inr ⟨k + 1, by simp; omega, by simpa using ht, ?_, by simp [lastLoop, hx, he]; omega⟩
        intro j hj
        cases j with
        | zero => simpa using hx
        | succ j => simpa using hb j (by omega)

theorem count_foldl {α : Type} (test : α → Bool) (l : List α) (c : Nat) :
    l.foldl (fun c x => if test x then c + 1 else c) c = c + l.countP test := by
  induction l generalizing c with
  | nil => simp
  | cons x l ih =>
    simp only [List.foldl_cons, ih, List.countP_cons]
    split <;> omega

theorem all_go {α : Type} (test : α → Bool) (l : List α) : all.go test l = l.all test := by
  induction l with
  | nil => rfl
  | cons x l ih => simp only [all.go, ih, List.all_cons]; cases test x <;> simp

theorem any_go {α : Type} (test : α → Bool) (l : List α) : any.go test l = l.any test := by
  induction l with
  | nil => rfl
  | cons x l ih => simp only [any.go, ih, List.any_cons]; cases test x <;> simp

theorem foldl_filter (p : Nat → Bool) (l : List Nat) (out : List Nat) :
    l.foldl (fun out k => if p k then out ++ [k] else out) out = out ++ l.filter p := by
  induction l generalizing out with
  | nil => simp
  | cons x l ih =>
    simp only [List.foldl_cons, ih, List.filter_cons]
    split <;> simp

end Brille.Approx
