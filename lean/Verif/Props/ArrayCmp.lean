import Verif.Model.ArrayCmp
import Verif.Props.ArrayFun
import Verif.Proofs.ArrayRows
/-
C78: comparing a two-dimensional array with a value or with another array.
-/
namespace Brille.Props
open Brille.ArrFun Brille.Spec Brille.Subscript Brille.Approx

variable {T U R : Type}

/-! ### with a value -/

theorem all_packed {a : A2 T} {n m : Nat} {f : Nat → Nat → T} (h : Shows a n m f) (hp : RowPacked a ∨ ColPacked a)
    (p : T → Bool) : a.all p = .ok ((flat n m f).all p) := by
  rcases hp with hp | hp
  · have := (C78_search h hp p 0).1
    rw [show looked n m 0 = n * m by simp [looked], ← flat_length n f, List.take_length] at this
    exact this
  · exact (C78_search_columns h hp p).1

theorem allOne_eq {a : A2 ℚ} {n m : Nat} {f : Nat → Nat → ℚ} (h : Shows a n m f) (hp : RowPacked a ∨ ColPacked a)
    {N : Num} {c : Cmp} {val Ttol : ℚ} {tol : ℤ} {g : ℚ → ℚ → Bool}
    (hg : comparerScalar N N (tols N N Ttol Ttol tol) c = some g) :
    a.allOne N c val Ttol tol = .ok ((flat n m f).all fun v => g v val) := by
  rw [A2.allOne, comparer, hg]
  exact all_packed h hp _

/-- **C78.** `all(le_ge, value)` of an array without gaps says whether all elements are at most the value or all are at least the value, up to the
tolerances that are used when none are given, whatever tolerances are given. -/
theorem C78_le_ge {a : A2 ℚ} {n m : Nat} {f : Nat → Nat → ℚ} (h : Shows a n m f) (hp : RowPacked a ∨ ColPacked a)
    (N : Num) (val Ttol : ℚ) (tol : ℤ) :
    ∃ r, a.allCmp N .le_ge val Ttol tol = .ok r ∧
      (r = true ↔ (∀ i < n, ∀ j < m, scalar N N (f i j) val 0 0 1 = true ∨ f i j < val) ∨
        ∀ i < n, ∀ j < m, scalar N N (f i j) val 0 0 1 = true ∨ f i j > val) := by
  have h1 := allOne_eq h hp (N := N) (c := .le) (val := val) (Ttol := 0) (tol := 1) rfl
  have h2 := allOne_eq h hp (N := N) (c := .ge) (val := val) (Ttol := 0) (tol := 1) rfl
  have hall : ∀ p : ℚ → Bool, (flat n m f).all p = true ↔ ∀ i < n, ∀ j < m, p (f i j) = true := by
    intro p
    simp only [flat, List.all_eq_true, List.mem_flatMap, List.mem_map, List.mem_range]
    constructor
    · intro q i hi j hj
      exact q _ ⟨i, hi, j, hj, rfl⟩
    · rintro q _ ⟨i, hi, j, hj, rfl⟩
      exact q i hi j hj
  refine ⟨((flat n m f).all fun v => scalar_ N N (tols N N 0 0 1) v val || decide (v < val)) ||
    (flat n m f).all fun v => scalar_ N N (tols N N 0 0 1) v val || decide (v > val), ?_, ?_⟩
  · rw [A2.allCmp, if_pos rfl, h1, h2]
    generalize ((flat n m f).all fun v => scalar_ N N (tols N N 0 0 1) v val || decide (v < val)) = x
    cases x <;> rfl
  · rw [Bool.or_eq_true, hall, hall]
    simp only [Bool.or_eq_true, decide_eq_true_eq]
    rfl

/-- **C78.** Every other comparison is made with the tolerances that are given. -/
theorem C78_all_compare {a : A2 ℚ} {n m : Nat} {f : Nat → Nat → ℚ} (h : Shows a n m f) (hp : RowPacked a ∨ ColPacked a)
    (N : Num) (val Ttol : ℚ) (tol : ℤ) :
    a.allCmp N .le val Ttol tol = .ok ((flat n m f).all fun v => scalar N N v val Ttol Ttol tol || decide (v < val)) ∧
    a.allCmp N .ge val Ttol tol = .ok ((flat n m f).all fun v => scalar N N v val Ttol Ttol tol || decide (v > val)) ∧
    a.allCmp N .eq val Ttol tol = .ok ((flat n m f).all fun v => scalar N N v val Ttol Ttol tol) ∧
    a.allCmp N .neq val Ttol tol = .ok ((flat n m f).all fun v => !scalar N N v val Ttol Ttol tol) ∧
    a.allCmp N .lt val Ttol tol = .ok ((flat n m f).all fun v => !scalar N N v val Ttol Ttol tol && decide (v < val)) ∧
    a.allCmp N .gt val Ttol tol = .ok ((flat n m f).all fun v => !scalar N N v val Ttol Ttol tol && decide (v > val)) := by
  have key : ∀ {c : Cmp} {g : ℚ → ℚ → Bool}, c ≠ .le_ge → comparerScalar N N (tols N N Ttol Ttol tol) c = some g →
      a.allCmp N c val Ttol tol = .ok ((flat n m f).all fun v => g v val) := by
    intro c g hc hg
    rw [A2.allCmp, if_neg hc]
    exact allOne_eq h hp hg
  exact ⟨key (c := .le) (by decide) rfl, key (c := .ge) (by decide) rfl, key (c := .eq) (by decide) rfl,
    key (c := .neq) (by decide) rfl, key (c := .lt) (by decide) rfl, key (c := .gt) (by decide) rfl⟩

/-- one row with 1 and -1/1000 -/
def nearlyPositive : A2 ℚ := ⟨1, 2, 2, 1, 0, [1, -1 / 1000]⟩

/-- **C78 (counterexample).** With the tolerance 1/100 all of 1 and -1/1000 are at least zero, and yet not all are at least zero or at most zero. -/
theorem C78_le_ge_counterexample :
    nearlyPositive.allCmp .double .ge 0 (1 / 100) 1 = .ok true ∧ nearlyPositive.allCmp .double .le_ge 0 (1 / 100) 1 = .ok false := by
  decide +kernel

/-! ### with another array -/

theorem isSame_spec {a : A2 T} {b : A2 R} {n m : Nat} {f : Nat → Nat → T} {g : Nat → Nat → R} (h : Shows a n m f) (hb : Shows b n m g)
    (hm : 0 < m) (hp : RowPacked a ∨ ColPacked a) (op : T → R → Bool) :
    ∃ o, a.isSame b op = .ok o ∧ Shows o n m (fun i j => op (f i j) (g i j)) ∧ SameElsewhere (fresh n m a.t0 a.t1 true) o := by
  obtain ⟨o, e, s, u⟩ := fill (fresh n m a.t0 a.t1 true) n m rfl rfl hm (by
      rcases hp with hp | hp
      · left; intro i j hi hj
        have := hp i j (h.rows ▸ hi) (h.cols ▸ hj)
        rw [h.cols] at this; exact this
      · right; intro i j hi hj
        have := hp i j (h.rows ▸ hi) (h.cols ▸ hj)
        rw [h.rows] at this; exact this) rfl (by simp [fresh])
    (fun i j => op (f i j) (g i j)) (fun out x => do
      let v ← a.read x
      let w ← b.read x
      out.write x (op v w)) (by
      intro i j hi hj o
      rw [h.entry i j hi hj, hb.entry i j hi hj]; rfl)
  refine ⟨o, ?_, s, u⟩
  rw [A2.isSame, h.rows, h.cols, subscripts_grid hm]
  exact e

theorem fresh_shows {n m t0 t1 : Nat} (hp : RowPacked (fresh n m t0 t1 true)) :
    Shows (fresh n m t0 t1 true) n m fun _ _ => true := by
  refine ⟨rfl, rfl, fun i j hi hj => ?_⟩
  rw [read_pair, orUb_ok]
  have := hp i j hi hj
  have hl := lt_mul_pair hi hj
  simp only [fresh] at this ⊢
  rw [this, Nat.add_zero, List.getElem?_replicate, if_pos hl]

/-- **C78.** Comparing an array element by element with an array of the same extents, or with a single row, gives the table of the answers; the
array must be stored row after row or, for the same extents, column after column.  Where the other array lies in memory does not matter. -/
theorem C78_is_array {a : A2 T} {b : A2 R} {n m k : Nat} {f : Nat → Nat → T} {g : Nat → Nat → R} (h : Shows a n m f) (hb : Shows b k m g)
    (hk : k = n ∨ k = 1) (hm : 0 < m) (hp : RowPacked a ∨ (ColPacked a ∧ k = n)) (ht : 0 < a.t1) (op : T → R → Bool) :
    ∃ o, a.isArray b op = .ok o ∧ Shows o n m (fun i j => op (f i j) (g (if k = n then i else 0) j)) ∧
      a.same b op = .ok (decide (∀ i < n, ∀ j < m, op (f i j) (g (if k = n then i else 0) j) = true)) := by
  have hbc : broadcastable a b = true := by
    simp only [broadcastable, h.rows, h.cols, hb.rows, hb.cols]
    rcases hk with rfl | rfl <;> simp
  have hp' : RowPacked a ∨ ColPacked a := hp.imp id And.left
  have main : ∃ o, a.isArray b op = .ok o ∧ Shows o n m (fun i j => op (f i j) (g (if k = n then i else 0) j)) ∧
      SameElsewhere (fresh n m a.t0 a.t1 true) o := by
    rw [A2.isArray, hbc, h.rows, h.cols, hb.rows, hb.cols]
    simp only [Bool.not_true, Bool.false_eq_true, if_false]
    by_cases hkn : k = n
    · subst hkn
      rw [if_pos (by simp)]
      simpa using isSame_spec h hb hm hp' op
    · rw [if_neg (fun c => hkn c.1.symm), if_neg (by simp)]
      simp only [if_neg hkn]
      have hk1 : k = 1 := hk.resolve_left hkn
      subst hk1
      have hr : RowPacked a := hp.resolve_right fun c => hkn c.2
      have hfr : RowPacked (fresh n m a.t0 a.t1 true) := by
        intro i j hi hj
        have := hr i j (h.rows ▸ hi) (h.cols ▸ hj)
        rw [h.cols] at this; exact this
      have hsep := hfr.separate
      -- the loop over the rows
      have loop : ∀ c, c ≤ n → ∃ o, (List.range c).foldlM (fun out i => do
            let v ← a.view i
            let w ← v.isSame b op
            out.setRow i w) (fresh n m a.t0 a.t1 true) = .ok o ∧
          Shows o n m (fun i j => if i < c then op (f i j) (g 0 j) else true) ∧ SameElsewhere (fresh n m a.t0 a.t1 true) o := by
        intro c
        induction c with
        | zero =>
          intro _
          exact ⟨_, rfl, by simpa using fresh_shows hfr, SameElsewhere.refl _⟩
        | succ c ih =>
          intro hc
          obtain ⟨o, e, s, u⟩ := ih (by omega)
          rw [List.range_succ, List.foldlM_append, e]
          obtain ⟨v, ev, sv, tv⟩ := view_shows h hm ht (i := c) (by omega)
          have hv0 : v.t0 = a.t0 := by
            rw [A2.view] at ev
            split at ev
            · split at ev
              · cases ev; rfl
              · cases ev
            · cases ev
          have hrv : RowPacked v := by
            intro i j hi hj
            rw [sv.rows] at hi
            rw [sv.cols] at hj
            have hi : i = 0 := by omega
            subst hi
            have := hr 0 j (by rw [h.rows]; omega) (by rw [h.cols]; exact hj)
            rw [tv]
            simpa using this
          obtain ⟨w, ew, sw, -⟩ := isSame_spec sv hb hm (Or.inl hrv) op
          have hso : Separate o := by
            obtain ⟨q0, q1, q2, q3, -⟩ := u
            intro i j k l hi hj hk hl
            rw [q0] at hi hk
            rw [q1] at hj hl
            rw [q2, q3]
            exact hsep i j k l hi hj hk hl
          obtain ⟨o', eo, so, uo⟩ := setRow_spec s hso sw Nat.one_pos hm (i := c) (by omega)
          refine ⟨o', ?_, shows_congr so ?_, ?_⟩
          · have e1 : (do
                let v ← a.view c
                let w ← v.isSame b op
                o.setRow c w) = .ok o' := by
              rw [ev]
              show (do let w ← v.isSame b op; o.setRow c w) = _
              rw [ew]
              exact eo
            change List.foldlM (m := M) (fun out i => do
              let v ← a.view i
              let w ← v.isSame b op
              out.setRow i w) o [c] = _
            rw [List.foldlM_cons, e1]
            rfl
          · intro i j hi hj
            by_cases hic : i = c
            · subst hic; simp
            · have : i < c + 1 ↔ i < c := by omega
              simp only [if_neg hic, this]
          · obtain ⟨q0, q1, q2, q3, q4, q5, q6⟩ := u
            obtain ⟨p0, p1, p2, p3, p4, p5, p6⟩ := uo
            refine ⟨p0.trans q0, p1.trans q1, p2.trans q2, p3.trans q3, p4.trans q4, p5.trans q5, ?_⟩
            intro x hx
            rw [p6 x ?_, q6 x hx]
            intro i j hi hj
            rw [q2, q3, q4]
            exact hx i j (q0 ▸ hi) (q1 ▸ hj)
      obtain ⟨o, e, s, u⟩ := loop n le_rfl
      exact ⟨o, e, shows_congr s fun i j hi _ => by rw [if_pos hi], u⟩
  obtain ⟨o, e, s, u⟩ := main
  refine ⟨o, e, s, ?_⟩
  have hpo : RowPacked o ∨ ColPacked o := by
    obtain ⟨q0, q1, q2, q3, -⟩ := u
    refine hp'.imp (fun hp i j hi hj => ?_) (fun hp i j hi hj => ?_)
    · rw [q0] at hi
      rw [q1] at hj
      have := hp i j (by rw [h.rows]; exact hi) (by rw [h.cols]; exact hj)
      rw [h.cols] at this
      rw [q1, q2, q3]; exact this
    · rw [q0] at hi
      rw [q1] at hj
      have := hp i j (by rw [h.rows]; exact hi) (by rw [h.cols]; exact hj)
      rw [h.rows] at this
      rw [q0, q2, q3]; exact this
  rw [A2.same, e]
  show o.all _ = _
  rw [all_packed s hpo]
  congr 1
  rw [Bool.eq_iff_iff, decide_eq_true_eq]
  simp only [flat, List.all_eq_true, List.mem_flatMap, List.mem_map, List.mem_range, beq_iff_eq]
  constructor
  · intro q i hi j hj
    exact q _ ⟨i, hi, j, hj, rfl⟩
  · rintro q _ ⟨i, hi, j, hj, rfl⟩
    exact q i hi j hj

/-- **C78.** Rows of a different length, and numbers of rows other than one or that of the array, are refused. -/
theorem C78_is_array_refused {a : A2 T} {b : A2 R} (op : T → R → Bool) (h : b.n1 ≠ a.n1 ∨ (b.n0 ≠ a.n0 ∧ b.n0 ≠ 1)) :
    a.isArray b op = .error .threw ∧ a.same b op = .error .threw := by
  have key : a.isArray b op = .error .threw := by
    rw [A2.isArray]
    by_cases hb : broadcastable a b = true
    · have hb' := hb
      simp only [broadcastable, Bool.and_eq_true, Bool.or_eq_true, beq_iff_eq] at hb'
      have h1 : b.n1 ≠ a.n1 := by
        rcases h with h | h
        · exact h
        · rcases hb'.1 with e | e
          · exact absurd e h.2
          · exact absurd e.symm h.1
      rw [hb]
      simp only [Bool.not_true, Bool.false_eq_true, if_false]
      rw [if_neg (fun c => h1 c.2.symm), if_pos (Ne.symm h1)]
    · simp [hb]
  exact ⟨key, by rw [A2.same, key]; rfl⟩

example : ∃ o, secondRow.isArray secondRow (· == ·) = .ok o ∧ secondRow.same secondRow (· == ·) = .ok true :=
  ⟨_, rfl, by decide⟩

/-- three rows, compared with the row 3 4 -/
example : ∃ o, (⟨3, 2, 2, 1, 0, [1, 2, 3, 4, 5, 6]⟩ : A2 Int).isArray ⟨1, 2, 2, 1, 0, [3, 4]⟩ (· == ·) = .ok o ∧
    o.data = [false, false, true, true, false, false] := ⟨_, rfl, by decide⟩

example : ∃ o, byColumns.isArray (⟨3, 2, 2, 1, 0, [1, 2, 3, 4, 5, 7]⟩ : A2 Int) (· == ·) = .ok o ∧
    Shows o 3 2 (fun i j => (2 * (i : Int) + j + 1 == [1, 2, 3, 4, 5, 7].getD (2 * i + j) 0)) := by
  obtain ⟨o, e, s, -⟩ := C78_is_array (b := (⟨3, 2, 2, 1, 0, [1, 2, 3, 4, 5, 7]⟩ : A2 Int))
    (g := fun i j => [1, 2, 3, 4, 5, 7].getD (2 * i + j) 0) (n := 3) (m := 2) (k := 3) byColumns_shows
    ⟨rfl, rfl, by intro i j hi hj; interval_cases i <;> interval_cases j <;> rfl⟩ (Or.inl rfl) (by decide)
    (Or.inr ⟨byColumns_packed, rfl⟩) (by decide) (· == ·)
  exact ⟨o, e, by simpa using s⟩

/-- **C78 (counterexample).** Comparing an array stored column after column with a single row writes outside of the memory of the answers. -/
theorem C78_is_array_counterexample : ColPacked byColumns ∧
    byColumns.isArray (⟨1, 2, 2, 1, 0, [3, 4]⟩ : A2 Int) (· == ·) = .error .ub :=
  ⟨byColumns_packed, by decide⟩

end Brille.Props
