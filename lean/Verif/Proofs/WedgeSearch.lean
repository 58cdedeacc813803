/-
Lemmas about the search for the planes that bound the irreducible zone.
-/
import Verif.Spec.WedgeSearch
import Mathlib.Algebra.Order.Field.Basic
import Mathlib.Tactic.Linarith
import Mathlib.Tactic.Ring
import Mathlib.Tactic.FinCases
import Mathlib.Tactic.LinearCombination
import Mathlib.Algebra.BigOperators.Group.Finset.Basic
import Mathlib.Algebra.Order.BigOperators.Group.Finset

set_option linter.unusedSectionVars false

namespace Brille.WedgeSearch

open Brille.Spec

section geometry

variable {K : Type} [Field K] [LinearOrder K]

theorem dot_comm (a b : V K) : dot a b = dot b a := by unfold dot; ring
theorem dot_neg (a b : V K) : dot (-a) b = -dot a b := by simp only [dot, Pi.neg_apply]; ring
theorem dot_add (a b c : V K) : dot a (b + c) = dot a b + dot a c := by simp only [dot, Pi.add_apply]; ring
theorem dot_zero (a : V K) : dot a 0 = 0 := by simp only [dot, Pi.zero_apply]; ring
theorem zero_dot (a : V K) : dot 0 a = 0 := by simp only [dot, Pi.zero_apply]; ring
theorem cross_swap (a b : V K) : cross a b = -cross b a := by
  funext i; fin_cases i <;> simp [cross] <;> ring
theorem dot_cross (a b c : V K) : dot (cross a b) c = -dot (cross a c) b := by
  simp only [dot, cross, Matrix.cons_val]; ring
theorem dot_cross_left (a b : V K) : dot (cross a b) a = 0 := by
  simp only [dot, cross, Matrix.cons_val]; ring
theorem dot_cross_right (a b : V K) : dot (cross a b) b = 0 := by
  simp only [dot, cross, Matrix.cons_val]; ring

variable [IsStrictOrderedRing K]

theorem dot_self_pos {a : V K} (h : a ≠ 0) : 0 < dot a a := by
  by_contra hc
  apply h
  have h0 := mul_self_nonneg (a 0)
  have h1 := mul_self_nonneg (a 1)
  have h2 := mul_self_nonneg (a 2)
  unfold dot at hc
  funext i
  fin_cases i
  · exact mul_self_eq_zero.mp (show a 0 * a 0 = 0 by linarith)
  · exact mul_self_eq_zero.mp (show a 1 * a 1 = 0 by linarith)
  · exact mul_self_eq_zero.mp (show a 2 * a 2 = 0 by linarith)

/-- what is perpendicular to a vector is so to any that is parallel to it -/
theorem perp_of_parallel {q v n : V K} (hq : q ≠ 0) (h : cross q v = 0) (hn : dot n q = 0) : dot n v = 0 := by
  have h0 : q 1 * v 2 - q 2 * v 1 = 0 := congrFun h 0
  have h1 : q 2 * v 0 - q 0 * v 2 = 0 := congrFun h 1
  have h2 : q 0 * v 1 - q 1 * v 0 = 0 := congrFun h 2
  have hp := dot_self_pos hq
  have : dot q q * dot n v = 0 := by
    unfold dot at hn ⊢
    linear_combination (v 0 * q 0 + v 1 * q 1 + v 2 * q 2) * hn
      + (n 2 * q 1 - n 1 * q 2) * h0 + (n 0 * q 2 - n 2 * q 0) * h1 + (n 1 * q 0 - n 0 * q 1) * h2
  exact (mul_eq_zero.mp this).resolve_left hp.ne'

/-- a sequence that repeats itself and has no sum goes from not positive to not negative somewhere -/
theorem goes_up (g : ℕ → K) (n : ℕ) (hn : 0 < n) (hp : ∀ j, g (j + n) = g j) (hs : (Finset.range n).sum g = 0) :
    ∃ j, g j ≤ 0 ∧ 0 ≤ g (j + 1) := by
  by_contra hc
  push Not at hc
  obtain ⟨j0, _, hj0⟩ : ∃ j ∈ Finset.range n, g j ≤ 0 := by
    by_contra hall
    push Not at hall
    have := Finset.sum_pos hall ⟨0, Finset.mem_range.mpr hn⟩
    exact absurd hs this.ne'
  have hneg : ∀ d, g (j0 + (d + 1)) < 0 := by
    intro d
    induction d with
    | zero => exact hc j0 hj0
    | succ d ih => exact hc _ ih.le
  have hper : ∀ m j, g (j + m * n) = g j := by
    intro m
    induction m with
    | zero => intro j; simp
    | succ m ih => intro j; rw [Nat.succ_mul, ← Nat.add_assoc, hp, ih]
  have hall : ∀ j ∈ Finset.range n, g j < 0 := by
    intro j _
    have h1 : j0 + 1 ≤ (j0 + 1) * n := Nat.le_mul_of_pos_right _ hn
    have h2 := hneg (j + (j0 + 1) * n - j0 - 1)
    rwa [show j0 + (j + (j0 + 1) * n - j0 - 1 + 1) = j + (j0 + 1) * n by omega, hper] at h2
  have := Finset.sum_neg hall ⟨0, Finset.mem_range.mpr hn⟩
  exact absurd hs this.ne

section operation

variable {o : Op K}

theorem turn_zero (h : PointOperation o) : o.turn 0 = 0 := by
  have := h.add 0 0
  rw [add_zero] at this
  simpa using this

theorem turn_sum (h : PointOperation o) (x : V K) (n : ℕ) :
    o.turn ((Finset.range n).sum fun j => o.turn^[j] x) + x = (Finset.range (n + 1)).sum fun j => o.turn^[j] x := by
  induction n with
  | zero => simp [turn_zero h]
  | succ n ih =>
    rw [Finset.sum_range_succ, h.add, Finset.sum_range_succ _ (n + 1), ← ih, Function.iterate_succ_apply']
    ac_rfl

/-- how often an operation has to be carried out to come back to the identity -/
def period (o : Op K) : ℕ := if o.isometry = -3 then 6 else o.order

theorem period_pos (h : PointOperation o) : 0 < period o := by
  unfold period
  have := h.order
  split <;> omega

theorem period_back (h : PointOperation o) (x : V K) : o.turn^[period o] x = x := by
  unfold period
  split
  · next hi => rw [Function.iterate_add_apply o.turn 3 3, (h.inverting hi).2.1, (h.inverting hi).2.1, neg_neg]
  · next hi => exact h.back hi x

theorem sum_fixed (h : PointOperation o) (x : V K) :
    o.turn ((Finset.range (period o)).sum fun j => o.turn^[j] x) = (Finset.range (period o)).sum fun j => o.turn^[j] x := by
  have := turn_sum h x (period o)
  rw [Finset.sum_range_succ, period_back h] at this
  exact add_right_cancel this

theorem dot_sum (m : V K) (f : ℕ → V K) (n : ℕ) : dot m ((Finset.range n).sum f) = (Finset.range n).sum fun j => dot m (f j) := by
  induction n with
  | zero => simp [dot_zero]
  | succ n ih => rw [Finset.sum_range_succ, dot_add, ih, Finset.sum_range_succ]

/-- over a full turn nothing perpendicular to the axis is left -/
theorem sum_zero (h : PointOperation o) (hi : o.isometry ≠ -2) {m : V K} (hq : o.axis ≠ 0) (hm : dot m o.axis = 0) (x : V K) :
    (Finset.range (period o)).sum (fun j => dot m (o.turn^[j] x)) = 0 := by
  rw [← dot_sum]
  exact perp_of_parallel hq (h.fixed hi _ (sum_fixed h x)) hm

theorem repeats (h : PointOperation o) (m x : V K) (j : ℕ) : dot m (o.turn^[j + period o] x) = dot m (o.turn^[j] x) := by
  rw [Function.iterate_add_apply, period_back h]

/-- one plane through the axis of an operation of order two -/
theorem reaches_one (h : PointOperation o) (hi : o.isometry ≠ -2) (ho : o.order = 2) {m : V K} (hq : o.axis ≠ 0) (hm : dot m o.axis = 0) :
    Reaches o [m] := by
  intro x
  have hs := sum_zero h hi hq hm x
  have h3 : period o = 2 := by
    unfold period
    rw [if_neg fun hc => by have := (h.inverting hc).1; omega, ho]
  rw [h3, Finset.sum_range_succ, Finset.sum_range_succ, Finset.sum_range_zero, zero_add] at hs
  by_cases h0 : 0 ≤ dot m (o.turn^[0] x)
  · exact ⟨0, fun n hn => by rw [List.mem_singleton.mp hn]; exact h0⟩
  · exact ⟨1, fun n hn => by rw [List.mem_singleton.mp hn]; push Not at h0; linarith⟩

theorem reaches_mirror (h : PointOperation o) (hi : o.isometry = -2) {m : V K} (hm : m = o.axis ∨ m = -o.axis) : Reaches o [m] := by
  intro x
  have h1 : dot m (o.turn x) = -dot m x := by
    rcases hm with rfl | rfl
    · exact (h.mirror hi).2 x
    · rw [dot_neg, dot_neg, (h.mirror hi).2 x]
  by_cases h0 : 0 ≤ dot m x
  · exact ⟨0, fun n hn => by rw [List.mem_singleton.mp hn]; exact h0⟩
  · exact ⟨1, fun n hn => by
      rw [List.mem_singleton.mp hn, Function.iterate_one, h1]; push Not at h0; linarith⟩

/-- two planes through the axis, one the image of the other -/
theorem reaches_two (h : PointOperation o) (hi : o.isometry ≠ -2) (hq : o.axis ≠ 0) (p : V K) :
    Reaches o [cross o.axis p, cross (o.turn p) o.axis] ∧ Reaches o [cross o.axis (o.turn p), cross p o.axis] := by
  have hm : dot (cross o.axis p) o.axis = 0 := dot_cross_left _ _
  have hpos := period_pos h
  have key : ∀ x j, dot (cross o.axis (o.turn p)) (o.turn^[j + 1] x) = dot (cross o.axis p) (o.turn^[j] x) := by
    intro x j
    rw [← h.about hi, Function.iterate_succ_apply', h.dot]
  constructor
  · intro x
    obtain ⟨j, h1, h2⟩ := goes_up (fun j => dot (cross o.axis p) (o.turn^[j] x)) (period o) hpos (repeats h _ x) (sum_zero h hi hq hm x)
    refine ⟨j + 1, fun n hn => ?_⟩
    rcases List.mem_cons.mp hn with rfl | hn
    · exact h2
    · rw [List.mem_singleton.mp hn, cross_swap, dot_neg, key]
      simpa using h1
  · intro x
    obtain ⟨j, h1, h2⟩ := goes_up (fun j => -dot (cross o.axis p) (o.turn^[j] x)) (period o) hpos
      (fun j => by simp only [repeats h]) (by rw [Finset.sum_neg_distrib, sum_zero h hi hq hm x, neg_zero])
    refine ⟨j + 1, fun n hn => ?_⟩
    rcases List.mem_cons.mp hn with rfl | hn
    · rw [key]; simpa using h1
    · rw [List.mem_singleton.mp hn, cross_swap, dot_neg]; exact h2

theorem turn_neg (h : PointOperation o) (x : V K) : o.turn (-x) = -o.turn x := by
  have := h.add x (-x)
  rw [add_neg_cancel, turn_zero h] at this
  exact (neg_eq_of_add_eq_zero_right this.symm).symm

/-- the rotation of a three-fold rotoinversion -/
def properPart (o : Op K) : Op K := { o with turn := fun x => -o.turn x, isometry := 3 }

theorem properPart_operation (h : PointOperation o) (hi : o.isometry = -3) : PointOperation (properPart o) where
  add x y := by simp only [properPart, h.add, neg_add]
  dot x y := by
    simp only [properPart, dot_neg]
    rw [dot_comm, dot_neg, dot_comm, h.dot, neg_neg]
  order := h.order
  back _ x := by
    have e := (h.inverting hi).2.1 x
    show (fun x => -o.turn x)^[o.order] x = x
    rw [(h.inverting hi).1]
    simp only [Function.iterate_succ, Function.iterate_zero, Function.comp_apply, id_eq, turn_neg h, neg_neg] at e ⊢
    rw [e, neg_neg]
  inverting hc := by simp [properPart] at hc
  twofold hc := by simp [properPart] at hc
  mirror hc := by simp [properPart] at hc
  about _ x := by
    simp only [properPart]
    rw [h.about (by omega)]
    funext i; fin_cases i <;> simp [cross] <;> ring
  fixed _ x hx := (h.inverting hi).2.2 x (by rw [← neg_eq_iff_eq_neg]; exact hx)

theorem properPart_even (h : PointOperation o) (x : V K) (m : ℕ) : (properPart o).turn^[2 * m] x = o.turn^[2 * m] x := by
  rw [Function.iterate_mul, Function.iterate_mul]
  have : (properPart o).turn^[2] = o.turn^[2] := by
    funext y
    simp only [Function.iterate_succ, Function.iterate_zero, Function.comp_apply, id_eq, properPart, turn_neg h, neg_neg]
  rw [this]

theorem reaches_proper (h : PointOperation o) (hi : o.isometry = -3) {ns : List (V K)} (hr : Reaches (properPart o) ns) : Reaches o ns := by
  intro x
  obtain ⟨k, hk⟩ := hr x
  have hb : ∀ y, (properPart o).turn^[3] y = y := fun y => by
    have := (properPart_operation h hi).back (by simp [properPart]) y
    rwa [show (properPart o).order = 3 from (h.inverting hi).1] at this
  rcases Nat.even_or_odd' k with ⟨m, rfl | rfl⟩
  · exact ⟨2 * m, by rw [← properPart_even h]; exact hk⟩
  · refine ⟨2 * (m + 2), ?_⟩
    rw [← properPart_even h, show 2 * (m + 2) = 2 * m + 1 + 3 by ring, Function.iterate_add_apply, hb]
    exact hk

/-- the same for the image under the rotation of a three-fold rotoinversion -/
theorem reaches_inverted (h : PointOperation o) (hi : o.isometry = -3) (hq : o.axis ≠ 0) (p : V K) :
    Reaches o [cross o.axis p, cross (-o.turn p) o.axis] ∧ Reaches o [cross o.axis (-o.turn p), cross p o.axis] := by
  have := reaches_two (properPart_operation h hi) (by simp [properPart]) (show (properPart o).axis ≠ 0 from hq) p
  exact ⟨reaches_proper h hi this.1, reaches_proper h hi this.2⟩

end operation

end geometry

variable {K : Type} [Field K] [LinearOrder K]

/-! ### equivalent points -/

theorem typeOrder_length (o : Op K) (special : List (V K)) (j : ℕ) :
    ∀ ns left, (typeOrder o special j ns left).length = ns.length
  | [], _ => rfl
  | _ :: ns, _ => by rw [typeOrder, List.length_cons, typeOrder_length o special j ns, List.length_cons]

theorem getLastD_mem_or {α : Type} (l : List α) (d : α) : l.getLastD d ∈ l ∨ l.getLastD d = d := by
  induction l generalizing d with
  | nil => exact Or.inr rfl
  | cons a l ih =>
    left
    rw [List.getLastD_cons]
    rcases ih a with h | h
    · exact List.mem_cons_of_mem _ h
    · rw [h]; exact List.mem_cons_self

theorem typeOrder_sound (o : Op K) (special : List (V K)) (j : ℕ) :
    ∀ ns left (t n x : ℕ), ns[t]? = some n → (typeOrder o special j ns left)[t]? = some x → x < special.length →
      x ∈ left ∧ o.turn^[n] (special.getD j 0) = special.getD x 0
  | [], _, t, n, x, h, _, _ => by simp at h
  | m :: ns, left, t, n, x, h, hx, hlt => by
    rw [typeOrder] at hx
    cases t with
    | zero =>
      rw [List.getElem?_cons_zero] at h hx
      injection h with h
      injection hx with hx
      rcases getLastD_mem_or (left.filter fun k => carried o special m k j) special.length with hm | hm
      · rw [hx, List.mem_filter] at hm
        exact ⟨hm.1, h ▸ of_decide_eq_true hm.2⟩
      · omega
    | succ t =>
      rw [List.getElem?_cons_succ] at h hx
      have := typeOrder_sound o special j ns _ t n x h hx hlt
      exact ⟨(List.mem_filter.mp this.1).1, this.2⟩

theorem groups_mem (o : Op K) (special : List (V K)) :
    ∀ js found s, s ∈ groups o special js found →
      ∃ j left, s = typeOrder o special j (List.range o.order) left
  | [], _, s, h => by simp [groups] at h
  | j :: js, found, s, h => by
    rw [groups] at h
    split at h
    · exact groups_mem o special js found s h
    · rcases List.mem_cons.mp h with h | h
      · exact ⟨j, _, h⟩
      · exact groups_mem o special js _ s h

/-- neighbours in a group are carried onto each other, where the group is closed if the operation is the identity after `order` times -/
theorem groups_next {o : Op K} {special : List (V K)} {s : List ℕ} (hs : s ∈ oneSym o special)
    {j : ℕ} (hj : j < s.length) (h0 : s.getD j 0 < special.length) (h1 : s.getD ((j + 1) % s.length) 0 < special.length) :
    special.getD (s.getD ((j + 1) % s.length) 0) 0 = o.turn (special.getD (s.getD j 0) 0) ∨
      o.turn^[o.order] (special.getD (s.getD ((j + 1) % s.length) 0) 0) = o.turn (special.getD (s.getD j 0) 0) := by
  obtain ⟨f, left, rfl⟩ := groups_mem o special _ _ s hs
  have hl := typeOrder_length o special f (List.range o.order) left
  rw [List.length_range] at hl
  rw [hl] at hj h1 ⊢
  have hk : (j + 1) % o.order < o.order := Nat.mod_lt _ (by omega)
  have sound : ∀ t, t < o.order → (typeOrder o special f (List.range o.order) left).getD t 0 < special.length →
      o.turn^[t] (special.getD f 0) = special.getD ((typeOrder o special f (List.range o.order) left).getD t 0) 0 := by
    intro t ht hx
    refine (typeOrder_sound o special f (List.range o.order) left t t _ ?_ ?_ hx).2
    · rw [List.getElem?_range ht]
    · rw [List.getD_eq_getElem?_getD, List.getElem?_eq_getElem (by rw [hl]; exact ht)]; rfl
  rw [← sound _ hk h1, ← sound _ hj h0, ← Function.iterate_succ_apply' o.turn]
  rcases Nat.lt_or_ge (j + 1) o.order with h | h
  · left; rw [Nat.mod_eq_of_lt h]
  · have : j + 1 = o.order := by omega
    right
    rw [show j.succ = o.order from this, this, Nat.mod_self]; rfl

/-! ### what has been cut -/

/-- the cuts made so far: the operations and the normals -/
structure Made (good : ℕ → List (V K) → Prop) (special : List (V K)) (st : St K) : Prop where
  kept : st.special = above st.normals special
  cuts : ∃ cuts : List (ℕ × List (V K)), st.normals = cuts.flatMap Prod.snd ∧ st.used = cuts.map Prod.fst ∧
    st.used.Nodup ∧ ∀ c ∈ cuts, good c.1 c.2

theorem above_above (ms ns special : List (V K)) : above ns (above ms special) = above (ms ++ ns) special := by
  unfold above
  rw [List.filter_filter]
  congr 1
  funext p
  rw [List.all_append, Bool.and_comm]

theorem Made.cut {good : ℕ → List (V K) → Prop} {special : List (V K)} {st : St K} (h : Made good special st) {i : ℕ} {ns : List (V K)}
    (hi : i ∉ st.used) (hg : good i ns) : Made good special (cut st i ns) := by
  obtain ⟨cuts, h1, h2, h3, h4⟩ := h.cuts
  refine ⟨?_, cuts ++ [(i, ns)], ?_, ?_, ?_, ?_⟩
  · show above ns st.special = above (st.normals ++ ns) special
    rw [h.kept, above_above]
  · show st.normals ++ ns = _
    rw [h1]; simp
  · show st.used ++ [i] = _
    rw [h2]; simp
  · show (st.used ++ [i]).Nodup
    rw [List.nodup_append]
    refine ⟨h3, List.nodup_singleton i, ?_⟩
    intro a ha b hb
    rw [List.mem_singleton.mp hb]
    exact fun hab => hi (hab ▸ ha)
  · intro c hc
    rcases List.mem_append.mp hc with hc | hc
    · exact h4 c hc
    · rw [List.mem_singleton.mp hc]; exact hg

theorem keepIf_cases (ns special : List (V K)) (h : (keepIf ns special).length < special.length) : keepIf ns special = above ns special := by
  unfold keepIf at h ⊢
  split
  · next hc => rw [if_pos hc] at h; omega
  · rfl

theorem tryPair_made {good : ℕ → List (V K) → Prop} {special : List (V K)} {i : ℕ} {o : Op K} {st : St K} (h : Made good special st)
    (jk : ℕ × ℕ)
    (hg : jk.1 < st.special.length → jk.2 < st.special.length →
      (normalsOf o st.special (st.special.getD jk.1 0) (st.special.getD jk.2 0)).1 = true →
      good i (normalsOf o st.special (st.special.getD jk.1 0) (st.special.getD jk.2 0)).2) :
    Made good special (tryPair i o st jk) := by
  unfold tryPair
  split
  · next hc =>
    dsimp only
    split
    · next hr =>
      split
      · next hk =>
        rw [keepIf_cases _ _ hk.2]
        exact h.cut hc.1 (hg hc.2.1 hc.2.2 hr)
      · exact h
    · exact h
  · exact h

/-- either the operation has been used or the points are still the same -/
theorem tryPair_same (i : ℕ) (o : Op K) (st : St K) (jk : ℕ × ℕ) :
    i ∈ (tryPair i o st jk).used ∨ (tryPair i o st jk).special = st.special := by
  unfold tryPair
  split
  · dsimp only
    split
    · split
      · left
        show i ∈ st.used ++ [i]
        simp
      · exact Or.inr rfl
    · exact Or.inr rfl
  · exact Or.inr rfl

theorem tryPair_used (i : ℕ) (o : Op K) (st : St K) (jk : ℕ × ℕ) (h : i ∈ st.used) : tryPair i o st jk = st := by
  unfold tryPair
  rw [if_neg fun hc => hc.1 h]

theorem foldl_tryPair {good : ℕ → List (V K) → Prop} {special : List (V K)} {i : ℕ} {o : Op K} (pts : List (V K)) :
    ∀ (l : List (ℕ × ℕ)) (st : St K), Made good special st → (i ∈ st.used ∨ st.special = pts) →
      (∀ jk ∈ l, jk.1 < pts.length → jk.2 < pts.length →
        (normalsOf o pts (pts.getD jk.1 0) (pts.getD jk.2 0)).1 = true →
        good i (normalsOf o pts (pts.getD jk.1 0) (pts.getD jk.2 0)).2) →
      Made good special (l.foldl (tryPair i o) st) ∧
        (i ∈ (l.foldl (tryPair i o) st).used ∨ (l.foldl (tryPair i o) st).special = pts)
  | [], st, h, hs, _ => ⟨h, hs⟩
  | jk :: l, st, h, hs, hg => by
    rw [List.foldl_cons]
    refine foldl_tryPair pts l _ ?_ ?_ fun x hx => hg x (List.mem_cons_of_mem _ hx)
    · rcases hs with hs | hs
      · rw [tryPair_used i o st jk hs]; exact h
      · exact tryPair_made h jk (by rw [hs]; exact hg jk List.mem_cons_self)
    · rcases hs with hs | hs
      · rw [tryPair_used i o st jk hs]; exact Or.inl hs
      · rcases tryPair_same i o st jk with h | h
        · exact Or.inl h
        · exact Or.inr (h.trans hs)

theorem foldl_tryGroup {good : ℕ → List (V K) → Prop} {special : List (V K)} {i : ℕ} {o : Op K} (pts : List (V K))
    (hg : ∀ p0 p1 : V K, (p1 = o.turn p0 ∨ o.turn^[o.order] p1 = o.turn p0) → (normalsOf o pts p0 p1).1 = true →
      good i (normalsOf o pts p0 p1).2) :
    ∀ (l : List (List ℕ)) (st : St K), Made good special st → (i ∈ st.used ∨ st.special = pts) → (∀ s ∈ l, s ∈ oneSym o pts) →
      Made good special (l.foldl (tryGroup i o) st)
  | [], st, h, _, _ => h
  | s :: l, st, h, hs, hl => by
    rw [List.foldl_cons]
    have main : Made good special (tryGroup i o st s) ∧ (i ∈ (tryGroup i o st s).used ∨ (tryGroup i o st s).special = pts) := by
      unfold tryGroup
      split
      · refine foldl_tryPair pts _ st h hs ?_
        intro jk hjk h0 h1
        obtain ⟨j, hj, rfl⟩ := List.mem_map.mp hjk
        exact hg _ _ <| groups_next (hl s List.mem_cons_self) (List.mem_range.mp hj) h0 h1
      · exact ⟨h, hs⟩
    exact foldl_tryGroup pts hg l _ main.1 main.2 fun x hx => hl x (List.mem_cons_of_mem _ hx)

theorem tryOp_made {good : ℕ → List (V K) → Prop} {special : List (V K)} {sorted : List (List ℕ) → List (List ℕ)}
    (hsort : ∀ l, (sorted l).Perm l) {io : ℕ × Op K}
    (hg : ∀ (pts : List (V K)) (p0 p1 : V K), (p1 = io.2.turn p0 ∨ io.2.turn^[io.2.order] p1 = io.2.turn p0) →
      (normalsOf io.2 pts p0 p1).1 = true → good io.1 (normalsOf io.2 pts p0 p1).2)
    {st : St K} (h : Made good special st) : Made good special (tryOp sorted st io) := by
  unfold tryOp
  split
  · exact h
  · exact foldl_tryGroup st.special (hg _) _ st h (Or.inr rfl) fun s hs => (hsort _).mem_iff.mp hs

theorem parallel_found {ds : List (V K)} {v : V K} {k : ℕ} (hd : ds.length = 10) (h : (parallel ds v).findIdx id = k) (hk : k < 10) :
    cross (ds.getD k 0) v = 0 := by
  have hl : (parallel ds v).length = 10 := by unfold parallel; rw [List.length_map, hd]
  have := List.findIdx_getElem (p := id) (xs := parallel ds v) (w := by rw [h, hl]; exact hk)
  simp only [h] at this
  unfold parallel at this
  rw [List.getElem_map] at this
  rw [List.getD_eq_getElem?_getD, List.getElem?_eq_getElem (by rw [hd]; exact hk)]
  exact of_decide_eq_true this

/-- what the normals that the special directions give have in common -/
structure Special (a b : Fin 3 → V K) (q : V K) (ok : V K → Prop) : Prop where
  first : ∀ nth < 9, cross ((directions b).getD nth 0) q = 0 →
    ok (cross ((directions a).getD (table nth).1 0) ((directions b).getD (table nth).2 0))
  second : ∀ nth < 2, cross ((directions a).getD nth 0) q = 0 → ok ((directions b).getD (if nth = 0 then 1 else 0) 0)

theorem twoFold_made {good : ℕ → List (V K) → Prop} {special : List (V K)} {a b : Fin 3 → V K} {io : ℕ × Op K} {st : St K}
    (h : Made good special st) (hi : io.2.isometry = 2 → io.1 ∉ st.used) 
    (hs : io.2.isometry = 2 → Special a b io.2.axis fun n => good io.1 [n]) :
    Made good special (twoFold a b st io) ∧
      ((twoFold a b st io).used = st.used ∨ (twoFold a b st io).used = st.used ++ [io.1] ∧ io.2.isometry = 2) := by
  unfold twoFold
  by_cases h2 : io.2.isometry = 2
  · rw [if_neg (not_not.mpr h2)]
    dsimp only
    generalize hn : (parallel (directions b) io.2.axis).findIdx id = nth
    generalize hm : (parallel (directions a) io.2.axis).findIdx id = mth
    by_cases h1 : nth < 9
    · rw [if_pos h1]
      split
      · have hmade := h.cut (hi h2) ((hs h2).first nth h1 (parallel_found rfl hn (by omega)))
        rw [if_neg fun hc => hc.1 (show io.1 ∈ st.used ++ [io.1] by simp)]
        exact ⟨hmade, Or.inr ⟨rfl, h2⟩⟩
      · split
        · next hc => exact ⟨h.cut hc.1 ((hs h2).second mth hc.2 (parallel_found rfl hm (by omega))), Or.inr ⟨rfl, h2⟩⟩
        · exact ⟨h, Or.inl rfl⟩
    · rw [if_neg h1]
      split
      · next hc => exact ⟨h.cut hc.1 ((hs h2).second mth hc.2 (parallel_found rfl hm (by omega))), Or.inr ⟨rfl, h2⟩⟩
      · exact ⟨h, Or.inl rfl⟩
  · rw [if_pos h2]
    exact ⟨h, Or.inl rfl⟩

theorem mirror_made {good : ℕ → List (V K) → Prop} {special : List (V K)} {io : ℕ × Op K} {st : St K}
    (h : Made good special st) (hi : io.2.isometry = -2 → io.1 ∉ st.used)
    (hg : io.2.isometry = -2 → ∀ n, n = io.2.axis ∨ n = -io.2.axis → good io.1 [n]) :
    Made good special (mirror st io) ∧
      ((mirror st io).used = st.used ∨ (mirror st io).used = st.used ++ [io.1] ∧ io.2.isometry = -2) := by
  unfold mirror
  by_cases h2 : io.2.isometry = -2
  · rw [if_neg (not_not.mpr h2)]
    dsimp only
    have hn : (if enough (above [io.2.axis] st.special) then io.2.axis else -io.2.axis) = io.2.axis ∨
        (if enough (above [io.2.axis] st.special) then io.2.axis else -io.2.axis) = -io.2.axis := by
      split
      · exact Or.inl rfl
      · exact Or.inr rfl
    generalize (if enough (above [io.2.axis] st.special) then io.2.axis else -io.2.axis) = nrm at hn
    split
    · exact ⟨h.cut (hi h2) (hg h2 _ hn), Or.inr ⟨rfl, h2⟩⟩
    · exact ⟨h, Or.inl rfl⟩
  · rw [if_pos h2]
    exact ⟨h, Or.inl rfl⟩

/-- a loop that deals with the operations of one kind -/
theorem foldl_kind {good : ℕ → List (V K) → Prop} {special : List (V K)} {kind : ℤ} {step : St K → ℕ × Op K → St K} :
    ∀ (l : List (ℕ × Op K)) (st : St K),
      (∀ io ∈ l, ∀ st, Made good special st → (io.2.isometry = kind → io.1 ∉ st.used) →
        Made good special (step st io) ∧ ((step st io).used = st.used ∨ (step st io).used = st.used ++ [io.1] ∧ io.2.isometry = kind)) →
      Made good special st → (l.map Prod.fst).Nodup → (∀ io ∈ l, io.2.isometry = kind → io.1 ∉ st.used) →
      Made good special (l.foldl step st) ∧
        ∀ u ∈ (l.foldl step st).used, u ∈ st.used ∨ ∃ io ∈ l, io.1 = u ∧ io.2.isometry = kind
  | [], st, _, h, _, _ => ⟨h, fun _ hu => Or.inl hu⟩
  | io :: l, st, hstep, h, hnd, hi => by
    rw [List.foldl_cons]
    rw [List.map_cons, List.nodup_cons] at hnd
    obtain ⟨h1, h2⟩ := hstep io List.mem_cons_self st h (hi io List.mem_cons_self)
    have hi' : ∀ x ∈ l, x.2.isometry = kind → x.1 ∉ (step st io).used := by
      intro x hx hk hu
      rcases h2 with h2 | ⟨h2, _⟩
      · rw [h2] at hu; exact hi x (List.mem_cons_of_mem _ hx) hk hu
      · rw [h2] at hu
        rcases List.mem_append.mp hu with hu | hu
        · exact hi x (List.mem_cons_of_mem _ hx) hk hu
        · exact hnd.1 (List.mem_singleton.mp hu ▸ List.mem_map_of_mem hx)
    obtain ⟨h3, h4⟩ := foldl_kind l (step st io) (fun x hx => hstep x (List.mem_cons_of_mem _ hx)) h1 hnd.2 hi'
    refine ⟨h3, fun u hu => ?_⟩
    rcases h4 u hu with h | ⟨x, hx, hxu⟩
    · rcases h2 with h2 | ⟨h2, hk⟩
      · rw [h2] at h; exact Or.inl h
      · rw [h2] at h
        rcases List.mem_append.mp h with h | h
        · exact Or.inl h
        · exact Or.inr ⟨io, List.mem_cons_self, (List.mem_singleton.mp h).symm, hk⟩
    · exact Or.inr ⟨x, List.mem_cons_of_mem _ hx, hxu⟩

theorem foldl_tryOp {good : ℕ → List (V K) → Prop} {special : List (V K)} {sorted : List (List ℕ) → List (List ℕ)}
    (hsort : ∀ l, (sorted l).Perm l) :
    ∀ (l : List (ℕ × Op K)) (st : St K), Made good special st →
      (∀ io ∈ l, ∀ (pts : List (V K)) (p0 p1 : V K), (p1 = io.2.turn p0 ∨ io.2.turn^[io.2.order] p1 = io.2.turn p0) →
        (normalsOf io.2 pts p0 p1).1 = true → good io.1 (normalsOf io.2 pts p0 p1).2) →
      Made good special (l.foldl (tryOp sorted) st)
  | [], _, h, _ => h
  | io :: l, st, h, hg => by
    rw [List.foldl_cons]
    exact foldl_tryOp hsort l _ (tryOp_made hsort (hg io List.mem_cons_self) h)
      fun x hx => hg x (List.mem_cons_of_mem _ hx)

/-- every cut of the search is one of those that the parts make -/
theorem search_made {good : ℕ → List (V K) → Prop} {special : List (V K)} {sorted : List (List ℕ) → List (List ℕ)}
    (hsort : ∀ l, (sorted l).Perm l) (a b : Fin 3 → V K) (ops : List (Op K)) (twoFolds mirrors : Bool)
    (hs : twoFolds = true → ∀ i o, ops[i]? = some o → o.isometry = 2 → Special a b o.axis fun n => good i [n])
    (hgm : ∀ i o, ops[i]? = some o → o.isometry = -2 → ∀ n, n = o.axis ∨ n = -o.axis → good i [n])
    (hg : ∀ i o, ops[i]? = some o → ∀ (pts : List (V K)) (p0 p1 : V K), (p1 = o.turn p0 ∨ o.turn^[o.order] p1 = o.turn p0) →
      (normalsOf o pts p0 p1).1 = true → good i (normalsOf o pts p0 p1).2) :
    Made good special (search twoFolds mirrors sorted a b ops special) := by
  unfold search
  dsimp only
  have hmem : ∀ io ∈ ops.zipIdx.map fun x => (x.2, x.1), ops[io.1]? = some io.2 := by
    intro io hio
    obtain ⟨x, hx, rfl⟩ := List.mem_map.mp hio
    exact List.mem_zipIdx_iff_getElem?.mp hx
  have hnd : ((ops.zipIdx.map fun x => (x.2, x.1)).map Prod.fst).Nodup := by
    rw [List.map_map, show (Prod.fst ∘ fun x : Op K × ℕ => (x.2, x.1)) = Prod.snd from rfl, List.zipIdx_map_snd]
    exact List.nodup_range'
  generalize ops.zipIdx.map (fun x => (x.2, x.1)) = l at hmem hnd
  have h0 : Made good special { special := special, normals := [], used := [] } := by
    refine ⟨?_, [], rfl, rfl, List.nodup_nil, by simp⟩
    unfold above
    simp
  have h1 : Made good special (if twoFolds then l.foldl (twoFold a b) { special := special, normals := [], used := [] }
      else { special := special, normals := [], used := [] }) ∧
      ∀ u ∈ (if twoFolds then l.foldl (twoFold a b) { special := special, normals := [], used := [] }
      else ({ special := special, normals := [], used := [] } : St K)).used, ∃ io ∈ l, io.1 = u ∧ io.2.isometry = 2 := by
    split
    · next ht =>
      obtain ⟨h, hu⟩ := foldl_kind (kind := 2) l _ (fun io hio st hm hi => twoFold_made (a := a) (b := b) hm hi
        (hs ht io.1 io.2 (hmem io hio))) h0 hnd (by simp)
      exact ⟨h, fun u hu' => (hu u hu').resolve_left (by simp)⟩
    · exact ⟨h0, by simp⟩
  generalize (if twoFolds then l.foldl (twoFold a b) { special := special, normals := [], used := [] }
      else ({ special := special, normals := [], used := [] } : St K)) = st1 at h1
  have h2 : Made good special (if mirrors then l.foldl mirror st1 else st1) := by
    split
    · refine (foldl_kind (kind := -2) l st1 (fun io hio st hm hi => mirror_made hm hi (hgm io.1 io.2 (hmem io hio))) h1.1 hnd ?_).1
      intro io hio hk hu
      obtain ⟨x, hx, hxu, hx2⟩ := h1.2 _ hu
      have e := hmem x hx
      rw [hxu, hmem io hio] at e
      injection e with e
      rw [← e, hk] at hx2
      omega
    · exact h1.1
  exact foldl_tryOp hsort l _ h2 fun io hio => hg io.1 io.2 (hmem io hio)

end Brille.WedgeSearch
