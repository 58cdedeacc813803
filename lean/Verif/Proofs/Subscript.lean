import Verif.Model.Subscript
import Verif.Spec.Subscript
import Mathlib.Tactic.Ring
import Mathlib.Tactic.Linarith
import Mathlib.Data.Nat.ModEq
import Mathlib.Order.Defs.LinearOrder

/-! Helper lemmas for subscript iteration: the k-th state of the iterator is the mixed-radix
expansion of `k`. -/
namespace Brille.Subscript

/-- number of subscripts visited -/
def size : List Axis → Nat
  | [] => 1
  | a :: t => if a.fixed then size t else a.shape * size t

/-- the state after `k` steps -/
def dig : List Axis → Nat → List Axis
  | [], _ => []
  | a :: t, k => if a.fixed then a :: dig t k
      else { a with sub := k / size t } :: dig t (k % size t)

theorem dig_zero_head (a : Axis) (t : List Axis) (h : a.fixed = false) :
    dig (a :: t) 0 = { a with sub := 0 } :: dig t 0 := by
  simp [dig, h]

theorem inc_tail (first : Nat) : ∀ (t : List Axis) (dim k : Nat), first < dim → k < size t →
    incLoop first dim (dig t k) =
      if k + 1 < size t then (dig t (k + 1), false) else (dig t 0, true)
  | [], dim, k, _, hk => by
    simp [size] at hk
    subst hk; simp [dig, incLoop, size]
  | a :: t, dim, k, hd, hk => by
    by_cases hf : a.fixed
    · simp only [size, hf, if_true] at hk
      have ih := inc_tail first t (dim + 1) k (by omega) hk
      simp only [dig, hf, if_true, incLoop, ih, size]
      split <;> simp
    · simp only [Bool.not_eq_true] at hf
      simp only [size, hf, Bool.false_eq_true, if_false] at hk
      have hm : 0 < size t := by
        rcases Nat.eq_zero_or_pos (size t) with h | h
        · rw [h] at hk; simp at hk
        · exact h
      have hj : k % size t < size t := Nat.mod_lt _ hm
      have ih := inc_tail first t (dim + 1) (k % size t) (by omega) hj
      have hdm := Nat.div_add_mod k (size t)
      simp only [dig, hf, Bool.false_eq_true, if_false, incLoop, ih, size]
      by_cases hc : k % size t + 1 < size t
      · have h1 : (k + 1) / size t = k / size t := by
          rw [Nat.div_eq_iff hm]
          constructor
          · rw [mul_comm]; omega
          · rw [mul_comm]; omega
        have h2 : (k + 1) % size t = k % size t + 1 := by
          have := Nat.div_add_mod (k + 1) (size t)
          rw [h1] at this; omega
        have h3 : k + 1 < a.shape * size t := by
          have h4 : k / size t < a.shape := Nat.div_lt_of_lt_mul (by rw [mul_comm]; exact hk)
          have h5 : (k / size t + 1) * size t ≤ a.shape * size t := Nat.mul_le_mul_right _ h4
          have h6 : (k / size t + 1) * size t = size t * (k / size t) + size t := by ring
          omega
        simp [hc, h1, h2, h3]
      · have he : k % size t + 1 = size t := by omega
        have hk1 : k + 1 = size t * (k / size t + 1) := by
          have h6 : size t * (k / size t + 1) = size t * (k / size t) + size t := by ring
          omega
        have h1 : (k + 1) / size t = k / size t + 1 := by
          rw [hk1, Nat.mul_div_cancel_left _ hm]
        have h2 : (k + 1) % size t = 0 := by rw [hk1]; simp
        by_cases hs : k / size t + 1 = a.shape
        · have h3 : ¬ (k + 1 < a.shape * size t) := by
            rw [hk1, hs, mul_comm]; simp
          simp [hc, hs, h3, hd]
        · have h4 : k / size t < a.shape := Nat.div_lt_of_lt_mul (by rw [mul_comm]; exact hk)
          have h3 : k + 1 < a.shape * size t := by
            rw [hk1, mul_comm]
            exact Nat.mul_lt_mul_of_pos_right (by omega) hm
          simp [hc, hs, h1, h2, h3]

theorem inc_head : ∀ (l : List Axis) (dim f k : Nat), findFirst l = some f → k < size l →
    incLoop (dim + f) dim (dig l k) = (dig l (k + 1), false)
  | [], _, _, _, hf, _ => by simp [findFirst] at hf
  | a :: t, dim, f, k, hff, hk => by
    by_cases hf : a.fixed
    · simp only [findFirst, hf, if_true, Option.map_eq_some_iff] at hff
      obtain ⟨g, hg, rfl⟩ := hff
      simp only [size, hf, if_true] at hk
      have ih := inc_head t (dim + 1) g k hg hk
      simp only [dig, hf, if_true, incLoop]
      rw [show dim + (g + 1) = dim + 1 + g by ring, ih]
      simp
    · simp only [Bool.not_eq_true] at hf
      simp only [findFirst, hf, Bool.false_eq_true, if_false, Option.some.injEq] at hff
      subst hff
      simp only [size, hf, Bool.false_eq_true, if_false] at hk
      have hm : 0 < size t := by
        rcases Nat.eq_zero_or_pos (size t) with h | h
        · rw [h] at hk; simp at hk
        · exact h
      have hj : k % size t < size t := Nat.mod_lt _ hm
      have ih := inc_tail (dim + 0) t (dim + 1) (k % size t) (by omega) hj
      have hdm := Nat.div_add_mod k (size t)
      simp only [dig, hf, Bool.false_eq_true, if_false, incLoop, ih]
      by_cases hc : k % size t + 1 < size t
      · have h1 : (k + 1) / size t = k / size t := by
          rw [Nat.div_eq_iff hm]
          constructor
          · rw [mul_comm]; omega
          · rw [mul_comm]; omega
        have h2 : (k + 1) % size t = k % size t + 1 := by
          have := Nat.div_add_mod (k + 1) (size t)
          rw [h1] at this; omega
        simp [hc, h1, h2]
      · have he : k % size t + 1 = size t := by omega
        have hk1 : k + 1 = size t * (k / size t + 1) := by
          have h6 : size t * (k / size t + 1) = size t * (k / size t) + size t := by ring
          omega
        have h1 : (k + 1) / size t = k / size t + 1 := by
          rw [hk1, Nat.mul_div_cancel_left _ hm]
        have h2 : (k + 1) % size t = 0 := by rw [hk1]; simp
        simp [hc, h1, h2]

/-- subscripts of the k-th state -/
def sub (l : List Axis) (k : Nat) : List Nat := (dig l k).map (·.sub)

theorem sub_cons_fixed {a : Axis} {t : List Axis} (h : a.fixed = true) (k : Nat) :
    sub (a :: t) k = a.sub :: sub t k := by simp [sub, dig, h]

theorem sub_cons_free {a : Axis} {t : List Axis} (h : a.fixed = false) (k : Nat) :
    sub (a :: t) k = (k / size t) :: sub t (k % size t) := by simp [sub, dig, h]

theorem sub_lt : ∀ (l : List Axis) (j k : Nat), j < k → k < size l → sub l j < sub l k
  | [], j, k, h, hk => by simp [size] at hk; omega
  | a :: t, j, k, h, hk => by
    by_cases hf : a.fixed
    · simp only [size, hf, if_true] at hk
      rw [sub_cons_fixed hf, sub_cons_fixed hf]
      exact List.cons_lt_cons_iff.2 (Or.inr ⟨rfl, sub_lt t j k h hk⟩)
    · simp only [Bool.not_eq_true] at hf
      simp only [size, hf, Bool.false_eq_true, if_false] at hk
      have hm : 0 < size t := by
        rcases Nat.eq_zero_or_pos (size t) with h | h
        · rw [h] at hk; simp at hk
        · exact h
      rw [sub_cons_free hf, sub_cons_free hf]
      rcases Nat.lt_or_ge (j / size t) (k / size t) with h1 | h1
      · exact List.cons_lt_cons_iff.2 (Or.inl h1)
      · have h2 : j / size t = k / size t := le_antisymm (Nat.div_le_div_right h.le) h1
        refine List.cons_lt_cons_iff.2 (Or.inr ⟨h2, sub_lt t _ _ ?_ (Nat.mod_lt _ hm)⟩)
        have a1 := Nat.div_add_mod j (size t)
        have a2 := Nat.div_add_mod k (size t)
        rw [h2] at a1; omega

theorem sub_size_ne : ∀ (l : List Axis) (f k : Nat), findFirst l = some f → k < size l →
    sub l k ≠ sub l (size l)
  | [], _, _, h, _ => by simp [findFirst] at h
  | a :: t, f, k, hff, hk => by
    by_cases hf : a.fixed
    · simp only [findFirst, hf, if_true, Option.map_eq_some_iff] at hff
      obtain ⟨g, hg, rfl⟩ := hff
      simp only [size, hf, if_true] at hk ⊢
      rw [sub_cons_fixed hf, sub_cons_fixed hf]
      intro h
      exact sub_size_ne t g k hg hk (List.cons.inj h).2
    · simp only [Bool.not_eq_true] at hf
      simp only [size, hf, Bool.false_eq_true, if_false] at hk ⊢
      have hm : 0 < size t := by
        rcases Nat.eq_zero_or_pos (size t) with h | h
        · rw [h] at hk; simp at hk
        · exact h
      rw [sub_cons_free hf, sub_cons_free hf]
      intro h
      have h1 := (List.cons.inj h).1
      rw [Nat.mul_div_cancel _ hm] at h1
      have h4 : k / size t < a.shape := Nat.div_lt_of_lt_mul (by rw [mul_comm]; exact hk)
      omega

/-- the axis constraint on one entry of the subscript -/
def Ok (a : Axis) (x : Nat) : Prop := if a.fixed then x = a.sub else x < a.shape

theorem sub_ok : ∀ (l : List Axis) (k : Nat), k < size l → List.Forall₂ Ok l (sub l k)
  | [], k, _ => by simp [sub, dig]
  | a :: t, k, hk => by
    by_cases hf : a.fixed
    · simp only [size, hf, if_true] at hk
      rw [sub_cons_fixed hf]
      exact List.Forall₂.cons (by simp [Ok, hf]) (sub_ok t k hk)
    · simp only [Bool.not_eq_true] at hf
      simp only [size, hf, Bool.false_eq_true, if_false] at hk
      have hm : 0 < size t := by
        rcases Nat.eq_zero_or_pos (size t) with h | h
        · rw [h] at hk; simp at hk
        · exact h
      rw [sub_cons_free hf]
      refine List.Forall₂.cons ?_ (sub_ok t _ (Nat.mod_lt _ hm))
      simp only [Ok, hf, Bool.false_eq_true, if_false]
      exact Nat.div_lt_of_lt_mul (by rw [mul_comm]; exact hk)

theorem ok_sub : ∀ (l : List Axis) (x : List Nat), List.Forall₂ Ok l x →
    ∃ k, k < size l ∧ sub l k = x
  | [], x, h => by
    cases h
    exact ⟨0, by simp [size], by simp [sub, dig]⟩
  | a :: t, x, h => by
    cases h with
    | @cons _ y _ ys h1 h2 =>
    obtain ⟨k, hk, rfl⟩ := ok_sub t ys h2
    by_cases hf : a.fixed
    · simp only [Ok, hf, if_true] at h1
      subst h1
      exact ⟨k, by simpa [size, hf] using hk, sub_cons_fixed hf k⟩
    · simp only [Bool.not_eq_true] at hf
      simp only [Ok, hf, Bool.false_eq_true, if_false] at h1
      refine ⟨size t * y + k, ?_, ?_⟩
      · simp only [size, hf, Bool.false_eq_true, if_false]
        have h5 : (y + 1) * size t ≤ a.shape * size t := Nat.mul_le_mul_right _ h1
        have h6 : (y + 1) * size t = size t * y + size t := by ring
        omega
      · have hm : 0 < size t := by omega
        rw [sub_cons_free hf, Nat.mul_add_div hm, Nat.mul_add_mod, Nat.mod_eq_of_lt hk,
          Nat.div_eq_of_lt hk, Nat.add_zero]

theorem loop_dig (l : List Axis) (f : Nat) (hf : findFirst l = some f) :
    ∀ (n k extra : Nat), k + n = size l →
      loopFrom ⟨dig l (size l), f⟩ (n + extra) ⟨dig l k, f⟩ =
        some ((List.range' k n).map (sub l))
  | 0, k, extra, h => by
    have : k = size l := by omega
    subst this
    cases extra <;> simp [loopFrom, SubIt.eq]
  | n + 1, k, extra, h => by
    have hk : k < size l := by omega
    have hne : SubIt.eq ⟨dig l k, f⟩ ⟨dig l (size l), f⟩ = false := by
      have := sub_size_ne l f k hf hk
      simp only [SubIt.eq, SubIt.deref]
      simpa [sub] using this
    have hn : (SubIt.next ⟨dig l k, f⟩) = ⟨dig l (k + 1), f⟩ := by
      have := inc_head l 0 f k hf hk
      simp only [Nat.zero_add] at this
      simp [SubIt.next, this]
    rw [show n + 1 + extra = (n + extra) + 1 by ring]
    simp only [loopFrom, hne, hn, Bool.false_eq_true, if_false]
    rw [loop_dig l f hf n (k + 1) extra (by omega)]
    simp [List.range'_succ, SubIt.deref, sub]

theorem findFirst_map (l : List Axis) (g : Axis → Axis) (hg : ∀ a, (g a).fixed = a.fixed) :
    findFirst (l.map g) = findFirst l := by
  induction l with
  | nil => rfl
  | cons a t ih => simp [findFirst, hg, ih]

theorem findFirst_dig (l : List Axis) (k : Nat) : findFirst (dig l k) = findFirst l := by
  induction l generalizing k with
  | nil => rfl
  | cons a t ih =>
    by_cases hf : a.fixed
    · simp [dig, findFirst, hf, ih]
    · simp [dig, findFirst, hf]

/-- Every fixed axis stores its request as its subscript. -/
def WF (l : List Axis) : Prop := ∀ a ∈ l, a.fixed = true → a.sub = a.inpt

theorem begin_dig (l : List Axis) (hw : WF l) :
    l.map (fun a => { a with sub := if a.fixed then a.inpt else 0 }) = dig l 0 := by
  induction l with
  | nil => rfl
  | cons a t ih =>
    have ih' := ih (fun b hb => hw b (List.mem_cons_of_mem _ hb))
    by_cases hf : a.fixed
    · have := hw a List.mem_cons_self hf
      rw [List.map_cons, ih']
      obtain ⟨s, i, x, f⟩ := a
      simp only at hf this
      subst hf this
      simp [dig]
    · rw [List.map_cons, ih']; simp [dig, hf]

theorem end_dig (l : List Axis) (f : Nat) (hf : findFirst l = some f) (hpos : 0 < size l) :
    setEnd f (l.map (fun a => { a with sub := if a.fixed then a.sub else 0 })) =
      dig l (size l) := by
  have key : ∀ t : List Axis,
      t.map (fun a => { a with sub := if a.fixed then a.sub else 0 }) = dig t 0 := by
    intro t
    induction t with
    | nil => rfl
    | cons a t ih =>
      rw [List.map_cons, ih]
      obtain ⟨s, i, x, f⟩ := a
      cases f <;> simp [dig]
  induction l generalizing f with
  | nil => simp [findFirst] at hf
  | cons a t ih =>
    by_cases hx : a.fixed
    · simp only [findFirst, hx, if_true, Option.map_eq_some_iff] at hf
      obtain ⟨g, hg, rfl⟩ := hf
      simp only [size, hx, if_true] at hpos
      have := ih g hg hpos
      obtain ⟨s, i, x, f⟩ := a
      simp only at hx
      subst hx
      simp only [List.map_cons, setEnd, this, dig, size, if_true]
    · simp only [Bool.not_eq_true] at hx
      simp only [findFirst, hx, Bool.false_eq_true, if_false, Option.some.injEq] at hf
      subst hf
      simp only [size, hx, Bool.false_eq_true, if_false] at hpos
      have hm : 0 < size t := Nat.pos_of_mul_pos_left hpos
      simp only [setEnd, key, dig, size, hx, Bool.false_eq_true, if_false,
        Nat.mul_div_cancel _ hm, Nat.mul_mod_left, Nat.zero_mod]

theorem visits_eq (it : SubIt) (hw : WF it.axes) (hf : findFirst it.axes = some it.first)
    (hpos : 0 < size it.axes) (extra : Nat) :
    it.visits (size it.axes + extra) = some ((List.range (size it.axes)).map (sub it.axes)) := by
  have hb : it.begin = some ⟨dig it.axes 0, it.first⟩ := by
    simp only [SubIt.begin, begin_dig _ hw, findFirst_dig, hf, Option.map_some]
  have he : it.end = some ⟨dig it.axes (size it.axes), it.first⟩ := by
    simp only [SubIt.end, end_dig _ _ hf hpos, findFirst_dig, hf, Option.map_some]
  simp only [SubIt.visits, hb, he]
  rw [loop_dig _ _ hf (size it.axes) 0 extra (by simp), List.range_eq_range']

theorem rangeMap_pairwise (l : List Axis) :
    ((List.range (size l)).map (sub l)).Pairwise (· < ·) := by
  rw [List.pairwise_map]
  refine List.Pairwise.imp_of_mem ?_ List.pairwise_lt_range
  intro a b _ hb h
  exact sub_lt l a b h (List.mem_range.1 hb)

theorem mem_rangeMap (l : List Axis) (x : List Nat) :
    x ∈ (List.range (size l)).map (sub l) ↔ List.Forall₂ Ok l x := by
  simp only [List.mem_map, List.mem_range]
  constructor
  · rintro ⟨k, hk, rfl⟩; exact sub_ok l k hk
  · intro h; obtain ⟨k, hk, rfl⟩ := ok_sub l x h; exact ⟨k, hk, rfl⟩

end Brille.Subscript

namespace Brille.Subscript
open Brille.Spec

theorem size_mkShape_pos (shape : List Nat) (h : ∀ s ∈ shape, 0 < s) :
    0 < size (mkShape shape).axes := by
  induction shape with
  | nil => simp [mkShape, size]
  | cons a t ih =>
    have h1 := ih (fun s hs => h s (List.mem_cons_of_mem _ hs))
    have h2 := h a List.mem_cons_self
    simp only [mkShape, List.map_cons, size, Bool.false_eq_true, if_false] at h1 ⊢
    exact Nat.mul_pos h2 h1

theorem wf_mkShape (shape : List Nat) : WF (mkShape shape).axes := by
  intro a ha hf
  simp only [mkShape, List.mem_map] at ha
  obtain ⟨s, _, rfl⟩ := ha
  simp at hf

theorem findFirst_mkShape (a : Nat) (t : List Nat) :
    findFirst (mkShape (a :: t)).axes = some 0 := by
  simp [mkShape, findFirst]

theorem ok_mkShape (shape x : List Nat) :
    List.Forall₂ Ok (mkShape shape).axes x ↔ InRange shape x := by
  induction shape generalizing x with
  | nil => cases x <;> simp [mkShape, InRange]
  | cons a t ih =>
    cases x with
    | nil => simp [mkShape, InRange]
    | cons y ys =>
      have := ih ys
      simp only [mkShape, InRange] at this ⊢
      simp only [List.map_cons, List.forall₂_cons, Ok, Bool.false_eq_true, if_false]
      rw [← this]

theorem size_fixedAxes_pos (shape inpt : List Nat) (h : ∀ s ∈ shape, 0 < s) :
    0 < size (fixedAxes shape inpt) := by
  induction shape generalizing inpt with
  | nil => simp [fixedAxes, size]
  | cons a t ih =>
    cases inpt with
    | nil => simp [fixedAxes, size]
    | cons i is =>
      have h1 := ih is (fun s hs => h s (List.mem_cons_of_mem _ hs))
      have h2 := h a List.mem_cons_self
      simp only [fixedAxes, List.zipWith_cons_cons, size] at h1 ⊢
      split
      · exact h1
      · exact Nat.mul_pos h2 h1

theorem wf_fixedAxes (shape inpt : List Nat) : WF (fixedAxes shape inpt) := by
  induction shape generalizing inpt with
  | nil => intro a ha; simp [fixedAxes] at ha
  | cons a t ih =>
    cases inpt with
    | nil => intro a ha; simp [fixedAxes] at ha
    | cons i is =>
      intro b hb hf
      simp only [fixedAxes, List.zipWith_cons_cons, List.mem_cons] at hb
      rcases hb with rfl | hb
      · simp only at hf; simp [hf]
      · exact ih is b hb hf

theorem ok_fixedAxes (shape inpt x : List Nat) (hl : shape.length = inpt.length) :
    List.Forall₂ Ok (fixedAxes shape inpt) x ↔ Agrees shape inpt x := by
  induction shape generalizing inpt x with
  | nil =>
    cases inpt with
    | nil => cases x <;> simp [fixedAxes, Agrees]
    | cons i is => simp at hl
  | cons a t ih =>
    cases inpt with
    | nil => simp at hl
    | cons i is =>
      cases x with
      | nil => simp [fixedAxes, Agrees]
      | cons y ys =>
        have := ih is ys (by simpa using hl)
        simp only [fixedAxes, List.zipWith_cons_cons, List.forall₂_cons, Agrees] at this ⊢
        rw [this]
        by_cases h : i < a <;> simp [Ok, isFixed, h]

/-! ### broadcasting -/

def toAxis (b : BAxis) : Axis := ⟨b.sO, 0, b.iO, false⟩

/-- invariant of a broadcasting axis -/
def BInv (b : BAxis) : Prop :=
  b.i0 = (if b.s0 > 1 then b.iO else 0) ∧ b.i1 = (if b.s1 > 1 then b.iO else 0)

theorem binc_proj : ∀ (l : List BAxis) (dim : Nat),
    (bincLoop dim l).1.map toAxis = (incLoop 0 dim (l.map toAxis)).1 ∧
    (bincLoop dim l).2 = (incLoop 0 dim (l.map toAxis)).2
  | [], _ => by simp [bincLoop, incLoop]
  | a :: t, dim => by
    obtain ⟨h1, h2⟩ := binc_proj t (dim + 1)
    simp only [bincLoop, List.map_cons, incLoop]
    rw [← h2, ← h1]
    cases hg : (bincLoop (dim + 1) t).2
    · simp
    · simp only [Bool.not_true, Bool.false_eq_true, if_false, toAxis]
      by_cases hc : (decide (dim > 0) && a.iO + 1 == a.sO) = true
      · simp [hc, toAxis]
      · simp only [hc]; simp [toAxis]

theorem binc_inv : ∀ (l : List BAxis) (dim : Nat), (∀ b ∈ l, BInv b) →
    ∀ b ∈ (bincLoop dim l).1, BInv b
  | [], _, _ => by simp [bincLoop]
  | a :: t, dim, h => by
    have ih := binc_inv t (dim + 1) (fun b hb => h b (List.mem_cons_of_mem _ hb))
    have ha := h a List.mem_cons_self
    intro b hb
    simp only [bincLoop] at hb
    split at hb
    · rcases List.mem_cons.1 hb with rfl | hb
      · exact ha
      · exact ih b hb
    · split at hb
      · rcases List.mem_cons.1 hb with rfl | hb
        · simp [BInv]
        · exact ih b hb
      · rcases List.mem_cons.1 hb with rfl | hb
        · obtain ⟨h0, h1⟩ := ha
          constructor
          · simp only [h0]; split <;> simp
          · simp only [h1]; split <;> simp
        · exact ih b hb

theorem binc_shapes : ∀ (l : List BAxis) (dim : Nat),
    (bincLoop dim l).1.map (fun b => (b.s0, b.s1, b.sO)) = l.map (fun b => (b.s0, b.s1, b.sO))
  | [], _ => by simp [bincLoop]
  | a :: t, dim => by
    have ih := binc_shapes t (dim + 1)
    simp only [bincLoop]
    split
    · simp [ih]
    · split <;> simp [ih]

theorem toAxis_sub (l : List BAxis) : (l.map toAxis).map (·.sub) = l.map (·.iO) := by
  simp [toAxis, Function.comp_def]

/-- the triple is determined by the outer subscript -/
theorem btriple_eq (l : List BAxis) (h : ∀ b ∈ l, BInv b)
    (h0 : ∀ b ∈ l, 0 < b.s0) (h1 : ∀ b ∈ l, 0 < b.s1) :
    btriple l = (l.map (·.iO), pin (l.map (·.s0)) (l.map (·.iO)),
      pin (l.map (·.s1)) (l.map (·.iO))) := by
  induction l with
  | nil => rfl
  | cons a t ih =>
    have hh := ih (fun b hb => h b (List.mem_cons_of_mem _ hb))
      (fun b hb => h0 b (List.mem_cons_of_mem _ hb)) (fun b hb => h1 b (List.mem_cons_of_mem _ hb))
    have ha := h a List.mem_cons_self
    have ha0 := h0 a List.mem_cons_self
    have ha1 := h1 a List.mem_cons_self
    simp only [btriple, Prod.mk.injEq, pin] at hh ⊢
    obtain ⟨_, hh2, hh3⟩ := hh
    refine ⟨trivial, ?_, ?_⟩
    · rw [List.map_cons, hh2, List.map_cons, List.map_cons, List.zipWith_cons_cons, ha.1]
      congr 1
      by_cases hs : a.s0 = 1
      · simp [hs]
      · rw [if_pos (by omega), if_neg hs]
    · rw [List.map_cons, hh3, List.map_cons, List.map_cons, List.zipWith_cons_cons, ha.2]
      congr 1
      by_cases hs : a.s1 = 1
      · simp [hs]
      · rw [if_pos (by omega), if_neg hs]

theorem bloop_eq (stop : List BAxis) (sa sb : List Nat) (f : Nat) :
    ∀ (fuel : Nat) (x : List BAxis), (∀ b ∈ x, BInv b) → x.map (·.s0) = sa → x.map (·.s1) = sb →
      (∀ s ∈ sa, 0 < s) → (∀ s ∈ sb, 0 < s) →
    bloopFrom stop fuel x =
      (loopFrom ⟨stop.map toAxis, f⟩ fuel ⟨x.map toAxis, 0⟩).map
        (·.map fun o => (o, pin sa o, pin sb o))
  | 0, x, _, _, _, _, _ => by
    simp only [bloopFrom, loopFrom, SubIt.eq, SubIt.deref, toAxis_sub]
    split <;> simp
  | fuel + 1, x, hinv, hsa, hsb, hp0, hp1 => by
    simp only [bloopFrom, loopFrom, SubIt.eq, SubIt.deref, toAxis_sub]
    split
    · simp
    · have hsh := binc_shapes x 0
      have e0 : (bincLoop 0 x).1.map (·.s0) = sa := by
        have := congrArg (List.map (·.1)) hsh
        simpa [List.map_map, Function.comp_def, hsa] using this
      have e1 : (bincLoop 0 x).1.map (·.s1) = sb := by
        have := congrArg (List.map (·.2.1)) hsh
        simpa [List.map_map, Function.comp_def, hsb] using this
      rw [bloop_eq stop sa sb f fuel _ (binc_inv x 0 hinv) e0 e1 hp0 hp1]
      have : SubIt.next ⟨x.map toAxis, 0⟩ = ⟨(bincLoop 0 x).1.map toAxis, 0⟩ := by
        simp only [SubIt.next, (binc_proj x 0).1]
      rw [this]
      have ht : btriple x = (x.map (·.iO), pin sa (x.map (·.iO)), pin sb (x.map (·.iO))) := by
        rw [btriple_eq x hinv, hsa, hsb]
        · intro b hb; exact hp0 _ (hsa ▸ List.mem_map_of_mem (f := (·.s0)) hb)
        · intro b hb; exact hp1 _ (hsb ▸ List.mem_map_of_mem (f := (·.s1)) hb)
      rw [ht]
      cases loopFrom _ fuel _ <;> simp

theorem mkBroadcast_isSome (sa sb : List Nat) :
    (mkBroadcast sa sb).isSome ↔ Compatible sa sb := by
  induction sa generalizing sb with
  | nil => cases sb <;> simp [mkBroadcast, Compatible]
  | cons a as ih =>
    cases sb with
    | nil => simp [mkBroadcast, Compatible]
    | cons b bs =>
      have := ih bs
      simp only [mkBroadcast, Compatible, List.forall₂_cons] at this ⊢
      by_cases h : a = b ∨ a = 1 ∨ b = 1
      · have hc : ¬ ((a != b && a != 1 && b != 1) = true) := by
          simp only [Bool.and_eq_true, bne_iff_ne, not_and_or]; tauto
        rw [if_neg hc]
        simpa [h] using this
      · have hc : ((a != b && a != 1 && b != 1) = true) := by
          simp only [Bool.and_eq_true, bne_iff_ne]; tauto
        rw [if_pos hc]
        simp [h]

theorem mkBroadcast_spec (sa sb : List Nat) (l : List BAxis) (h : mkBroadcast sa sb = some l) :
    l.map (·.s0) = sa ∧ l.map (·.s1) = sb ∧ l.map (·.sO) = List.zipWith max sa sb ∧
      bbegin l = l ∧ ∀ b ∈ l, b.i0 = 0 ∧ b.i1 = 0 ∧ b.iO = 0 := by
  induction sa generalizing sb l with
  | nil =>
    cases sb with
    | nil => simp [mkBroadcast] at h; subst h; simp [bbegin]
    | cons b bs => simp [mkBroadcast] at h
  | cons a as ih =>
    cases sb with
    | nil => simp [mkBroadcast] at h
    | cons b bs =>
      simp only [mkBroadcast] at h
      split at h
      · simp at h
      · obtain ⟨l', hl', rfl⟩ := Option.map_eq_some_iff.1 h
        obtain ⟨h1, h2, h3, h4, h5⟩ := ih bs l' hl'
        refine ⟨by simp [h1], by simp [h2], ?_, ?_, ?_⟩
        · simp only [List.map_cons, List.zipWith_cons_cons, h3, List.cons.injEq, and_true]
          by_cases hab : a < b
          · rw [if_pos hab, max_eq_right hab.le]
          · rw [if_neg hab, max_eq_left (by omega)]
        · simp only [bbegin, List.map_cons, List.cons.injEq] at h4 ⊢
          exact ⟨trivial, h4⟩
        · intro c hc
          rcases List.mem_cons.1 hc with rfl | hc
          · simp
          · exact h5 c hc

end Brille.Subscript

namespace Brille.Subscript
open Brille.Spec

theorem size_mkShape_cons (a : Nat) (t : List Nat) :
    size (mkShape (a :: t)).axes = a * size (mkShape t).axes := by
  simp [mkShape, size]

theorem foldr_eq_size (t : List Nat) : t.foldr (· * ·) 1 = size (mkShape t).axes := by
  induction t with
  | nil => simp [mkShape, size]
  | cons a t ih => rw [size_mkShape_cons, List.foldr_cons, ih]

theorem lin2subRow_eq (shape : List Nat) (k : Nat) :
    lin2subRow k (rowStride shape) = sub (mkShape shape).axes k := by
  induction shape generalizing k with
  | nil => simp [rowStride, lin2subRow, sub, mkShape, dig]
  | cons a t ih =>
    have e : (mkShape (a :: t)).axes = ⟨a, 0, 0, false⟩ :: (mkShape t).axes := by simp [mkShape]
    rw [rowStride, lin2subRow, e, sub_cons_free rfl, foldr_eq_size, ih]
    congr 2
    have := Nat.div_add_mod k (size (mkShape t).axes)
    rw [mul_comm] at this
    omega

theorem sub2lin_sub (shape : List Nat) (k : Nat) (hk : k < size (mkShape shape).axes) :
    sub2lin (sub (mkShape shape).axes k) (rowStride shape) = some k := by
  induction shape generalizing k with
  | nil => simp [mkShape, size] at hk; subst hk; simp [sub, dig, mkShape, sub2lin]
  | cons a t ih =>
    have e : (mkShape (a :: t)).axes = ⟨a, 0, 0, false⟩ :: (mkShape t).axes := by simp [mkShape]
    rw [size_mkShape_cons] at hk
    have hm : 0 < size (mkShape t).axes := by
      rcases Nat.eq_zero_or_pos (size (mkShape t).axes) with h | h
      · rw [h] at hk; simp at hk
      · exact h
    rw [rowStride, e, sub_cons_free rfl, sub2lin, ih _ (Nat.mod_lt _ hm), foldr_eq_size]
    simp [Nat.div_add_mod']

theorem rowStride_last (a : Nat) (t : List Nat) :
    (rowStride (a :: t)).getLast (by simp [rowStride]) = 1 := by
  induction t generalizing a with
  | nil => simp [rowStride]
  | cons b t ih =>
    have := ih b
    simp only [rowStride] at this ⊢
    rw [List.getLast_cons (by simp)]
    exact this

theorem lin2sub_row (shape : List Nat) (hpos : ∀ s ∈ shape, 0 < s) (k : Nat)
    (hk : k < size (mkShape shape).axes) :
    lin2sub k (rowStride shape) = sub (mkShape shape).axes k := by
  match shape, hpos with
  | [], _ => simp [rowStride, lin2sub, sub, mkShape, dig]
  | [a], _ =>
    simp [rowStride, lin2sub, sub, mkShape, dig, size]
  | a :: b :: t, hpos =>
    have hl := rowStride_last a (b :: t)
    rw [← lin2subRow_eq]
    have hsz : 0 < size (mkShape (b :: t)).axes :=
      size_mkShape_pos _ (fun s hs => hpos s (List.mem_cons_of_mem _ hs))
    have hh : ∃ x y ys, rowStride (a :: b :: t) = x :: y :: ys ∧ 0 < x := by
      refine ⟨_, _, _, rfl, ?_⟩
      rw [foldr_eq_size]; exact hsz
    obtain ⟨x, y, ys, hxy, hx⟩ := hh
    simp only [hxy] at hl ⊢
    simp only [lin2sub]
    rw [if_neg]
    rw [hl]; omega

end Brille.Subscript
