import Verif.Model.Interpolate
import Verif.Spec.Interpolate
import Mathlib.Tactic.Ring
import Mathlib.Tactic.Linarith

namespace Brille.Interp
open Brille.Spec

theorem mapM_some {α β : Type} (f : α → Option β) (g : α → β) (l : List α)
    (h : ∀ x ∈ l, f x = some (g x)) : l.mapM f = some (l.map g) := by
  induction l with
  | nil => rfl
  | cons a l ih =>
    rw [List.mapM_cons, h a (by simp), ih (fun x hx => h x (by simp [hx]))]
    rfl

theorem runAdds_apply {K : Type} [AddMonoid K] (l : List (Nat × K)) (o : Nat → K) (k : Nat) :
    runAdds o l k = o k + (l.map fun e => if e.1 = k then e.2 else 0).sum := by
  induction l generalizing o with
  | nil => simp [runAdds]
  | cons e l ih =>
    obtain ⟨j, x⟩ := e
    rw [runAdds, ih, List.map_cons, List.sum_cons, addAt]
    by_cases h : k = j
    · simp [h, add_assoc]
    · have : ¬ j = k := fun h' => h h'.symm
      simp [h, this]

theorem sum_range_single {K : Type} [AddMonoid K] (n a : Nat) (f : Nat → K) :
    ((List.range n).map fun s => if s = a then f s else 0).sum = if a < n then f a else 0 := by
  induction n with
  | zero => simp
  | succ n ih =>
    rw [List.range_succ, List.map_append, List.sum_append, ih]
    by_cases h1 : a < n
    · have : n ≠ a := by omega
      have h2 : a < n + 1 := by omega
      simp [h1, this, h2]
    · by_cases h3 : n = a
      · subst h3; simp
      · have h2 : ¬ a < n + 1 := by omega
        simp [h1, h3, h2]

theorem sum_flatten_map {α K : Type} [AddMonoid K] (ll : List (List α)) (f : α → K) :
    ((ll.flatten).map f).sum = (ll.map fun l => (l.map f).sum).sum := by
  induction ll with
  | nil => rfl
  | cons l ll ih =>
    simp only [List.flatten_cons, List.map_append, List.sum_append, ih, List.map_cons, List.sum_cons]

theorem pos_inj {S b b' s s' : Nat} (hs : s < S) (hs' : s' < S) :
    b * S + s = b' * S + s' ↔ b = b' ∧ s = s' := by
  constructor
  · intro h
    have h1 : (b * S + s) / S = (b' * S + s') / S := by rw [h]
    have hS : 0 < S := by omega
    rw [Nat.mul_comm b, Nat.mul_comm b', Nat.mul_add_div hS, Nat.mul_add_div hS,
      Nat.div_eq_of_lt hs, Nat.div_eq_of_lt hs'] at h1
    have : b = b' := by omega
    subst this
    exact ⟨rfl, by omega⟩
  · rintro ⟨rfl, rfl⟩; rfl

section
variable {K : Type} [Semiring K]

theorem spanAdds_sum (d : Data K) (w e : K) (dx : Nat → K) (b p b' s' : Nat) (hs' : s' < d.span) :
    ((spanAdds d w e dx b p).map fun x => if x.1 = b' * d.span + s' then x.2 else 0).sum =
      if b = b' then w * e * dx (p * d.span + s') else 0 := by
  rw [spanAdds, List.map_map]
  have : ((List.range d.span).map ((fun x : Nat × K => if x.1 = b' * d.span + s' then x.2 else 0) ∘
      fun s => (b * d.span + s, w * e * dx (p * d.span + s)))) =
      (List.range d.span).map fun s => if s = s' then
        (if b = b' then w * e * dx (p * d.span + s) else 0) else 0 := by
    apply List.map_congr_left
    intro s hs
    rw [List.mem_range] at hs
    simp only [Function.comp, pos_inj hs hs']
    by_cases h1 : b = b' <;> by_cases h2 : s = s' <;> simp [h1, h2]
  rw [this, sum_range_single d.span s' fun s => if b = b' then w * e * dx (p * d.span + s) else 0,
    if_pos hs']

theorem spanAdds_bound (d : Data K) (w e : K) (dx : Nat → K) (b p : Nat) (hb : b < d.branches) :
    ∀ x ∈ spanAdds d w e dx b p, x.1 < d.branches * d.span := by
  intro x hx
  simp only [spanAdds, List.mem_map, List.mem_range] at hx
  obtain ⟨s, hs, rfl⟩ := hx
  have : (b + 1) * d.span ≤ d.branches * d.span := Nat.mul_le_mul_right _ hb
  have h2 : (b + 1) * d.span = b * d.span + d.span := by ring
  show b * d.span + s < _
  omega

/-- the factor in front of one vertex' mode -/
def factor (d : Data K) (phase : Nat → (Nat → K) → (Nat → K) → K) (d0 dx : Nat → K) (perm : List Nat)
    (b : Nat) : K :=
  phase d.span (fun k => d0 (b * d.span + k)) (fun k => dx (perm.getD b 0 * d.span + k))

theorem branchAdds_spec (d : Data K) (phase : Nat → (Nat → K) → (Nat → K) → K) (perm : List Nat) (w : K)
    (d0 dx : Nat → K) (hp : ModeMap d.branches perm) :
    ∃ l, branchAdds d phase perm w d0 dx = some l ∧
      (∀ b s, b < d.branches → s < d.span →
        (l.map fun x => if x.1 = b * d.span + s then x.2 else 0).sum =
          w * factor d phase d0 dx perm b * dx (perm.getD b 0 * d.span + s)) ∧
      ∀ x ∈ l, x.1 < d.branches * d.span := by
  obtain ⟨hlen, hlt⟩ := hp
  have hm := mapM_some (branchAddsAt d phase perm w d0 dx)
      (fun b => spanAdds d w (factor d phase d0 dx perm b) dx b (perm.getD b 0)) (List.range d.branches)
      (by
        intro b hb
        rw [List.mem_range, ← hlen] at hb
        have h1 : perm[b] < d.branches := hlt _ (List.getElem_mem hb)
        simp [branchAddsAt, hb, h1, factor, List.getD_eq_getElem?_getD])
  refine ⟨_, by rw [branchAdds, hm]; rfl, ?_, ?_⟩
  · intro b s hb hs
    rw [sum_flatten_map, List.map_map]
    have : ((fun l : List (Nat × K) => (l.map fun x => if x.1 = b * d.span + s then x.2 else 0).sum) ∘
        fun b => spanAdds d w (factor d phase d0 dx perm b) dx b (perm.getD b 0)) = fun b' =>
        if b' = b then w * factor d phase d0 dx perm b' * dx (perm.getD b' 0 * d.span + s) else 0 := by
      funext b'
      simp only [Function.comp]
      rw [spanAdds_sum _ _ _ _ _ _ _ _ hs]
    rw [this, sum_range_single d.branches b, if_pos hb]
  · intro x hx
    simp only [List.mem_flatten, List.mem_map, List.mem_range] at hx
    obtain ⟨l, ⟨b, hb, rfl⟩, hx⟩ := hx
    exact spanAdds_bound d _ _ _ _ _ hb x hx

theorem vertexAdds_spec (d : Data K) (phase : Nat → (Nat → K) → (Nat → K) → K) (d0 : Nat → K)
    (perms : List (List Nat)) (iw : List (Nat × K)) (hl : iw.length ≤ perms.length)
    (hp : ∀ p ∈ perms, ModeMap d.branches p) :
    ∃ l, vertexAdds d phase d0 perms iw = some l ∧
      (∀ b s, b < d.branches → s < d.span →
        (l.map fun x => if x.1 = b * d.span + s then x.2 else 0).sum =
          ((perms.zip iw).map fun x => x.2.2 * factor d phase d0 (d.row x.2.1) x.1 b *
            d.row x.2.1 (x.1.getD b 0 * d.span + s)).sum) ∧
      ∀ x ∈ l, x.1 < d.branches * d.span := by
  induction iw generalizing perms with
  | nil => cases perms <;> exact ⟨[], by rw [vertexAdds], by simp, by simp⟩
  | cons x xs ih =>
    cases perms with
    | nil => simp at hl
    | cons p ps =>
      obtain ⟨l1, h1, h2, h3⟩ := branchAdds_spec d phase p x.2 d0 (d.row x.1) (hp p (by simp))
      obtain ⟨l2, g1, g2, g3⟩ := ih ps (by simpa using hl) (fun q hq => hp q (by simp [hq]))
      refine ⟨l1 ++ l2, by rw [vertexAdds, h1, g1], ?_, ?_⟩
      · intro b s hb hs
        rw [List.map_append, List.sum_append, h2 b s hb hs, g2 b s hb hs]
        simp
      · intro e he
        rw [List.mem_append] at he
        exact he.elim (h3 e) (g3 e)

theorem mixAdds_spec (d : Data K) (phase : Nat → (Nat → K) → (Nat → K) → K)
    (perms : List (List Nat)) (i0 : Nat) (w0 : K) (iw : List (Nat × K))
    (hl : iw.length + 1 ≤ perms.length) (hp : ∀ p ∈ perms, ModeMap d.branches p) :
    ∃ l, mixAdds d phase perms ((i0, w0) :: iw) = some l ∧
      (∀ b s, b < d.branches → s < d.span →
        (l.map fun x => if x.1 = b * d.span + s then x.2 else 0).sum =
          ((perms.zip ((i0, w0) :: iw)).map fun x =>
            x.2.2 * factor d phase (d.row i0) (d.row x.2.1) x.1 b *
            d.row x.2.1 (x.1.getD b 0 * d.span + s)).sum) ∧
      ∀ x ∈ l, x.1 < d.branches * d.span := by
  exact vertexAdds_spec d phase (d.row i0) perms ((i0, w0) :: iw) (by simpa using hl) hp

theorem runAdds_outside (l : List (Nat × K)) (o : Nat → K) (k m : Nat) (h : ∀ x ∈ l, x.1 < m)
    (hk : m ≤ k) : runAdds o l k = o k := by
  rw [runAdds_apply]
  have : (l.map fun e => if e.1 = k then e.2 else 0) = l.map fun _ => 0 := by
    apply List.map_congr_left
    intro e he
    have := h e he
    rw [if_neg (by omega)]
  rw [this]; simp

/-- closed form of `mix` -/
theorem mix_spec (d : Data K) (phase : Nat → (Nat → K) → (Nat → K) → K)
    (perms : List (List Nat)) (i0 : Nat) (w0 : K) (iw : List (Nat × K)) (o : Nat → K)
    (hl : iw.length + 1 ≤ perms.length) (hp : ∀ p ∈ perms, ModeMap d.branches p) :
    ∃ r, mix d phase perms ((i0, w0) :: iw) o = some r ∧
      (∀ b s, b < d.branches → s < d.span →
        r (b * d.span + s) = o (b * d.span + s) + ((perms.zip ((i0, w0) :: iw)).map fun x =>
            x.2.2 * factor d phase (d.row i0) (d.row x.2.1) x.1 b *
            d.row x.2.1 (x.1.getD b 0 * d.span + s)).sum) ∧
      ∀ k, d.branches * d.span ≤ k → r k = o k := by
  obtain ⟨l, h1, h2, h3⟩ := mixAdds_spec d phase perms i0 w0 iw hl hp
  refine ⟨runAdds o l, by rw [mix, h1]; rfl, ?_, ?_⟩
  · intro b s hb hs
    rw [runAdds_apply, h2 b s hb hs]
  · intro k hk
    exact runAdds_outside l o k _ h3 hk

end

end Brille.Interp
