import Verif.Model.MoveInto
import Mathlib.Tactic.Ring
import Mathlib.Tactic.Linarith
import Mathlib.Tactic.FieldSimp
import Mathlib.Tactic.Positivity
import Mathlib.Logic.Function.Iterate

namespace Brille.Move

theorem round_le (x : ℚ) (h : 0 < round x) : (round x : ℚ) - 1 / 2 ≤ x := by
  unfold round at h ⊢
  by_cases h0 : 0 ≤ x
  · rw [if_pos h0]
    have := Int.floor_le (x + 1 / 2)
    linarith
  · rw [if_neg h0] at h
    have h1 : (0 : ℤ) < ⌈x - 1 / 2⌉ := h
    rw [Int.lt_ceil] at h1
    push_cast at h1
    linarith

theorem round_nonpos (x : ℚ) (h : round x ≤ 0) : x < 1 / 2 := by
  unfold round at h
  by_cases h0 : 0 ≤ x
  · rw [if_pos h0] at h
    have : ⌊x + 1 / 2⌋ < 1 := by omega
    rw [Int.floor_lt] at this
    push_cast at this
    linarith
  · linarith

/-- The nearest integer, whatever the sign. -/
theorem round_near (x : ℚ) : |x - round x| ≤ 1 / 2 := by
  unfold round
  rw [abs_le]
  by_cases h0 : 0 ≤ x
  · rw [if_pos h0]
    have h1 := Int.floor_le (x + 1 / 2)
    have h2 := Int.lt_floor_add_one (x + 1 / 2)
    constructor <;> linarith
  · rw [if_neg h0]
    have h1 := Int.le_ceil (x - 1 / 2)
    have h2 := Int.ceil_lt_add_one (x - 1 / 2)
    constructor <;> linarith

theorem turn_sum (z : Zone) (s : St) (i : Fin 3) :
    (turn z s).q i + (turn z s).tau i = s.q i + s.tau i := by
  unfold turn
  split
  · push_cast; ring
  · rfl

/-- The loop is some number of turns, at most the number of faces; it goes on while the point is outside and
stops early only inside. -/
theorem loop_iterate (z : Zone) : ∀ (n : Nat) (s : St), ∃ k ≤ n, loop z n s = (turn z)^[k] s ∧
    (∀ i < k, z.inside ((turn z)^[i] s).q = false) ∧ (k < n → z.inside ((turn z)^[k] s).q = true) := by
  intro n
  induction n with
  | zero => intro s; exact ⟨0, le_refl _, rfl, by omega, by omega⟩
  | succ n ih =>
    intro s
    by_cases h : z.inside s.q = true
    · refine ⟨0, by omega, ?_, by omega, fun _ => h⟩
      show (if z.inside s.q = true then s else loop z n (turn z s)) = _
      rw [if_pos h]; rfl
    · obtain ⟨k, hk, e, h1, h2⟩ := ih (turn z s)
      refine ⟨k + 1, by omega, ?_, ?_, fun hl => h2 (by omega)⟩
      · show (if z.inside s.q = true then s else loop z n (turn z s)) = _
        rw [if_neg h, e]; rfl
      · intro i hi
        cases i with
        | zero => simpa using h
        | succ i => exact h1 i (by omega)

theorem iterate_sum (z : Zone) (k : Nat) (s : St) (i : Fin 3) :
    ((turn z)^[k] s).q i + ((turn z)^[k] s).tau i = s.q i + s.tau i := by
  induction k generalizing s with
  | zero => rfl
  | succ k ih => rw [Function.iterate_succ_apply, ih, turn_sum]

theorem movePrim_sum (z : Zone) (Q : Pt) (i : Fin 3) : (movePrim z Q).1 i + (movePrim z Q).2 i = Q i := by
  unfold movePrim
  dsimp only
  obtain ⟨k, _, e, _⟩ := loop_iterate z z.taus.length
    { q := fun i => Q i - round (Q i), tau := fun i => round (Q i), last := fun i => round (Q i) }
  rw [e, iterate_sum]
  ring

/-- What the selection of a face gives: if some face has a positive multiple then the one selected has, and the
multiple is the one of the face. -/
theorem choose_inv (z : Zone) (s : St) (l : List Nat) (m : ℤ × Nat)
    (hm : m.1 = 0 ∨ (0 < m.1 ∧ m.1 = nhkl z s.q m.2)) :
    (((l.foldl (chooseStep z s) m).1 = 0 ∨ (0 < (l.foldl (chooseStep z s) m).1 ∧
      (l.foldl (chooseStep z s) m).1 = nhkl z s.q (l.foldl (chooseStep z s) m).2)) ∧
     ((l.foldl (chooseStep z s) m).2 = m.2 ∨ (l.foldl (chooseStep z s) m).2 ∈ l) ∧
     ((0 < m.1 ∨ ∃ j ∈ l, 0 < nhkl z s.q j) → 0 < (l.foldl (chooseStep z s) m).1)) := by
  induction l generalizing m with
  | nil =>
    refine ⟨hm, Or.inl rfl, ?_⟩
    rintro (h | ⟨j, hj, _⟩)
    · exact h
    · exact absurd hj List.not_mem_nil
  | cons j l ih =>
    rw [List.foldl_cons]
    have hstep : (chooseStep z s m j = m ∨ chooseStep z s m j = (nhkl z s.q j, j)) ∧
        (chooseStep z s m j = m → 0 < m.1 ∨ ¬ 0 < nhkl z s.q j) ∧
        (chooseStep z s m j = (nhkl z s.q j, j) → chooseStep z s m j = m ∨ 0 < nhkl z s.q j) := by
      unfold chooseStep
      split
      · rename_i h
        refine ⟨Or.inr rfl, ?_, fun _ => Or.inr h.1⟩
        intro e
        left; rw [← e]; exact h.1
      · rename_i h
        refine ⟨Or.inl rfl, ?_, fun _ => Or.inl rfl⟩
        intro _
        by_contra hc
        push Not at hc
        apply h
        rcases hm with h0 | ⟨h0, _⟩
        · exact ⟨hc.2, by omega, Or.inl h0⟩
        · omega
    rcases hstep with ⟨h1, h2, h3⟩
    by_cases e : chooseStep z s m j = m
    · rw [e]
      obtain ⟨a, b, c⟩ := ih m hm
      refine ⟨a, b.imp id (List.mem_cons_of_mem _), ?_⟩
      intro h
      apply c
      rcases h2 e with h4 | h4
      · exact Or.inl h4
      · rcases h with h | ⟨i, hi, hp⟩
        · exact Or.inl h
        · rcases List.mem_cons.mp hi with rfl | hi
          · exact absurd hp h4
          · exact Or.inr ⟨i, hi, hp⟩
    · have e' := h1.resolve_left e
      have hp : 0 < nhkl z s.q j := (h3 e').resolve_left e
      rw [e']
      obtain ⟨a, b, c⟩ := ih (nhkl z s.q j, j) (Or.inr ⟨hp, rfl⟩)
      refine ⟨a, Or.inr ?_, fun _ => c (Or.inl hp)⟩
      rcases b with b | b
      · rw [b]; exact List.mem_cons_self
      · exact List.mem_cons_of_mem _ b

theorem choose_spec (z : Zone) (s : St) (h : ∃ j < z.taus.length, 0 < nhkl z s.q j) :
    (choose z s).2 < z.taus.length ∧ 0 < (choose z s).1 ∧ (choose z s).1 = nhkl z s.q (choose z s).2 := by
  obtain ⟨j, hj, hp⟩ := h
  obtain ⟨a, b, c⟩ := choose_inv z s (List.range z.taus.length) (0, 0) (Or.inl rfl)
  have hpos := c (Or.inr ⟨j, List.mem_range.mpr hj, hp⟩)
  refine ⟨?_, hpos, ?_⟩
  · rcases b with b | b
    · unfold choose; rw [b]; show 0 < _; omega
    · exact List.mem_range.mp b
  · rcases a with a | a
    · unfold choose; omega
    · exact a.2

end Brille.Move
