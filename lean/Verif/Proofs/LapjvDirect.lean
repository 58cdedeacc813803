/-
Proofs about the Jonker-Volgenant solver when every column has one cheapest row and these rows are all
different: the column reduction already is the solution.
-/
import Mathlib.Logic.Equiv.Defs
import Verif.Model.Lapjv

namespace Brille.Lapjv

variable {n : Nat} {K : Type} [NeZero n] [Field K] [LinearOrder K]

omit [NeZero n] [Field K] in
theorem colMin_fold (c : Fin n → Fin n → K) (j k : Fin n) (h : ∀ i, i ≠ k → c k j < c i j) :
    ∀ (l : List (Fin n)) (m : Fin n), (k ∈ l ∨ m = k) →
      l.foldl (fun (m : K × Fin n) i => if c i j < m.1 then (c i j, i) else m) (c m j, m) = (c k j, k) := by
  intro l
  induction l with
  | nil => intro m hm; simp at hm; simp [hm]
  | cons a l ih =>
    intro m hm
    rw [List.foldl_cons]
    by_cases hmk : m = k
    · subst hmk
      have : ¬ c a j < c m j := by
        by_cases ha : a = m
        · subst ha; exact lt_irrefl _
        · exact not_lt.mpr (h a ha).le
      rw [if_neg this]
      exact ih m (Or.inr rfl)
    · by_cases hak : a = k
      · subst hak
        rw [if_pos (h m hmk)]
        exact ih a (Or.inr rfl)
      · have hl : k ∈ l := by
          rcases hm with hm | hm
          · rcases List.mem_cons.mp hm with e | e
            · exact absurd e.symm hak
            · exact e
          · exact absurd hm hmk
        split
        · exact ih a (Or.inl hl)
        · exact ih m (Or.inl hl)

omit [Field K] in
theorem colMin_eq (c : Fin n → Fin n → K) (j k : Fin n) (h : ∀ i, i ≠ k → c k j < c i j) :
    colMin c j = (c k j, k) := by
  refine colMin_fold c j k h _ 0 ?_
  by_cases h0 : (0 : Fin n) = k
  · exact Or.inr h0
  · left
    have hk : k ∈ List.finRange n := List.mem_finRange k
    obtain ⟨m, rfl⟩ : ∃ m, n = m + 1 := ⟨n - 1, by have := NeZero.ne n; omega⟩
    rw [List.finRange_succ] at hk ⊢
    rcases List.mem_cons.mp hk with e | e
    · exact absurd e.symm h0
    · exact e

/-- after the columns `l` -/
structure Reduced (σ : Equiv.Perm (Fin n)) (l : List (Fin n)) (s : Red n K) : Prop where
  nmatch : ∀ j, s.nmatch (σ j) = if j ∈ l then 1 else 0
  row : ∀ j, j ∈ l → s.rowsol (σ j) = some j
  col : ∀ j, j ∈ l → s.colsol j = some (σ j)

theorem columnStep_reduced (c : Fin n → Fin n → K) (σ : Equiv.Perm (Fin n))
    (h : ∀ i j, i ≠ σ j → c (σ j) j < c i j) {l : List (Fin n)} {s : Red n K} (hs : Reduced σ l s)
    {j : Fin n} (hj : j ∉ l) : Reduced σ (j :: l) (columnStep c s j) := by
  have hm := colMin_eq c j (σ j) fun i hi => h i j hi
  have hn : put s.nmatch (σ j) (s.nmatch (σ j) + 1) (σ j) = 1 := by
    simp [put, hs.nmatch, hj]
  unfold columnStep
  simp only [hm, hn, if_true]
  refine ⟨fun k => ?_, fun k hk => ?_, fun k hk => ?_⟩
  · by_cases hkj : k = j
    · subst hkj; simp [put, hs.nmatch, hj]
    · simp [put, hs.nmatch, hkj]
  · by_cases hkj : k = j
    · subst hkj; simp [put]
    · have hk' : k ∈ l := by simpa [hkj] using hk
      simp [put, hkj, hs.row k hk']
  · by_cases hkj : k = j
    · subst hkj; simp [put]
    · have hk' : k ∈ l := by simpa [hkj] using hk
      simp [put, hkj, hs.col k hk']

theorem columnSteps_reduced (c : Fin n → Fin n → K) (σ : Equiv.Perm (Fin n))
    (h : ∀ i j, i ≠ σ j → c (σ j) j < c i j) : ∀ (m l : List (Fin n)) (s : Red n K), Reduced σ l s →
      m.Nodup → (∀ j ∈ m, j ∉ l) → Reduced σ (m.reverse ++ l) (m.foldl (columnStep c) s) := by
  intro m
  induction m with
  | nil => intro l s hs _ _; simpa using hs
  | cons a m ih =>
    intro l s hs hn hd
    rw [List.nodup_cons] at hn
    have h1 := columnStep_reduced c σ h hs (hd a (by simp))
    have h2 := ih (a :: l) _ h1 hn.2 (by
      intro j hj hjl
      rcases List.mem_cons.mp hjl with e | e
      · subst e; exact hn.1 hj
      · exact hd j (by simp [hj]) e)
    simpa using h2

theorem columnReduction_reduced (c : Fin n → Fin n → K) (σ : Equiv.Perm (Fin n))
    (h : ∀ i j, i ≠ σ j → c (σ j) j < c i j) : Reduced σ (List.finRange n) (columnReduction c) := by
  have := columnSteps_reduced c σ h (List.finRange n).reverse []
    { v := fun _ => 0, nmatch := fun _ => 0, rowsol := fun _ => none, colsol := fun _ => none }
    ⟨by simp, by simp, by simp⟩ (by simpa using List.nodup_finRange n) (by simp)
  simpa [columnReduction] using this

theorem transferFold_some (c : Fin n → Fin n → K) (eps : K) (v : Fin n → K) (i j1 : Fin n) :
    ∀ (l : List (Fin n)) (m : Option K), (m ≠ none ∨ ∃ j ∈ l, j ≠ j1) →
      l.foldl (transferMin c eps v i j1) m ≠ none := by
  intro l
  induction l with
  | nil => intro m hm; simpa using hm
  | cons a l ih =>
    intro m hm
    rw [List.foldl_cons]
    apply ih
    by_cases ha : a = j1
    · subst ha
      rcases hm with hm | ⟨j, hj, hj1⟩
      · left; simpa [transferMin] using hm
      · right
        rcases List.mem_cons.mp hj with e | e
        · exact absurd e hj1
        · exact ⟨j, e, hj1⟩
    · left
      unfold transferMin
      rw [if_pos ha]
      cases m with
      | none => simp
      | some x => dsimp only; split <;> simp

theorem transfer_reduced (c : Fin n → Fin n → K) (eps : K) (σ : Equiv.Perm (Fin n)) (hn : 2 ≤ n)
    {s : Red n K} (hs : Reduced σ (List.finRange n) s) : ∀ (l : List (Fin n)) (v : Fin n → K),
      ∃ v', transfer c eps s l v [] = some (v', []) := by
  intro l
  induction l with
  | nil => intro v; exact ⟨v, rfl⟩
  | cons i l ih =>
    intro v
    have h1 : s.nmatch i = 1 := by
      have := hs.nmatch (σ.symm i)
      simpa using this
    have h2 : s.rowsol i = some (σ.symm i) := by
      have := hs.row (σ.symm i) (List.mem_finRange _)
      simpa using this
    have h3 : (List.finRange n).foldl (transferMin c eps v i (σ.symm i)) none ≠ none := by
      apply transferFold_some
      right
      obtain ⟨j, hj⟩ : ∃ j : Fin n, j ≠ σ.symm i := by
        by_cases h0 : σ.symm i = ⟨0, by omega⟩
        · exact ⟨⟨1, by omega⟩, by rw [h0]; simp [Fin.ext_iff]⟩
        · exact ⟨⟨0, by omega⟩, fun e => h0 e.symm⟩
      exact ⟨j, List.mem_finRange _, hj⟩
    obtain ⟨x, hx⟩ := Option.ne_none_iff_exists'.mp h3
    obtain ⟨v', hv'⟩ := ih (put v (σ.symm i) (v (σ.symm i) - x))
    refine ⟨v', ?_⟩
    rw [transfer, h1, h2]
    simp only [one_ne_zero, if_false, if_true]
    rw [hx]
    exact hv'

theorem lapjvMain_direct (c : Fin n → Fin n → K) (σ : Equiv.Perm (Fin n)) (hn : 2 ≤ n)
    (h : ∀ i j, i ≠ σ j → c (σ j) j < c i j) (fuel : Nat) :
    ∃ r, lapjvMain c (fuel + 1) = some r ∧ (∀ i, r.rowsol i = some (σ.symm i)) ∧
      ∀ j, r.colsol j = some (σ j) := by
  have hr := columnReduction_reduced c σ h
  obtain ⟨v, hv⟩ := transfer_reduced c (epsilon c) σ hn hr (List.finRange n) (columnReduction c).v
  refine ⟨⟨(columnReduction c).rowsol, (columnReduction c).colsol, v⟩, ?_, fun i => ?_, fun j => ?_⟩
  · unfold lapjvMain
    simp [hv, arrTwice, arrLoop, augment]
  · have := hr.row (σ.symm i) (List.mem_finRange _)
    simpa using this
  · exact hr.col j (List.mem_finRange _)

omit [NeZero n] in
theorem lapjv_direct (c : Fin n → Fin n → K) (σ : Equiv.Perm (Fin n))
    (h : ∀ i j, i ≠ σ j → c (σ j) j < c i j) (fuel : Nat) :
    ∃ r, lapjv c (fuel + 1) = some r ∧ (∀ i, r.rowsol i = some (σ.symm i)) ∧
      ∀ j, r.colsol j = some (σ j) := by
  match n, c, σ, h with
  | 0, c, σ, h => exact ⟨_, rfl, fun i => i.elim0, fun i => i.elim0⟩
  | 1, c, σ, h =>
    refine ⟨_, rfl, fun i => ?_, fun i => ?_⟩ <;> exact congrArg some (Subsingleton.elim _ _)
  | m + 2, c, σ, h => exact lapjvMain_direct c σ (by omega) h fuel

end Brille.Lapjv
