import Verif.Proofs.Approx

/-! C46: selecting unique rows of an array. -/
namespace Brille.Props
open Brille.Approx

/-- **C46 (is_unique).** A row is flagged unique exactly when it differs from every earlier row. -/
theorem C46_is_unique {β : Type} (neq : β → β → Bool) (rows : List β) :
    (isUnique neq rows).length = rows.length ∧
    ∀ (i : Nat) (x : β), rows[i]? = some x →
      ((isUnique neq rows)[i]? = some true ↔ ∀ (j : Nat) (y : β), j < i → rows[j]? = some y → neq x y = true) := by
  refine ⟨by simp [isUnique], ?_⟩
  intro i x hx
  have hi : i < rows.length := by
    by_contra hc
    rw [List.getElem?_eq_none (by omega)] at hx
    exact absurd hx (by simp)
  simp only [isUnique, List.getElem?_map, List.getElem?_range hi, Option.map_some, hx,
    Option.some.injEq, List.all_eq_true]
  constructor
  · intro h j y hj hy
    apply h
    rw [List.mem_iff_getElem?]
    exact ⟨j, by rw [List.getElem?_take_of_lt hj, hy]⟩
  · intro h y hy
    rw [List.mem_iff_getElem?] at hy
    obtain ⟨j, hj⟩ := hy
    rw [List.getElem?_take] at hj
    split at hj
    · next hlt => exact h j y hlt hj
    · exact absurd hj (by simp)

theorem isUnique_append {β : Type} (neq : β → β → Bool) (rows : List β) (x : β) :
    isUnique neq (rows ++ [x]) = isUnique neq rows ++ [rows.all fun y => neq x y] := by
  simp only [isUnique, List.length_append, List.length_singleton, List.range_succ, List.map_append,
    List.map_cons, List.map_nil, List.getElem?_concat_length, List.take_left]
  congr 1
  apply List.map_congr_left
  intro i hi
  rw [List.mem_range] at hi
  rw [List.getElem?_append_left hi, List.take_append_of_le_length (by omega)]

theorem unique_append {β : Type} (neq : β → β → Bool) (rows : List β) (x : β) :
    unique neq (rows ++ [x]) = unique neq rows ++ (if rows.all (fun y => neq x y) then [x] else []) := by
  unfold unique
  rw [isUnique_append, List.zip_append (by simp [isUnique])]
  simp only [List.filter_append, List.map_append]
  congr 1
  cases h : rows.all (fun y => neq x y) <;> simp [h]

/-- **C46 (unique).** The result keeps the order of the rows, no two rows in it are equal, and when row
equality is an equivalence relation every original row is equal to one of them. -/
theorem C46_unique {β : Type} (eq : β → β → Bool) (rows : List β) :
    (unique (fun x y => !eq x y) rows).Sublist rows ∧
    (unique (fun x y => !eq x y) rows).Pairwise (fun x y => eq y x = false) ∧
    ((∀ x, eq x x = true) → (∀ x y z, eq x y = true → eq y z = true → eq x z = true) →
      ∀ x ∈ rows, ∃ y ∈ unique (fun x y => !eq x y) rows, eq x y = true) := by
  induction rows using List.reverseRecOn with
  | nil => simp [unique]
  | append_singleton rows x ih =>
    obtain ⟨h1, h2, h3⟩ := ih
    rw [unique_append]
    refine ⟨?_, ?_, ?_⟩
    · apply List.Sublist.append h1
      split
      · exact List.Sublist.refl _
      · exact List.nil_sublist _
    · rw [List.pairwise_append]
      refine ⟨h2, ?_, ?_⟩
      · split <;> simp
      · intro a ha b hb
        split at hb
        · next hall =>
          rw [List.mem_singleton] at hb
          subst hb
          rw [List.all_eq_true] at hall
          simpa using hall a (h1.subset ha)
        · exact absurd hb (by simp)
    · intro hrefl htrans y hy
      rw [List.mem_append] at hy
      rcases hy with hy | hy
      · obtain ⟨z, hz, he⟩ := h3 hrefl htrans y hy
        exact ⟨z, List.mem_append_left _ hz, he⟩
      · rw [List.mem_singleton] at hy
        subst hy
        by_cases hall : rows.all (fun z => !eq y z) = true
        · exact ⟨y, by simp [hall], hrefl y⟩
        · rw [List.all_eq_true] at hall
          push Not at hall
          obtain ⟨z, hz, he⟩ := hall
          obtain ⟨w, hw, hew⟩ := h3 hrefl htrans z hz
          exact ⟨w, List.mem_append_left _ hw, htrans _ _ _ (by simpa using he) hew⟩

example : unique (fun x y : Nat => !(x == y)) [3, 1, 3, 2, 1] = [3, 1, 2] := by decide

/-- **C46 fails** for approximate equality, which is not transitive: in a chain where each row is within
tolerance of its predecessor, a row may be dropped although no kept row is equal to it; and
`unique_idx` disagrees with `unique` about which rows are representatives. -/
theorem C46_unique_chain_counterexample :
    let eq := fun x y : ℚ => scalar .double .double x y 0 0 1
    let rows : List ℚ := [0, 5 / 10 ^ 15, 10 / 10 ^ 15]
    unique (fun x y => !eq x y) rows = [0] ∧ eq (10 / 10 ^ 15) 0 = false ∧
      uniqueIdx eq rows = [0, 0, 2] := by
  have m : ∀ a b : ℚ, scalar .double .double a b 0 0 1 =
      decide (|a - b| ≤ 5 / 10 ^ 15 + 10 ^ 4 / 2 ^ 52 * |a + b|) := by
    intro a b
    have e1 : absTol .double 0 = 5 / 10 ^ 15 := by norm_num [absTol, Num.five]
    have e2 : relTol .double 0 1 = 10 ^ 4 / 2 ^ 52 := by norm_num [relTol, Num.eps, tolMult]
    rw [scalar_eq]
    simp only [Num.isInt, within, e1, e2, Bool.false_eq_true, if_false]
    rw [Bool.or_eq_left_iff_imp]
    intro h
    rw [decide_eq_true_eq] at h ⊢
    have h0 : (Num.double.min : ℚ) ≤ 5 / 10 ^ 15 := min_double_le.trans (by norm_num)
    have : 0 ≤ (10 : ℚ) ^ 4 / 2 ^ 52 * |a + b| := by positivity
    linarith
  have e1 : scalar .double .double (5 / 10 ^ 15) 0 0 0 1 = true := by
    rw [m]; norm_num [abs_of_pos, abs_of_neg]
  have e2 : scalar .double .double (10 / 10 ^ 15) (5 / 10 ^ 15) 0 0 1 = true := by
    rw [m]; norm_num [abs_of_pos, abs_of_neg]
  have e3 : scalar .double .double (10 / 10 ^ 15) 0 0 0 1 = false := by
    rw [m]; norm_num [abs_of_pos, abs_of_neg]
  refine ⟨?_, e3, ?_⟩
  · simp [unique, isUnique, List.range_succ, e1, e2, e3]
  · simp [uniqueIdx, uniqueIdx.go, List.range_succ, e1, e2, e3]

/-- Invariant of the loop of `unique_idx`. -/
structure UInv {β : Type} (eq : β → β → Bool) (seen : List β) (out : List Nat) : Prop where
  len : out.length = seen.length
  rep : ∀ i r : Nat, out[i]? = some r → r ≤ i ∧ out[r]? = some r ∧
    (r = i ∨ ∃ x y, seen[i]? = some x ∧ seen[r]? = some y ∧ eq x y = true)
  sep : ∀ (i j : Nat) (x y : β), out[i]? = some i → out[j]? = some j → j < i → seen[i]? = some x →
    seen[j]? = some y → eq x y = false

theorem uniqueIdx_go {β : Type} (eq : β → β → Bool) : ∀ (todo seen : List β) (out : List Nat),
    UInv eq seen out → UInv eq (seen ++ todo) (uniqueIdx.go eq seen todo out)
  | [], seen, out, h => by simpa [uniqueIdx.go] using h
  | x :: xs, seen, out, h => by
    have hassoc : seen ++ x :: xs = (seen ++ [x]) ++ xs := by simp
    rw [uniqueIdx.go, hassoc]
    apply uniqueIdx_go eq xs
    have hz : ∀ (j : Nat) (y : β), (j, y) ∈ (List.range seen.length).zip seen ↔ seen[j]? = some y := by
      intro j y
      rw [List.mem_iff_getElem?]
      constructor
      · rintro ⟨k, hk⟩
        rw [List.getElem?_zip_eq_some] at hk
        obtain ⟨h1, h2⟩ := hk
        obtain ⟨h3, h4⟩ := List.getElem?_eq_some_iff.1 h1
        simp at h4
        subst h4
        exact h2
      · intro hj
        obtain ⟨h3, _⟩ := List.getElem?_eq_some_iff.1 hj
        refine ⟨j, ?_⟩
        rw [List.getElem?_zip_eq_some]
        exact ⟨List.getElem?_range h3, hj⟩
    have lt_of : ∀ {γ : Type} (l : List γ) (i : Nat) (c : γ), l[i]? = some c → i < l.length := by
      intro γ l i c hc
      exact (List.getElem?_eq_some_iff.1 hc).1
    have hl := h.len
    cases hf : ((List.range seen.length).zip seen).find?
        (fun (j, y) => decide (out[j]? = some j) && eq x y) with
    | none =>
      rw [List.find?_eq_none] at hf
      simp only [Option.map_none, Option.getD_none]
      refine ⟨by simp [hl], ?_, ?_⟩
      · intro i r hi
        rcases lt_or_ge i out.length with hlt | hge
        · rw [List.getElem?_append_left hlt] at hi
          obtain ⟨a, b, c⟩ := h.rep i r hi
          refine ⟨a, ?_, ?_⟩
          · rw [List.getElem?_append_left (lt_of _ _ _ b)]; exact b
          · rcases c with c | ⟨u, v, hu, hv, he⟩
            · exact Or.inl c
            · refine Or.inr ⟨u, v, ?_, ?_, he⟩
              · rw [List.getElem?_append_left (lt_of _ _ _ hu)]; exact hu
              · rw [List.getElem?_append_left (lt_of _ _ _ hv)]; exact hv
        · have : i = out.length := by
            have := lt_of _ _ _ hi
            simp at this; omega
          subst this
          simp at hi
          subst hi
          exact ⟨by omega, by rw [← hl]; simp, Or.inl hl.symm⟩
      · intro i j u v hi hj hji hu hv
        have hj' : j < seen.length := by
          have := lt_of _ _ _ hi
          simp at this; omega
        rw [List.getElem?_append_left (by omega)] at hj
        rw [List.getElem?_append_left hj'] at hv
        rcases lt_or_ge i seen.length with hlt | hge
        · rw [List.getElem?_append_left (by omega)] at hi
          rw [List.getElem?_append_left hlt] at hu
          exact h.sep i j u v hi hj hji hu hv
        · have : i = seen.length := by
            have := lt_of _ _ _ hu
            simp at this; omega
          subst this
          simp at hu
          subst hu
          have := hf (j, v) ((hz j v).2 hv)
          simpa [hj] using this
    | some p =>
      obtain ⟨j0, y0⟩ := p
      have hp := List.find?_some hf
      have hmem := (hz j0 y0).1 (List.mem_of_find?_eq_some hf)
      simp only [Bool.and_eq_true, decide_eq_true_eq] at hp
      simp only [Option.map_some, Option.getD_some]
      have hj0 := lt_of _ _ _ hmem
      refine ⟨by simp [hl], ?_, ?_⟩
      · intro i r hi
        rcases lt_or_ge i out.length with hlt | hge
        · rw [List.getElem?_append_left hlt] at hi
          obtain ⟨a, b, c⟩ := h.rep i r hi
          refine ⟨a, ?_, ?_⟩
          · rw [List.getElem?_append_left (lt_of _ _ _ b)]; exact b
          · rcases c with c | ⟨u, v, hu, hv, he⟩
            · exact Or.inl c
            · refine Or.inr ⟨u, v, ?_, ?_, he⟩
              · rw [List.getElem?_append_left (lt_of _ _ _ hu)]; exact hu
              · rw [List.getElem?_append_left (lt_of _ _ _ hv)]; exact hv
        · have : i = out.length := by
            have := lt_of _ _ _ hi
            simp at this; omega
          subst this
          simp at hi
          subst hi
          refine ⟨by omega, ?_, Or.inr ⟨x, y0, ?_, ?_, hp.2⟩⟩
          · rw [List.getElem?_append_left (by omega)]; exact hp.1
          · rw [hl]; simp
          · rw [List.getElem?_append_left hj0]; exact hmem
      · intro i j u v hi hj hji hu hv
        have hilt : i < seen.length := by
          by_contra hc
          have : i = out.length := by
            have := lt_of _ _ _ hi
            simp at this; omega
          subst this
          simp at hi
          omega
        rw [List.getElem?_append_left (by omega)] at hi hj
        rw [List.getElem?_append_left (by omega)] at hu hv
        exact h.sep i j u v hi hj hji hu hv

/-- **C46 (unique_idx).** Each row is given an index not above its own; that index is its own
representative; the row equals its representative; and two different representatives are unequal.
This holds for every row comparison, transitive or not. -/
theorem C46_unique_idx {β : Type} (eq : β → β → Bool) (hrefl : ∀ x, eq x x = true) (rows : List β) :
    (uniqueIdx eq rows).length = rows.length ∧
    (∀ i r : Nat, (uniqueIdx eq rows)[i]? = some r → r ≤ i ∧ (uniqueIdx eq rows)[r]? = some r ∧
      ∃ x y, rows[i]? = some x ∧ rows[r]? = some y ∧ eq x y = true) ∧
    (∀ (i j : Nat) (x y : β), (uniqueIdx eq rows)[i]? = some i → (uniqueIdx eq rows)[j]? = some j → j < i →
      rows[i]? = some x → rows[j]? = some y → eq x y = false) := by
  have h := uniqueIdx_go eq rows [] [] ⟨rfl, by simp, by simp⟩
  rw [List.nil_append] at h
  refine ⟨h.len, ?_, h.sep⟩
  intro i r hi
  obtain ⟨a, b, c⟩ := h.rep i r hi
  refine ⟨a, b, ?_⟩
  rcases c with rfl | c
  · have : r < rows.length := by rw [← h.len]; exact (List.getElem?_eq_some_iff.1 hi).1
    exact ⟨rows[r], rows[r], List.getElem?_eq_getElem this, List.getElem?_eq_getElem this, hrefl _⟩
  · exact c

example : uniqueIdx (fun x y : Nat => x == y) [3, 1, 3, 2, 1] = [0, 1, 0, 3, 1] := by decide

end Brille.Props
