/-
Proofs about the table of space groups.
-/
import Verif.Model.SpgDb
import Verif.Proofs.SpgKeys
import Mathlib.Tactic.Common

namespace Brille.Spg

theorem scan_some {p : Row → Bool} : ∀ {rows : List Row} {i k : Nat}, scan p i rows = some k →
    i ≤ k ∧ k < i + rows.length ∧ (∃ r, rows[k - i]? = some r ∧ p r = true) ∧
      ∀ j, i ≤ j → j < k → ∀ r, rows[j - i]? = some r → p r = false := by
  intro rows
  induction rows with
  | nil => intro i k h; simp [scan] at h
  | cons r rows ih =>
    intro i k h
    rw [scan] at h
    by_cases hp : p r = true
    · rw [if_pos hp] at h
      cases h
      refine ⟨Nat.le_refl _, by simp, ⟨r, by simp, hp⟩, fun j h1 h2 => by omega⟩
    · rw [if_neg hp] at h
      obtain ⟨h1, h2, ⟨r', h3, h4⟩, h5⟩ := ih h
      refine ⟨by omega, by simp only [List.length_cons]; omega, ⟨r', ?_, h4⟩, ?_⟩
      · have : k - i = (k - (i + 1)) + 1 := by omega
        rw [this, List.getElem?_cons_succ]; exact h3
      · intro j hj hj' r'' hr
        by_cases hji : j = i
        · subst hji
          simp at hr
          subst hr
          simpa using hp
        · have : j - i = (j - (i + 1)) + 1 := by omega
          rw [this, List.getElem?_cons_succ] at hr
          exact h5 j (by omega) hj' r'' hr

theorem scan_none {p : Row → Bool} : ∀ {rows : List Row} {i : Nat}, scan p i rows = none →
    ∀ r ∈ rows, p r = false := by
  intro rows
  induction rows with
  | nil => simp
  | cons r rows ih =>
    intro i h
    rw [scan] at h
    by_cases hp : p r = true
    · rw [if_pos hp] at h; simp at h
    · rw [if_neg hp] at h
      intro r' hr'
      rcases List.mem_cons.mp hr' with rfl | hr'
      · simpa using hp
      · exact ih h r' hr'

theorem table_length : table.length = 531 := by decide +kernel

theorem table_tail (j : Nat) : table.tail[j]? = table[j + 1]? := by
  rw [List.getElem?_tail]

theorem row_eq {j : Nat} (hj : j < 531) : table[j]? = some (row j) := by
  have : j < table.length := by rw [table_length]; exact hj
  rw [row, List.getD_eq_getElem?_getD, List.getElem?_eq_getElem this]; rfl

theorem mem_rows {r : Row} (h : r ∈ table.tail) : ∃ j, 1 ≤ j ∧ j ≤ 530 ∧ row j = r := by
  obtain ⟨j, hj, rfl⟩ := List.getElem_of_mem h
  have hl : table.tail.length = 530 := by rw [List.length_tail, table_length]
  refine ⟨j + 1, by omega, by omega, ?_⟩
  have h1 := row_eq (j := j + 1) (by omega)
  rw [← table_tail, List.getElem?_eq_getElem hj] at h1
  exact (Option.some.inj h1).symm

theorem rows_mem {j : Nat} (h1 : 1 ≤ j) (h2 : j ≤ 530) : row j ∈ table.tail := by
  have h := row_eq (j := j) (by omega)
  have : j = (j - 1) + 1 := by omega
  rw [this, ← table_tail] at h
  rw [show row j = row (j - 1 + 1) by rw [← this]]
  exact List.mem_of_getElem? h

theorem search_some {p : Row → Bool} {k : Nat} (h : search p = some k) :
    1 ≤ k ∧ k ≤ 530 ∧ p (row k) = true ∧ ∀ j, 1 ≤ j → j < k → p (row j) = false := by
  obtain ⟨h1, h2, ⟨r, h3, h4⟩, h5⟩ := scan_some h
  rw [List.length_tail, table_length] at h2
  have e : ∀ j, 1 ≤ j → j ≤ 530 → table.tail[j - 1]? = some (row j) := by
    intro j hj hj'
    rw [table_tail, show j - 1 + 1 = j by omega, row_eq (by omega)]
  refine ⟨h1, by omega, ?_, fun j hj hj' => h5 j hj hj' _ (e j hj (by omega))⟩
  rw [e k h1 (by omega)] at h3
  cases h3; exact h4

theorem search_none {p : Row → Bool} (h : search p = none) : ∀ j, 1 ≤ j → j ≤ 530 → p (row j) = false :=
  fun _ h1 h2 => scan_none h _ (rows_mem h1 h2)

/-- what holds at every place of the table, checked at every place -/
theorem all_rows {P : Nat → Row → Prop} [∀ i r, Decidable (P i r)]
    (h : ((table.zipIdx).tail.all fun x => decide (P x.2 x.1)) = true) : ∀ j, 1 ≤ j → j ≤ 530 → P j (row j) := by
  intro j h1 h2
  have hj : (table.zipIdx).tail[j - 1]? = some (row j, j) := by
    rw [List.getElem?_tail, List.getElem?_zipIdx, show j - 1 + 1 = j by omega, row_eq (by omega)]
    simp
  have := List.all_eq_true.mp h _ (List.mem_of_getElem? hj)
  simpa using this

/-- a number for a string; nothing depends on different strings having different numbers -/
def key (s : String) : Nat := s.toByteArray.data.toList.foldl (fun a c => a * 256 + c.toNat) 1

theorem Tree.all_find {α : Type} {p : List α → Bool} (h0 : p [] = true) : ∀ {t : Tree α}, t.all p = true →
    ∀ k, p (t.find k) = true := by
  intro t
  induction t with
  | leaf => intro _ k; exact h0
  | node key val l r ihl ihr =>
    intro h k
    rw [Tree.all, Bool.and_eq_true, Bool.and_eq_true] at h
    rw [Tree.find]
    cases Nat.beq k key <;> cases Nat.blt k key <;> simp only [cond_true, cond_false]
    · exact ihr h.2.2 k
    · exact ihl h.2.1 k
    · exact h.1
    · exact h.1

theorem names_cover (j : Nat) (h1 : 1 ≤ j) (h2 : j ≤ 530) :
    (j, (row j).number, key (row j).choice) ∈ namesTree.find (key (row j).international) ∧
    (j, (row j).number, key (row j).choice) ∈ namesTree.find (key (row j).full) ∧
    (j, (row j).number, key (row j).choice) ∈ namesTree.find (key (row j).short) :=
  all_rows (P := fun j r => (j, r.number, key r.choice) ∈ namesTree.find (key r.international) ∧
    (j, r.number, key r.choice) ∈ namesTree.find (key r.full) ∧
    (j, r.number, key r.choice) ∈ namesTree.find (key r.short)) (by decide +kernel) j h1 h2

theorem halls_cover (j : Nat) (h1 : 1 ≤ j) (h2 : j ≤ 530) : j ∈ hallsTree.find (key (row j).hallSymbol) ∧
    ∀ e ∈ namesTree.find (key (row j).hallSymbol), e.2.1 = (row j).number := by
  have := all_rows (P := fun j r => j ∈ hallsTree.find (key r.hallSymbol) ∧
    ((namesTree.find (key r.hallSymbol)).all fun e => decide (e.2.1 = r.number)) = true)
    (by decide +kernel) j h1 h2
  exact ⟨this.1, fun e he => of_decide_eq_true (List.all_eq_true.mp this.2 e he)⟩

/-- rows that share a name are of one space group and have different choices; the later one has a choice -/
theorem names_runs (k : Nat) : ∀ a ∈ namesTree.find k, ∀ b ∈ namesTree.find k,
    a.2.1 = b.2.1 ∧ (a.1 < b.1 → a.2.2 ≠ b.2.2 ∧ b.2.2 ≠ key "") := by
  have := Tree.all_find (p := fun l => l.all fun a => l.all fun b => decide (a.2.1 = b.2.1 ∧
    (a.1 < b.1 → a.2.2 ≠ b.2.2 ∧ b.2.2 ≠ key ""))) rfl (t := namesTree) (by decide +kernel) k
  intro a ha b hb
  exact of_decide_eq_true (List.all_eq_true.mp (List.all_eq_true.mp this a ha) b hb)

theorem halls_runs (k : Nat) : ∀ a ∈ hallsTree.find k, ∀ b ∈ hallsTree.find k,
    a < b → b = 324 ∨ b = 328 ∨ b = 332 := by
  have := Tree.all_find (p := fun l => l.all fun a => l.all fun b => decide (a < b → b = 324 ∨ b = 328 ∨ b = 332))
    rfl (t := hallsTree) (by decide +kernel) k
  intro a ha b hb
  exact of_decide_eq_true (List.all_eq_true.mp (List.all_eq_true.mp this a ha) b hb)

/-- rows with the same Hall symbol are of one space group -/
theorem halls_numbers {k a b : Nat} (ha : a ∈ hallsTree.find k) (hb : b ∈ hallsTree.find k) :
    (row a).number = (row b).number := by
  have := Tree.all_find (p := fun l => l.all fun a => l.all fun b => decide ((row a).number = (row b).number))
    rfl (t := hallsTree) (by decide +kernel) k
  exact of_decide_eq_true (List.all_eq_true.mp (List.all_eq_true.mp this a ha) b hb)

theorem nums_cover (j : Nat) (h1 : 1 ≤ j) (h2 : j ≤ 530) :
    ((row j).pointgroup, (row j).schoenflies) ∈ numsTree.find (row j).number ∧
    (row j).number ∈ schsTree.find (key (row j).schoenflies) :=
  all_rows (P := fun _ r => (r.pointgroup, r.schoenflies) ∈ numsTree.find r.number ∧
    r.number ∈ schsTree.find (key r.schoenflies)) (by decide +kernel) j h1 h2

theorem nums_runs (k : Nat) : (numsTree.find k).length ≤ 1 ∧ (schsTree.find k).length ≤ 1 :=
  ⟨of_decide_eq_true (Tree.all_find (p := fun l => decide (l.length ≤ 1)) rfl (t := numsTree) (by decide +kernel) k),
   of_decide_eq_true (Tree.all_find (p := fun l => decide (l.length ≤ 1)) rfl (t := schsTree) (by decide +kernel) k)⟩

theorem eq_of_short {α : Type} {l : List α} (h : l.length ≤ 1) {a b : α} (ha : a ∈ l) (hb : b ∈ l) : a = b := by
  match l, h with
  | [x], _ => rw [List.mem_singleton.mp ha, List.mem_singleton.mp hb]
  | [], _ => cases ha

end Brille.Spg
