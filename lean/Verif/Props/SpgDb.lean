/-
C17: the table of space groups and its lookups.
-/
import Verif.Proofs.SpgDb

namespace Brille.Props
open Brille.Spg

/-- **C17, rows.**  A Hall number is accepted exactly when it is one of 1 … 530; it then gives the row that carries
that number, and that row belongs to one of the 230 space groups and one of the 32 point groups.  Every other
number gives the empty row. -/
theorem C17_rows (h : Int) :
    (hallNumberOk h = true ↔ 1 ≤ h ∧ h ≤ 530) ∧
    (1 ≤ h → h ≤ 530 → ((ofHallNumber h).hallNumber : Int) = h ∧
      (1 ≤ (ofHallNumber h).number ∧ (ofHallNumber h).number ≤ 230) ∧
      (1 ≤ (ofHallNumber h).pointgroup ∧ (ofHallNumber h).pointgroup ≤ 32) ∧ (ofHallNumber h).hallSymbol ≠ "") ∧
    (¬ (1 ≤ h ∧ h ≤ 530) → ofHallNumber h = ⟨0, "", "", "", "", "", "", .none, 0, 0⟩) := by
  have ok : hallNumberOk h = true ↔ 1 ≤ h ∧ h ≤ 530 := by
    unfold hallNumberOk
    rw [Bool.and_eq_true, decide_eq_true_eq, decide_eq_true_eq]
    omega
  refine ⟨ok, fun h1 h2 => ?_, fun hn => ?_⟩
  · have := all_rows (P := fun i r => r.hallNumber = i ∧ (1 ≤ r.number ∧ r.number ≤ 230) ∧
      (1 ≤ r.pointgroup ∧ r.pointgroup ≤ 32) ∧ r.hallSymbol ≠ "") (by decide +kernel) h.toNat (by omega) (by omega)
    have e : ofHallNumber h = row h.toNat := by unfold ofHallNumber; rw [if_pos (ok.mpr ⟨h1, h2⟩)]
    rw [e]
    refine ⟨?_, this.2⟩
    rw [this.1]; omega
  · unfold ofHallNumber
    rw [if_neg (fun hk => hn (ok.mp hk))]
    rfl

example : 1 ≤ (523 : Int) ∧ (523 : Int) ≤ 530 ∧ (ofHallNumber 523).hallSymbol = "-F 4 2 3" ∧
    (ofHallNumber 523).number = 225 := by decide +kernel

/-- **C17, lookup by Hall symbol.**  For every string: the result is 0 when no row carries it, and otherwise it is
the first of the Hall numbers whose row does. -/
theorem C17_hall_symbol_lookup (s : String) :
    (hallSymbolToHallNumber s = 0 ∧ ∀ j, 1 ≤ j → j ≤ 530 → (row j).hallSymbol ≠ s) ∨
    (1 ≤ hallSymbolToHallNumber s ∧ hallSymbolToHallNumber s ≤ 530 ∧ (row (hallSymbolToHallNumber s)).hallSymbol = s ∧
      ∀ j, 1 ≤ j → j < hallSymbolToHallNumber s → (row j).hallSymbol ≠ s) := by
  unfold hallSymbolToHallNumber
  split
  · next k hk =>
    obtain ⟨h1, h2, h3, h4⟩ := search_some hk
    refine Or.inr ⟨h1, h2, (of_decide_eq_true h3).symm, fun j hj hj' he => ?_⟩
    have := h4 j hj hj'
    rw [he] at this; simp at this
  · next hk =>
    refine Or.inl ⟨rfl, fun j hj hj' he => ?_⟩
    have := search_none hk j hj hj'
    rw [he] at this; simp at this

example : hallSymbolToHallNumber "-F 4 2 3" = 523 ∧ hallSymbolToHallNumber "Q 1" = 0 := by decide +kernel

/-- **C17, round trip by Hall symbol.**  Looking up the Hall symbol of a row gives that row's number.
Missing: the rows 324, 328 and 332, see `C17_hall_symbol_round_trip_counterexample`. -/
theorem C17_hall_symbol_round_trip_partial (h : Nat) (h1 : 1 ≤ h) (h2 : h ≤ 530) (h3 : h ≠ 324) (h4 : h ≠ 328)
    (h5 : h ≠ 332) : hallSymbolToHallNumber (row h).hallSymbol = h := by
  rcases C17_hall_symbol_lookup (row h).hallSymbol with ⟨_, hn⟩ | ⟨k1, k2, k3, k4⟩
  · exact absurd rfl (hn h h1 h2)
  · generalize hallSymbolToHallNumber (row h).hallSymbol = k at *
    by_contra hne
    have hk : k < h := by
      by_contra hlt
      exact k4 h h1 (by omega) rfl
    have ck := (halls_cover k k1 k2).1
    rw [k3] at ck
    rcases halls_runs _ k ck h (halls_cover h h1 h2).1 hk with e | e | e <;> contradiction

/-- Three rows carry the Hall symbol of the row two before, and so cannot be found by it. -/
theorem C17_hall_symbol_round_trip_counterexample :
    hallSymbolToHallNumber (row 324).hallSymbol = 322 ∧ hallSymbolToHallNumber (row 328).hallSymbol = 326 ∧
      hallSymbolToHallNumber (row 332).hallSymbol = 330 ∧ (row 324).choice ≠ (row 322).choice := by decide +kernel

/-- **C17, lookup by number.**  For every number and every choice: the result is -1, or the first row with that
number (and choice, when one is given). -/
theorem C17_number_lookup (n : Int) (c : String) :
    (internationalNumberToHallNumber n c = -1 ∧
      (n = 230 ∨ ∀ j, 1 ≤ j → j ≤ 530 → ¬ (((row j).number : Int) = n ∧ (c = "" ∨ (row j).choice = c)))) ∨
    ∃ h : Nat, internationalNumberToHallNumber n c = h ∧ 1 ≤ h ∧ h ≤ 530 ∧
      (((row h).number : Int) = n ∧ (c = "" ∨ (row h).choice = c)) ∧
      ∀ j, 1 ≤ j → j < h → ¬ (((row j).number : Int) = n ∧ (c = "" ∨ (row j).choice = c)) := by
  have key : ∀ r : Row, (decide (n = r.number) && (decide (c.length = 0) || decide (c = r.choice))) = true ↔
      ((r.number : Int) = n ∧ (c = "" ∨ r.choice = c)) := by
    intro r
    simp only [Bool.and_eq_true, Bool.or_eq_true, decide_eq_true_eq, String.length_eq_zero_iff]
    constructor
    · rintro ⟨rfl, h | rfl⟩
      · exact ⟨rfl, Or.inl h⟩
      · exact ⟨rfl, Or.inr rfl⟩
    · rintro ⟨rfl, h | rfl⟩
      · exact ⟨rfl, Or.inl h⟩
      · exact ⟨rfl, Or.inr rfl⟩
  unfold internationalNumberToHallNumber
  by_cases hn : (decide (n ≥ 0) && decide (n < 230)) = true
  · rw [if_pos hn]
    split
    · next k hk =>
      obtain ⟨h1, h2, h3, h4⟩ := search_some hk
      refine Or.inr ⟨k, rfl, h1, h2, (key _).mp h3, fun j hj hj' he => ?_⟩
      rw [← key, h4 j hj hj'] at he
      exact Bool.noConfusion he
    · next hk =>
      refine Or.inl ⟨rfl, Or.inr fun j hj hj' he => ?_⟩
      have := search_none hk j hj hj'
      rw [← key, this] at he
      exact Bool.noConfusion he
  · rw [if_neg hn]
    refine Or.inl ⟨rfl, ?_⟩
    by_cases hn' : n = 230
    · exact Or.inl hn'
    · refine Or.inr fun j hj hj' he => ?_
      have h := (all_rows (P := fun _ r => 1 ≤ r.number ∧ r.number ≤ 230) (by decide +kernel) j hj hj')
      simp only [Bool.and_eq_true, decide_eq_true_eq] at hn
      omega

/-- every number of a space group occurs in the table -/
theorem numbers_occur : ∀ n < 230, ∃ r ∈ table.tail, r.number = n + 1 := by
  have : ((List.range 230).all fun n => table.tail.any fun r => decide (r.number = n + 1)) = true := by
    decide +kernel
  intro n hn
  have h := List.all_eq_true.mp this n (List.mem_range.mpr hn)
  obtain ⟨r, hr, he⟩ := List.any_eq_true.mp h
  exact ⟨r, hr, of_decide_eq_true he⟩

/-- **C17, every number is reachable.**  The numbers 1 … 229 give a row with that number.
Missing: the number 230, see `C17_number_230_counterexample`. -/
theorem C17_numbers_reachable_partial (n : Nat) (h1 : 1 ≤ n) (h2 : n < 230) :
    ∃ h : Nat, internationalNumberToHallNumber n "" = h ∧ 1 ≤ h ∧ h ≤ 530 ∧ (row h).number = n := by
  rcases C17_number_lookup n "" with ⟨h, hn | hn⟩ | ⟨h, e, h3, h4, h5, _⟩
  · omega
  · exfalso
    obtain ⟨r, hr, e⟩ := numbers_occur (n - 1) (by omega)
    obtain ⟨j, hj, hj', rfl⟩ := mem_rows hr
    exact hn j hj hj' ⟨by omega, Or.inl rfl⟩
  · exact ⟨h, e, h3, h4, by have := h5.1; omega⟩

/-- Space group 230 is in the table, but is never found by its number. -/
theorem C17_number_230_counterexample :
    (row 530).number = 230 ∧ ∀ c, internationalNumberToHallNumber 230 c = -1 := by
  refine ⟨by decide +kernel, fun c => ?_⟩
  simp [internationalNumberToHallNumber]

example : internationalNumberToHallNumber 227 "2" = 526 ∧ internationalNumberToHallNumber 227 "" = 525 := by
  decide +kernel

/-- A row has one of its three international names equal to `n`, and the choice `c` when one is given. -/
def Named (r : Row) (n c : String) : Prop :=
  (r.international = n ∨ r.full = n ∨ r.short = n) ∧ (c = "" ∨ r.choice = c)

/-- **C17, lookup by international name.**  For every name and choice: 0 when no row has them, otherwise the first
row that does. -/
theorem C17_name_lookup (n c : String) :
    (internationalStringToHallNumber n c = 0 ∧ ∀ j, 1 ≤ j → j ≤ 530 → ¬ Named (row j) n c) ∨
    (1 ≤ internationalStringToHallNumber n c ∧ internationalStringToHallNumber n c ≤ 530 ∧
      Named (row (internationalStringToHallNumber n c)) n c ∧
      ∀ j, 1 ≤ j → j < internationalStringToHallNumber n c → ¬ Named (row j) n c) := by
  have key : ∀ r : Row, ((decide (c.length = 0) || decide (c = r.choice)) &&
      (decide (n = r.international) || decide (n = r.full) || decide (n = r.short))) = true ↔ Named r n c := by
    intro r
    simp only [Bool.and_eq_true, Bool.or_eq_true, decide_eq_true_eq, String.length_eq_zero_iff, Named]
    rw [and_comm, or_assoc, @eq_comm _ r.international, @eq_comm _ r.full, @eq_comm _ r.short, @eq_comm _ r.choice]
  unfold internationalStringToHallNumber
  split
  · next k hk =>
    obtain ⟨h1, h2, h3, h4⟩ := search_some hk
    refine Or.inr ⟨h1, h2, (key _).mp h3, fun j hj hj' he => ?_⟩
    rw [← key, h4 j hj hj'] at he
    exact Bool.noConfusion he
  · next hk =>
    refine Or.inl ⟨rfl, fun j hj hj' he => ?_⟩
    have := search_none hk j hj hj'
    rw [← key, this] at he
    exact Bool.noConfusion he

theorem named_mem {h : Nat} (h1 : 1 ≤ h) (h2 : h ≤ 530) {n c : String} (hn : Named (row h) n c) :
    (h, (row h).number, key (row h).choice) ∈ namesTree.find (key n) := by
  have := names_cover h h1 h2
  rcases hn.1 with e | e | e
  · rw [← e]; exact this.1
  · rw [← e]; exact this.2.1
  · rw [← e]; exact this.2.2

/-- **C17, round trip by name.**  Each of the three names of a row, with the choice of the row, finds that row and
no other. -/
theorem C17_name_round_trip (h : Nat) (h1 : 1 ≤ h) (h2 : h ≤ 530) :
    internationalStringToHallNumber (row h).international (row h).choice = h ∧
    internationalStringToHallNumber (row h).full (row h).choice = h ∧
    internationalStringToHallNumber (row h).short (row h).choice = h := by
  have key : ∀ n, Named (row h) n (row h).choice → internationalStringToHallNumber n (row h).choice = h := by
    intro n hn
    rcases C17_name_lookup n (row h).choice with ⟨_, hz⟩ | ⟨k1, k2, k3, k4⟩
    · exact absurd hn (hz h h1 h2)
    · generalize internationalStringToHallNumber n (row h).choice = k at *
      by_contra hne
      have hk : k < h := by
        by_contra hlt
        exact k4 h h1 (by omega) hn
      have ck := named_mem k1 k2 k3
      have ch := named_mem h1 h2 hn
      have hq := (names_runs _ _ ck _ ch).2 hk
      rcases k3.2 with e | e
      · exact hq.2 (congrArg Spg.key e)
      · exact hq.1 (congrArg Spg.key e)
  exact ⟨key _ ⟨Or.inl rfl, Or.inr rfl⟩, key _ ⟨Or.inr (Or.inl rfl), Or.inr rfl⟩,
    key _ ⟨Or.inr (Or.inr rfl), Or.inr rfl⟩⟩

/-- **C17, a string that may be a Hall symbol or a name.**  A Hall symbol takes precedence; whatever of the four is
looked up, the row found is one of the same space group. -/
theorem C17_string_lookup (h : Nat) (h1 : 1 ≤ h) (h2 : h ≤ 530) :
    (∀ s ∈ [(row h).hallSymbol, (row h).international, (row h).full, (row h).short],
      (row (stringToHallNumber s (row h).choice)).number = (row h).number) ∧
    ∀ s c, stringToHallNumber s c =
      if hallSymbolToHallNumber s = 0 then internationalStringToHallNumber s c else hallSymbolToHallNumber s := by
  refine ⟨fun s hs => ?_, fun s c => rfl⟩
  unfold stringToHallNumber
  dsimp only
  rcases C17_hall_symbol_lookup s with ⟨hz, hn⟩ | ⟨k1, k2, k3, _⟩
  · rw [if_pos hz]
    have rt := C17_name_round_trip h h1 h2
    simp only [List.mem_cons, List.not_mem_nil, or_false] at hs
    rcases hs with e | e | e | e
    · exact absurd e.symm (hn h h1 h2)
    · rw [e, rt.1]
    · rw [e, rt.2.1]
    · rw [e, rt.2.2]
  · rw [if_neg (by omega)]
    generalize hallSymbolToHallNumber s = k at *
    have ck := halls_cover k k1 k2
    rw [k3] at ck
    have nm : Named (row h) s "" → (row k).number = (row h).number := fun hn =>
      (ck.2 _ (named_mem h1 h2 hn)).symm
    simp only [List.mem_cons, List.not_mem_nil, or_false] at hs
    rcases hs with e | e | e | e
    · by_cases hh : h = k
      · rw [hh]
      · have ch := (halls_cover h h1 h2).1
        rw [← e] at ch
        exact halls_numbers ck.1 ch
    · exact nm ⟨Or.inl e.symm, Or.inl rfl⟩
    · exact nm ⟨Or.inr (Or.inl e.symm), Or.inl rfl⟩
    · exact nm ⟨Or.inr (Or.inr e.symm), Or.inl rfl⟩

/-- Asking for the rhombohedral setting of "R 3" gives the row of the hexagonal setting, whose Hall symbol is
"R 3" as well. -/
theorem C17_string_lookup_counterexample :
    (row 434).international = "R 3" ∧ (row 434).choice = "R" ∧ stringToHallNumber "R 3" "R" = 433 ∧
      (row 433).choice = "H" := by decide +kernel

/-- The lattice letter of a Hall symbol: its first character that is not a minus sign. -/
def letterOf (s : String) : Option Bravais :=
  match s.toList.dropWhile (· == '-') with
  | 'P' :: _ => some .P
  | 'A' :: _ => some .A
  | 'B' :: _ => some .B
  | 'C' :: _ => some .C
  | 'I' :: _ => some .I
  | 'F' :: _ => some .F
  | 'R' :: _ => some .R
  | _ => none

/-- **C17, lattice letters.**  The Bravais letter of a row is the lattice letter of its Hall symbol.
Missing: the rows of B-centred lattices, which the table marks as primitive; see `C17_bravais_counterexample`. -/
theorem C17_bravais_partial (h : Nat) (h1 : 1 ≤ h) (h2 : h ≤ 530) (hB : letterOf (row h).hallSymbol ≠ some .B) :
    letterOf (row h).hallSymbol = some (row h).bravais :=
  all_rows (P := fun _ r => letterOf r.hallSymbol ≠ some .B → letterOf r.hallSymbol = some r.bravais)
    (by decide +kernel) h h1 h2 hB

/-- Every row of a B-centred lattice is marked as primitive, and there are forty of them. -/
theorem C17_bravais_counterexample :
    (∀ h, 1 ≤ h → h ≤ 530 → letterOf (row h).hallSymbol = some .B → (row h).bravais = .P) ∧
    (table.tail.filter fun r => decide (letterOf r.hallSymbol = some .B)).length = 40 :=
  ⟨all_rows (P := fun _ r => letterOf r.hallSymbol = some .B → r.bravais = .P) (by decide +kernel), by decide +kernel⟩

/-- **C17, one space group, one point group.**  Rows with the same number agree in point group and Schoenflies
symbol, and rows with the same Schoenflies symbol have the same number. -/
theorem C17_groups (h k : Nat) (h1 : 1 ≤ h) (h2 : h ≤ 530) (k1 : 1 ≤ k) (k2 : k ≤ 530) :
    ((row h).number = (row k).number → (row h).pointgroup = (row k).pointgroup ∧
      (row h).schoenflies = (row k).schoenflies) ∧
    ((row h).schoenflies = (row k).schoenflies → (row h).number = (row k).number) := by
  have ch := nums_cover h h1 h2
  have ck := nums_cover k k1 k2
  refine ⟨fun e => ?_, fun e => ?_⟩
  · rw [e] at ch
    have := eq_of_short (nums_runs _).1 ch.1 ck.1
    exact ⟨congrArg Prod.fst this, congrArg Prod.snd this⟩
  · rw [e] at ch
    exact eq_of_short (nums_runs _).2 ch.2 ck.2

end Brille.Props
