import Verif.Model.ListUtil
import Mathlib.Data.List.Rotate
import Mathlib.Data.List.Perm.Basic
import Mathlib.Data.List.Perm.Subperm
import Mathlib.Data.List.Nodup
import Mathlib.GroupTheory.Perm.Sign
import Mathlib.Data.Fintype.Perm
import Mathlib.Tactic.FinCases

namespace Brille.Props

open Brille.ListUtil

variable {α : Type*} [DecidableEq α]

/-! **C41.** Utilities on index lists. -/

/-- **C41.** `add_if_missing`: afterwards the value is there, everything else is as before, and a second call changes
nothing; the flag tells whether the value was missing. -/
theorem C41_add_if_missing (v : List α) (x : α) :
    x ∈ (addIfMissing v x).1 ∧ (x ∈ v → (addIfMissing v x).1 = v) ∧ (x ∉ v → (addIfMissing v x).1 = v ++ [x]) ∧
    ((addIfMissing v x).2 = true ↔ x ∉ v) ∧ addIfMissing (addIfMissing v x).1 x = ((addIfMissing v x).1, false) := by
  unfold addIfMissing
  by_cases h : x ∈ v <;> simp [h]

/-- **C41.** `add_between_if_missing`: a value that is there already leaves the list as it is; otherwise the result is the
list with the value directly behind the first `preceeding`, whose cyclic successor was `following`; in every other
case the call is refused. -/
theorem C41_add_between (v : List α) (p f x : α) :
    (x ∈ v → addBetweenIfMissing v p f x = some (v, false)) ∧
    (x ∉ v → ∀ w b, addBetweenIfMissing v p f x = some (w, b) ↔
      b = true ∧ ∃ front back, v = front ++ p :: back ∧ p ∉ front ∧ (back ++ v).head? = some f ∧
        w = front ++ p :: x :: back) := by
  unfold addBetweenIfMissing
  refine ⟨fun h => if_pos h, ?_⟩
  intro h w b
  rw [if_neg h]
  dsimp only
  by_cases hp : p ∈ v
  · obtain ⟨front, back, rfl, hf⟩ := List.eq_append_cons_of_mem hp
    have hidx : (front ++ p :: back).idxOf p = front.length := by
      rw [List.idxOf_append_of_notMem hf, List.idxOf_cons_self, add_zero]
    rw [hidx, if_neg (by simp)]
    have hcond : (if front.length + 1 = (front ++ p :: back).length then (front ++ p :: back)[0]?
        else (front ++ p :: back)[front.length + 1]?) = (back ++ (front ++ p :: back)).head? := by
      cases back with
      | nil =>
        rw [if_pos (by simp)]
        simp [List.head?_eq_getElem?]
      | cons c t =>
        rw [if_neg (by simp), List.getElem?_append_right (by omega)]
        simp
    have htake : (front ++ p :: back).take (front.length + 1) ++ x :: (front ++ p :: back).drop (front.length + 1) =
        front ++ p :: x :: back := by
      rw [List.take_append, List.drop_append, List.take_of_length_le (by omega : front.length ≤ front.length + 1),
        List.drop_of_length_le (by omega : front.length ≤ front.length + 1)]
      simp
    rw [hcond, htake]
    have huniq : ∀ front' back', front ++ p :: back = front' ++ p :: back' → p ∉ front' → front = front' ∧ back = back' := by
      intro front' back' he hf'
      have hl : front.length = front'.length := by
        have h2 : (front' ++ p :: back').idxOf p = front'.length := by
          rw [List.idxOf_append_of_notMem hf', List.idxOf_cons_self, add_zero]
        rw [← hidx, he, h2]
      obtain ⟨e1, e2⟩ := List.append_inj he hl
      exact ⟨e1, (List.cons.inj e2).2⟩
    constructor
    · intro e
      split at e
      · rename_i hc
        obtain ⟨rfl, rfl⟩ := Prod.mk.inj (Option.some.inj e)
        exact ⟨rfl, front, back, rfl, hf, hc, rfl⟩
      · exact absurd e (by simp)
    · rintro ⟨rfl, front', back', he, hf', hc, rfl⟩
      obtain ⟨rfl, rfl⟩ := huniq front' back' he hf'
      rw [if_pos hc]
  · rw [if_pos (List.idxOf_eq_length_iff.mpr hp)]
    constructor
    · intro e; exact absurd e (by simp)
    · rintro ⟨_, front, back, rfl, _⟩
      exact absurd (by simp) hp

example : addBetweenIfMissing [3, 5, 7] 5 7 6 = some ([3, 5, 6, 7], true) ∧
    addBetweenIfMissing [3, 5, 7] 7 3 6 = some ([3, 5, 7, 6], true) ∧ addBetweenIfMissing [3, 5, 7] 3 7 6 = none := by decide

theorem foldl_max (l : List Nat) (m : Nat) :
    (∀ v ∈ l, v ≤ l.foldl (fun m v => if m < v then v else m) m) ∧ m ≤ l.foldl (fun m v => if m < v then v else m) m ∧
    (l.foldl (fun m v => if m < v then v else m) m = m ∨ l.foldl (fun m v => if m < v then v else m) m ∈ l) := by
  induction l generalizing m with
  | nil => simp
  | cons a l ih =>
    rw [List.foldl_cons]
    obtain ⟨h1, h2, h3⟩ := ih (if m < a then a else m)
    refine ⟨?_, ?_, ?_⟩
    · intro v hv
      rcases List.mem_cons.mp hv with rfl | hv
      · refine le_trans ?_ h2; split <;> omega
      · exact h1 v hv
    · refine le_trans ?_ h2; split <;> omega
    · rcases h3 with h3 | h3
      · rw [h3]
        split
        · exact Or.inr List.mem_cons_self
        · exact Or.inl rfl
      · exact Or.inr (List.mem_cons_of_mem _ h3)

theorem maximum_spec (lists : List (List Nat)) :
    (∀ l ∈ lists, ∀ v ∈ l, v ≤ maximum lists) ∧ (maximum lists = 0 ∨ ∃ l ∈ lists, maximum lists ∈ l) := by
  have : ∀ m, (∀ l ∈ lists, ∀ v ∈ l, v ≤ lists.foldl (fun m l => l.foldl (fun m v => if m < v then v else m) m) m) ∧
      m ≤ lists.foldl (fun m l => l.foldl (fun m v => if m < v then v else m) m) m ∧
      (lists.foldl (fun m l => l.foldl (fun m v => if m < v then v else m) m) m = m ∨
        ∃ l ∈ lists, lists.foldl (fun m l => l.foldl (fun m v => if m < v then v else m) m) m ∈ l) := by
    induction lists with
    | nil => simp
    | cons a t ih =>
      intro m
      rw [List.foldl_cons]
      obtain ⟨h1, h2, h3⟩ := ih (a.foldl (fun m v => if m < v then v else m) m)
      obtain ⟨g1, g2, g3⟩ := foldl_max a m
      refine ⟨?_, le_trans g2 h2, ?_⟩
      · intro l hl v hv
        rcases List.mem_cons.mp hl with rfl | hl
        · exact le_trans (g1 v hv) h2
        · exact h1 l hl v hv
      · rcases h3 with h3 | ⟨l, hl, h3⟩
        · rw [h3]
          rcases g3 with g3 | g3
          · exact Or.inl g3
          · exact Or.inr ⟨a, List.mem_cons_self, g3⟩
        · exact Or.inr ⟨l, List.mem_cons_of_mem _ hl, h3⟩
  exact ⟨(this 0).1, (this 0).2.2⟩

/-- **C41.** `all_present`: the number returned is the greatest value in the lists (zero if there is none), and the flag
tells whether each number up to it is somewhere in the lists. -/
theorem C41_all_present (lists : List (List Nat)) :
    (∀ l ∈ lists, ∀ v ∈ l, v ≤ (allPresent lists).2) ∧
    ((allPresent lists).2 = 0 ∨ ∃ l ∈ lists, (allPresent lists).2 ∈ l) ∧
    ((allPresent lists).1 = true ↔ ∀ i ≤ (allPresent lists).2, ∃ l ∈ lists, i ∈ l) := by
  refine ⟨(maximum_spec lists).1, (maximum_spec lists).2, ?_⟩
  unfold allPresent
  simp only [List.all_eq_true, List.mem_range, List.any_eq_true, beq_iff_eq, exists_eq_right, Nat.lt_succ_iff]

theorem mem_invertRow (lists : List (List Nat)) (i j : Nat) :
    j ∈ invertRow lists i ↔ j < lists.length ∧ i ∈ lists.getD j [] := by
  unfold invertRow
  simp

/-- **C41.** `invert_lists` is the transposed relation: row `i` of the result holds, in increasing order, exactly the
positions of the lists that contain `i`; the rows go from zero up to the greatest value. -/
theorem C41_invert_lists (lists : List (List Nat)) :
    (∀ i j, (∃ row : List Nat, (invertLists lists)[i]? = some row ∧ j ∈ row) ↔ ∃ l : List Nat, lists[j]? = some l ∧ i ∈ l) ∧
    (∀ row ∈ invertLists lists, row.Pairwise (· < ·)) ∧
    (invertLists lists).length = (allPresent lists).2 + 1 := by
  refine ⟨?_, ?_, by simp [invertLists]⟩
  · intro i j
    have hmem : (i ∈ lists.getD j [] ∧ j < lists.length) ↔ ∃ l, lists[j]? = some l ∧ i ∈ l := by
      rw [List.getD_eq_getElem?_getD]
      by_cases hj : j < lists.length
      · rw [List.getElem?_eq_getElem hj]; simp [hj]
      · rw [List.getElem?_eq_none (by omega)]; simp
    rw [← hmem]
    unfold invertLists
    constructor
    · rintro ⟨row, hrow, hj⟩
      rw [List.getElem?_map] at hrow
      by_cases hi : i < (allPresent lists).2 + 1
      · rw [List.getElem?_range hi, Option.map_some] at hrow
        rw [← Option.some.inj hrow, mem_invertRow] at hj
        exact ⟨hj.2, hj.1⟩
      · rw [List.getElem?_eq_none (by simp; omega)] at hrow
        exact absurd hrow (by simp)
    · rintro ⟨h1, h2⟩
      have hi : i < (allPresent lists).2 + 1 := by
        obtain ⟨l, hl, hil⟩ := hmem.mp ⟨h1, h2⟩
        have := (maximum_spec lists).1 l (List.mem_of_getElem? hl) i hil
        show i < maximum lists + 1
        omega
      refine ⟨invertRow lists i, ?_, (mem_invertRow lists i j).mpr ⟨h2, h1⟩⟩
      rw [List.getElem?_map, List.getElem?_range hi, Option.map_some]
  · intro row hrow
    unfold invertLists at hrow
    obtain ⟨i, _, rfl⟩ := List.mem_map.mp hrow
    exact List.Pairwise.filter _ List.pairwise_lt_range

/-- **C41.** Inverting twice gives the lists back, if they are in increasing order, none is empty, and every number up
to the greatest occurs (the condition the code asserts). -/
theorem C41_invert_twice (lists : List (List Nat)) (hne : lists ≠ []) (hfull : ∀ l ∈ lists, l ≠ [])
    (hsort : ∀ l ∈ lists, l.Pairwise (· < ·)) :
    invertLists (invertLists lists) = lists := by
  obtain ⟨h1, h2, h3⟩ := C41_invert_lists lists
  obtain ⟨g1, g2, g3⟩ := C41_invert_lists (invertLists lists)
  have hrel : ∀ i j, (∃ row : List Nat, (invertLists (invertLists lists))[j]? = some row ∧ i ∈ row) ↔
      ∃ l, lists[j]? = some l ∧ i ∈ l := fun i j => by rw [g1 j i, h1 i j]
  have hpos : 0 < lists.length := List.length_pos_of_ne_nil hne
  have hlen : (invertLists (invertLists lists)).length = lists.length := by
    obtain ⟨a1, a2, _⟩ := C41_all_present (invertLists lists)
    rw [g3]
    have hlast : lists.length - 1 ≤ (allPresent (invertLists lists)).2 := by
      have hl : lists.length - 1 < lists.length := by omega
      have hmem : lists[lists.length - 1] ∈ lists := List.getElem_mem hl
      obtain ⟨v, hv⟩ := List.exists_mem_of_ne_nil _ (hfull _ hmem)
      obtain ⟨row, hrow, hj⟩ := (h1 v (lists.length - 1)).mpr ⟨_, List.getElem?_eq_getElem hl, hv⟩
      exact a1 row (List.mem_of_getElem? hrow) _ hj
    have hub : (allPresent (invertLists lists)).2 ≤ lists.length - 1 := by
      rcases a2 with a2 | ⟨row, hrow, hm⟩
      · omega
      · obtain ⟨i, hi, hrow'⟩ := List.mem_iff_getElem.mp hrow
        obtain ⟨l, hl, _⟩ := (h1 i _).mp ⟨row, by rw [List.getElem?_eq_getElem hi, hrow'], hm⟩
        obtain ⟨hlt, _⟩ := List.getElem?_eq_some_iff.mp hl
        omega
    omega
  apply List.ext_getElem hlen
  intro j hj1 hj2
  have hp1 : (invertLists (invertLists lists))[j].Pairwise (· < ·) := g2 _ (List.getElem_mem hj1)
  have hp2 : lists[j].Pairwise (· < ·) := hsort _ (List.getElem_mem hj2)
  have hmem : ∀ i, i ∈ (invertLists (invertLists lists))[j] ↔ i ∈ lists[j] := by
    intro i
    have := hrel i j
    rw [List.getElem?_eq_getElem hj1, List.getElem?_eq_getElem hj2] at this
    simpa using this
  have hperm : (invertLists (invertLists lists))[j].Perm lists[j] := by
    rw [List.perm_ext_iff_of_nodup (hp1.imp (fun h => Nat.ne_of_lt h)) (hp2.imp (fun h => Nat.ne_of_lt h))]
    exact hmem
  exact hperm.eq_of_pairwise' (hp1.imp Nat.le_of_lt) (hp2.imp Nat.le_of_lt)

example : invertLists [[0, 1, 2], [0, 2, 3], [1, 3]] = [[0, 1], [0, 2], [0, 1], [1, 2]] := by decide

theorem matchAndErase_iff (l x : List α) : matchAndErase l x = true ↔ l.Subperm x := by
  induction l generalizing x with
  | nil => simp [matchAndErase]
  | cons y ys ih =>
    unfold matchAndErase
    by_cases h : y ∈ x
    · rw [if_pos h, ih]
      constructor
      · intro hs
        exact ((List.subperm_cons y).mpr hs).trans (List.perm_cons_erase h).symm.subperm
      · intro hs
        exact (List.subperm_cons y).mp (hs.trans (List.perm_cons_erase h).subperm)
    · rw [if_neg h]
      simp only [Bool.false_eq_true, false_iff]
      intro hs
      exact h (hs.subset List.mem_cons_self)

/-- **C41.** `unordered_list_in_lists` holds exactly when one of the lists is a rearrangement of the candidate. -/
theorem C41_unordered_list_in_lists (l : List α) (lists : List (List α)) :
    unorderedListInLists l lists = true ↔ ∃ li ∈ lists, li.Perm l := by
  unfold unorderedListInLists
  simp only [List.any_eq_true, Bool.and_eq_true, decide_eq_true_eq, matchAndErase_iff]
  constructor
  · rintro ⟨li, hm, hl, hs⟩
    exact ⟨li, hm, (hs.perm_of_length_le (by omega)).symm⟩
  · rintro ⟨li, hm, hp⟩
    exact ⟨li, hm, hp.length_eq, hp.symm.subperm⟩

theorem reverseFrom_eq (x : List α) (n : Nat) (hn : n ≤ x.length) (r : List α) :
    reverseFrom x n r = r ++ (x.take n).reverse := by
  induction n generalizing r with
  | zero => simp [reverseFrom]
  | succ n ih =>
    unfold reverseFrom
    have h : n < x.length := by omega
    rw [List.getElem?_eq_getElem h]
    dsimp only
    rw [ih (by omega), ← List.take_concat_get' x n h, List.reverse_append, List.append_assoc]
    rfl

/-- **C41.** `reverse` puts element `i` at position `n - 1 - i`; doing it twice changes nothing, for a list and for each
of several lists. -/
theorem C41_reverse (x : List α) (xs : List (List α)) :
    ((reverse x).length = x.length ∧ ∀ i < x.length, (reverse x)[i]? = x[x.length - 1 - i]?) ∧
    reverse (reverse x) = x ∧ reverseEach (reverseEach xs) = xs := by
  have h : ∀ x : List α, reverse x = x.reverse := fun x => by
    unfold reverse
    rw [reverseFrom_eq x _ (le_refl _)]
    simp
  refine ⟨⟨by rw [h]; simp, ?_⟩, by rw [h, h]; simp, ?_⟩
  · intro i hi
    rw [h, List.getElem?_reverse hi]
  · unfold reverseEach
    rw [List.map_map]
    conv => rhs; rw [← List.map_id xs]
    congr 1
    funext l
    simp [h]

/-- The state of the loop of `unique` after the elements of `done`. -/
structure UniqueInv (done out : List α) : Prop where
  mem : ∀ v, v ∈ out ↔ v ∈ done
  sorted : (out.map fun v => done.idxOf v).Pairwise (· < ·)

theorem UniqueInv.step {done out : List α} (h : UniqueInv done out) (v : α) :
    UniqueInv (done ++ [v]) (if v ∈ out then out else out ++ [v]) := by
  have hidx : ∀ w ∈ out, (done ++ [v]).idxOf w = done.idxOf w := fun w hw =>
    List.idxOf_append_of_mem ((h.mem w).mp hw)
  have hmap : (out.map fun w => (done ++ [v]).idxOf w) = out.map fun w => done.idxOf w :=
    List.map_congr_left hidx
  by_cases hv : v ∈ out
  · rw [if_pos hv]
    refine ⟨fun w => ?_, by rw [hmap]; exact h.sorted⟩
    rw [h.mem, List.mem_append, List.mem_singleton]
    constructor
    · exact Or.inl
    · rintro (hw | rfl)
      · exact hw
      · exact (h.mem w).mp hv
  · rw [if_neg hv]
    have hvd : v ∉ done := fun hc => hv ((h.mem v).mpr hc)
    refine ⟨fun w => ?_, ?_⟩
    · rw [List.mem_append, List.mem_append, h.mem]
    · rw [List.map_append, hmap, List.pairwise_append]
      refine ⟨h.sorted, by simp, ?_⟩
      intro a ha b hb
      obtain ⟨w, hw, rfl⟩ := List.mem_map.mp ha
      rw [List.map_singleton, List.mem_singleton] at hb
      rw [hb, List.idxOf_append_of_notMem hvd]
      have := List.idxOf_lt_length_of_mem ((h.mem w).mp hw)
      omega

theorem uniqueFold_inv (rest done out : List α) (h : UniqueInv done out) :
    UniqueInv (done ++ rest) (rest.foldl (fun out v => if v ∈ out then out else out ++ [v]) out) := by
  induction rest generalizing done out with
  | nil => simpa using h
  | cons v t ih =>
    rw [List.foldl_cons, show done ++ v :: t = (done ++ [v]) ++ t by simp]
    exact ih _ _ (h.step v)

/-- **C41.** `unique`: the values of the input, each once, in the order of their first occurrences; the empty input is
not allowed (its first element is read). -/
theorem C41_unique (x : List α) :
    (unique x = none ↔ x = []) ∧
    ∀ out, unique x = some out → (∀ v, v ∈ out ↔ v ∈ x) ∧ out.Nodup ∧
      (out.map fun v => x.idxOf v).Pairwise (· < ·) := by
  cases x with
  | nil => exact ⟨by simp [unique], fun out h => absurd h (by simp [unique])⟩
  | cons a t =>
    refine ⟨by simp [unique], ?_⟩
    intro out h
    have h' : out = t.foldl (fun out v => if v ∈ out then out else out ++ [v]) [a] := by
      unfold unique at h
      simp only [List.getElem?_cons_zero, List.foldl_cons, List.mem_singleton, if_true] at h
      exact (Option.some.inj h).symm
    have hinv : UniqueInv ([a] ++ t) out := by
      rw [h']
      exact uniqueFold_inv t [a] [a] ⟨fun v => Iff.rfl, by simp⟩
    refine ⟨hinv.mem, ?_, hinv.sorted⟩
    refine List.Nodup.of_map (fun v => (a :: t).idxOf v) ?_
    exact hinv.sorted.imp (fun h => Nat.ne_of_lt h)

example : unique [4, 2, 4, 7, 2] = some [4, 2, 7] := by decide

/-- **C41.** `find_first` gives the first position of the value and refuses a value that is absent. -/
theorem C41_find_first (x : List α) (v : α) :
    (findFirst x v = none ↔ v ∉ x) ∧
    ∀ i, findFirst x v = some i ↔ x[i]? = some v ∧ ∀ j < i, x[j]? ≠ some v := by
  unfold findFirst
  by_cases h : v ∈ x
  · have hlt := List.idxOf_lt_length_of_mem h
    have hget : x[x.idxOf v]? = some v := by
      rw [List.getElem?_eq_getElem hlt, List.getElem_idxOf hlt]
    have hbefore : ∀ j < x.idxOf v, x[j]? ≠ some v := by
      intro j hj hc
      obtain ⟨hj', he⟩ := List.getElem?_eq_some_iff.mp hc
      have := List.not_of_lt_findIdx (p := (· == v)) (xs := x) (i := j) hj
      rw [he] at this
      simp at this
    rw [if_neg (by omega)]
    refine ⟨by simp [h], ?_⟩
    intro i
    constructor
    · intro e
      have := Option.some.inj e
      subst this
      exact ⟨hget, hbefore⟩
    · rintro ⟨h1, h2⟩
      rcases Nat.lt_trichotomy i (x.idxOf v) with hl | rfl | hg
      · exact absurd h1 (hbefore i hl)
      · rfl
      · exact absurd hget (h2 _ hg)
  · rw [if_pos (List.idxOf_eq_length_iff.mpr h)]
    refine ⟨by simp [h], ?_⟩
    intro i
    constructor
    · intro e; exact absurd e (by simp)
    · rintro ⟨h1, _⟩
      exact absurd (List.mem_of_getElem? h1) h

/-- **C41.** `subscript_ok`: as many subscripts as dimensions, each below its dimension. -/
theorem C41_subscript_ok (sub shape : List Nat) :
    subscriptOk sub shape = true ↔ List.Forall₂ (· < ·) sub shape := by
  unfold subscriptOk
  rw [List.forall₂_iff_get]
  simp only [Bool.and_eq_true, decide_eq_true_eq, List.all_eq_true, List.mem_range, List.get_eq_getElem]
  constructor
  · rintro ⟨h1, h2⟩
    refine ⟨h1, fun i hi hi' => ?_⟩
    have := h2 i hi'
    rw [List.getD_eq_getElem?_getD, List.getElem?_eq_getElem hi, List.getD_eq_getElem?_getD,
      List.getElem?_eq_getElem hi'] at this
    exact this
  · rintro ⟨h1, h2⟩
    refine ⟨h1, fun i hi' => ?_⟩
    have hi : i < sub.length := by omega
    rw [List.getD_eq_getElem?_getD, List.getElem?_eq_getElem hi, List.getD_eq_getElem?_getD,
      List.getElem?_eq_getElem hi']
    exact h2 i hi hi'

/-! **C42.** Parity. -/

theorem agreesFrom_iff (a b : List α) (h : a.length = b.length) (i : Nat) :
    agreesFrom a b i = true ↔ a.rotate i = b := by
  unfold agreesFrom
  simp only [List.all_eq_true, List.mem_range, decide_eq_true_eq]
  constructor
  · intro hall
    apply List.ext_getElem?
    intro j
    by_cases hj : j < a.length
    · rw [List.getElem?_rotate hj, Nat.add_comm]
      exact hall j hj
    · rw [List.getElem?_eq_none (by rw [List.length_rotate]; omega), List.getElem?_eq_none (by omega)]
  · intro e j hj
    rw [← e, List.getElem?_rotate hj, Nat.add_comm]

/-- **C42.** `is_positive_permutation` holds exactly when the first list is a cyclic rotation of the second; but not for
two empty lists. -/
theorem C42_positive_permutation (a b : List α) :
    isPositivePermutation a b = true ↔ a ≠ [] ∧ ∃ n, a.rotate n = b := by
  unfold isPositivePermutation
  simp only [Bool.and_eq_true, decide_eq_true_eq, List.any_eq_true, List.mem_range]
  constructor
  · rintro ⟨h, i, hi, hr⟩
    exact ⟨by rintro rfl; simp at hi, i, (agreesFrom_iff a b h i).mp hr⟩
  · rintro ⟨hne, n, rfl⟩
    have hpos := List.length_pos_of_ne_nil hne
    exact ⟨by simp, n % a.length, Nat.mod_lt _ hpos,
      (agreesFrom_iff a _ (by simp) _).mpr (List.rotate_mod a n)⟩

/-- **C42 (triangles).** For triples, the use made of it, it tells whether the second is an even rearrangement of the
first. -/
theorem C42_even_triples_partial (a : Fin 3 → α) (b : List α) :
    isPositivePermutation (List.ofFn a) b = true ↔
      ∃ σ : Equiv.Perm (Fin 3), Equiv.Perm.sign σ = 1 ∧ b = List.ofFn fun i => a (σ i) := by
  have key : ∀ n : Fin 3, ∃ σ : Equiv.Perm (Fin 3), Equiv.Perm.sign σ = 1 ∧ ∀ i, σ i = i + n := by decide
  have key2 : ∀ σ : Equiv.Perm (Fin 3), Equiv.Perm.sign σ = 1 → ∃ n : Fin 3, ∀ i, σ i = i + n := by decide
  have hrot : ∀ n : Fin 3, (List.ofFn a).rotate n = List.ofFn fun i => a (i + n) := by
    intro n
    fin_cases n <;> rfl
  rw [C42_positive_permutation]
  constructor
  · rintro ⟨_, n, rfl⟩
    obtain ⟨σ, hs, hσ⟩ := key (Fin.ofNat 3 n)
    refine ⟨σ, hs, ?_⟩
    rw [← List.rotate_mod, List.length_ofFn]
    have := hrot (Fin.ofNat 3 n)
    simp only [Fin.ofNat] at this
    rw [this]
    congr 1
    funext i
    rw [hσ i]
    rfl
  · rintro ⟨σ, hs, rfl⟩
    obtain ⟨n, hn⟩ := key2 σ hs
    refine ⟨by simp, n, ?_⟩
    rw [hrot n]
    congr 1
    funext i
    rw [hn i]

/-- **C42 (counterexample).** For longer lists an even rearrangement need not be recognised, and two empty lists are not
rearrangements of each other. -/
theorem C42_even_counterexample :
    isPositivePermutation [0, 1, 2, 3] [1, 0, 3, 2] = false ∧
    (∃ σ : Equiv.Perm (Fin 4), Equiv.Perm.sign σ = 1 ∧
      [1, 0, 3, 2] = List.ofFn fun i => (fun j : Fin 4 => (j : Nat)) (σ i)) ∧
    isPositivePermutation ([] : List Nat) [] = false := by
  refine ⟨by decide, ⟨Equiv.swap 0 1 * Equiv.swap 2 3, by decide, by decide⟩, by decide⟩

end Brille.Props
