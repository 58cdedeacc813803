import Verif.Model.ArrayBroadcast
import Verif.Props.ArrayFun
import Verif.Props.Subscript
/-
C90: operators with two arrays.
-/
namespace Brille.Props
open Brille.ArrFun Brille.Spec Brille.Subscript

variable {T R S : Type}

theorem sorted_eq {l1 l2 : List (List Nat)} (h1 : l1.Pairwise (· < ·)) (h2 : l2.Pairwise (· < ·)) (h : ∀ x, x ∈ l1 ↔ x ∈ l2) : l1 = l2 := by
  have n1 : l1.Nodup := h1.imp (fun h e => by rw [e] at h; exact List.lt_irrefl _ h)
  have n2 : l2.Nodup := h2.imp (fun h e => by rw [e] at h; exact List.lt_irrefl _ h)
  refine List.Perm.eq_of_pairwise (le := (· < ·)) ?_ h1 h2 ((List.perm_ext_iff_of_nodup n1 n2).2 h)
  intro a b _ _ hab hba
  exact absurd (List.lt_trans hab hba) (List.lt_irrefl _)

/-- the number of the row or column of an array with `s` of them that goes with number `o` of the result -/
def oneOr (s o : Nat) : Nat := if s = 1 then 0 else o

theorem compatible_pair {n m k l : Nat} : Compatible [n, m] [k, l] ↔ (n = k ∨ n = 1 ∨ k = 1) ∧ (m = l ∨ m = 1 ∨ l = 1) := by
  simp [Compatible]

theorem broadcastOver_ok {a : A2 T} {b : A2 R} {n m k l : Nat} {f : Nat → Nat → T} {g : Nat → Nat → R} (h : Shows a n m f) (hb : Shows b k l g)
    (hc : (n = k ∨ n = 1 ∨ k = 1) ∧ (m = l ∨ m = 1 ∨ l = 1)) (hn : 0 < n) (hm : 0 < m) (hk : 0 < k) (hl : 0 < l) :
    ∃ F, ∀ fuel, F ≤ fuel → broadcastOver fuel a b = .ok ([max n k, max m l],
      .ok ((grid (max n k) (max m l)).map fun o => (o, pin [n, m] o, pin [k, l] o))) := by
  obtain ⟨out, F, hF, hs, hmem, -⟩ := C04_broadcast_pairs [n, m] [k, l] (by simp) (by simp [hn, hm]) (by simp [hk, hl]) (compatible_pair.mpr hc)
  have hout : out = grid (max n k) (max m l) := by
    refine sorted_eq hs (grid_sorted _ _) fun x => ?_
    rw [hmem, show List.zipWith max [n, m] [k, l] = [max n k, max m l] from rfl, inRange_pair, mem_grid]
  refine ⟨F, fun fuel hf => ?_⟩
  obtain ⟨L, hL⟩ := Option.isSome_iff_exists.1 ((mkBroadcast_isSome [n, m] [k, l]).2 (compatible_pair.mpr hc))
  obtain ⟨-, -, hO, -, -⟩ := mkBroadcast_spec _ _ L hL
  rw [broadcastOver, h.rows, h.cols, hb.rows, hb.cols, hL, hF fuel hf, hout]
  show Except.ok (bshape L, _) = _
  rw [bshape, hO]
  rfl

/-- **C90.** Adding, subtracting, multiplying or dividing by an array in place, with as many rows and columns or one of them: every element of the
array is changed, and nothing else in memory.  The other array must not lie in the same memory. -/
theorem C90_in_place {a b : A2 T} {n m k l : Nat} {f g : Nat → Nat → T} (h : Shows a n m f) (hs : Separate a) (hb : Shows b k l g)
    (hk : k = n ∨ k = 1) (hl : l = m ∨ l = 1) (hn : 0 < n) (hm : 0 < m) (op : T → T → T) :
    ∃ F, ∀ fuel, F ≤ fuel →
      (∃ o, a.arrayOp fuel true false b op = .ok o ∧ Shows o n m (fun i j => op (f i j) (g (oneOr k i) (oneOr l j))) ∧ SameElsewhere a o) ∧
      a.arrayOp fuel false false b op = .error .threw := by
  have hk0 : 0 < k := by omega
  have hl0 : 0 < l := by omega
  have e0 : max n k = n := by omega
  have e1 : max m l = m := by omega
  obtain ⟨F, hF⟩ := broadcastOver_ok h hb (by omega) hn hm hk0 hl0
  rw [e0, e1] at hF
  refine ⟨F, fun fuel hf => ⟨?_, rfl⟩⟩
  have hpin : ∀ i j, i < n → j < m → pin [n, m] [i, j] = [i, j] := by
    intro i j hi hj
    simp only [pin, List.zipWith_cons_cons, List.zipWith_nil_right]
    congr 1
    · split <;> omega
    · congr 1
      split <;> omega
  have hbr : ∀ i j, i < n → j < m → b.read (pin [k, l] [i, j]) = .ok (g (oneOr k i) (oneOr l j)) := by
    intro i j hi hj
    exact hb.entry _ _ (by dsimp only; split <;> omega) (by dsimp only; split <;> omega)
  obtain ⟨o, e, s, r, -⟩ := assign_loop a hs h.bound (fun x : List Nat => (x.getD 0 0, x.getD 1 0))
    (fun x => op (f (x.getD 0 0) (x.getD 1 0)) (g (oneOr k (x.getD 0 0)) (oneOr l (x.getD 1 0)))) (fun o x => do
      let v ← o.read (pin [n, m] x)
      let w ← b.read (pin [k, l] x)
      o.write (pin [n, m] x) (op v w)) (grid n m) a
    (by
      refine (List.Pairwise.imp_of_mem ?_ (grid_nodup n m))
      intro x y hx hy hne e
      obtain ⟨i, hi, j, hj, rfl⟩ := mem_grid.1 hx
      obtain ⟨k, hk, l, hl, rfl⟩ := mem_grid.1 hy
      simp at e
      exact hne (by rw [e.1, e.2]))
    (by
      intro x hx
      obtain ⟨i, hi, j, hj, rfl⟩ := mem_grid.1 hx
      exact ⟨h.rows ▸ hi, h.cols ▸ hj⟩)
    (SameElsewhere.refl a)
    (by
      intro x hx o _ ho
      obtain ⟨i, hi, j, hj, rfl⟩ := mem_grid.1 hx
      simp only [List.getD_cons_zero, List.getD_cons_succ] at ho ⊢
      rw [hpin i j hi hj, ho, h.entry i j hi hj, hbr i j hi hj]; rfl)
    (fun _ _ => rfl)
  refine ⟨o, ?_, ⟨s.1.trans h.rows, s.2.1.trans h.cols, ?_⟩, s⟩
  · rw [A2.arrayOp, hF fuel hf]
    simp only [Bool.not_true, Bool.false_eq_true, if_false]
    show (if [n, m] ≠ [a.n0, a.n1] then _ else _) = _
    rw [h.rows, h.cols, if_neg (by simp)]
    show List.foldlM _ a _ = _
    rw [List.foldlM_map]
    exact e
  · intro i j hi hj
    exact r [i, j] (mem_grid.2 ⟨i, hi, j, hj, rfl⟩)

/-- **C90.** An array whose extents are neither those of the other array nor one is refused, for the operators in place also where the result
would be larger than the array. -/
theorem C90_refused {a b : A2 T} {n m k l : Nat} {f g : Nat → Nat → T} (h : Shows a n m f) (hb : Shows b k l g)
    (hn : 0 < n) (hm : 0 < m) (hk : 0 < k) (hl : 0 < l) (op : T → T → T) :
    (¬ (k = n ∨ k = 1) ∨ ¬ (l = m ∨ l = 1) → ∃ F, ∀ fuel, F ≤ fuel → a.arrayOp fuel true false b op = .error .threw) ∧
    ∀ [Inhabited S] (op' : T → T → S), ¬ ((n = k ∨ n = 1 ∨ k = 1) ∧ (m = l ∨ m = 1 ∨ l = 1)) → ∀ fuel, a.binary fuel b op' = .error .threw := by
  have hnone : ¬ ((n = k ∨ n = 1 ∨ k = 1) ∧ (m = l ∨ m = 1 ∨ l = 1)) → ∀ fuel, broadcastOver fuel a b = .error .threw := by
    intro hc fuel
    rw [broadcastOver, h.rows, h.cols, hb.rows, hb.cols,
      (C04_broadcast_rejects [n, m] [k, l]).mpr (fun c => hc (compatible_pair.mp c))]
  constructor
  · intro hx
    by_cases hc : (n = k ∨ n = 1 ∨ k = 1) ∧ (m = l ∨ m = 1 ∨ l = 1)
    · obtain ⟨F, hF⟩ := broadcastOver_ok h hb hc hn hm hk hl
      refine ⟨F, fun fuel hf => ?_⟩
      rw [A2.arrayOp, hF fuel hf]
      simp only [Bool.not_true, Bool.false_eq_true, if_false]
      show (if [max n k, max m l] ≠ [a.n0, a.n1] then _ else _) = _
      rw [h.rows, h.cols, if_pos]
      intro e
      simp only [List.cons.injEq, and_true] at e
      omega
    · refine ⟨0, fun fuel _ => ?_⟩
      rw [A2.arrayOp, hnone hc]
      rfl
  · intro _ op' hc fuel
    rw [A2.binary, hnone hc]
    rfl

/-- **C90.** The sum, difference, product and quotient of two arrays, element by element, rows and columns of arrays with only one of them being
used for all, wherever the arrays lie in memory. -/
theorem C90_operator [Inhabited S] {a : A2 T} {b : A2 R} {n m k l : Nat} {f : Nat → Nat → T} {g : Nat → Nat → R} (h : Shows a n m f)
    (hb : Shows b k l g) (hk : n = k ∨ n = 1 ∨ k = 1) (hl : m = l ∨ m = 1 ∨ l = 1) (hn : 0 < n) (hm : 0 < m) (hk0 : 0 < k) (hl0 : 0 < l)
    (op : T → R → S) :
    ∃ F, ∀ fuel, F ≤ fuel → ∃ o, a.binary fuel b op = .ok o ∧ RowPacked o ∧
      Shows o (max n k) (max m l) (fun i j => op (f (oneOr n i) (oneOr m j)) (g (oneOr k i) (oneOr l j))) := by
  obtain ⟨F, hF⟩ := broadcastOver_ok h hb ⟨hk, hl⟩ hn hm hk0 hl0
  refine ⟨F, fun fuel hf => ?_⟩
  obtain ⟨o, e, s, u⟩ := fill (fresh (max n k) (max m l) (max m l) 1 (default : S)) (max n k) (max m l) rfl rfl (by omega)
    (Or.inl (rowPacked_fresh _ _ _)) rfl (by simp [fresh])
    (fun i j => op (f (oneOr n i) (oneOr m j)) (g (oneOr k i) (oneOr l j))) (fun o x => do
      let v ← a.read (pin [n, m] x)
      let w ← b.read (pin [k, l] x)
      o.write x (op v w)) (by
      intro i j hi hj o
      have h1 : a.read (pin [n, m] [i, j]) = .ok (f (oneOr n i) (oneOr m j)) :=
        h.entry _ _ (by dsimp only; split <;> omega) (by dsimp only; split <;> omega)
      have h2 : b.read (pin [k, l] [i, j]) = .ok (g (oneOr k i) (oneOr l j)) :=
        hb.entry _ _ (by dsimp only; split <;> omega) (by dsimp only; split <;> omega)
      rw [h1, h2]; rfl)
  refine ⟨o, ?_, ?_, s⟩
  · rw [A2.binary, hF fuel hf]
    show List.foldlM _ (fresh (max n k) (max m l) (max m l) 1 default) _ = _
    rw [List.foldlM_map]
    exact e
  · obtain ⟨q0, q1, q2, q3, -⟩ := u
    intro i j hi hj
    rw [q1, q2, q3]
    simp [fresh]

example : ∃ o, byColumns.arrayOp 7 true false (⟨1, 2, 2, 1, 0, [10, 20]⟩ : A2 Int) (· + ·) = .ok o ∧ o.data = [11, 13, 15, 22, 24, 26] :=
  ⟨_, rfl, by decide⟩

/-- each row of 1 2 / 3 4 / 5 6, stored by columns, times 10 20 -/
example : ∃ F, ∀ fuel, F ≤ fuel → ∃ o, byColumns.binary fuel (⟨1, 2, 2, 1, 0, [10, 20]⟩ : A2 Int) (fun x y => x * y) = .ok o ∧ RowPacked o ∧
    Shows o 3 2 (fun i j => (2 * (oneOr 3 i : Int) + oneOr 2 j + 1) * (10 * (oneOr 2 j + 1 : Int))) :=
  C90_operator (S := Int) (g := fun _ j => (10 * (j + 1 : Int))) (k := 1) (l := 2) byColumns_shows
    ⟨rfl, rfl, by intro i j hi hj; interval_cases i; interval_cases j <;> rfl⟩
    (by decide) (by decide) (by decide) (by decide) (by decide) (by decide) _

/-- 1 2 / 3 4 -/
def twoByTwo : A2 Int := ⟨2, 2, 2, 1, 0, [1, 2, 3, 4]⟩

/-- **C90 (counterexample).** Subtracting the first row of an array from the array in place: the first row is zero when it is subtracted from
the second row, which stays as it is. -/
theorem C90_in_place_counterexample : ∃ v, twoByTwo.view 0 = .ok v ∧
    (∃ o, twoByTwo.arrayOp 5 true true v (· - ·) = .ok o ∧ o.data = [0, 0, 3, 4]) ∧
    ∃ o, twoByTwo.arrayOp 5 true false v (· - ·) = .ok o ∧ o.data = [0, 0, 2, 2] :=
  ⟨_, rfl, ⟨_, rfl, by decide⟩, _, rfl, by decide⟩

end Brille.Props
