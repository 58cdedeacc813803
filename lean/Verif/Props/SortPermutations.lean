import Verif.Proofs.SortPermutations
import Verif.Props.Lapjv

/-! C31: the permutations found by `DualInterpolator::sort` do not depend on the threads. -/
namespace Brille.Props
open Brille.PermTable Brille.Spec Brille.SortPerm

/-- `keys` lists the keys present in the table. -/
def KeysOf (t : Table) (keys : List Nat) : Prop := ∀ k, k ∈ keys ↔ t.ijmap k ≠ none

/-- Every announced pair of different points is announced in both directions. -/
def Symmetric (n : Nat) (keys : List Nat) : Prop :=
  ∀ i j, i < n → j < n → i ≠ j → i * n + j ∈ keys → j * n + i ∈ keys

/-- **C31.** Let the table have any history, with keys announced in both directions.  Then however many
threads there are, however the pairs are distributed over them and in whatever order they run: no
exception leaves the parallel region; the threads cannot block each other for ever; and once all are
done the permutation stored for a pair `i < j` is the row solution computed from the data of `i` and
`j`, the one stored for `(j, i)` is the column solution, and all other pairs keep what they had. -/
theorem C31_sort (n modes : Nat) (hn : 0 < n) (ops : List TableOp)
    (hv : ValidHistory (PairMap.empty n modes) ops) (t : Table)
    (ht : PermTable.run (mk0 n modes) ops = some t) (hsize : t.indexSize = n)
    (keys : List Nat) (hk : KeysOf t keys) (hsym : Symmetric n keys)
    (solve : Nat → Nat → List Nat × List Nat) :
    ∃ tri, triPairs n keys = some tri ∧
      ∀ (T : Nat) (wk : Fin T → List (Nat × Nat)), (∀ p, p ∈ tri ↔ ∃ k, p ∈ wk k) →
      ∀ sched : List (Fin T), ∃ s, SortPerm.run solve (start t wk) sched = some s ∧
        (∃ more s', SortPerm.run solve s more = some s' ∧ Finished s') ∧
        (Finished s →
          (∀ i j, i < j → j < n → i * n + j ∈ keys →
            safeGet s.table i j = some (solve i j).1 ∧ safeGet s.table j i = some (solve i j).2) ∧
          (∀ i j, i < n → j < n → i ≠ j → i * n + j ∉ keys → safeGet s.table i j = safeGet t i j)) := by
  obtain ⟨h1, h2⟩ := sim_run (sim_mk0 n modes) ops hv
  obtain ⟨m0, hm0⟩ : ∃ m0, (PairMap.empty n modes).run ops = some m0 := by
    cases h : (PairMap.empty n modes).run ops with
    | none => rw [h2 h] at ht; simp at ht
    | some m => exact ⟨m, rfl⟩
  obtain ⟨t', ht', hs⟩ := h1 m0 hm0
  obtain rfl : t' = t := by rw [ht] at ht'; exact (Option.some.inj ht').symm
  have hmn : m0.n = n := by rw [← hs.size]; exact hsize
  have hent : ∀ i j, i < n → j < n → i ≠ j → (m0.entry i j ≠ .absent ↔ i * n + j ∈ keys) := by
    intro i j hi hj hij
    have hr := hs.rep i j hij (by omega) (by omega)
    rw [hk]
    rw [hmn] at hr
    cases hx : t'.ijmap (i * n + j) with
    | none => rw [hx] at hr; simp only [Rep] at hr; simp [hr]
    | some x =>
      rw [hx] at hr
      cases x with
      | zero => simp only [Rep] at hr; simp [hr]
      | succ x => obtain ⟨p, _, he⟩ := hr; simp [he]
  refine ⟨keys.filterMap (triOf n), by rw [triPairs, if_neg (by omega)], ?_⟩
  intro T wk hw sched
  have hg : Good (keys.filterMap (triOf n)) m0 := by
    refine ⟨?_, ?_⟩
    · intro i j hij
      have hj := tri_lt hn i j hij
      have := (mem_tri hn i j hj).mp hij
      exact ⟨this.2, by omega⟩
    · intro i j hij
      have hj := tri_lt hn i j hij
      obtain ⟨hkey, hlt⟩ := (mem_tri hn i j hj).mp hij
      exact ⟨(hent i j (by omega) hj (by omega)).mpr hkey,
        (hent j i hj (by omega) (by omega)).mpr (hsym i j (by omega) hj (by omega) hkey)⟩
  obtain ⟨s, m, hr, hi⟩ := inv_run hg sched (inv_start (solve := solve) hs wk hw)
  refine ⟨s, hr, can_finish hg _ hi rfl, ?_⟩
  intro hf
  have hn' : m.n = n := by rw [hi.tinv.n, hmn]
  constructor
  · intro i j hij hj hkey
    have htri := (mem_tri hn i j hj).mpr ⟨hkey, hij⟩
    obtain ⟨e1, e2⟩ := finished_entries hi hf i j htri
    constructor
    · rw [(sim_get hi.sim i j (by omega) (by omega) (by omega)).1, PairMap.get, e1]
    · rw [(sim_get hi.sim j i (by omega) (by omega) (by omega)).1, PairMap.get, e2]
  · intro i j hin hjn hij hkey
    rw [(sim_get hi.sim i j (by omega) (by omega) hij).1, (sim_get hs i j (by omega) (by omega) hij).1]
    have hnot : ¬ ((i, j) ∈ keys.filterMap (triOf n) ∨ (j, i) ∈ keys.filterMap (triOf n)) := by
      rintro (h | h)
      · exact hkey ((mem_tri hn i j hjn).mp h).1
      · exact hkey (hsym j i hjn hin (Ne.symm hij) ((mem_tri hn j i hin).mp h).1)
    have he : m.entry i j = m0.entry i j := by
      rcases hi.tinv.entry i j with h | ⟨h, _⟩
      · exact h
      · exact absurd h hnot
    simp only [PairMap.get, he, hi.tinv.modes]

/-- a triangle of three points announced in both directions, two threads -/
example : ∃ t, PermTable.run (mk0 3 2) [.insertKeys (keysFromIndices 3 [0, 1, 2])] = some t ∧
    KeysOf t [0, 1, 2, 3, 5, 6, 7] ∧ Symmetric 3 [0, 1, 2, 3, 5, 6, 7] ∧
    triPairs 3 [0, 1, 2, 3, 5, 6, 7] = some [(0, 1), (0, 2), (1, 2)] := by
  refine ⟨_, rfl, ?_, ?_, by decide⟩
  · intro k
    rw [(insertKeys_spec _ _).2.2]
    simp only [mk0, addZeroth, mapSet, keysFromIndices]
    by_cases h0 : k = 0
    · simp [h0]
    · simp [h0]
      omega
  · intro i j hi hj hij h
    simp only [List.mem_cons, List.not_mem_nil, or_false] at h ⊢
    omega

/-- **C31 (one result).** Two complete runs, with different numbers of threads, distributions and
interleavings, store the same permutation for every pair of different points. -/
theorem C31_schedule_independent (n modes : Nat) (hn : 0 < n) (ops : List TableOp)
    (hv : ValidHistory (PairMap.empty n modes) ops) (t : Table)
    (ht : PermTable.run (mk0 n modes) ops = some t) (hsize : t.indexSize = n)
    (keys : List Nat) (hk : KeysOf t keys) (hsym : Symmetric n keys)
    (solve : Nat → Nat → List Nat × List Nat) (tri : List (Nat × Nat)) (htri : triPairs n keys = some tri)
    (T T' : Nat) (wk : Fin T → List (Nat × Nat)) (wk' : Fin T' → List (Nat × Nat))
    (hw : ∀ p, p ∈ tri ↔ ∃ k, p ∈ wk k) (hw' : ∀ p, p ∈ tri ↔ ∃ k, p ∈ wk' k)
    (sched : List (Fin T)) (sched' : List (Fin T')) (s : SortPerm.State T) (s' : SortPerm.State T')
    (hs : SortPerm.run solve (start t wk) sched = some s) (hf : Finished s)
    (hs' : SortPerm.run solve (start t wk') sched' = some s') (hf' : Finished s')
    (i j : Nat) (hi : i < n) (hj : j < n) (hij : i ≠ j) :
    safeGet s.table i j = safeGet s'.table i j := by
  obtain ⟨tri', ht', h⟩ := C31_sort n modes hn ops hv t ht hsize keys hk hsym solve
  obtain rfl : tri' = tri := by rw [htri] at ht'; exact (Option.some.inj ht').symm
  obtain ⟨s1, e1, _, g1⟩ := h T wk hw sched
  obtain ⟨s2, e2, _, g2⟩ := h T' wk' hw' sched'
  obtain rfl : s1 = s := by rw [hs] at e1; exact (Option.some.inj e1).symm
  obtain rfl : s2 = s' := by rw [hs'] at e2; exact (Option.some.inj e2).symm
  obtain ⟨a1, b1⟩ := g1 hf
  obtain ⟨a2, b2⟩ := g2 hf'
  by_cases hkey : i * n + j ∈ keys
  · rcases Nat.lt_or_gt_of_ne hij with hlt | hlt
    · rw [(a1 i j hlt hj hkey).1, (a2 i j hlt hj hkey).1]
    · have hkey' := hsym i j hi hj hij hkey
      rw [(a1 j i hlt hi hkey').2, (a2 j i hlt hi hkey').2]
  · rw [b1 i j hi hj hij hkey, b2 i j hi hj hij hkey]

/-- two threads, both orders of the same two pairs, one of them interleaved with waiting for the mutex -/
example : ∃ s s' : SortPerm.State 2,
    SortPerm.run (fun i j => ([i, j], [j, i])) (start (mkKeys 3 2 [1, 3, 5, 7])
      (fun k => if k = 0 then [(0, 1)] else [(1, 2)])) [0, 1, 0, 1, 0, 0, 1, 0, 0, 0, 1, 1, 1, 1, 1, 1] = some s ∧
    SortPerm.run (fun i j => ([i, j], [j, i])) (start (mkKeys 3 2 [1, 3, 5, 7])
      (fun k => if k = 0 then [] else [(1, 2), (0, 1)])) (List.replicate 14 1) = some s' ∧
    (∀ k, s.threads k = ⟨[], .idle⟩) ∧ (∀ k, s'.threads k = ⟨[], .idle⟩) ∧
    s.table.permutations ≠ s'.table.permutations ∧
    safeGet s.table 2 1 = some [2, 1] ∧ safeGet s'.table 2 1 = some [2, 1] := by
  refine ⟨_, _, rfl, rfl, ?_, ?_, by decide, by decide, by decide⟩
  · intro k
    match k with
    | 0 => rfl
    | 1 => rfl
  · intro k
    match k with
    | 0 => rfl
    | 1 => rfl

/-- If the solver returns mutually inverse row and column solutions, the permutations stored for `(i, j)` and
`(j, i)` after a complete sort are mutually inverse. -/
theorem inverse_of_solver (n modes : Nat) (hn : 0 < n) (ops : List TableOp)
    (hv : ValidHistory (PairMap.empty n modes) ops) (t : Table)
    (ht : PermTable.run (mk0 n modes) ops = some t) (hsize : t.indexSize = n)
    (keys : List Nat) (hk : KeysOf t keys) (hsym : Symmetric n keys)
    (solve : Nat → Nat → List Nat × List Nat)
    (hinv : ∀ i j b, b < modes →
      (solve i j).2[((solve i j).1.getD b 0)]? = some b ∧ (solve i j).1[((solve i j).2.getD b 0)]? = some b)
    (tri : List (Nat × Nat)) (htri : triPairs n keys = some tri) (T : Nat)
    (wk : Fin T → List (Nat × Nat)) (hw : ∀ p, p ∈ tri ↔ ∃ k, p ∈ wk k) (sched : List (Fin T))
    (s : SortPerm.State T) (hs : SortPerm.run solve (start t wk) sched = some s) (hf : Finished s)
    (i j : Nat) (hi : i < n) (hj : j < n) (hij : i ≠ j) (hkey : i * n + j ∈ keys) :
    ∃ p q, safeGet s.table i j = some p ∧ safeGet s.table j i = some q ∧
      ∀ b, b < modes → q[(p.getD b 0)]? = some b := by
  obtain ⟨tri', ht', h⟩ := C31_sort n modes hn ops hv t ht hsize keys hk hsym solve
  obtain rfl : tri' = tri := by rw [htri] at ht'; exact (Option.some.inj ht').symm
  obtain ⟨s1, e1, _, g1⟩ := h T wk hw sched
  obtain rfl : s1 = s := by rw [hs] at e1; exact (Option.some.inj e1).symm
  obtain ⟨a1, _⟩ := g1 hf
  rcases Nat.lt_or_gt_of_ne hij with hlt | hlt
  · obtain ⟨x, y⟩ := a1 i j hlt hj hkey
    exact ⟨_, _, x, y, fun b hb => (hinv i j b hb).1⟩
  · obtain ⟨x, y⟩ := a1 j i hlt hi (hsym i j hi hj hij hkey)
    exact ⟨_, _, y, x, fun b hb => (hinv j i b hb).2⟩

example : ∀ b, b < 3 → ([1, 2, 0] : List Nat)[(([2, 0, 1] : List Nat).getD b 0)]? = some b ∧
    ([2, 0, 1] : List Nat)[(([1, 2, 0] : List Nat).getD b 0)]? = some b := by decide

/-- **C31 (inverse).** Whatever the costs of pairing the modes of two points are: with the assignments that
`jv_permutation_fill` finds, the permutations stored for `(i, j)` and `(j, i)` after a complete sort by any
number of threads are inverse to each other. -/
theorem C31_inverse (n modes : Nat) (hn : 0 < n) (ops : List TableOp)
    (hv : ValidHistory (PairMap.empty n modes) ops) (t : Table)
    (ht : PermTable.run (mk0 n modes) ops = some t) (hsize : t.indexSize = n)
    (keys : List Nat) (hk : KeysOf t keys) (hsym : Symmetric n keys)
    (cost : Nat → Nat → Fin modes → Fin modes → ℚ)
    (tri : List (Nat × Nat)) (htri : triPairs n keys = some tri) :
    ∃ solve : Nat → Nat → List Nat × List Nat,
      (∀ i j, ∃ k, ∀ k', k ≤ k' → Lapjv.jvFill (cost i j) k' = some (solve i j)) ∧
      ∀ (T : Nat) (wk : Fin T → List (Nat × Nat)), (∀ p, p ∈ tri ↔ ∃ k, p ∈ wk k) →
      ∀ (sched : List (Fin T)) (s : SortPerm.State T), SortPerm.run solve (start t wk) sched = some s →
      Finished s → ∀ i j, i < n → j < n → i ≠ j → i * n + j ∈ keys →
      ∃ p q, safeGet s.table i j = some p ∧ safeGet s.table j i = some q ∧
        ∀ b, b < modes → q[(p.getD b 0)]? = some b := by
  choose k row col h1 h2 h3 h4 using fun i j => C21_fill_inverse_partial (cost i j)
  refine ⟨fun i j => (row i j, col i j), fun i j => ⟨k i j, h1 i j⟩, ?_⟩
  intro T wk hw sched s hs hf i j hi hj hij hkey
  exact inverse_of_solver n modes hn ops hv t ht hsize keys hk hsym _ (fun i j b hb => h4 i j b hb) tri htri
    T wk hw sched s hs hf i j hi hj hij hkey

/-- **C31 (limits).** Sorting an interpolator without data divides by zero: the table of zero points
still has the key 0. -/
theorem C31_empty_counterexample :
    KeysOf (mk0 0 0) [0] ∧ triPairs (mk0 0 0).indexSize [0] = none := by
  refine ⟨?_, by decide⟩
  intro k
  simp [mk0, addZeroth, mapSet]

/-- **C31 (limits).** If a pair is announced in one direction only, the exception of `overwrite` leaves
the parallel region and the program is terminated. -/
theorem C31_one_sided_counterexample :
    triPairs 2 [0, 1] = some [(0, 1)] ∧
      SortPerm.run (T := 1) (fun _ _ => ([0], [0])) (start (mkKeys 2 1 [1]) fun _ => [(0, 1)])
        [0, 0, 0, 0, 0] = none := by
  constructor <;> rfl

end Brille.Props
