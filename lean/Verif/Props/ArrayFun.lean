import Verif.Proofs.ArrayFun
import Mathlib.Order.OrderDual
import Mathlib.Algebra.Ring.Defs
import Mathlib.Tactic.NormNum
import Mathlib.Tactic.IntervalCases
/-
**C78.** Searches, comparisons, element-by-element functions and reductions of two-dimensional arrays
answer about the elements of the array, however they lie in memory.
-/
namespace Brille.Props
open Brille.ArrFun Brille.Spec Brille.Subscript

variable {T U R : Type}

/-- The number of elements looked at when a caller asks for the first `c`: all of them if `c` is zero or
too large. -/
def looked (n m c : Nat) : Nat := if 0 < c ∧ c < n * m then c else n * m

theorem looked_le (n m c : Nat) : looked n m c ≤ n * m := by unfold looked; split <;> omega

/-- **C78.** For an array stored row after row, `all`, `any`, `count`, `first`, `last` and `find` answer
about the elements in row order (or the first `c` of them): `first` is the number of elements before the
first hit, `last` the position of the last hit or the number of elements, `find` all positions. -/
theorem C78_search {a : A2 T} {n m : Nat} {f : Nat → Nat → T} (h : Shows a n m f) (hp : RowPacked a)
    (p : T → Bool) (c : Nat) :
    let seen := (flat n m f).take (looked n m c)
    a.all p c = .ok (seen.all p) ∧ a.any p c = .ok (seen.any p) ∧
    a.count p c = .ok (seen.countP p) ∧ a.first p c = .ok (seen.findIdx p) ∧
    (∃ r, a.last p c = .ok r ∧
      ((seen.any p = true ∧ seen[r]?.any p = true ∧
          ∀ (k : Nat) (v : T), r < k → seen[k]? = some v → p v = false) ∨
        (seen.any p = false ∧ r = seen.length))) ∧
    a.anyCmp p = .ok ((flat n m f).any p) := by
  intro seen
  have hlim : a.limit c = looked n m c := by
    unfold A2.limit looked A2.numel; rw [h.rows, h.cols]
  by_cases hm : m = 0
  · subst hm
    have hl : looked n 0 c = 0 := by simp [looked]
    have hs : seen = [] := by simp [seen, hl]
    have hf : flat n 0 f = [] := by simp [flat]
    have h0 : a.limit 0 = 0 := by simp [A2.limit, A2.numel, h.cols]
    rw [hs, hf]
    refine ⟨?_, ?_, ?_, ?_, ⟨0, ?_, Or.inr ⟨rfl, rfl⟩⟩, ?_⟩
    · simp [A2.all, hlim, hl, allLoop]
    · simp [A2.any, hlim, hl, anyLoop]
    · simp [A2.count, hlim, hl]; rfl
    · simp [A2.first, hlim, hl, hitLoop]
    · simp [A2.last, hlim, hl, hitLoop]
    · simp only [A2.anyCmp, A2.first, h0, A2.numel, h.cols]; rfl
  have hm : 0 < m := Nat.pos_of_ne_zero hm
  have hle := looked_le n m c
  have hseen : seen = (List.range (looked n m c)).map fun k => f (k / m) (k % m) := by
    rw [range_take (n * m) _ hle, ← flat_eq hm]
  have hlin : ∀ k ∈ List.range (looked n m c), a.lin k = .ok (f (k / m) (k % m)) := by
    intro k hk
    exact lin_of_row h hp (lt_of_lt_of_le (List.mem_range.1 hk) hle)
  refine ⟨?_, ?_, ?_, ?_, ?_, ?_⟩
  · rw [A2.all, hlim, allLoop_eq (v := fun k => f (k / m) (k % m)) p hlin, hseen]
  · rw [A2.any, hlim, anyLoop_eq (v := fun k => f (k / m) (k % m)) p hlin, hseen]
  · rw [A2.count, hlim, countLoop_eq (v := fun k => f (k / m) (k % m)) p 0 hlin, hseen, Nat.zero_add]
  · rw [A2.first, hlim, hitLoop_eq (v := fun k => f (k / m) (k % m)) p _ hlin, hseen,
      ← findIdx_range _ (fun k => f (k / m) (k % m))]
  · rw [A2.last, hlim, hitLoop_eq (v := fun k => f (k / m) (k % m)) p _ (fun k hk => hlin k (by simpa using hk))]
    refine ⟨_, rfl, ?_⟩
    cases hf : (List.range (looked n m c)).reverse.find? fun k => p (f (k / m) (k % m)) with
    | none =>
      right
      rw [List.find?_eq_none] at hf
      refine ⟨?_, by rw [hseen]; simp⟩
      rw [hseen, List.any_eq_false]
      intro x hx
      obtain ⟨k, hk, rfl⟩ := List.mem_map.1 hx
      exact hf k (by simpa using hk)
    | some r =>
      left
      rw [Option.getD_some]
      have hmem := List.mem_of_find?_eq_some hf
      rw [List.mem_reverse, List.mem_range] at hmem
      have hpr := List.find?_some hf
      refine ⟨?_, ?_, ?_⟩
      · rw [hseen, List.any_eq_true]
        exact ⟨_, List.mem_map.2 ⟨r, List.mem_range.2 hmem, rfl⟩, hpr⟩
      · rw [hseen, List.getElem?_map, List.getElem?_range hmem]
        simpa using hpr
      · intro k v hk hv
        rw [hseen, List.getElem?_map] at hv
        have hkl : k < looked n m c := by
          by_contra hc
          rw [List.getElem?_eq_none (by simpa using hc)] at hv
          cases hv
        rw [List.getElem?_range hkl] at hv
        simp only [Option.map_some, Option.some.injEq] at hv
        rw [← hv]
        obtain ⟨as, bs, e, hno⟩ := (List.find?_eq_some_iff_append.1 hf).2
        have hsort : ((List.range (looked n m c)).reverse).Pairwise (· > ·) := by
          rw [List.pairwise_reverse]; exact List.pairwise_lt_range
        rw [e] at hsort
        have hk' : k ∈ as ++ r :: bs := by rw [← e]; simpa using hkl
        rcases List.mem_append.1 hk' with hk' | hk'
        · simpa using hno k hk'
        · have h2 := (List.pairwise_append.1 hsort).2.1
          rw [List.pairwise_cons] at h2
          rcases List.mem_cons.1 hk' with rfl | hk'
          · omega
          · have := h2.1 k hk'; omega
  · have h0 : a.limit 0 = n * m := by simp [A2.limit, A2.numel, h.rows, h.cols]
    have e : a.first p = .ok ((flat n m f).findIdx p) := by
      rw [A2.first, h0, hitLoop_eq (v := fun k => f (k / m) (k % m)) p _ (fun k hk =>
        lin_of_row h hp (List.mem_range.1 hk)), findIdx_range _ (fun k => f (k / m) (k % m)), ← flat_eq hm]
    rw [A2.anyCmp, e]
    show (Except.ok _ : M Bool) = _
    congr 1
    rw [A2.numel, h.rows, h.cols, ← flat_length n f, Bool.eq_iff_iff, decide_eq_true_iff,
      List.findIdx_lt_length, List.any_eq_true]

/-- The positions of an array stored column after column are the positions of its rows and columns. -/
theorem col_perm {n m : Nat} (f : Nat → Nat → T) (hn : 0 < n) :
    ((List.range (n * m)).map fun k => f (k % n) (k / n)).Perm (flat n m f) := by
  have e : ((List.range (n * m)).map fun k => f (k % n) (k / n)) = flat m n fun j i => f i j := by
    rw [flat_eq hn, Nat.mul_comm]
  rw [e]
  clear e hn
  simp only [flat]
  induction n with
  | zero => simp
  | succ n ih =>
    rw [List.range_succ, List.flatMap_append]
    simp only [List.map_append, List.map_cons, List.map_nil, List.flatMap_cons, List.flatMap_nil,
      List.append_nil]
    refine List.Perm.trans ?_ (List.Perm.append_right _ ih)
    clear ih
    induction (List.range m) with
    | nil => simp
    | cons j l ih =>
      simp only [List.flatMap_cons, List.map_cons]
      rw [List.append_assoc, List.append_assoc]
      refine List.Perm.append_left _ ?_
      refine (List.Perm.append_left [f n j] ih).trans ?_
      rw [← List.append_assoc]
      refine (List.Perm.append_right _ (List.perm_append_comm)).trans ?_
      rw [List.append_assoc]
      exact List.Perm.refl _

/-- **C78.** For an array stored column after column, `all`, `any` and `count` of everything answer about
all elements. -/
theorem C78_search_columns {a : A2 T} {n m : Nat} {f : Nat → Nat → T} (h : Shows a n m f)
    (hp : ColPacked a) (p : T → Bool) :
    a.all p = .ok ((flat n m f).all p) ∧ a.any p = .ok ((flat n m f).any p) ∧
    a.count p = .ok ((flat n m f).countP p) := by
  have hlim : a.limit 0 = n * m := by simp [A2.limit, A2.numel, h.rows, h.cols]
  have hlin : ∀ k ∈ List.range (n * m), a.lin k = .ok (f (k % n) (k / n)) :=
    fun k hk => lin_of_col h hp (List.mem_range.1 hk)
  rcases Nat.eq_zero_or_pos n with rfl | hn
  · rw [A2.all, A2.any, A2.count, hlim]
    simp [flat, allLoop, anyLoop]; rfl
  have hperm := col_perm f hn (m := m)
  refine ⟨?_, ?_, ?_⟩
  · rw [A2.all, hlim, allLoop_eq (v := fun k => f (k % n) (k / n)) p hlin, hperm.all_eq]
  · rw [A2.any, hlim, anyLoop_eq (v := fun k => f (k % n) (k / n)) p hlin, hperm.any_eq]
  · rw [A2.count, hlim, countLoop_eq (v := fun k => f (k % n) (k / n)) p 0 hlin, hperm.countP_eq,
      Nat.zero_add]

/-- Writing a new array from its first to its last place. -/
theorem linear_fill (b : A2 U) (hs : b.shift = 0) (v : Nat → U) (body : A2 U → Nat → M (A2 U))
    (hbody : ∀ k o, k < b.data.length → body o k = o.writeLin k (v k)) :
    ∀ N, N ≤ b.data.length → (List.range N).foldlM body b =
      .ok { b with data := (List.range N).map v ++ b.data.drop N }
  | 0, _ => by simp; rfl
  | N + 1, hN => by
    rw [List.range_succ, List.foldlM_append, linear_fill b hs v body hbody N (by omega)]
    show (([N].foldlM body _ : M (A2 U))) = _
    rw [List.foldlM_cons, hbody N _ (by omega), A2.writeLin, if_pos (by simp [hs]; omega)]
    show (Except.ok _ : M (A2 U)) = _
    congr 2
    simp only [hs, Nat.add_zero]
    rw [List.set_append_right _ _ (by simp)]
    simp only [List.length_map, List.length_range, Nat.sub_self]
    have hd : b.data.drop N = b.data[N] :: b.data.drop (N + 1) :=
      List.drop_eq_getElem_cons (l := b.data) (by omega)
    rw [hd, List.set_cons_zero]
    simp

/-- **C78.** `is` of an array without gaps is the table of the answers, and `find` of an array stored row
after row lists the positions, in row order, where the answer is yes. -/
theorem C78_is {a : A2 T} {n m : Nat} {f : Nat → Nat → T} (h : Shows a n m f)
    (hp : RowPacked a ∨ ColPacked a) (p : T → Bool) :
    (∃ b, a.is p = .ok b ∧ Shows b n m fun i j => p (f i j)) ∧
    (RowPacked a → a.find p =
      .ok ((List.range (n * m)).filter fun k => (flat n m f)[k]?.any p)) := by
  have key : ∀ v : Nat → T, (∀ k, k < n * m → a.lin k = .ok (v k)) →
      a.is p = .ok ⟨n, m, a.t0, a.t1, 0, (List.range (n * m)).map fun k => p (v k)⟩ := by
    intro v hv
    rw [A2.is, A2.numel, h.rows, h.cols,
      linear_fill _ rfl (fun k => p (v k)) _ (fun k o hk => by
        rw [hv k (by simpa [fresh] using hk)]; rfl) _ (by simp [fresh])]
    simp [fresh]
  constructor
  · rcases hp with hp | hp
    · refine ⟨_, key _ (fun k hk => lin_of_row h hp hk), rfl, rfl, ?_⟩
      intro i j hi hj
      rw [read_pair, orUb_ok, hp i j (h.rows ▸ hi) (h.cols ▸ hj), h.cols]
      simp only [Nat.add_zero]
      rw [List.getElem?_map, List.getElem?_range (lt_mul_pair hi hj)]
      have hm : 0 < m := by omega
      simp only [Option.map_some]
      rw [Nat.mul_comm i, Nat.mul_add_div hm, Nat.div_eq_of_lt hj, Nat.mul_add_mod,
        Nat.mod_eq_of_lt hj, Nat.add_zero]
    · refine ⟨_, key _ (fun k hk => lin_of_col h hp hk), rfl, rfl, ?_⟩
      intro i j hi hj
      have hlt := lt_mul_pair hj hi
      rw [read_pair, orUb_ok, hp i j (h.rows ▸ hi) (h.cols ▸ hj), h.rows]
      simp only [Nat.add_zero]
      rw [List.getElem?_map, List.getElem?_range (by rw [Nat.mul_comm n]; omega)]
      have hn : 0 < n := by omega
      simp only [Option.map_some]
      rw [Nat.add_mul_div_right _ _ hn, Nat.div_eq_of_lt hi, Nat.add_mul_mod_self_right,
        Nat.mod_eq_of_lt hi, Nat.zero_add]
  · intro hr
    rcases Nat.eq_zero_or_pos m with rfl | hm
    · rw [A2.find, key _ (fun k hk => lin_of_row h hr hk), A2.numel, h.cols]
      rfl
    rw [A2.find, key _ (fun k hk => lin_of_row h hr hk), A2.numel, h.rows, h.cols]
    have hl : ∀ (l : List Nat) (out : List Nat), (∀ k ∈ l, k < n * m) →
        l.foldlM (fun out k => do
          let b ← (⟨n, m, a.t0, a.t1, 0, (List.range (n * m)).map fun k => p (f (k / m) (k % m))⟩ : A2 Bool).lin k
          return if b then out ++ [k] else out) out =
        (.ok (out ++ l.filter fun k => (flat n m f)[k]?.any p) : M (List Nat)) := by
      intro l
      induction l with
      | nil => intro out _; simp; rfl
      | cons k l ih =>
        intro out hk
        have hkl := hk k (by simp)
        have e : (⟨n, m, a.t0, a.t1, 0, (List.range (n * m)).map fun k => p (f (k / m) (k % m))⟩ : A2 Bool).lin k
            = .ok (p (f (k / m) (k % m))) := by
          rw [A2.lin, orUb_ok]
          simp [hkl]
        have e2 : (flat n m f)[k]?.any p = p (f (k / m) (k % m)) := by
          rw [flat_eq hm, List.getElem?_map, List.getElem?_range hkl]; rfl
        rw [List.foldlM_cons, e]
        show (l.foldlM _ (if p (f (k / m) (k % m)) = true then out ++ [k] else out) : M (List Nat)) = _
        rw [ih _ (fun k hk' => hk k (by simp [hk'])), List.filter_cons, e2]
        cases p (f (k / m) (k % m)) <;> simp
    exact hl _ [] (fun k hk => List.mem_range.1 hk)

/-- **C78.** Rounding, negation, absolute values and powers act element by element: the first two for
arrays without gaps, the last two for every array. -/
theorem C78_elementwise [Inhabited U] [Inhabited T] {a : A2 T} {n m : Nat} {f : Nat → Nat → T}
    (h : Shows a n m f) (hm : 0 < m) :
    (∀ g : T → U, RowPacked a ∨ ColPacked a →
      ∃ b, a.mapSame g = .ok b ∧ Shows b n m fun i j => g (f i j)) ∧
    (∀ g : T → T, ∃ b, a.abs g = .ok b ∧ Shows b n m fun i j => g (f i j)) ∧
    (∀ g : T → T, ∃ b, a.pow g = .ok b ∧ Shows b n m fun i j => g (f i j)) := by
  refine ⟨?_, ?_, ?_⟩
  · intro g hp
    obtain ⟨b, e, s, -⟩ := mapTo_spec h hm a.t0 a.t1 (by
      rcases hp with hp | hp
      · left; intro i j hi hj
        have := hp i j (h.rows ▸ hi) (h.cols ▸ hj)
        rw [h.cols] at this; exact this
      · right; intro i j hi hj
        have := hp i j (h.rows ▸ hi) (h.cols ▸ hj)
        rw [h.rows] at this; exact this) g
    exact ⟨b, e, s⟩
  · intro g
    obtain ⟨b, e, s, -⟩ := mapTo_spec h hm (a.calc n m).1 (a.calc n m).2 (packed_fresh_calc a n m _) g
    refine ⟨b, ?_, s⟩
    rw [A2.abs, h.rows, h.cols]; exact e
  · intro g
    obtain ⟨b, e, s, -⟩ := mapTo_spec h hm m 1 (Or.inl (rowPacked_fresh n m _)) g
    refine ⟨b, ?_, s⟩
    rw [A2.pow, h.cols]; exact e

/-- What `is_contiguous` means. -/
theorem contiguous_packed {a : A2 T} (h : a.contiguous = true) (hs : Separate a) :
    (a.t1 ≤ a.t0 → RowPacked a) ∧ (RowPacked a ∨ ColPacked a) := by
  simp only [A2.contiguous, Arr.isContiguous2, Bool.and_eq_true, Bool.or_eq_true, decide_eq_true_eq,
    beq_iff_eq] at h
  have row : a.t1 ≤ a.t0 → RowPacked a := by
    intro ht i j hi hj
    rw [if_pos ht] at h
    obtain ⟨h0, h1⟩ := h
    have e1 : i * a.t0 = i * a.n1 := by
      rcases h0 with h0 | h0
      · have : i = 0 := by omega
        simp [this]
      · rw [h0]
    have e2 : j * a.t1 = j := by
      rcases h1 with h1 | h1
      · have : j = 0 := by omega
        simp [this]
      · by_cases hq : a.t0 ≤ a.t1
        · rw [if_pos hq] at h1
          have e : a.t0 = a.t1 := by omega
          rcases h0 with h0 | h0
          · have : a.t1 = a.n0 := h1.symm
            have h2 : a.n0 = 1 := by omega
            rw [← h1, h2, Nat.mul_one]
          · by_cases hb : 2 ≤ a.n0 ∧ 2 ≤ a.n1
            · have := (hs 0 1 1 0 (by omega) (by omega) (by omega) (by omega) (by rw [e]; ring)).1
              omega
            · have h2 : a.n1 = 1 := by omega
              have : j = 0 := by omega
              simp [this]
        · rw [if_neg hq] at h1
          rw [← h1, Nat.mul_one]
    rw [e1, e2]
  refine ⟨row, ?_⟩
  by_cases ht : a.t1 ≤ a.t0
  · exact Or.inl (row ht)
  · right
    intro i j hi hj
    rw [if_neg ht, if_pos (by omega)] at h
    obtain ⟨h0, h1⟩ := h
    have e1 : i * a.t0 = i := by
      rcases h0 with h0 | h0
      · have : i = 0 := by omega
        simp [this]
      · rw [← h0, Nat.mul_one]
    have e2 : j * a.t1 = j * a.n0 := by
      rcases h1 with h1 | h1
      · have : j = 0 := by omega
        simp [this]
      · rw [h1]
    rw [e1, e2]

/-- **C78.** `contiguous_copy` shows the same table without gaps; so does `contiguous_row_ordered_copy`,
row after row unless the array is column ordered. -/
theorem C78_copies [Inhabited T] {a : A2 T} {n m : Nat} {f : Nat → Nat → T} (h : Shows a n m f)
    (hs : Separate a) (hm : 0 < m) :
    (∃ b, a.contiguousCopy = .ok b ∧ Shows b n m f ∧ (RowPacked b ∨ ColPacked b)) ∧
    (∃ b, a.rowOrderedCopy = .ok b ∧ Shows b n m f ∧ (RowPacked b ∨ ColPacked b) ∧
      (a.t1 ≤ a.t0 → RowPacked b)) := by
  obtain ⟨b, e, s, r⟩ := mapTo_spec h hm (a.calc n m).1 (a.calc n m).2 (packed_fresh_calc a n m _) id
  obtain ⟨r0, r1, r2, r3, r4, -, -⟩ := r
  have hb : RowPacked b ∨ ColPacked b := by
    rcases packed_fresh_calc (U := T) a n m default with hp | hp
    · left; intro i j hi hj
      rw [r2, r3, r1]
      exact hp i j (by rw [← r0]; exact hi) (by rw [← r1]; exact hj)
    · right; intro i j hi hj
      rw [r2, r3, r0]
      exact hp i j (by rw [← r0]; exact hi) (by rw [← r1]; exact hj)
  constructor
  · by_cases hc : a.contiguous = true
    · exact ⟨a, by rw [A2.contiguousCopy, if_pos hc], h, (contiguous_packed hc hs).2⟩
    · refine ⟨b, ?_, s, hb⟩
      rw [A2.contiguousCopy, if_neg hc, h.rows, h.cols]; exact e
  · by_cases hc : a.t1 ≤ a.t0 ∧ a.contiguous = true
    · exact ⟨a, by rw [A2.rowOrderedCopy, if_pos hc], h, (contiguous_packed hc.2 hs).2,
        fun ht => (contiguous_packed hc.2 hs).1 ht⟩
    · refine ⟨b, ?_, s, hb, ?_⟩
      · rw [A2.rowOrderedCopy, if_neg hc, h.rows, h.cols]; exact e
      · intro ht i j hi hj
        rw [r2, r3]
        simp [fresh, A2.calc, if_neg (Nat.not_lt.2 ht), s.cols]

/-- **C78.** Adding, subtracting, multiplying or dividing by a number in place changes every element of
the array and nothing else in memory; an array marked constant is refused. -/
theorem C78_in_place {a : A2 T} {n m : Nat} {f : Nat → Nat → T} (h : Shows a n m f)
    (hs : Separate a) (hm : 0 < m) (g : T → T) :
    (∃ b, a.scalarOp true g = .ok b ∧ Shows b n m (fun i j => g (f i j)) ∧ SameElsewhere a b) ∧
    a.scalarOp false g = .error .threw := by
  refine ⟨?_, rfl⟩
  obtain ⟨o, e, s, r, -⟩ := assign_loop a hs h.bound (fun x : List Nat => (x.getD 0 0, x.getD 1 0))
    (fun x => g (f (x.getD 0 0) (x.getD 1 0))) (fun o x => do
      let v ← o.read x
      o.write x (g v)) (grid n m) a
    (by
      refine (List.Pairwise.imp_of_mem ?_ (grid_nodup n m))
      intro x y hx hy hne e
      obtain ⟨i, hi, j, hj, rfl⟩ := mem_grid.1 hx
      obtain ⟨k, hk, l, hl, rfl⟩ := mem_grid.1 hy
      simp at e
      exact hne (by rw [e.1, e.2]))
    (by
      intro x hx
      obtain ⟨i, hi, j, hj, rfl⟩ := mem_grid.1 hx
      exact ⟨h.rows ▸ hi, h.cols ▸ hj⟩)
    (SameElsewhere.refl a)
    (by
      intro x hx o _ ho
      obtain ⟨i, hi, j, hj, rfl⟩ := mem_grid.1 hx
      simp only [List.getD_cons_zero, List.getD_cons_succ] at ho ⊢
      rw [ho, h.entry i j hi hj]; rfl)
    (fun _ _ => rfl)
  refine ⟨o, ?_, ⟨s.1.trans h.rows, s.2.1.trans h.cols, ?_⟩, s⟩
  · rw [A2.scalarOp, h.rows, h.cols, subscripts_grid hm]
    exact e
  · intro i j hi hj
    exact r [i, j] (mem_grid.2 ⟨i, hi, j, hj, rfl⟩)

/-- A fold which reads an array. -/
theorem fold_read {α σ : Type} (rd : σ → M T) (v : σ → T) (g : α → T → α) : ∀ (l : List σ) (z : α),
    (∀ x ∈ l, rd x = .ok (v x)) →
    l.foldlM (fun t x => do
      let w ← rd x
      return g t w) z = (.ok ((l.map v).foldl g z) : M α)
  | [], _, _ => rfl
  | x :: l, z, h => by
    rw [List.foldlM_cons, h x (by simp)]
    exact fold_read rd v g l (g z (v x)) (fun y hy => h y (by simp [hy]))

/-- **C78.** Reductions along an axis combine the elements of each column (axis 0) or each row (axis 1),
in order, for every array. -/
theorem C78_reduce [Inhabited T] {a : A2 T} {n m : Nat} {f : Nat → Nat → T} (h : Shows a n m f)
    (hm : 0 < m) (g : T → T → T) (z : T) :
    (∃ b, a.reduce 0 g z = .ok b ∧
      Shows b 1 m fun _ j => ((List.range n).map fun i => f i j).foldl g z) ∧
    (∃ b, a.reduce 1 g z = .ok b ∧
      Shows b n 1 fun i _ => ((List.range m).map fun j => f i j).foldl g z) := by
  constructor
  · obtain ⟨o, e, s, -⟩ := fill (fresh 1 m (a.calc 1 m).1 (a.calc 1 m).2 (default : T)) 1 m rfl rfl hm
      (packed_fresh_calc a 1 m _) rfl (by simp [fresh])
      (fun _ j => ((List.range n).map fun i => f i j).foldl g z)
      (fun out x => do
        let v ← (List.range n).foldlM (fun tmp i => do
          let v ← a.read (x.set 0 i)
          return g tmp v) z
        out.write x v) (by
        intro i j hi hj o
        have := fold_read (fun i' => a.read ([i, j].set 0 i')) (fun i' => f i' j) g (List.range n) z
          (fun i' hi' => h.entry i' j (List.mem_range.1 hi') hj)
        rw [this]; rfl)
    refine ⟨o, ?_, s⟩
    simp only [A2.reduce, if_true, h.rows, h.cols, subscripts_grid hm]
    exact e
  · obtain ⟨o, e, s, -⟩ := fill (fresh n 1 (a.calc n 1).1 (a.calc n 1).2 (default : T)) n 1 rfl rfl
      Nat.one_pos (packed_fresh_calc a n 1 _) rfl (by simp [fresh])
      (fun i _ => ((List.range m).map fun j => f i j).foldl g z)
      (fun out x => do
        let v ← (List.range m).foldlM (fun tmp i => do
          let v ← a.read (x.set 1 i)
          return g tmp v) z
        out.write x v) (by
        intro i j hi hj o
        have := fold_read (fun j' => a.read ([i, j].set 1 j')) (fun j' => f i j') g (List.range m) z
          (fun j' hj' => h.entry i j' hi (List.mem_range.1 hj'))
        rw [this]; rfl)
    refine ⟨o, ?_, s⟩
    simp only [A2.reduce, Nat.one_ne_zero, if_false, h.rows, h.cols, subscripts_grid Nat.one_pos]
    exact e

/-- **C78.** `sum()` and `prod()` combine all elements and `to_std()` lists them, in row order, for every
array. -/
theorem C78_total {a : A2 T} {n m : Nat} {f : Nat → Nat → T} (h : Shows a n m f) (hm : 0 < m)
    (g : T → T → T) (z : T) :
    a.total g z = .ok ((flat n m f).foldl g z) ∧ a.toStd = .ok (flat n m f) := by
  have e : (grid n m).map (fun x => f (x.getD 0 0) (x.getD 1 0)) = flat n m f := by
    simp only [grid, flat, List.map_flatMap, List.map_map]
    rfl
  have hr : ∀ x ∈ grid n m, a.read x = .ok (f (x.getD 0 0) (x.getD 1 0)) := by
    intro x hx
    obtain ⟨i, hi, j, hj, rfl⟩ := mem_grid.1 hx
    exact h.entry i j hi hj
  constructor
  · rw [A2.total, h.rows, h.cols, subscripts_grid hm, ← e]
    exact fold_read a.read _ g (grid n m) z hr
  · rw [A2.toStd, h.rows, h.cols, subscripts_grid hm, ← e]
    show (grid n m).mapM a.read = _
    clear e
    generalize grid n m = l at hr
    induction l with
    | nil => rfl
    | cons x l ih =>
      rw [List.mapM_cons, hr x (by simp), ih (fun y hy => hr y (by simp [hy]))]
      rfl

/-- The running minimum is the least element. -/
theorem least_fold [LinearOrder T] (l : List T) (top : T) (hl : l ≠ []) (ht : ∀ x ∈ l, x ≤ top) :
    let r := l.foldl (fun t v => if v < t then v else t) top
    r ∈ l ∧ ∀ x ∈ l, r ≤ x := by
  have key : ∀ (l : List T) (t : T),
      (l.foldl (fun t v => if v < t then v else t) t = t ∨
        l.foldl (fun t v => if v < t then v else t) t ∈ l) ∧
      l.foldl (fun t v => if v < t then v else t) t ≤ t ∧
      ∀ x ∈ l, l.foldl (fun t v => if v < t then v else t) t ≤ x := by
    intro l
    induction l with
    | nil => intro t; simp
    | cons v l ih =>
      intro t
      obtain ⟨h1, h2, h3⟩ := ih (if v < t then v else t)
      simp only [List.foldl_cons]
      have hle : (if v < t then v else t) ≤ t ∧ (if v < t then v else t) ≤ v := by
        split
        · exact ⟨le_of_lt ‹_›, le_refl _⟩
        · exact ⟨le_refl _, not_lt.1 ‹_›⟩
      refine ⟨?_, h2.trans hle.1, ?_⟩
      · rcases h1 with h1 | h1
        · rw [h1]
          split
          · right; simp
          · left; rfl
        · right; simp [h1]
      · intro x hx
        rcases List.mem_cons.1 hx with rfl | hx
        · exact h2.trans hle.2
        · exact h3 x hx
  intro r
  obtain ⟨h1, h2, h3⟩ := key l top
  refine ⟨?_, h3⟩
  rcases h1 with h1 | h1
  · obtain ⟨x, hx⟩ := List.exists_mem_of_ne_nil l hl
    have e : x = top := le_antisymm (ht x hx) (h1 ▸ h3 x hx)
    show r ∈ l
    have : r = top := h1
    rw [this, ← e]; exact hx
  · exact h1

/-- **C78.** `sum` along an axis is the sum of each column or row; `min` and `max` (which start from the
largest and the smallest number of the type) are the least and the greatest element of each column or
row. -/
theorem C78_sum [AddMonoid T] [Inhabited T] {a : A2 T} {n m : Nat} {f : Nat → Nat → T}
    (h : Shows a n m f) (hm : 0 < m) :
    (∃ b, a.reduce 0 (· + ·) 0 = .ok b ∧ Shows b 1 m fun _ j => ((List.range n).map fun i => f i j).sum) ∧
    (∃ b, a.reduce 1 (· + ·) 0 = .ok b ∧ Shows b n 1 fun i _ => ((List.range m).map fun j => f i j).sum) ∧
    a.total (· + ·) 0 = .ok (flat n m f).sum := by
  simp only [List.sum_eq_foldl]
  exact ⟨(C78_reduce h hm _ _).1, (C78_reduce h hm _ _).2, (C78_total h hm _ _).1⟩

theorem C78_min [LinearOrder T] [Inhabited T] {a : A2 T} {n m : Nat} {f : Nat → Nat → T}
    (h : Shows a n m f) (hn : 0 < n) (hm : 0 < m) (top bottom : T)
    (ht : ∀ i j, i < n → j < m → f i j ≤ top) (hb : ∀ i j, i < n → j < m → bottom ≤ f i j) :
    (∃ (b : A2 T) (r : Nat → T), a.reduce 0 (fun t v => if v < t then v else t) top = .ok b ∧ Shows b 1 m (fun _ => r) ∧
      ∀ j < m, (∃ i < n, r j = f i j) ∧ ∀ i < n, r j ≤ f i j) ∧
    (∃ (b : A2 T) (r : Nat → T), a.reduce 1 (fun t v => if v < t then v else t) top = .ok b ∧ Shows b n 1 (fun i _ => r i) ∧
      ∀ i < n, (∃ j < m, r i = f i j) ∧ ∀ j < m, r i ≤ f i j) ∧
    (∃ (b : A2 T) (r : Nat → T), a.reduce 0 (fun t v => if v > t then v else t) bottom = .ok b ∧ Shows b 1 m (fun _ => r) ∧
      ∀ j < m, (∃ i < n, r j = f i j) ∧ ∀ i < n, f i j ≤ r j) ∧
    (∃ (b : A2 T) (r : Nat → T), a.reduce 1 (fun t v => if v > t then v else t) bottom = .ok b ∧ Shows b n 1 (fun i _ => r i) ∧
      ∀ i < n, (∃ j < m, r i = f i j) ∧ ∀ j < m, f i j ≤ r i) := by
  have col : ∀ j, j < m → ∀ x ∈ (List.range n).map fun i => f i j, ∃ i < n, x = f i j := by
    intro j _ x hx
    obtain ⟨i, hi, rfl⟩ := List.mem_map.1 hx
    exact ⟨i, List.mem_range.1 hi, rfl⟩
  have row : ∀ i, i < n → ∀ x ∈ (List.range m).map fun j => f i j, ∃ j < m, x = f i j := by
    intro i _ x hx
    obtain ⟨j, hj, rfl⟩ := List.mem_map.1 hx
    exact ⟨j, List.mem_range.1 hj, rfl⟩
  have hne0 : ∀ j, ((List.range n).map fun i => f i j) ≠ [] := by
    intro j; simp; omega
  have hne1 : ∀ i, ((List.range m).map fun j => f i j) ≠ [] := by
    intro i; simp; omega
  refine ⟨?_, ?_, ?_, ?_⟩
  · obtain ⟨b, e, s⟩ := (C78_reduce h hm (fun t v => if v < t then v else t) top).1
    refine ⟨b, _, e, s, ?_⟩
    intro j hj
    obtain ⟨h1, h2⟩ := least_fold ((List.range n).map fun i => f i j) top (hne0 j) (by
      intro x hx
      obtain ⟨i, hi, rfl⟩ := col j hj x hx
      exact ht i j hi hj)
    exact ⟨col j hj _ h1, fun i hi => h2 _ (List.mem_map.2 ⟨i, List.mem_range.2 hi, rfl⟩)⟩
  · obtain ⟨b, e, s⟩ := (C78_reduce h hm (fun t v => if v < t then v else t) top).2
    refine ⟨b, _, e, s, ?_⟩
    intro i hi
    obtain ⟨h1, h2⟩ := least_fold ((List.range m).map fun j => f i j) top (hne1 i) (by
      intro x hx
      obtain ⟨j, hj, rfl⟩ := row i hi x hx
      exact ht i j hi hj)
    exact ⟨row i hi _ h1, fun j hj => h2 _ (List.mem_map.2 ⟨j, List.mem_range.2 hj, rfl⟩)⟩
  · obtain ⟨b, e, s⟩ := (C78_reduce h hm (fun t v => if v > t then v else t) bottom).1
    refine ⟨b, _, e, s, ?_⟩
    intro j hj
    obtain ⟨h1, h2⟩ := least_fold (T := Tᵒᵈ) ((List.range n).map fun i => f i j) bottom (hne0 j) (by
      intro x hx
      obtain ⟨i, hi, rfl⟩ := col j hj x hx
      exact hb i j hi hj)
    exact ⟨col j hj _ h1, fun i hi => h2 _ (List.mem_map.2 ⟨i, List.mem_range.2 hi, rfl⟩)⟩
  · obtain ⟨b, e, s⟩ := (C78_reduce h hm (fun t v => if v > t then v else t) bottom).2
    refine ⟨b, _, e, s, ?_⟩
    intro i hi
    obtain ⟨h1, h2⟩ := least_fold (T := Tᵒᵈ) ((List.range m).map fun j => f i j) bottom (hne1 i) (by
      intro x hx
      obtain ⟨j, hj, rfl⟩ := row i hi x hx
      exact hb i j hi hj)
    exact ⟨row i hi _ h1, fun j hj => h2 _ (List.mem_map.2 ⟨j, List.mem_range.2 hj, rfl⟩)⟩

/-! ### Rows -/

theorem mapM_ok {α β : Type} (g : α → M β) (v : α → β) : ∀ l : List α, (∀ x ∈ l, g x = .ok (v x)) →
    l.mapM g = .ok (l.map v)
  | [], _ => rfl
  | x :: l, h => by
    rw [List.mapM_cons, h x (by simp), mapM_ok g v l (fun y hy => h y (by simp [hy]))]
    rfl

theorem row_eq {a : A2 T} {n m : Nat} {f : Nat → Nat → T} (h : Shows a n m f) {i : Nat} (hi : i < n) :
    a.row i = .ok ((List.range m).map (f i)) := by
  rw [A2.row, h.cols]
  apply mapM_ok
  intro j hj
  rw [orUb_ok, ← h.get hi (List.mem_range.1 hj)]
  congr 1; omega

theorem view_shows {a : A2 T} {n m : Nat} {f : Nat → Nat → T} (h : Shows a n m f) (hm : 0 < m)
    (ht : 0 < a.t1) {i : Nat} (hi : i < n) :
    ∃ v, a.view i = .ok v ∧ Shows v 1 m (fun _ => f i) ∧ v.t1 = a.t1 := by
  have hb := h.bound i (m - 1) (h.rows ▸ hi) (by rw [h.cols]; omega)
  have h1 : m - 1 ≤ (m - 1) * a.t1 := Nat.le_mul_of_pos_right _ ht
  refine ⟨{ a with n0 := 1, shift := a.shift + i * a.t0 }, ?_, ⟨rfl, h.cols, ?_⟩, rfl⟩
  · rw [A2.view, if_pos (h.rows ▸ hi), if_pos (by rw [h.cols]; omega)]
  · intro k j hk hj
    have hk : k = 0 := by omega
    subst hk
    rw [read_pair, orUb_ok, ← h.get hi hj]
    simp only
    congr 1; omega

theorem rowHit_eq {a : A2 T} {b : A2 R} {op : List T → List R → Bool} {hit : Nat → Bool} :
    ∀ l : List Nat, (∀ i ∈ l, a.rowPasses b op i = .ok (hit i)) →
    rowHit a b op l = .ok ((l.find? hit).getD a.n0)
  | [], _ => rfl
  | i :: l, h => by
    have e := rowHit_eq l (fun k hk => h k (by simp [hk]))
    simp only [rowHit, h i (by simp), List.find?_cons]
    show (if hit i = true then _ else _) = _
    cases hit i <;> simp [e]; rfl

/-- **C78.** Comparing the rows of an array with the rows of another one, or with a single row, for every
way in which they lie in memory: `row_is` gives one answer per row; `count`, `find`, `first` and `last`
count, list and find the rows with answer yes. -/
theorem C78_rows {a : A2 T} {b : A2 R} {n m k : Nat} {f : Nat → Nat → T} {g : Nat → Nat → R}
    (h : Shows a n m f) (hb : Shows b k m g) (hk : k = n ∨ k = 1) (hm : 0 < m) (ht : 0 < a.t1)
    (op : List T → List R → Bool) :
    let hit := fun i => op ((List.range m).map (f i)) ((List.range m).map (g (if k = n then i else 0)))
    a.rowIs b op = .ok ((List.range n).map hit) ∧
    a.countRows b op = .ok ((List.range n).countP hit) ∧
    a.findRows b op = .ok ((List.range n).filter hit) ∧
    a.firstRow b op = .ok (((List.range n).find? hit).getD n) ∧
    a.lastRow b op = .ok (((List.range n).reverse.find? hit).getD n) := by
  intro hit
  have hbc : broadcastable a b = true := by
    simp only [broadcastable, h.rows, h.cols, hb.rows, hb.cols]
    rcases hk with rfl | rfl <;> simp
  have hbrow : ∀ i < n, b.row (if k = n then i else 0) = .ok ((List.range m).map (g (if k = n then i else 0))) := by
    intro i hi
    apply row_eq hb
    split
    · omega
    · rcases hk with hk | hk
      · omega
      · omega
  have hguard : a.guard b = .ok () := by
    rw [A2.guard, hbc, h.rows, h.cols, hb.rows, hb.cols]; simp
  have hpass : ∀ i < n, a.rowPasses b op i = .ok (hit i) := by
    intro i hi
    have e := hbrow i hi
    rw [A2.rowPasses, h.rows, h.cols, hb.rows, hb.cols]
    by_cases hkn : k = n
    · rw [if_pos ⟨hkn.symm, rfl⟩, row_eq h hi]
      rw [if_pos hkn] at e
      rw [e]
      show (Except.ok _ : M Bool) = Except.ok (op _ _)
      rw [if_pos hkn]
    · rw [if_neg (fun c => hkn c.1.symm)]
      have hk1 : k = 1 := hk.resolve_left hkn
      obtain ⟨v, ev, sv, -⟩ := view_shows h hm ht hi
      rw [ev]
      have e2 : v.rowIs b op = .ok [hit i] := by
        rw [A2.rowIs]
        have : broadcastable v b = true := by
          simp [broadcastable, sv.rows, sv.cols, hb.rows, hb.cols, hk1]
        rw [this, sv.rows, sv.cols, hb.rows, hb.cols, hk1]
        simp only [Bool.not_true, Bool.false_eq_true, if_false, and_self, if_true]
        rw [if_neg hkn] at e
        have hv := row_eq sv Nat.one_pos
        rw [List.range_one, List.mapM_cons, List.mapM_nil, hv, e]
        show (Except.ok [op _ _] : M (List Bool)) = Except.ok [op _ _]
        rw [if_neg hkn]
      show (do let l ← v.rowIs b op; return l.all id) = _
      rw [e2]
      show (Except.ok _ : M Bool) = _
      simp
  refine ⟨?_, ?_, ?_, ?_, ?_⟩
  · rw [A2.rowIs, hbc, h.rows, h.cols, hb.rows, hb.cols]
    simp only [Bool.not_true, Bool.false_eq_true, if_false]
    by_cases hkn : k = n
    · rw [if_pos (by simp [hkn])]
      apply mapM_ok
      intro i hi
      have hi := List.mem_range.1 hi
      have e := hbrow i hi
      rw [if_pos hkn] at e
      rw [row_eq h hi, e]
      show (Except.ok _ : M Bool) = Except.ok (op _ _)
      rw [if_pos hkn]
    · rw [if_neg (fun c => hkn c.1.symm), if_neg (by simp)]
      apply mapM_ok
      intro i hi
      have hi := List.mem_range.1 hi
      have e := hbrow i hi
      rw [if_neg hkn] at e
      rw [row_eq h hi, e]
      show (Except.ok _ : M Bool) = Except.ok (op _ _)
      rw [if_neg hkn]
  · rw [A2.countRows, hguard, h.rows]
    show (List.range n).foldlM _ 0 = _
    have := fold_read (a.rowPasses b op) hit (fun (c : Nat) (t : Bool) => if t then c + 1 else c) (List.range n) 0
      (fun i hi => hpass i (List.mem_range.1 hi))
    rw [this]
    congr 1
    have gen : ∀ (l : List Nat) (c : Nat), (l.map hit).foldl (fun c t => if t = true then c + 1 else c) c
        = c + l.countP hit := by
      intro l
      induction l with
      | nil => intro c; rfl
      | cons x l ih =>
        intro c
        rw [List.map_cons, List.foldl_cons, ih, List.countP_cons]
        cases hit x <;> simp; omega
    rw [gen, Nat.zero_add]
  · rw [A2.findRows, hguard, h.rows]
    show (List.range n).foldlM _ [] = _
    have gen : ∀ (l out : List Nat), (∀ i ∈ l, i < n) → l.foldlM (fun out i => do
        return if ← a.rowPasses b op i then out ++ [i] else out) out = (.ok (out ++ l.filter hit) : M (List Nat)) := by
      intro l
      induction l with
      | nil => intro out _; simp; rfl
      | cons x l ih =>
        intro out hl
        rw [List.foldlM_cons, hpass x (hl x (by simp))]
        show (l.foldlM _ (if hit x = true then out ++ [x] else out) : M (List Nat)) = _
        rw [ih _ (fun i hi => hl i (by simp [hi])), List.filter_cons]
        cases hit x <;> simp
    exact gen _ [] (fun i hi => List.mem_range.1 hi)
  · rw [A2.firstRow, hguard]
    show rowHit a b op _ = _
    rw [h.rows, rowHit_eq (List.range n) (fun i hi => hpass i (List.mem_range.1 hi)), h.rows]
  · rw [A2.lastRow, hguard]
    show rowHit a b op _ = _
    rw [h.rows, rowHit_eq (List.range n).reverse (fun i hi => hpass i (by simpa using hi)), h.rows]

/-- **C78.** Rows of a different length, and numbers of rows other than one or that of the array, are
refused. -/
theorem C78_rows_refused {a : A2 T} {b : A2 R} (op : List T → List R → Bool)
    (h : b.n1 ≠ a.n1 ∨ (b.n0 ≠ a.n0 ∧ b.n0 ≠ 1)) :
    a.rowIs b op = .error .threw ∧ a.countRows b op = .error .threw ∧
    a.findRows b op = .error .threw ∧ a.firstRow b op = .error .threw ∧
    a.lastRow b op = .error .threw := by
  have hg : a.guard b = .error .threw := by
    rw [A2.guard]
    by_cases hb : broadcastable a b = true
    · rw [hb]
      simp only [broadcastable, Bool.and_eq_true, Bool.or_eq_true, beq_iff_eq] at hb
      have h1 : b.n1 ≠ a.n1 := by
        rcases h with h | h
        · exact h
        · rcases hb.1 with e | e
          · exact absurd e h.2
          · exact absurd e.symm h.1
      simp only [Bool.not_true, Bool.false_eq_true, if_false]
      rw [if_pos ⟨fun c => h1 c.2.symm, fun c => h1 c.symm⟩]
    · simp [hb]
  refine ⟨?_, ?_, ?_, ?_, ?_⟩
  · rw [A2.rowIs]
    by_cases hb : broadcastable a b = true
    · rw [A2.guard] at hg
      rw [hb] at hg ⊢
      simp only [Bool.not_true, Bool.false_eq_true, if_false] at hg ⊢
      by_cases hc : ¬(a.n0 = b.n0 ∧ a.n1 = b.n1) ∧ a.n1 ≠ b.n1
      · rw [if_neg hc.1, if_pos hc.2]
      · rw [if_neg hc] at hg; cases hg
    · simp [hb]
  all_goals first
    | rw [A2.countRows, hg]; rfl
    | rw [A2.findRows, hg]; rfl
    | rw [A2.firstRow, hg]; rfl
    | rw [A2.lastRow, hg]; rfl

/-- **C78.** `dot` is the scalar product of two rows, for every array. -/
theorem C78_dot [Semiring T] {a : A2 T} {n m : Nat} {f : Nat → Nat → T} (h : Shows a n m f) {i k : Nat}
    (hi : i < n) (hk : k < n) : a.dot i k = .ok ((List.range m).map fun j => f i j * f k j).sum := by
  rw [A2.dot, row_eq h hi, row_eq h hk]
  show (Except.ok _ : M T) = _
  rw [List.sum_eq_foldl, List.zipWith_map, List.zipWith_self]

/-! ### Arrays with gaps -/

/-- The last two columns of the table 1 2 3 / 4 5 6, as given by `view({0, 1})`. -/
def lastColumns : A2 Int := ⟨2, 2, 3, 1, 1, [1, 2, 3, 4, 5, 6]⟩

/-- The table 1 2 / 3 4 / 5 6 stored column after column. -/
def byColumns : A2 Int := ⟨3, 2, 1, 3, 0, [1, 3, 5, 2, 4, 6]⟩

/-- A program makes `lastColumns`. -/
example : ∃ s h, Arr.run .two [.wrap [1, 2, 3, 4, 5, 6] [2, 3] [3, 1] true, .viewFrom 0 [0, 1]]
      (Arr.Store.empty Int) = .ok s ∧ s.arr 1 = some h ∧
    h.shape = [2, 2] ∧ h.stride = [3, 1] ∧ h.shift = 1 ∧
    h.data.bind s.block = some [1, 2, 3, 4, 5, 6] :=
  ⟨_, _, rfl, rfl, rfl, rfl, rfl, rfl⟩

theorem lastColumns_shows : Shows lastColumns 2 2 fun i j => 3 * i + j + 2 := by
  refine ⟨rfl, rfl, ?_⟩
  intro i j hi hj
  interval_cases i <;> interval_cases j <;> rfl

theorem byColumns_shows : Shows byColumns 3 2 fun i j => 2 * i + j + 1 := by
  refine ⟨rfl, rfl, ?_⟩
  intro i j hi hj
  interval_cases i <;> interval_cases j <;> rfl

theorem byColumns_packed : ColPacked byColumns := by
  intro i j _ _; simp [byColumns]

/-- A row of a packed array is packed, and `C78_search` applies to it. -/
def secondRow : A2 Int := ⟨1, 3, 3, 1, 3, [1, 2, 3, 4, 5, 6]⟩

theorem secondRow_shows : Shows secondRow 1 3 fun _ j => j + 4 := by
  refine ⟨rfl, rfl, ?_⟩
  intro i j hi hj
  interval_cases i <;> interval_cases j <;> rfl

theorem secondRow_packed : RowPacked secondRow := by
  intro i j hi hj
  have : i = 0 := by have : i < 1 := hi; omega
  simp [this, secondRow]

example : secondRow.first (· == 5) = .ok 1 :=
  (C78_search secondRow_shows secondRow_packed (· == 5) 0).2.2.2.1.trans (by decide)

example : byColumns.count (· == 4) = .ok 1 :=
  (C78_search_columns byColumns_shows byColumns_packed (· == 4)).2.2.trans (by decide)

example : ∃ b, lastColumns.reduce 1 (· + ·) 0 = .ok b ∧ b.data = [5, 11] :=
  ⟨_, rfl, by decide⟩

example : ∃ b, byColumns.abs (fun x => -x) = .ok b ∧ Shows b 3 2 fun i j => -(2 * (i : Int) + j + 1) :=
  (C78_elementwise (U := Int) byColumns_shows (by decide)).2.1 _

/-- **C78 (counterexample).** Searching an array with gaps looks at the gaps: no element of the last two
columns of 1 2 3 / 4 5 6 is 4, but `any` finds one and misses that one is 6; nor is 3 in the first row
of 1 2 / 3 4 / 5 6 stored by columns. -/
theorem C78_search_counterexample :
    (flat 2 2 fun i j => (3 * i + j + 2 : Int)).any (· == 4) = false ∧
    lastColumns.any (· == 4) = .ok true ∧
    (flat 2 2 fun i j => (3 * i + j + 2 : Int)).any (· == 6) = true ∧
    lastColumns.any (· == 6) = .ok false ∧
    (∃ v, byColumns.view 0 = .ok v ∧ Shows v 1 2 (fun _ j => (j + 1 : Int)) ∧ v.any (· == 3) = .ok true) := by
  refine ⟨by decide, by decide, by decide, by decide, _, rfl, ⟨rfl, rfl, ?_⟩, by decide⟩
  intro i j hi hj
  interval_cases i <;> interval_cases j <;> rfl

/-- **C78 (counterexample).** Negating or rounding an array with gaps writes outside of the new memory,
and the answers of `is` cannot all be read. -/
theorem C78_overflow_counterexample :
    lastColumns.mapSame (fun x => -x) = .error .ub ∧
    ∃ b, lastColumns.is (· == 4) = .ok b ∧ b.read [1, 1] = .error .ub :=
  ⟨by decide, _, rfl, by decide⟩

/-- **C78 (counterexample).** `contiguous_row_ordered_copy` of a column-ordered array is not row ordered. -/
theorem C78_row_ordered_counterexample :
    ∃ b, byColumns.rowOrderedCopy = .ok b ∧ ¬ RowPacked b := by
  refine ⟨_, rfl, ?_⟩
  intro h
  have := h 1 0 (by decide) (by decide)
  revert this
  decide

end Brille.Props
