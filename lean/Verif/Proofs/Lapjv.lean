import Verif.Model.Lapjv
import Mathlib.Data.Fintype.EquivFin
import Mathlib.Data.Fintype.Fin
import Mathlib.Algebra.Order.Field.Basic
import Mathlib.Algebra.Order.BigOperators.Group.Finset
import Mathlib.Data.Set.Finite.Lattice
import Mathlib.Tactic.Ring
import Mathlib.Tactic.FieldSimp
import Mathlib.Tactic.Linarith

namespace Brille.Lapjv

set_option linter.unusedSectionVars false

variable {n : Nat} {K : Type}

theorem put_self {α : Type} (f : Fin n → α) (i : Fin n) (x : α) : put f i x i = x := by simp [put]

theorem put_ne {α : Type} (f : Fin n → α) {i k : Fin n} (x : α) (h : k ≠ i) : put f i x k = f k := by
  simp [put, h]

/-! ### partial assignments -/

/-- `rowsol` and `colsol` are inverse to each other, except for the free rows and the columns without row -/
structure Match (rowsol colsol : Fin n → Option (Fin n)) (free : List (Fin n)) : Prop where
  nodup : free.Nodup
  col : ∀ j i, colsol j = some i → i ∉ free ∧ rowsol i = some j
  row : ∀ i, i ∉ free → ∃ j, rowsol i = some j ∧ colsol j = some i

theorem Match.perm {rowsol colsol : Fin n → Option (Fin n)} {free free' : List (Fin n)}
    (h : Match rowsol colsol free) (hp : free.Perm free') : Match rowsol colsol free' :=
  ⟨hp.nodup_iff.mp h.nodup, fun j i hj => ⟨fun hm => (h.col j i hj).1 (hp.mem_iff.mpr hm), (h.col j i hj).2⟩,
    fun i hi => h.row i (fun hm => hi (hp.mem_iff.mp hm))⟩

theorem Match.unassigned {rowsol colsol : Fin n → Option (Fin n)} {i : Fin n} {free : List (Fin n)}
    (h : Match rowsol colsol free) (hi : i ∈ free) : ∃ u, colsol u = none := by
  by_contra hno
  push Not at hno
  have hex : ∀ u, ∃ x, colsol u = some x := fun u => Option.ne_none_iff_exists'.mp (hno u)
  choose f hf using hex
  have hinj : Function.Injective f := by
    intro a b hab
    have h1 := (h.col a _ (hf a)).2
    have h2 := (h.col b _ (hf b)).2
    rw [hab, h2] at h1
    exact (Option.some.inj h1).symm
  obtain ⟨j, hj⟩ := Finite.surjective_of_injective hinj i
  exact (h.col j i (hj ▸ hf j)).1 hi

theorem Match.assign {rowsol colsol : Fin n → Option (Fin n)} {i : Fin n} {free : List (Fin n)}
    (h : Match rowsol colsol (i :: free)) (j : Fin n) :
    Match (put rowsol i (some j)) (put colsol j (some i))
      (match colsol j with | none => free | some i0 => i0 :: free) := by
  have hnd := List.nodup_cons.mp h.nodup
  cases hj : colsol j with
  | none =>
    dsimp only
    refine ⟨hnd.2, ?_, ?_⟩
    · intro j' i' hj'
      by_cases hjj : j' = j
      · subst hjj
        rw [put_self] at hj'
        obtain rfl := Option.some.inj hj'
        exact ⟨hnd.1, put_self _ _ _⟩
      · rw [put_ne _ _ hjj] at hj'
        obtain ⟨h1, h2⟩ := h.col j' i' hj'
        simp only [List.mem_cons, not_or] at h1
        exact ⟨h1.2, by rw [put_ne _ _ h1.1]; exact h2⟩
    · intro i' hi'
      by_cases hii : i' = i
      · subst hii; exact ⟨j, put_self _ _ _, put_self _ _ _⟩
      · obtain ⟨j', h1, h2⟩ := h.row i' (by simp [hii, hi'])
        refine ⟨j', by rw [put_ne _ _ hii]; exact h1, ?_⟩
        rw [put_ne _ _ (by rintro rfl; rw [hj] at h2; cases h2)]
        exact h2
  | some i0 =>
    dsimp only
    obtain ⟨g1, g2⟩ := h.col j i0 hj
    simp only [List.mem_cons, not_or] at g1
    refine ⟨List.nodup_cons.mpr ⟨g1.2, hnd.2⟩, ?_, ?_⟩
    · intro j' i' hj'
      by_cases hjj : j' = j
      · subst hjj
        rw [put_self] at hj'
        obtain rfl := Option.some.inj hj'
        refine ⟨?_, put_self _ _ _⟩
        simp only [List.mem_cons, not_or]
        exact ⟨fun he => g1.1 he.symm, hnd.1⟩
      · rw [put_ne _ _ hjj] at hj'
        obtain ⟨h1, h2⟩ := h.col j' i' hj'
        simp only [List.mem_cons, not_or] at h1
        refine ⟨?_, by rw [put_ne _ _ h1.1]; exact h2⟩
        simp only [List.mem_cons, not_or]
        refine ⟨?_, h1.2⟩
        rintro rfl
        rw [g2] at h2
        exact hjj (Option.some.inj h2).symm
    · intro i' hi'
      simp only [List.mem_cons, not_or] at hi'
      by_cases hii : i' = i
      · subst hii; exact ⟨j, put_self _ _ _, put_self _ _ _⟩
      · obtain ⟨j', h1, h2⟩ := h.row i' (by simp [hii, hi'.2])
        refine ⟨j', by rw [put_ne _ _ hii]; exact h1, ?_⟩
        rw [put_ne _ _ (by rintro rfl; rw [hj] at h2; exact hi'.1 (Option.some.inj h2).symm)]
        exact h2

section
variable [NeZero n] [Field K] [LinearOrder K]

/-! ### multiples of a quantum -/

/-- an integer multiple of `q` -/
def Disc (q x : K) : Prop := ∃ z : ℤ, x = q * z

theorem Disc.sub {q x y : K} (hx : Disc q x) (hy : Disc q y) : Disc q (x - y) := by
  obtain ⟨a, rfl⟩ := hx
  obtain ⟨b, rfl⟩ := hy
  exact ⟨a - b, by push_cast; ring⟩

theorem Disc.add {q x y : K} (hx : Disc q x) (hy : Disc q y) : Disc q (x + y) := by
  obtain ⟨a, rfl⟩ := hx
  obtain ⟨b, rfl⟩ := hy
  exact ⟨a + b, by push_cast; ring⟩

theorem Disc.zero {q : K} : Disc q 0 := ⟨0, by simp⟩

theorem Disc.put {q : K} {v : Fin n → K} (hv : ∀ j, Disc q (v j)) {j : Fin n} {x : K} (hx : Disc q x) :
    ∀ k, Disc q (put v j x k) := by
  intro k
  by_cases h : k = j
  · subst h; rw [put_self]; exact hx
  · rw [put_ne _ _ h]; exact hv k

/-! ### column reduction -/

theorem colMin_spec (c : Fin n → Fin n → K) (j : Fin n) : (colMin c j).1 = c (colMin c j).2 j := by
  unfold colMin
  have key : ∀ (L : List (Fin n)) (m : K × Fin n), m.1 = c m.2 j →
      (L.foldl (fun m i => if c i j < m.1 then (c i j, i) else m) m).1 =
        c (L.foldl (fun m i => if c i j < m.1 then (c i j, i) else m) m).2 j := by
    intro L
    induction L with
    | nil => intro m h; exact h
    | cons a L ih =>
      intro m h
      rw [List.foldl_cons]
      apply ih
      split_ifs
      · rfl
      · exact h
  exact key _ _ rfl

structure RedInv (q : K) (s : Red n K) (done : List (Fin n)) : Prop where
  v : ∀ j, Disc q (s.v j)
  col : ∀ j i, s.colsol j = some i → j ∈ done ∧ s.nmatch i ≠ 0 ∧ s.rowsol i = some j
  row : ∀ i, s.nmatch i ≠ 0 → ∃ j, s.rowsol i = some j ∧ s.colsol j = some i

theorem columnStep_inv {q : K} {c : Fin n → Fin n → K} (hc : ∀ i j, Disc q (c i j)) {s : Red n K}
    {done : List (Fin n)} (h : RedInv q s done) (j : Fin n) (hj : j ∉ done) :
    RedInv q (columnStep c s j) (j :: done) := by
  have hcj : s.colsol j = none := by
    cases hcs : s.colsol j with
    | none => rfl
    | some i => exact absurd (h.col j i hcs).1 hj
  have hdm : Disc q (colMin c j).1 := by rw [colMin_spec]; exact hc _ _
  unfold columnStep
  dsimp only
  set i := (colMin c j).2 with hi
  rw [put_self]
  split_ifs with h1
  · have h0 : s.nmatch i = 0 := by omega
    refine ⟨Disc.put h.v hdm, ?_, ?_⟩
    · intro j' i' hj'
      dsimp only at hj' ⊢
      by_cases hjj : j' = j
      · subst hjj
        rw [put_self] at hj'
        obtain rfl := Option.some.inj hj'
        exact ⟨by simp, by rw [put_self]; omega, put_self _ _ _⟩
      · rw [put_ne _ _ hjj] at hj'
        obtain ⟨a, b, d⟩ := h.col j' i' hj'
        have hii : i' ≠ i := by rintro rfl; exact b h0
        exact ⟨by simp [a], by rw [put_ne _ _ hii]; exact b, by rw [put_ne _ _ hii]; exact d⟩
    · intro i' hi'
      dsimp only at hi' ⊢
      by_cases hii : i' = i
      · subst hii; exact ⟨j, put_self _ _ _, put_self _ _ _⟩
      · rw [put_ne _ _ hii] at hi'
        obtain ⟨j', a, b⟩ := h.row i' hi'
        refine ⟨j', by rw [put_ne _ _ hii]; exact a, ?_⟩
        rw [put_ne _ _ (by rintro rfl; rw [hcj] at b; cases b)]
        exact b
  · refine ⟨Disc.put h.v hdm, ?_, ?_⟩
    · intro j' i' hj'
      dsimp only at hj' ⊢
      by_cases hjj : j' = j
      · subst hjj; rw [put_self] at hj'; cases hj'
      · rw [put_ne _ _ hjj] at hj'
        obtain ⟨a, b, d⟩ := h.col j' i' hj'
        refine ⟨by simp [a], ?_, d⟩
        by_cases hii : i' = i
        · subst hii; rw [put_self]; omega
        · rw [put_ne _ _ hii]; exact b
    · intro i' hi'
      dsimp only at hi' ⊢
      have hi'' : s.nmatch i' ≠ 0 := by
        by_cases hii : i' = i
        · subst hii; omega
        · rw [put_ne _ _ hii] at hi'; exact hi'
      obtain ⟨j', a, b⟩ := h.row i' hi''
      refine ⟨j', a, ?_⟩
      rw [put_ne _ _ (by rintro rfl; rw [hcj] at b; cases b)]
      exact b

theorem columnReduction_inv {q : K} {c : Fin n → Fin n → K} (hc : ∀ i j, Disc q (c i j)) :
    ∃ done, RedInv q (columnReduction c) done := by
  have key : ∀ (L : List (Fin n)) (s : Red n K) (done : List (Fin n)), L.Nodup → (∀ j ∈ L, j ∉ done) →
      RedInv q s done → ∃ done', RedInv q (L.foldl (columnStep c) s) done' := by
    intro L
    induction L with
    | nil => intro s done _ _ h; exact ⟨done, h⟩
    | cons j L ih =>
      intro s done hnd hd h
      rw [List.nodup_cons] at hnd
      refine ih _ (j :: done) hnd.2 ?_ (columnStep_inv hc h j (hd j (by simp)))
      intro k hk
      simp only [List.mem_cons, not_or]
      exact ⟨by rintro rfl; exact hnd.1 hk, hd k (by simp [hk])⟩
  refine key _ _ [] (List.nodup_reverse.mpr (List.nodup_finRange n)) (by simp) ⟨fun j => Disc.zero, ?_, ?_⟩
  · intro j i h; cases h
  · intro i h; exact absurd rfl h

/-! ### reduction transfer -/

theorem transferMin_some {q : K} {c : Fin n → Fin n → K} (hc : ∀ i j, Disc q (c i j)) (eps : K)
    {v : Fin n → K} (hv : ∀ j, Disc q (v j)) (i j1 : Fin n) :
    ∀ (L : List (Fin n)) (m : Option K), (∀ x, m = some x → Disc q x) → (m ≠ none ∨ ∃ j ∈ L, j ≠ j1) →
      ∃ x, L.foldl (transferMin c eps v i j1) m = some x ∧ Disc q x := by
  intro L
  induction L with
  | nil =>
    intro m hm h
    rcases h with h | ⟨j, hj, _⟩
    · obtain ⟨x, hx⟩ := Option.ne_none_iff_exists'.mp h
      exact ⟨x, hx, hm x hx⟩
    · simp at hj
  | cons j L ih =>
    intro m hm h
    rw [List.foldl_cons]
    apply ih
    · intro x hx
      unfold transferMin at hx
      split_ifs at hx with hjj
      · cases m with
        | none =>
          obtain rfl := Option.some.inj hx
          exact (hc _ _).sub (hv _)
        | some y =>
          dsimp only at hx
          split_ifs at hx
          · obtain rfl := Option.some.inj hx
            exact (hc _ _).sub (hv _)
          · exact hm x hx
      · exact hm x hx
    · by_cases hjj : j = j1
      · rcases h with h | ⟨k, hk, hk1⟩
        · left; unfold transferMin; rw [if_neg (by simp [hjj])]; exact h
        · right
          rcases List.mem_cons.mp hk with rfl | hk
          · exact absurd hjj hk1
          · exact ⟨k, hk, hk1⟩
      · left
        unfold transferMin
        rw [if_pos hjj]
        cases m with
        | none => simp
        | some y => dsimp only; split_ifs <;> simp

theorem transfer_spec {q : K} {c : Fin n → Fin n → K} (hn : 2 ≤ n) (hc : ∀ i j, Disc q (c i j)) (eps : K)
    (s : Red n K) (hrow : ∀ i, s.nmatch i ≠ 0 → ∃ j, s.rowsol i = some j) :
    ∀ (L : List (Fin n)) (v : Fin n → K) (free : List (Fin n)), (∀ j, Disc q (v j)) →
      ∃ v', transfer c eps s L v free = some (v', free ++ L.filter fun i => decide (s.nmatch i = 0)) ∧
        ∀ j, Disc q (v' j) := by
  intro L
  induction L with
  | nil => intro v free hv; exact ⟨v, by simp [transfer], hv⟩
  | cons i L ih =>
    intro v free hv
    rw [transfer]
    by_cases h0 : s.nmatch i = 0
    · obtain ⟨v', h1, h2⟩ := ih v (free ++ [i]) hv
      refine ⟨v', ?_, h2⟩
      rw [if_pos h0, h1]
      simp [h0]
    · rw [if_neg h0]
      by_cases h1 : s.nmatch i = 1
      · rw [if_pos h1]
        obtain ⟨j1, hj1⟩ := hrow i h0
        rw [hj1]
        dsimp only
        have hex : ∃ j : Fin n, j ≠ j1 := by
          by_cases hj0 : j1 = ⟨0, by omega⟩
          · refine ⟨⟨1, by omega⟩, ?_⟩
            rw [hj0]; simp
          · exact ⟨⟨0, by omega⟩, fun h => hj0 h.symm⟩
        obtain ⟨j, hj⟩ := hex
        obtain ⟨x, hx, hxd⟩ := transferMin_some hc eps hv i j1 (List.finRange n) none (by simp)
          (Or.inr ⟨j, List.mem_finRange j, hj⟩)
        rw [hx]
        dsimp only
        obtain ⟨v', g1, g2⟩ := ih (put v j1 (v j1 - x)) free (Disc.put hv ((hv _).sub hxd))
        exact ⟨v', by rw [g1]; simp [h0], g2⟩
      · rw [if_neg h1]
        obtain ⟨v', g1, g2⟩ := ih v free hv
        exact ⟨v', by rw [g1]; simp [h0], g2⟩

theorem match_after_reduction {q : K} {s : Red n K} {done : List (Fin n)} (h : RedInv q s done) :
    Match s.rowsol s.colsol ((List.finRange n).filter fun i => decide (s.nmatch i = 0)) := by
  refine ⟨(List.nodup_finRange n).filter _, ?_, ?_⟩
  · intro j i hj
    obtain ⟨_, h1, h2⟩ := h.col j i hj
    refine ⟨?_, h2⟩
    intro hm
    rw [List.mem_filter] at hm
    exact h1 (by simpa using hm.2)
  · intro i hi
    apply h.row
    intro h0
    exact hi (List.mem_filter.mpr ⟨List.mem_finRange i, by simpa using h0⟩)

/-! ### augmenting row reduction -/

structure UminsOk (c : Fin n → Fin n → K) (v : Fin n → K) (i : Fin n) (s : Umins n K)
    (seen : List (Fin n)) : Prop where
  umin : s.umin = c i s.j1 - v s.j1
  least : ∀ j ∈ seen, s.umin ≤ c i j - v j
  second : ∀ x, s.usubmin = some x → ∃ j2, s.j2 = some j2 ∧ x = c i j2 - v j2 ∧ s.umin ≤ x

theorem uminsStep_ok {c : Fin n → Fin n → K} {v : Fin n → K} {i : Fin n} {s : Umins n K}
    {seen : List (Fin n)} (h : UminsOk c v i s seen) (j : Fin n) :
    UminsOk c v i (uminsStep c v i s j) (j :: seen) ∧
      (uminsStep c v i s j).usubmin ≠ none := by
  unfold uminsStep
  dsimp only
  cases hb : below (c i j - v j) s.usubmin with
  | true =>
    rw [if_pos rfl]
    split_ifs with h1
    · refine ⟨⟨h.umin, ?_, ?_⟩, by simp⟩
      · intro k hk
        rcases List.mem_cons.mp hk with rfl | hk
        · exact h1
        · exact h.least k hk
      · intro x hx
        obtain rfl := Option.some.inj hx
        exact ⟨j, rfl, rfl, h1⟩
    · have h1' := (not_le.mp h1).le
      refine ⟨⟨rfl, ?_, ?_⟩, by simp⟩
      · intro k hk
        rcases List.mem_cons.mp hk with rfl | hk
        · exact le_refl _
        · exact h1'.trans (h.least k hk)
      · intro x hx
        obtain rfl := Option.some.inj hx
        exact ⟨s.j1, rfl, h.umin, h1'⟩
  | false =>
    rw [if_neg (by simp)]
    cases hs : s.usubmin with
    | none => rw [hs] at hb; simp [below] at hb
    | some x =>
      rw [hs] at hb
      simp only [below, decide_eq_false_iff_not, not_lt] at hb
      obtain ⟨j2, _, _, hle⟩ := h.second x hs
      refine ⟨⟨h.umin, ?_, h.second⟩, by simp⟩
      intro k hk
      rcases List.mem_cons.mp hk with rfl | hk
      · exact hle.trans hb
      · exact h.least k hk

theorem umins_spec (hn : 2 ≤ n) (c : Fin n → Fin n → K) (v : Fin n → K) (i : Fin n) :
    (umins c v i).umin = c i (umins c v i).j1 - v (umins c v i).j1 ∧
    (∀ j, (umins c v i).umin ≤ c i j - v j) ∧
    ∃ j2, (umins c v i).j2 = some j2 ∧ (umins c v i).usubmin = some (c i j2 - v j2) := by
  have key : ∀ (L : List (Fin n)) (s : Umins n K) (seen : List (Fin n)), UminsOk c v i s seen →
      ∃ seen', UminsOk c v i (L.foldl (uminsStep c v i) s) seen' ∧ (∀ j, j ∈ L ∨ j ∈ seen → j ∈ seen') ∧
        (s.usubmin ≠ none ∨ L ≠ [] → (L.foldl (uminsStep c v i) s).usubmin ≠ none) := by
    intro L
    induction L with
    | nil => intro s seen h; exact ⟨seen, h, by simp, by simp⟩
    | cons j L ih =>
      intro s seen h
      obtain ⟨h1, h2⟩ := uminsStep_ok h j
      obtain ⟨seen', g1, g2, g3⟩ := ih _ _ h1
      refine ⟨seen', g1, ?_, fun _ => g3 (Or.inl h2)⟩
      intro k hk
      apply g2
      simp only [List.mem_cons] at hk ⊢
      tauto
  have h0 : UminsOk c v i ⟨c i 0 - v 0, none, 0, none⟩ [0] :=
    ⟨rfl, by simp, by simp⟩
  obtain ⟨seen', g1, g2, g3⟩ := key (List.finRange n).tail _ _ h0
  have hlen : (List.finRange n).length = n := List.length_finRange
  have hfr : List.finRange n = 0 :: (List.finRange n).tail := by
    obtain ⟨m, rfl⟩ : ∃ m, n = m + 1 := ⟨n - 1, by omega⟩
    rw [List.finRange_succ]
    rfl
  have hall : ∀ j, j ∈ seen' := by
    intro j
    apply g2
    have := List.mem_finRange j
    rw [hfr] at this
    rcases List.mem_cons.mp this with h | h
    · right; simp [h]
    · exact Or.inl h
  have hne : (List.finRange n).tail ≠ [] := by
    intro h
    have := congrArg List.length h
    rw [List.length_tail, hlen] at this
    simp at this
    omega
  refine ⟨g1.umin, fun j => g1.least j (hall j), ?_⟩
  obtain ⟨x, hx⟩ := Option.ne_none_iff_exists'.mp (g3 (Or.inr hne))
  obtain ⟨j2, a, b, _⟩ := g1.second x hx
  exact ⟨j2, a, by rw [← b]; exact hx⟩

theorem arrAssign_match {s : Arr n K} {i : Fin n} {rest : List (Fin n)} (v : Fin n → K) (j : Fin n)
    (lowers : Bool) (h : Match s.rowsol s.colsol (i :: (rest ++ s.kept))) :
    Match (arrAssign s v rest i j lowers).rowsol (arrAssign s v rest i j lowers).colsol
      ((arrAssign s v rest i j lowers).todo ++ (arrAssign s v rest i j lowers).kept) := by
  have h1 := h.assign j
  unfold arrAssign
  cases hj : s.colsol j with
  | none => rw [hj] at h1; exact h1
  | some i0 =>
    rw [hj] at h1
    dsimp only
    cases lowers with
    | true => exact h1
    | false =>
      refine h1.perm ?_
      show (i0 :: (rest ++ s.kept)).Perm (rest ++ (s.kept ++ [i0]))
      rw [← List.append_assoc]
      exact (List.perm_append_singleton i0 (rest ++ s.kept)).symm

theorem arrAssign_none {s : Arr n K} {i : Fin n} {rest : List (Fin n)} (v : Fin n → K) (j : Fin n)
    (lowers : Bool) (h : s.colsol j = none) : (arrAssign s v rest i j lowers).todo = rest := by
  unfold arrAssign; rw [h]

theorem arrAssign_false {s : Arr n K} {i : Fin n} {rest : List (Fin n)} (v : Fin n → K) (j : Fin n) :
    (arrAssign s v rest i j false).todo = rest := by
  unfold arrAssign; cases s.colsol j <;> simp

theorem arrAssign_v {s : Arr n K} {i : Fin n} {rest : List (Fin n)} (v : Fin n → K) (j : Fin n)
    (lowers : Bool) : (arrAssign s v rest i j lowers).v = v := by
  unfold arrAssign; cases s.colsol j <;> simp; split_ifs <;> rfl

/-- the state between two turns of the augmenting row reduction -/
structure ArrInv (q : K) (s : Arr n K) : Prop where
  v : ∀ j, Disc q (s.v j)
  ok : Match s.rowsol s.colsol (s.todo ++ s.kept)

/-- one turn: the list gets shorter, or the price of an assigned column goes down -/
theorem arrStep_spec (hn : 2 ≤ n) {q eps : K} {c : Fin n → Fin n → K} (hc : ∀ i j, Disc q (c i j))
    (he : Disc q eps) {s : Arr n K} (h : ArrInv q s) {i : Fin n} {rest : List (Fin n)}
    (ht : s.todo = i :: rest) :
    ∃ s', arrStep c eps s = some s' ∧ ArrInv q s' ∧
      (s'.todo = rest ∨
        (∃ j1 i0 x, s.colsol j1 = some i0 ∧ s'.todo = i0 :: rest ∧ s'.v = put s.v j1 x ∧ x < s.v j1 ∧
          Disc q x ∧ s'.colsol = put s.colsol j1 (some i) ∧
          ∀ j, c i j1 - s.v j1 ≤ c i j - s.v j)) := by
  obtain ⟨hu, hleast, j2, hj2, hus⟩ := umins_spec hn c s.v i
  have hm : Match s.rowsol s.colsol (i :: (rest ++ s.kept)) := by
    have := h.ok; rw [ht] at this; exact this
  unfold arrStep
  rw [ht]
  dsimp only
  rw [hus]
  dsimp only
  set j1 := (umins c s.v i).j1
  by_cases hlow : s.v j1 - (c i j2 - s.v j2 + eps - (umins c s.v i).umin) < s.v j1
  · rw [if_pos hlow]
    have hdisc : Disc q (s.v j1 - (c i j2 - s.v j2 + eps - (umins c s.v i).umin)) := by
      rw [hu]
      exact (h.v _).sub (((((hc _ _).sub (h.v _)).add he)).sub ((hc _ _).sub (h.v _)))
    refine ⟨_, rfl, ⟨?_, arrAssign_match _ _ _ hm⟩, ?_⟩
    · rw [arrAssign_v]; exact Disc.put h.v hdisc
    · cases hcs : s.colsol j1 with
      | none => left; exact arrAssign_none _ _ _ hcs
      | some i0 =>
        right
        refine ⟨j1, i0, _, hcs, ?_, arrAssign_v _ _ _, hlow, hdisc, ?_, ?_⟩
        · unfold arrAssign; rw [hcs]; rfl
        · unfold arrAssign; rw [hcs]; rfl
        · intro j; rw [← hu]; exact hleast j
  · rw [if_neg hlow]
    cases hcs : s.colsol j1 with
    | none =>
      refine ⟨_, rfl, ⟨by rw [arrAssign_v]; exact h.v, arrAssign_match _ _ _ hm⟩, Or.inl (arrAssign_false _ _)⟩
    | some i0 =>
      dsimp only
      rw [hj2]
      exact ⟨_, rfl, ⟨by rw [arrAssign_v]; exact h.v, arrAssign_match _ _ _ hm⟩,
        Or.inl (arrAssign_false _ _)⟩

theorem arrLoop_mono (c : Fin n → Fin n → K) (eps : K) : ∀ (f : Nat) (s s' : Arr n K),
    arrLoop c eps f s = some s' → ∀ d, arrLoop c eps (f + d) s = some s' := by
  intro f
  induction f with
  | zero => intro s s' h; cases h
  | succ f ih =>
    intro s s' h d
    rw [Nat.succ_add, arrLoop]
    rw [arrLoop] at h
    cases ht : s.todo with
    | nil => rw [ht] at h; exact h
    | cons i rest =>
      rw [ht] at h
      dsimp only at h ⊢
      cases hs : arrStep c eps s with
      | none => rw [hs] at h; cases h
      | some s1 =>
        rw [hs] at h
        exact ih s1 s' h d

variable [IsStrictOrderedRing K]

theorem arrLoop_spec (hn : 2 ≤ n) {q eps : K} (hq : 0 < q) {c : Fin n → Fin n → K}
    (hc : ∀ i j, Disc q (c i j)) (he : Disc q eps) : ∀ (len : Nat) (s : Arr n K), s.todo.length = len →
    ArrInv q s → ∃ f s', arrLoop c eps f s = some s' ∧ ArrInv q s' ∧ s'.todo = [] := by
  choose zc hzc using hc
  intro len
  induction len with
  | zero =>
    intro s hl h
    have ht := List.length_eq_zero_iff.mp hl
    exact ⟨1, s, by rw [arrLoop, ht], h, ht⟩
  | succ len ih =>
    intro s hl h
    -- a bound below which no price of an assigned column is lowered
    choose z hz using h.v
    have hbound : ∃ B : ℤ, ∀ i j u, B ≤ zc i j - zc i u + z u := by
      have hfin : (Set.range fun p : Fin n × Fin n × Fin n => zc p.1 p.2.1 - zc p.1 p.2.2 + z p.2.2).Finite :=
        Set.finite_range _
      obtain ⟨B, hB⟩ := hfin.bddBelow
      exact ⟨B, fun i j u => hB ⟨(i, j, u), rfl⟩⟩
    obtain ⟨B, hB⟩ := hbound
    -- induction on the number of times a price can be lowered
    have inner : ∀ (w : Nat) (s : Arr n K) (z : Fin n → ℤ), (∀ j, s.v j = q * z j) →
        (∀ u, s.colsol u = none → ∀ i j, B ≤ zc i j - zc i u + z u) →
        ∑ j, (z j - B + 1).toNat = w → s.todo.length = len + 1 → ArrInv q s →
        ∃ f s', arrLoop c eps f s = some s' ∧ ArrInv q s' ∧ s'.todo = [] := by
      intro w
      induction w using Nat.strong_induction_on with
      | _ w ihw =>
        intro s z hz hB hw hl h
        obtain ⟨i, rest, ht⟩ : ∃ i rest, s.todo = i :: rest := by
          cases ht : s.todo with
          | nil => rw [ht] at hl; simp at hl
          | cons i rest => exact ⟨i, rest, rfl⟩
        have hrl : rest.length = len := by rw [ht] at hl; simpa using hl
        obtain ⟨s1, h1, h2, h3⟩ := arrStep_spec hn (fun i j => ⟨zc i j, hzc i j⟩) he h ht
        have hfuel : ∀ f s', arrLoop c eps f s1 = some s' → arrLoop c eps (f + 1) s = some s' := by
          intro f s' hf
          rw [arrLoop, ht]
          dsimp only
          rw [h1]
          exact hf
        rcases h3 with h3 | ⟨j1, i0, x, a1, a2, a3, a4, ⟨zx, a5⟩, a6, a7⟩
        · obtain ⟨f, s', g1, g2, g3⟩ := ih s1 (by rw [h3]; exact hrl) h2
          exact ⟨f + 1, s', hfuel f s' g1, g2, g3⟩
        · -- an unassigned column
          obtain ⟨u, hu⟩ := h.ok.unassigned (i := i) (by rw [ht]; simp)
          have hle := a7 u
          rw [hzc, hzc, hz, hz] at hle
          have hzle : zc i j1 - z j1 ≤ zc i u - z u := by
            have : q * ((zc i j1 - z j1 : ℤ) : K) ≤ q * ((zc i u - z u : ℤ) : K) := by
              push_cast
              rw [mul_sub, mul_sub]; exact hle
            exact_mod_cast le_of_mul_le_mul_left this hq
          have hBz : B ≤ z j1 := by
            have := hB u hu i j1
            omega
          have hlt : zx < z j1 := by
            rw [a5, hz] at a4
            exact_mod_cast lt_of_mul_lt_mul_left a4 hq.le
          have huj : ∀ u, s.colsol u = none → u ≠ j1 := by
            rintro u hu rfl; rw [a1] at hu; cases hu
          have hdec : ∑ j, (put z j1 zx j - B + 1).toNat < ∑ j, (z j - B + 1).toNat := by
            apply Finset.sum_lt_sum
            · intro j _
              by_cases hj : j = j1
              · subst hj; rw [put_self]; omega
              · rw [put_ne _ _ hj]
            · exact ⟨j1, Finset.mem_univ _, by rw [put_self]; omega⟩
          obtain ⟨f, s', g1, g2, g3⟩ := ihw _ (hw ▸ hdec) s1 (put z j1 zx) (by
              intro j
              rw [a3]
              by_cases hj : j = j1
              · subst hj; rw [put_self, put_self]; exact a5
              · rw [put_ne _ _ hj, put_ne _ _ hj]; exact hz j) (by
              intro u hu
              rw [a6] at hu
              have huj1 : u ≠ j1 := by rintro rfl; rw [put_self] at hu; cases hu
              rw [put_ne _ _ huj1] at hu
              rw [put_ne _ _ huj1]
              exact hB u hu) rfl (by rw [a2]; simp [hrl]) h2
          exact ⟨f + 1, s', hfuel f s' g1, g2, g3⟩
    exact inner _ s z hz (fun u _ i j => hB i j u) rfl hl h

end

end Brille.Lapjv
