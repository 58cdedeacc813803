import Verif.Model.SortPermutations
import Verif.Proofs.PermutationTable
import Mathlib.Tactic.Set
import Mathlib.Data.Fintype.Basic
import Mathlib.Algebra.BigOperators.Fin

namespace Brille.SortPerm
open Brille.PermTable Brille.Spec

/-- what must end up stored for an ordered pair -/
def wanted (solve : Nat → Nat → List Nat × List Nat) (a b : Nat) : List Nat :=
  if a < b then (solve a b).1 else (solve b a).2

def pend1 : PC → Nat × Nat → Prop
  | .solved i j _ _, p => p = (i, j)
  | .locked i j _ _, p => p = (i, j)
  | .found1 i j _ _ _ _, p => p = (i, j)
  | _, _ => False

def pend2 : PC → Nat × Nat → Prop
  | .solved i j _ _, p => p = (i, j)
  | .locked i j _ _, p => p = (i, j)
  | .found1 i j _ _ _ _, p => p = (i, j)
  | .wrote1 i j _, p => p = (i, j)
  | .found2 i j _ _ _, p => p = (i, j)
  | _, _ => False

def crit : PC → Prop
  | .locked .. => True
  | .found1 .. => True
  | .wrote1 .. => True
  | .found2 .. => True
  | .wrote2 => True
  | _ => False

def okPC (solve : Nat → Nat → List Nat × List Nat) (tri : List (Nat × Nat)) (ps : List (List Nat)) :
    PC → Prop
  | .idle => True
  | .solved i j row col => (i, j) ∈ tri ∧ row = (solve i j).1 ∧ col = (solve i j).2
  | .locked i j row col => (i, j) ∈ tri ∧ row = (solve i j).1 ∧ col = (solve i j).2
  | .found1 i j row col c idx => (i, j) ∈ tri ∧ row = (solve i j).1 ∧ col = (solve i j).2 ∧
      (c, idx) = findPermutation ps row
  | .wrote1 i j col => (i, j) ∈ tri ∧ col = (solve i j).2
  | .found2 i j col c idx => (i, j) ∈ tri ∧ col = (solve i j).2 ∧ (c, idx) = findPermutation ps col
  | .wrote2 => True

/-- the table part of the invariant -/
structure TInv (solve : Nat → Nat → List Nat × List Nat) (tri : List (Nat × Nat)) (m0 m : PairMap) :
    Prop where
  n : m.n = m0.n
  modes : m.modes = m0.modes
  entry : ∀ a b, m.entry a b = m0.entry a b ∨
    (((a, b) ∈ tri ∨ (b, a) ∈ tri) ∧ m.entry a b = .stored (wanted solve a b))

structure Inv {T : Nat} (solve : Nat → Nat → List Nat × List Nat) (tri : List (Nat × Nat)) (m0 : PairMap)
    (s : State T) (m : PairMap) : Prop where
  sim : Sim s.table m
  tinv : TInv solve tri m0 m
  todo : ∀ k, ∀ p ∈ (s.threads k).todo, p ∈ tri
  pc : ∀ k, okPC solve tri s.table.permutations (s.threads k).pc
  lock : ∀ k, crit (s.threads k).pc → s.owner = some k
  lock' : ∀ k, s.owner = some k → crit (s.threads k).pc
  first : ∀ i j, (i, j) ∈ tri → (∃ k, (i, j) ∈ (s.threads k).todo ∨ pend1 (s.threads k).pc (i, j)) ∨
    m.entry i j = .stored (solve i j).1
  second : ∀ i j, (i, j) ∈ tri → (∃ k, (i, j) ∈ (s.threads k).todo ∨ pend2 (s.threads k).pc (i, j)) ∨
    m.entry j i = .stored (solve i j).2

/-- what is needed of the announced pairs -/
structure Good (tri : List (Nat × Nat)) (m0 : PairMap) : Prop where
  lt : ∀ i j, (i, j) ∈ tri → i < j ∧ j < m0.n
  present : ∀ i j, (i, j) ∈ tri → m0.entry i j ≠ .absent ∧ m0.entry j i ≠ .absent

variable {T : Nat} {solve : Nat → Nat → List Nat × List Nat} {tri : List (Nat × Nat)} {m0 m : PairMap}

@[simp] theorem setThread_self (f : Fin T → Thread) (k : Fin T) (t : Thread) : setThread f k t k = t := by
  simp [setThread]

theorem setThread_ne (f : Fin T → Thread) (k j : Fin T) (t : Thread) (h : j ≠ k) :
    setThread f k t j = f j := by simp [setThread, h]

/-- looking up succeeds for announced pairs -/
theorem findPart_some (hg : Good tri m0) {t : Table} (hs : Sim t m) (ht : TInv solve tri m0 m)
    {a b : Nat} (hab : (a, b) ∈ tri ∨ (b, a) ∈ tri) (v : List Nat) :
    findPart t a b v = some (findPermutation t.permutations v) := by
  have hne : a ≠ b := by
    rcases hab with h | h
    · have := (hg.lt _ _ h).1; omega
    · have := (hg.lt _ _ h).1; omega
  have ha : a < m.n := by
    rw [ht.n]
    rcases hab with h | h
    · have := hg.lt _ _ h; omega
    · have := hg.lt _ _ h; omega
  have hb : b < m.n := by
    rw [ht.n]
    rcases hab with h | h
    · have := hg.lt _ _ h; omega
    · have := hg.lt _ _ h; omega
  have hr := hs.rep a b hne ha hb
  have hk : ij2key t a b = a * m.n + b := by simp [ij2key, hne, hs.size]
  have hp : m.entry a b ≠ .absent := by
    rcases ht.entry a b with h | ⟨_, h⟩
    · rw [h]
      rcases hab with h | h
      · exact (hg.present _ _ h).1
      · exact (hg.present _ _ h).2
    · rw [h]; simp
  unfold findPart
  rw [hk]
  cases hm : t.ijmap (a * m.n + b) with
  | none => rw [hm] at hr; exact absurd hr hp
  | some x => rfl

theorem writePart_sim {t : Table} (hs : Sim t m) {a b : Nat} (ha : a < m.n) (hb : b < m.n) (hab : a ≠ b)
    (v : List Nat) (c : Bool) (idx : Nat) (hf : (c, idx) = findPermutation t.permutations v) :
    Sim (writePart t a b v c idx) (m.put a b (.stored v)) := by
  have h := sim_store hs ha hb hab v
  rw [← hf] at h
  exact h

theorem tinv_put (ht : TInv solve tri m0 m) {a b : Nat} (hab : (a, b) ∈ tri ∨ (b, a) ∈ tri)
    {v : List Nat} (hv : v = wanted solve a b) : TInv solve tri m0 (m.put a b (.stored v)) := by
  refine ⟨ht.n, ht.modes, ?_⟩
  intro x y
  simp only [PairMap.put]
  by_cases h : x = a ∧ y = b
  · obtain ⟨rfl, rfl⟩ := h
    right
    simp [hab, hv]
  · rw [if_neg h]; exact ht.entry x y

/-- okPC of a thread outside the critical section does not look at the table -/
theorem okPC_of_not_crit {ps ps' : List (List Nat)} {pc : PC} (h : okPC solve tri ps pc) (hc : ¬ crit pc) :
    okPC solve tri ps' pc := by
  cases pc <;> simp_all [okPC, crit]

theorem inv_step (hg : Good tri m0) {s : State T} (hi : Inv solve tri m0 s m) (k : Fin T) :
    ∃ s' m', step solve s k = some s' ∧ Inv solve tri m0 s' m' := by
  obtain ⟨sim, tinv, htodo, hpc, hlock, hlock', hfirst, hsecond⟩ := hi
  have hpck := hpc k
  have htk := htodo k
  -- keeping the coverage when thread k changes
  have cov : ∀ (pend : PC → Nat × Nat → Prop) (t' : Thread) (i j : Nat),
      (∀ p, (p ∈ (s.threads k).todo ∨ pend (s.threads k).pc p) → (p ∈ t'.todo ∨ pend t'.pc p)) →
      (∃ k, (i, j) ∈ (s.threads k).todo ∨ pend (s.threads k).pc (i, j)) →
      ∃ k', (i, j) ∈ (setThread s.threads k t' k').todo ∨ pend (setThread s.threads k t' k').pc (i, j) := by
    intro pend t' i j h ⟨k', hk'⟩
    by_cases hkk : k' = k
    · subst hkk; exact ⟨k', by rw [setThread_self]; exact h _ hk'⟩
    · exact ⟨k', by rw [setThread_ne _ _ _ _ hkk]; exact hk'⟩
  unfold step
  dsimp only
  cases hp : (s.threads k).pc with
  | idle =>
    cases htd : (s.threads k).todo with
    | nil => exact ⟨s, m, rfl, ⟨sim, tinv, htodo, hpc, hlock, hlock', hfirst, hsecond⟩⟩
    | cons p r =>
      obtain ⟨i, j⟩ := p
      have hij : (i, j) ∈ tri := htk _ (by rw [htd]; simp)
      refine ⟨_, m, rfl, ⟨sim, tinv, ?_, ?_, ?_, ?_, ?_, ?_⟩⟩
      · intro k' p hp'
        try dsimp only at *
        by_cases hk : k' = k
        · subst hk; rw [setThread_self] at hp'; exact htk _ (by rw [htd]; simp [show p ∈ r from hp'])
        · rw [setThread_ne _ _ _ _ hk] at hp'; exact htodo k' p hp'
      · intro k'
        try dsimp only at *
        by_cases hk : k' = k
        · subst hk; rw [setThread_self]; exact ⟨hij, rfl, rfl⟩
        · rw [setThread_ne _ _ _ _ hk]; exact hpc k'
      · intro k'
        try dsimp only at *
        by_cases hk : k' = k
        · subst hk; rw [setThread_self]; simp [crit]
        · rw [setThread_ne _ _ _ _ hk]; exact hlock k'
      · intro k' ho
        try dsimp only at *
        by_cases hk : k' = k
        · subst hk
          have := hlock' k' ho
          rw [hp] at this; simp [crit] at this
        · rw [setThread_ne _ _ _ _ hk]; exact hlock' k' ho
      · intro a b hab
        try dsimp only at *
        refine (hfirst a b hab).imp (cov pend1 _ a b ?_) id
        intro q hq
        rw [htd, hp] at hq
        simp only [pend1, List.mem_cons] at hq ⊢
        tauto
      · intro a b hab
        try dsimp only at *
        refine (hsecond a b hab).imp (cov pend2 _ a b ?_) id
        intro q hq
        rw [htd, hp] at hq
        simp only [pend2, List.mem_cons] at hq ⊢
        tauto
  | solved i j row col =>
    rw [hp] at hpck
    obtain ⟨hij, hr, hc⟩ := hpck
    cases ho : s.owner with
    | some o => exact ⟨s, m, rfl, ⟨sim, tinv, htodo, hpc, hlock, hlock', hfirst, hsecond⟩⟩
    | none =>
      refine ⟨_, m, rfl, ⟨sim, tinv, ?_, ?_, ?_, ?_, ?_, ?_⟩⟩
      · intro k' p hp'
        try dsimp only at *
        by_cases hk : k' = k
        · subst hk; rw [setThread_self] at hp'; exact htk _ hp'
        · rw [setThread_ne _ _ _ _ hk] at hp'; exact htodo k' p hp'
      · intro k'
        try dsimp only at *
        by_cases hk : k' = k
        · subst hk; rw [setThread_self]; exact ⟨hij, hr, hc⟩
        · rw [setThread_ne _ _ _ _ hk]; exact hpc k'
      · intro k' hcr
        try dsimp only at *
        by_cases hk : k' = k
        · subst hk; rfl
        · rw [setThread_ne _ _ _ _ hk] at hcr
          have := hlock k' hcr
          rw [ho] at this; exact absurd this (by simp)
      · intro k' ho'
        try dsimp only at *
        obtain rfl : k = k' := Option.some.inj ho'
        rw [setThread_self]; trivial
      · intro a b hab
        try dsimp only at *
        refine (hfirst a b hab).imp (cov pend1 _ a b ?_) id
        intro q hq
        rw [hp] at hq
        exact hq
      · intro a b hab
        try dsimp only at *
        refine (hsecond a b hab).imp (cov pend2 _ a b ?_) id
        intro q hq
        rw [hp] at hq
        exact hq
  | locked i j row col =>
    rw [hp] at hpck
    obtain ⟨hij, hr, hc⟩ := hpck
    dsimp only
    rw [findPart_some hg sim tinv (Or.inl hij) row]
    refine ⟨_, m, rfl, ⟨sim, tinv, ?_, ?_, ?_, ?_, ?_, ?_⟩⟩
    · intro k' p hp'
      try dsimp only at *
      by_cases hk : k' = k
      · subst hk; rw [setThread_self] at hp'; exact htk _ hp'
      · rw [setThread_ne _ _ _ _ hk] at hp'; exact htodo k' p hp'
    · intro k'
      try dsimp only at *
      by_cases hk : k' = k
      · subst hk; rw [setThread_self]; exact ⟨hij, hr, hc, rfl⟩
      · rw [setThread_ne _ _ _ _ hk]; exact hpc k'
    · intro k' hcr
      try dsimp only at *
      by_cases hk : k' = k
      · subst hk; exact hlock k' (by rw [hp]; trivial)
      · rw [setThread_ne _ _ _ _ hk] at hcr; exact hlock k' hcr
    · intro k' ho'
      try dsimp only at *
      by_cases hk : k' = k
      · subst hk; rw [setThread_self]; trivial
      · rw [setThread_ne _ _ _ _ hk]; exact hlock' k' ho'
    · intro a b hab
      try dsimp only at *
      refine (hfirst a b hab).imp (cov pend1 _ a b ?_) id
      intro q hq
      rw [hp] at hq
      exact hq
    · intro a b hab
      try dsimp only at *
      refine (hsecond a b hab).imp (cov pend2 _ a b ?_) id
      intro q hq
      rw [hp] at hq
      exact hq
  | found1 i j row col c idx =>
    rw [hp] at hpck
    obtain ⟨hij, hr, hc, hf⟩ := hpck
    have hown : s.owner = some k := hlock k (by rw [hp]; trivial)
    have hlt := hg.lt i j hij
    have hn : m.n = m0.n := tinv.n
    refine ⟨_, m.put i j (.stored row), rfl, ⟨writePart_sim sim (by omega) (by omega) (by omega) row c idx hf,
      tinv_put tinv (Or.inl hij) (by simp [wanted, hlt.1, hr]), ?_, ?_, ?_, ?_, ?_, ?_⟩⟩
    · intro k' p hp'
      try dsimp only at *
      by_cases hk : k' = k
      · subst hk; rw [setThread_self] at hp'; exact htk _ hp'
      · rw [setThread_ne _ _ _ _ hk] at hp'; exact htodo k' p hp'
    · intro k'
      try dsimp only at *
      by_cases hk : k' = k
      · subst hk; rw [setThread_self]; exact ⟨hij, hc⟩
      · rw [setThread_ne _ _ _ _ hk]
        refine okPC_of_not_crit (hpc k') ?_
        intro hcr
        have := hlock k' hcr
        rw [hown] at this
        exact hk (Option.some.inj this).symm
    · intro k' hcr
      try dsimp only at *
      by_cases hk : k' = k
      · subst hk; exact hown
      · rw [setThread_ne _ _ _ _ hk] at hcr; exact hlock k' hcr
    · intro k' ho'
      try dsimp only at *
      by_cases hk : k' = k
      · subst hk; rw [setThread_self]; trivial
      · rw [setThread_ne _ _ _ _ hk]; exact hlock' k' ho'
    · intro a b hab
      try dsimp only at *
      by_cases he : (a, b) = (i, j)
      · obtain ⟨rfl, rfl⟩ := Prod.mk.inj he
        right; simp [PairMap.put, hr]
      · have he' : ¬ (a = i ∧ b = j) := by rintro ⟨rfl, rfl⟩; exact he rfl
        rcases hfirst a b hab with ⟨k', hk'⟩ | h
        · left
          by_cases hk : k' = k
          · subst hk
            refine ⟨k', ?_⟩
            rw [setThread_self]
            rw [hp] at hk'
            rcases hk' with h | h
            · exact Or.inl h
            · exact absurd h he
          · exact ⟨k', by rw [setThread_ne _ _ _ _ hk]; exact hk'⟩
        · right; simp only [PairMap.put]; rw [if_neg he']; exact h
    · intro a b hab
      try dsimp only at *
      have hab' := hg.lt a b hab
      have he' : ¬ (b = i ∧ a = j) := by omega
      rcases hsecond a b hab with h | h
      · left
        refine cov pend2 _ a b ?_ h
        intro q hq
        rw [hp] at hq
        exact hq
      · right; simp only [PairMap.put]; rw [if_neg he']; exact h
  | wrote1 i j col =>
    rw [hp] at hpck
    obtain ⟨hij, hc⟩ := hpck
    dsimp only
    rw [findPart_some hg sim tinv (Or.inr hij) col]
    refine ⟨_, m, rfl, ⟨sim, tinv, ?_, ?_, ?_, ?_, ?_, ?_⟩⟩
    · intro k' p hp'
      try dsimp only at *
      by_cases hk : k' = k
      · subst hk; rw [setThread_self] at hp'; exact htk _ hp'
      · rw [setThread_ne _ _ _ _ hk] at hp'; exact htodo k' p hp'
    · intro k'
      try dsimp only at *
      by_cases hk : k' = k
      · subst hk; rw [setThread_self]; exact ⟨hij, hc, rfl⟩
      · rw [setThread_ne _ _ _ _ hk]; exact hpc k'
    · intro k' hcr
      try dsimp only at *
      by_cases hk : k' = k
      · subst hk; exact hlock k' (by rw [hp]; trivial)
      · rw [setThread_ne _ _ _ _ hk] at hcr; exact hlock k' hcr
    · intro k' ho'
      try dsimp only at *
      by_cases hk : k' = k
      · subst hk; rw [setThread_self]; trivial
      · rw [setThread_ne _ _ _ _ hk]; exact hlock' k' ho'
    · intro a b hab
      try dsimp only at *
      refine (hfirst a b hab).imp (cov pend1 _ a b ?_) id
      intro q hq
      rw [hp] at hq
      exact hq
    · intro a b hab
      try dsimp only at *
      refine (hsecond a b hab).imp (cov pend2 _ a b ?_) id
      intro q hq
      rw [hp] at hq
      exact hq
  | found2 i j col c idx =>
    rw [hp] at hpck
    obtain ⟨hij, hc, hf⟩ := hpck
    have hown : s.owner = some k := hlock k (by rw [hp]; trivial)
    have hlt := hg.lt i j hij
    have hn : m.n = m0.n := tinv.n
    have hnlt : ¬ j < i := by omega
    refine ⟨_, m.put j i (.stored col), rfl, ⟨writePart_sim sim (by omega) (by omega) (by omega) col c idx hf,
      tinv_put tinv (Or.inr hij) (by simp [wanted, hnlt, hc]), ?_, ?_, ?_, ?_, ?_, ?_⟩⟩
    · intro k' p hp'
      try dsimp only at *
      by_cases hk : k' = k
      · subst hk; rw [setThread_self] at hp'; exact htk _ hp'
      · rw [setThread_ne _ _ _ _ hk] at hp'; exact htodo k' p hp'
    · intro k'
      try dsimp only at *
      by_cases hk : k' = k
      · subst hk; rw [setThread_self]; trivial
      · rw [setThread_ne _ _ _ _ hk]
        refine okPC_of_not_crit (hpc k') ?_
        intro hcr
        have := hlock k' hcr
        rw [hown] at this
        exact hk (Option.some.inj this).symm
    · intro k' hcr
      try dsimp only at *
      by_cases hk : k' = k
      · subst hk; exact hown
      · rw [setThread_ne _ _ _ _ hk] at hcr; exact hlock k' hcr
    · intro k' ho'
      try dsimp only at *
      by_cases hk : k' = k
      · subst hk; rw [setThread_self]; trivial
      · rw [setThread_ne _ _ _ _ hk]; exact hlock' k' ho'
    · intro a b hab
      try dsimp only at *
      have hab' := hg.lt a b hab
      have he' : ¬ (a = j ∧ b = i) := by omega
      rcases hfirst a b hab with h | h
      · left
        refine cov pend1 _ a b ?_ h
        intro q hq
        rw [hp] at hq
        exact hq
      · right; simp only [PairMap.put]; rw [if_neg he']; exact h
    · intro a b hab
      try dsimp only at *
      by_cases he : (a, b) = (i, j)
      · obtain ⟨rfl, rfl⟩ := Prod.mk.inj he
        right; simp [PairMap.put, hc]
      · have he' : ¬ (b = j ∧ a = i) := by rintro ⟨rfl, rfl⟩; exact he rfl
        rcases hsecond a b hab with ⟨k', hk'⟩ | h
        · left
          by_cases hk : k' = k
          · subst hk
            refine ⟨k', ?_⟩
            rw [setThread_self]
            rw [hp] at hk'
            rcases hk' with h | h
            · exact Or.inl h
            · exact absurd h he
          · exact ⟨k', by rw [setThread_ne _ _ _ _ hk]; exact hk'⟩
        · right; simp only [PairMap.put]; rw [if_neg he']; exact h
  | wrote2 =>
    have hown : s.owner = some k := hlock k (by rw [hp]; trivial)
    refine ⟨_, m, rfl, ⟨sim, tinv, ?_, ?_, ?_, ?_, ?_, ?_⟩⟩
    · intro k' p hp'
      try dsimp only at *
      by_cases hk : k' = k
      · subst hk; rw [setThread_self] at hp'; exact htk _ hp'
      · rw [setThread_ne _ _ _ _ hk] at hp'; exact htodo k' p hp'
    · intro k'
      try dsimp only at *
      by_cases hk : k' = k
      · subst hk; rw [setThread_self]; trivial
      · rw [setThread_ne _ _ _ _ hk]; exact hpc k'
    · intro k' hcr
      try dsimp only at *
      by_cases hk : k' = k
      · subst hk; rw [setThread_self] at hcr; exact absurd hcr (by simp [crit])
      · rw [setThread_ne _ _ _ _ hk] at hcr
        have := hlock k' hcr
        rw [hown] at this
        exact absurd (Option.some.inj this).symm hk
    · intro k' ho'
      try dsimp only at *
      exact absurd ho' (by simp)
    · intro a b hab
      try dsimp only at *
      refine (hfirst a b hab).imp (cov pend1 _ a b ?_) id
      intro q hq
      rw [hp] at hq
      exact hq
    · intro a b hab
      try dsimp only at *
      refine (hsecond a b hab).imp (cov pend2 _ a b ?_) id
      intro q hq
      rw [hp] at hq
      exact hq

theorem inv_run (hg : Good tri m0) (sched : List (Fin T)) {s : State T} (hi : Inv solve tri m0 s m) :
    ∃ s' m', run solve s sched = some s' ∧ Inv solve tri m0 s' m' := by
  induction sched generalizing s m with
  | nil => exact ⟨s, m, rfl, hi⟩
  | cons k ks ih =>
    obtain ⟨s1, m1, h1, hi1⟩ := inv_step hg hi k
    obtain ⟨s2, m2, h2, hi2⟩ := ih hi1
    exact ⟨s2, m2, by rw [run, h1]; exact h2, hi2⟩

/-- remaining steps of a thread -/
def pcWork : PC → Nat
  | .idle => 0
  | .solved .. => 6
  | .locked .. => 5
  | .found1 .. => 4
  | .wrote1 .. => 3
  | .found2 .. => 2
  | .wrote2 => 1

def threadWork (t : Thread) : Nat := 7 * t.todo.length + pcWork t.pc

def work {T : Nat} (s : State T) : Nat := ∑ k, threadWork (s.threads k)

theorem sum_setThread (f : Fin T → Thread) (k : Fin T) (t : Thread)
    (h : threadWork t + 1 = threadWork (f k)) :
    (∑ j, threadWork (setThread f k t j)) + 1 = ∑ j, threadWork (f j) := by
  rw [← Finset.add_sum_erase Finset.univ (fun j => threadWork (setThread f k t j)) (Finset.mem_univ k),
    ← Finset.add_sum_erase Finset.univ (fun j => threadWork (f j)) (Finset.mem_univ k)]
  have : ∑ j ∈ Finset.univ.erase k, threadWork (setThread f k t j) =
      ∑ j ∈ Finset.univ.erase k, threadWork (f j) := by
    apply Finset.sum_congr rfl
    intro j hj
    rw [setThread_ne _ _ _ _ (Finset.ne_of_mem_erase hj)]
  rw [this]
  simp only [setThread_self]
  omega

/-- a thread that can move decreases the remaining work -/
theorem step_work (hg : Good tri m0) {s : State T} (hi : Inv solve tri m0 s m) (k : Fin T)
    (hw : threadWork (s.threads k) ≠ 0) (hcan : s.owner = none ∨ s.owner = some k) {s' : State T}
    (hs : step solve s k = some s') : work s' + 1 = work s := by
  unfold step at hs
  dsimp only at hs
  have hpck := hi.pc k
  cases hp : (s.threads k).pc with
  | idle =>
    rw [hp] at hs
    cases htd : (s.threads k).todo with
    | nil => simp [threadWork, hp, htd, pcWork] at hw
    | cons p r =>
      obtain ⟨i, j⟩ := p
      rw [htd] at hs
      obtain rfl := Option.some.inj hs
      exact sum_setThread _ _ _ (by simp [threadWork, hp, htd, pcWork]; omega)
  | solved i j row col =>
    rw [hp] at hs
    have ho : s.owner = none := by
      rcases hcan with h | h
      · exact h
      · have := hi.lock' k h
        rw [hp] at this; exact absurd this (by simp [crit])
    rw [ho] at hs
    obtain rfl := Option.some.inj hs
    exact sum_setThread _ _ _ (by simp [threadWork, hp, pcWork])
  | locked i j row col =>
    rw [hp] at hs hpck
    dsimp only at hs
    rw [findPart_some hg hi.sim hi.tinv (Or.inl hpck.1) row] at hs
    obtain rfl := Option.some.inj hs
    exact sum_setThread _ _ _ (by simp [threadWork, hp, pcWork])
  | found1 i j row col c idx =>
    rw [hp] at hs
    obtain rfl := Option.some.inj hs
    exact sum_setThread _ _ _ (by simp [threadWork, hp, pcWork])
  | wrote1 i j col =>
    rw [hp] at hs hpck
    dsimp only at hs
    rw [findPart_some hg hi.sim hi.tinv (Or.inr hpck.1) col] at hs
    obtain rfl := Option.some.inj hs
    exact sum_setThread _ _ _ (by simp [threadWork, hp, pcWork])
  | found2 i j col c idx =>
    rw [hp] at hs
    obtain rfl := Option.some.inj hs
    exact sum_setThread _ _ _ (by simp [threadWork, hp, pcWork])
  | wrote2 =>
    rw [hp] at hs
    obtain rfl := Option.some.inj hs
    exact sum_setThread _ _ _ (by simp [threadWork, hp, pcWork])

theorem finished_of_work {s : State T} (h : work s = 0) : Finished s := by
  intro k
  have hk : threadWork (s.threads k) = 0 := by
    have := Finset.sum_eq_zero_iff.mp h k (Finset.mem_univ k)
    exact this
  have h1 : (s.threads k).todo = [] := by
    rw [← List.length_eq_zero_iff]; simp only [threadWork] at hk; omega
  have h2 : pcWork (s.threads k).pc = 0 := by simp only [threadWork] at hk; omega
  have h3 : (s.threads k).pc = .idle := by
    cases hp : (s.threads k).pc <;> rw [hp] at h2 <;> simp [pcWork] at h2
  cases hth : s.threads k with
  | mk a b => rw [hth] at h1 h3; simp only at h1 h3; rw [h1, h3]

/-- from every state of the invariant some schedule finishes -/
theorem can_finish (hg : Good tri m0) : ∀ (w : Nat) {s : State T} {m : PairMap},
    Inv solve tri m0 s m → work s = w →
    ∃ sched s', run solve s sched = some s' ∧ Finished s' := by
  intro w
  induction w with
  | zero => intro s m hi hw; exact ⟨[], s, rfl, finished_of_work hw⟩
  | succ w ih =>
    intro s m hi hw
    have : ∃ k, threadWork (s.threads k) ≠ 0 ∧ (s.owner = none ∨ s.owner = some k) := by
      cases ho : s.owner with
      | some k =>
        refine ⟨k, ?_, Or.inr rfl⟩
        have := hi.lock' k ho
        cases hp : (s.threads k).pc <;> rw [hp] at this <;> simp_all [crit, threadWork, pcWork]
      | none =>
        by_contra hcon
        push Not at hcon
        have : work s = 0 := Finset.sum_eq_zero (fun k _ => by
          by_contra h; exact (hcon k h).1 rfl)
        omega
    obtain ⟨k, hk, hcan⟩ := this
    obtain ⟨s1, m1, h1, hi1⟩ := inv_step hg hi k
    have hw1 := step_work hg hi k hk hcan h1
    obtain ⟨sched, s2, h2, hf⟩ := ih hi1 (by omega)
    exact ⟨k :: sched, s2, by rw [run, h1]; exact h2, hf⟩

theorem inv_start {t : Table} (hs : Sim t m0) (wk : Fin T → List (Nat × Nat))
    (hw : ∀ p, p ∈ tri ↔ ∃ k, p ∈ wk k) : Inv solve tri m0 (start t wk) m0 := by
  refine ⟨hs, ⟨rfl, rfl, fun _ _ => Or.inl rfl⟩, ?_, fun _ => trivial, fun _ h => absurd h (by simp [start, crit]),
    fun _ h => absurd h (by simp [start]), ?_, ?_⟩
  · intro k p hp; exact (hw p).mpr ⟨k, hp⟩
  · intro i j hij
    obtain ⟨k, hk⟩ := (hw _).mp hij
    exact Or.inl ⟨k, Or.inl hk⟩
  · intro i j hij
    obtain ⟨k, hk⟩ := (hw _).mp hij
    exact Or.inl ⟨k, Or.inl hk⟩

theorem finished_entries {s : State T} (hi : Inv solve tri m0 s m) (hf : Finished s) (i j : Nat)
    (hij : (i, j) ∈ tri) : m.entry i j = .stored (solve i j).1 ∧ m.entry j i = .stored (solve i j).2 := by
  constructor
  · rcases hi.first i j hij with ⟨k, h⟩ | h
    · rw [hf k] at h; simp [pend1] at h
    · exact h
  · rcases hi.second i j hij with ⟨k, h⟩ | h
    · rw [hf k] at h; simp [pend2] at h
    · exact h

/-- the selection of the upper triangle -/
theorem triOf_eq (no a b : Nat) (hb : b < no) :
    triOf no (a * no + b) = if a < b then some (a, b) else none := by
  have hno : 0 < no := by omega
  have h1 : (a * no + b) / no = a := by
    rw [Nat.mul_comm, Nat.mul_add_div hno, Nat.div_eq_of_lt hb]; rfl
  simp only [triOf, h1]
  have h2 : a * (no + 1) = a * no + a := by ring
  by_cases h : a < b
  · rw [if_pos (by omega), if_pos h]
    simp
  · rw [if_neg (by omega), if_neg h]

theorem mem_tri {no : Nat} {keys : List Nat} (hno : 0 < no) (i j : Nat) (hj : j < no) :
    (i, j) ∈ keys.filterMap (triOf no) ↔ i * no + j ∈ keys ∧ i < j := by
  rw [List.mem_filterMap]
  constructor
  · rintro ⟨k, hk, ht⟩
    have hk2 : k = k / no * no + k % no := by rw [Nat.mul_comm]; exact (Nat.div_add_mod k no).symm
    rw [hk2, triOf_eq _ _ _ (Nat.mod_lt _ hno)] at ht
    split_ifs at ht with hlt
    · simp only [Option.some.injEq, Prod.mk.injEq] at ht
      obtain ⟨rfl, rfl⟩ := ht
      exact ⟨hk2 ▸ hk, hlt⟩
  · rintro ⟨hk, hlt⟩
    exact ⟨_, hk, by rw [triOf_eq _ _ _ hj, if_pos hlt]⟩

theorem tri_lt {no : Nat} {keys : List Nat} (hno : 0 < no) (i j : Nat)
    (h : (i, j) ∈ keys.filterMap (triOf no)) : j < no := by
  rw [List.mem_filterMap] at h
  obtain ⟨k, hk, ht⟩ := h
  have hk2 : k = k / no * no + k % no := by rw [Nat.mul_comm]; exact (Nat.div_add_mod k no).symm
  rw [hk2, triOf_eq _ _ _ (Nat.mod_lt _ hno)] at ht
  split_ifs at ht with hlt
  · simp only [Option.some.injEq, Prod.mk.injEq] at ht
    obtain ⟨rfl, rfl⟩ := ht
    exact Nat.mod_lt _ hno

end Brille.SortPerm
