/-
Proof that sorting does not change what is stored for equal indices.
-/
import Verif.Proofs.SortPermutations

namespace Brille.SortPerm
open Brille.PermTable

/-- the pair a thread works on is in the upper triangle -/
def PC.Upper : PC → Prop
  | .idle => True
  | .solved i j _ _ => i < j
  | .locked i j _ _ => i < j
  | .found1 i j _ _ _ _ => i < j
  | .wrote1 i j _ => i < j
  | .found2 i j _ _ _ => i < j
  | .wrote2 => True

/-- what is kept for equal indices -/
structure Diag {T : Nat} (t : Table) (s : State T) : Prop where
  size : s.table.indexSize = t.indexSize
  zero : s.table.ijmap 0 = t.ijmap 0
  perms : ∀ (k : Nat) (x : List Nat), t.permutations[k]? = some x → s.table.permutations[k]? = some x
  todo : ∀ k, ∀ p ∈ (s.threads k).todo, p.1 < p.2
  pc : ∀ k, (s.threads k).pc.Upper

theorem diag_step {T : Nat} {solve : Nat → Nat → List Nat × List Nat} {t : Table} (hn : 0 < t.indexSize)
    {s s' : State T} {k : Fin T} (h : Diag t s) (hs : step solve s k = some s') : Diag t s' := by
  have hk := h.pc k
  have hw : ∀ (tab : Table) (i j : Nat) (v : List Nat) (c : Bool) (idx : Nat), tab.indexSize = t.indexSize →
      i ≠ j → tab.ijmap 0 = t.ijmap 0 → (writePart tab i j v c idx).ijmap 0 = t.ijmap 0 := by
    intro tab i j v c idx hsz hij h0
    have : ¬ (0 = ij2key tab i j) := by
      rw [ij2key, if_neg hij, hsz]
      intro e
      rcases Nat.eq_zero_or_pos i with hi | hi
      · omega
      · have := Nat.mul_pos hi hn; omega
    simp [writePart, mapSet, this, h0]
  have hth : ∀ (x : Thread), (∀ p ∈ x.todo, p.1 < p.2) → x.pc.Upper →
      (∀ m, ∀ p ∈ (setThread s.threads k x m).todo, p.1 < p.2) ∧
      ∀ m, (setThread s.threads k x m).pc.Upper := by
    intro x h1 h2
    constructor <;> intro m <;> unfold setThread <;> split
    · exact h1
    · exact h.todo m
    · exact h2
    · exact h.pc m
  have htodo := h.todo k
  unfold step at hs
  dsimp only at hs
  cases hpc : (s.threads k).pc with
  | idle =>
    rw [hpc] at hs
    cases htd : (s.threads k).todo with
    | nil => simp only [htd, Option.some.injEq] at hs; exact hs ▸ h
    | cons p r =>
      simp only [htd, Option.some.injEq] at hs
      subst hs
      obtain ⟨a, b⟩ := hth ⟨r, .solved p.1 p.2 (solve p.1 p.2).1 (solve p.1 p.2).2⟩
        (fun q hq => htodo q (by rw [htd]; exact List.mem_cons_of_mem _ hq))
        (htodo p (by rw [htd]; exact List.mem_cons_self))
      exact ⟨h.size, h.zero, h.perms, a, b⟩
  | solved i j row col =>
    rw [hpc] at hs hk
    cases ho : s.owner with
    | some _ => simp only [ho, Option.some.injEq] at hs; exact hs ▸ h
    | none =>
      simp only [ho, Option.some.injEq] at hs
      subst hs
      obtain ⟨a, b⟩ := hth ⟨(s.threads k).todo, .locked i j row col⟩ htodo hk
      exact ⟨h.size, h.zero, h.perms, a, b⟩
  | locked i j row col =>
    rw [hpc] at hs hk
    cases hf : findPart s.table i j row with
    | none => simp only [hf] at hs; cases hs
    | some ci =>
      simp only [hf, Option.some.injEq] at hs
      subst hs
      obtain ⟨a, b⟩ := hth ⟨(s.threads k).todo, .found1 i j row col ci.1 ci.2⟩ htodo hk
      exact ⟨h.size, h.zero, h.perms, a, b⟩
  | found1 i j row col c idx =>
    rw [hpc] at hs hk
    simp only [Option.some.injEq] at hs
    subst hs
    obtain ⟨a, b⟩ := hth ⟨(s.threads k).todo, .wrote1 i j col⟩ htodo hk
    exact ⟨h.size, hw _ _ _ _ _ _ h.size (Nat.ne_of_lt hk) h.zero,
      fun m x hx => getElem?_extend _ _ _ _ _ (h.perms m x hx), a, b⟩
  | wrote1 i j col =>
    rw [hpc] at hs hk
    cases hf : findPart s.table j i col with
    | none => simp only [hf] at hs; cases hs
    | some ci =>
      simp only [hf, Option.some.injEq] at hs
      subst hs
      obtain ⟨a, b⟩ := hth ⟨(s.threads k).todo, .found2 i j col ci.1 ci.2⟩ htodo hk
      exact ⟨h.size, h.zero, h.perms, a, b⟩
  | found2 i j col c idx =>
    rw [hpc] at hs hk
    simp only [Option.some.injEq] at hs
    subst hs
    obtain ⟨a, b⟩ := hth ⟨(s.threads k).todo, .wrote2⟩ htodo trivial
    exact ⟨h.size, hw _ _ _ _ _ _ h.size (Nat.ne_of_gt hk) h.zero,
      fun m x hx => getElem?_extend _ _ _ _ _ (h.perms m x hx), a, b⟩
  | wrote2 =>
    rw [hpc] at hs
    simp only [Option.some.injEq] at hs
    subst hs
    obtain ⟨a, b⟩ := hth ⟨(s.threads k).todo, .idle⟩ htodo trivial
    exact ⟨h.size, h.zero, h.perms, a, b⟩

theorem diag_run {T : Nat} {solve : Nat → Nat → List Nat × List Nat} {t : Table} (hn : 0 < t.indexSize) :
    ∀ (sched : List (Fin T)) {s s' : State T}, Diag t s → run solve s sched = some s' → Diag t s' := by
  intro sched
  induction sched with
  | nil => intro s s' h hr; obtain rfl := Option.some.inj hr; exact h
  | cons k ks ih =>
    intro s s' h hr
    rw [run] at hr
    cases hs : step solve s k with
    | none => rw [hs] at hr; cases hr
    | some s1 => rw [hs] at hr; exact ih (diag_step hn h hs) hr

theorem sort_diagonal {T : Nat} {solve : Nat → Nat → List Nat × List Nat} {t : Table} (hn : 0 < t.indexSize)
    (wk : Fin T → List (Nat × Nat)) (hw : ∀ k, ∀ p ∈ wk k, p.1 < p.2) {sched : List (Fin T)} {s : State T}
    (hr : run solve (start t wk) sched = some s) {i : Nat} {p : List Nat} (hp : safeGet t i i = some p) :
    safeGet s.table i i = some p := by
  have h : Diag t s := diag_run hn sched (s := start t wk)
    ⟨rfl, rfl, fun _ _ h => h, hw, fun _ => trivial⟩ hr
  simp only [safeGet, ij2key, if_true] at hp ⊢
  rw [h.zero]
  cases h0 : t.ijmap 0 with
  | none => rw [h0] at hp; exact h.perms _ _ hp
  | some v =>
    rw [h0] at hp
    dsimp only at hp ⊢
    split at hp
    · rename_i hv
      rw [if_pos hv]; exact h.perms _ _ hp
    · rename_i hv
      rw [if_neg hv]; exact h.perms _ _ hp

end Brille.SortPerm
