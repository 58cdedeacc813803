import Verif.Spec.ParallelInterpolate
import Mathlib.Data.List.Nodup
import Mathlib.Data.List.Perm.Basic
import Mathlib.Data.List.Range
import Mathlib.Tactic.Set

namespace Brille.ParInterp

open Brille.Spec (isMissing textOf lines)

variable {T : Nat} {K : Type}

def activeOf : Cur K → Option Nat
  | .free => none
  | .at i => some i
  | .adding i _ => some i

@[simp] theorem setThread_self (f : Fin T → Thread K) (k : Fin T) (t : Thread K) :
    setThread f k t k = t := by simp [setThread]

theorem setThread_ne (f : Fin T → Thread K) (k j : Fin T) (t : Thread K) (h : j ≠ k) :
    setThread f k t j = f j := by simp [setThread, h]

section
variable [AddMonoid K]

/-- row `i` after some accumulations -/
def rowAfter (l : List (Bool × Nat × K)) : Bool → Nat → K :=
  fun a k => (l.foldl (fun o x => addOut o 0 x) zeroOut) a 0 k

theorem foldl_row (l : List (Bool × Nat × K)) (i : Nat) (o : Out K) (o' : Out K)
    (h : ∀ a k, o a i k = o' a 0 k) :
    ∀ a k, (l.foldl (fun o x => addOut o i x) o) a i k = (l.foldl (fun o x => addOut o 0 x) o') a 0 k := by
  induction l generalizing o o' with
  | nil => exact h
  | cons x l ih =>
    apply ih
    intro a k
    simp only [addOut, true_and, h]

theorem foldl_other (l : List (Bool × Nat × K)) (i r : Nat) (hr : r ≠ i) (o : Out K) :
    ∀ a k, (l.foldl (fun o x => addOut o i x) o) a r k = o a r k := by
  induction l generalizing o with
  | nil => intro _ _; rfl
  | cons x l ih =>
    intro a k
    rw [List.foldl_cons, ih]
    simp [addOut, hr]

theorem rowAfter_snoc (l : List (Bool × Nat × K)) (x : Bool × Nat × K) (a : Bool) (k : Nat) :
    rowAfter (l ++ [x]) a k = if a = x.1 ∧ k = x.2.1 then rowAfter l a k + x.2.2 else rowAfter l a k := by
  simp [rowAfter, List.foldl_append, addOut]

/-- the row a point must produce -/
def rowOf (pt : Nat → Outcome K) (i : Nat) : Bool → Nat → K :=
  match pt i with
  | .adds l => rowAfter l
  | _ => fun _ _ => 0

def curOk (pt : Nat → Outcome K) (out : Out K) : Cur K → Prop
  | .free => True
  | .at i => ∀ a k, out a i k = 0
  | .adding i l => ∃ d, pt i = .adds (d ++ l) ∧ ∀ a k, out a i k = rowAfter d a k

structure Inv (pt : Nat → Outcome K) (n : Nat) (s : State T K) (done : List Nat) (ws : List String) :
    Prop where
  next : s.next ≤ n
  nodup : done.Nodup
  lt : ∀ i ∈ done, i < s.next
  act_lt : ∀ k i, activeOf (s.threads k).cur = some i → i < s.next ∧ i ∉ done
  act_inj : ∀ k k' i, activeOf (s.threads k).cur = some i → activeOf (s.threads k').cur = some i → k = k'
  cover : ∀ i, i < s.next → i ∈ done ∨ ∃ k, activeOf (s.threads k).cur = some i
  rows : ∀ i ∈ done, ∀ a k, s.out a i k = rowOf pt i a k
  cur : ∀ k, curOk pt s.out (s.threads k).cur
  fresh : ∀ i, s.next ≤ i → ∀ a k, s.out a i k = 0
  texts : ws.Perm (done.filterMap fun i => textOf (pt i))
  count : s.ex.count = ws.length
  ptr : s.ex.ptr = if ws = [] then none else some (lines ws)
  miss : ∑ k, (s.threads k).missing = (done.filter fun i => isMissing (pt i)).length

theorem lines_snoc (ws : List String) (w : String) (h : ws ≠ []) :
    lines (ws ++ [w]) = lines ws ++ "\n" ++ w := by
  cases ws with
  | nil => exact absurd rfl h
  | cons a ws => simp [lines, List.foldl_append]

omit [AddMonoid K] in
theorem sum_missing_keep (f : Fin T → Thread K) (k : Fin T) (c : Cur K) :
    (∑ j, (setThread f k ⟨c, (f k).missing⟩ j).missing) = ∑ j, (f j).missing := by
  apply Finset.sum_congr rfl
  intro j _
  by_cases h : j = k
  · subst h; simp
  · rw [setThread_ne _ _ _ _ h]

omit [AddMonoid K] in
theorem sum_missing_succ (f : Fin T → Thread K) (k : Fin T) (c : Cur K) :
    (∑ j, (setThread f k ⟨c, (f k).missing + 1⟩ j).missing) = (∑ j, (f j).missing) + 1 := by
  rw [← Finset.add_sum_erase Finset.univ (fun j => (setThread f k ⟨c, (f k).missing + 1⟩ j).missing)
      (Finset.mem_univ k),
    ← Finset.add_sum_erase Finset.univ (fun j => (f j).missing) (Finset.mem_univ k)]
  have : ∑ j ∈ Finset.univ.erase k, (setThread f k ⟨c, (f k).missing + 1⟩ j).missing =
      ∑ j ∈ Finset.univ.erase k, (f j).missing := by
    apply Finset.sum_congr rfl
    intro j hj
    rw [setThread_ne _ _ _ _ (Finset.ne_of_mem_erase hj)]
  rw [this]
  simp only [setThread_self]
  omega

/-- the parts of the invariant that only concern who works on what, when thread `k` releases `i` -/
theorem release {pt : Nat → Outcome K} {n : Nat} {s : State T K} {done : List Nat} {ws : List String}
    (hi : Inv pt n s done ws) (k : Fin T) (i : Nat) (hact : activeOf (s.threads k).cur = some i)
    (m : Nat) :
    (done ++ [i]).Nodup ∧ (∀ x ∈ done ++ [i], x < s.next) ∧
    (∀ k' x, activeOf (setThread s.threads k ⟨.free, m⟩ k').cur = some x → x < s.next ∧ x ∉ done ++ [i]) ∧
    (∀ k1 k2 x, activeOf (setThread s.threads k ⟨.free, m⟩ k1).cur = some x →
      activeOf (setThread s.threads k ⟨.free, m⟩ k2).cur = some x → k1 = k2) ∧
    (∀ x, x < s.next → x ∈ done ++ [i] ∨ ∃ k', activeOf (setThread s.threads k ⟨.free, m⟩ k').cur = some x) ∧
    (∀ k', curOk pt s.out (setThread s.threads k ⟨.free, m⟩ k').cur) := by
  obtain ⟨hlt, hnd⟩ := hi.act_lt k i hact
  have hne : ∀ k' x, activeOf (setThread s.threads k ⟨.free, m⟩ k').cur = some x →
      k' ≠ k ∧ activeOf (s.threads k').cur = some x := by
    intro k' x h
    by_cases hk : k' = k
    · subst hk; rw [setThread_self] at h; simp [activeOf] at h
    · rw [setThread_ne _ _ _ _ hk] at h; exact ⟨hk, h⟩
  refine ⟨?_, ?_, ?_, ?_, ?_, ?_⟩
  · rw [List.nodup_append]
    refine ⟨hi.nodup, by simp, ?_⟩
    intro a ha b hb
    simp only [List.mem_cons, List.not_mem_nil, or_false] at hb
    rintro rfl
    exact hnd (hb ▸ ha)
  · intro x hx
    rcases List.mem_append.mp hx with h | h
    · exact hi.lt x h
    · simp only [List.mem_cons, List.not_mem_nil, or_false] at h; subst h; exact hlt
  · intro k' x h
    obtain ⟨hk, h⟩ := hne k' x h
    obtain ⟨h1, h2⟩ := hi.act_lt k' x h
    refine ⟨h1, ?_⟩
    intro hx
    rcases List.mem_append.mp hx with h' | h'
    · exact h2 h'
    · simp only [List.mem_cons, List.not_mem_nil, or_false] at h'
      subst h'
      exact hk (hi.act_inj k' k x h hact)
  · intro k1 k2 x h1 h2
    exact hi.act_inj k1 k2 x (hne k1 x h1).2 (hne k2 x h2).2
  · intro x hx
    rcases hi.cover x hx with h | ⟨k', h⟩
    · exact Or.inl (List.mem_append.mpr (Or.inl h))
    · by_cases hk : k' = k
      · subst hk
        left
        rw [hact] at h
        obtain rfl := Option.some.inj h
        simp
      · right; exact ⟨k', by rw [setThread_ne _ _ _ _ hk]; exact h⟩
  · intro k'
    by_cases hk : k' = k
    · subst hk; rw [setThread_self]; trivial
    · rw [setThread_ne _ _ _ _ hk]; exact hi.cur k'

/-- the parts of the invariant that only concern who works on what, when thread `k` continues on `i` -/
theorem continues {pt : Nat → Outcome K} {n : Nat} {s : State T K} {done : List Nat} {ws : List String}
    (hi : Inv pt n s done ws) (k : Fin T) (i : Nat) (hact : activeOf (s.threads k).cur = some i)
    (c : Cur K) (hc : activeOf c = some i) (m : Nat) :
    (∀ k' x, activeOf (setThread s.threads k ⟨c, m⟩ k').cur = some x → x < s.next ∧ x ∉ done) ∧
    (∀ k1 k2 x, activeOf (setThread s.threads k ⟨c, m⟩ k1).cur = some x →
      activeOf (setThread s.threads k ⟨c, m⟩ k2).cur = some x → k1 = k2) ∧
    (∀ x, x < s.next → x ∈ done ∨ ∃ k', activeOf (setThread s.threads k ⟨c, m⟩ k').cur = some x) := by
  have hsame : ∀ k', activeOf (setThread s.threads k ⟨c, m⟩ k').cur = activeOf (s.threads k').cur := by
    intro k'
    by_cases hk : k' = k
    · subst hk; rw [setThread_self, hact]; exact hc
    · rw [setThread_ne _ _ _ _ hk]
  simp only [hsame]
  exact ⟨hi.act_lt, hi.act_inj, hi.cover⟩

theorem inv_step {pt : Nat → Outcome K} {n : Nat} {s : State T K} {done : List Nat} {ws : List String}
    (hi : Inv pt n s done ws) (k : Fin T) :
    ∃ done' ws', Inv pt n (step pt n s k) done' ws' := by
  have hck := hi.cur k
  unfold step
  dsimp only
  cases hc : (s.threads k).cur with
  | free =>
    dsimp only
    split_ifs with hn
    · refine ⟨done, ws, ⟨hn, hi.nodup, fun i h => Nat.lt_succ_of_lt (hi.lt i h), ?_, ?_, ?_, hi.rows, ?_,
        fun i h => hi.fresh i (by dsimp only at h; omega), hi.texts, hi.count, hi.ptr, ?_⟩⟩
      · intro k' i h
        dsimp only at h ⊢
        by_cases hk : k' = k
        · subst hk
          rw [setThread_self] at h
          simp only [activeOf, Option.some.injEq] at h
          subst h
          exact ⟨Nat.lt_succ_self _, fun hx => absurd (hi.lt _ hx) (lt_irrefl _)⟩
        · rw [setThread_ne _ _ _ _ hk] at h
          have := hi.act_lt k' i h
          exact ⟨by omega, this.2⟩
      · intro k1 k2 i h1 h2
        dsimp only at h1 h2
        by_cases hk1 : k1 = k
        · by_cases hk2 : k2 = k
          · rw [hk1, hk2]
          · subst hk1
            rw [setThread_self] at h1
            simp only [activeOf, Option.some.injEq] at h1
            rw [setThread_ne _ _ _ _ hk2] at h2
            have := (hi.act_lt k2 i h2).1
            omega
        · by_cases hk2 : k2 = k
          · subst hk2
            rw [setThread_self] at h2
            simp only [activeOf, Option.some.injEq] at h2
            rw [setThread_ne _ _ _ _ hk1] at h1
            have := (hi.act_lt k1 i h1).1
            omega
          · rw [setThread_ne _ _ _ _ hk1] at h1
            rw [setThread_ne _ _ _ _ hk2] at h2
            exact hi.act_inj k1 k2 i h1 h2
      · intro i h
        dsimp only at h ⊢
        by_cases hin : i = s.next
        · right; exact ⟨k, by rw [setThread_self, hin]; rfl⟩
        · rcases hi.cover i (by omega) with h | ⟨k', h⟩
          · exact Or.inl h
          · right
            refine ⟨k', ?_⟩
            by_cases hk : k' = k
            · subst hk; rw [hc] at h; simp [activeOf] at h
            · rw [setThread_ne _ _ _ _ hk]; exact h
      · intro k'
        dsimp only
        by_cases hk : k' = k
        · subst hk; rw [setThread_self]; exact fun a x => hi.fresh s.next (Nat.le_refl _) a x
        · rw [setThread_ne _ _ _ _ hk]; exact hi.cur k'
      · dsimp only
        rw [sum_missing_keep]; exact hi.miss
    · exact ⟨done, ws, hi⟩
  | «at» i =>
    rw [hc] at hck
    have hact : activeOf (s.threads k).cur = some i := by rw [hc]; rfl
    dsimp only
    cases hp : pt i with
    | threw w =>
      obtain ⟨r1, r2, r3, r4, r5, r6⟩ := release hi k i hact (s.threads k).missing
      refine ⟨done ++ [i], ws ++ [w], ⟨hi.next, r1, r2, r3, r4, r5, ?_, r6, hi.fresh, ?_, ?_, ?_, ?_⟩⟩
      · intro x hx a y
        rcases List.mem_append.mp hx with h | h
        · exact hi.rows x h a y
        · simp only [List.mem_cons, List.not_mem_nil, or_false] at h
          subst h
          rw [rowOf, hp]; exact hck a y
      · rw [List.filterMap_append]
        refine List.Perm.append hi.texts ?_
        simp [textOf, hp]
      · simp [capture, hi.count]
      · simp only [capture, hi.count, hi.ptr]
        by_cases hw : ws = []
        · subst hw; simp [lines]
        · have h1 : ws.length ≠ 0 := fun h => hw (List.length_eq_zero_iff.mp h)
          simp [hw, h1, lines_snoc]
      · dsimp only
        rw [sum_missing_keep, hi.miss, List.filter_append]
        simp [isMissing, hp]
    | missing =>
      obtain ⟨r1, r2, r3, r4, r5, r6⟩ := release hi k i hact ((s.threads k).missing + 1)
      refine ⟨done ++ [i], ws, ⟨hi.next, r1, r2, r3, r4, r5, ?_, r6, hi.fresh, ?_, hi.count, hi.ptr, ?_⟩⟩
      · intro x hx a y
        rcases List.mem_append.mp hx with h | h
        · exact hi.rows x h a y
        · simp only [List.mem_cons, List.not_mem_nil, or_false] at h
          subst h
          rw [rowOf, hp]; exact hck a y
      · rw [List.filterMap_append]
        simpa [textOf, hp] using hi.texts
      · dsimp only
        rw [sum_missing_succ, hi.miss, List.filter_append]
        simp [isMissing, hp]
    | adds l =>
      obtain ⟨r1, r2, r3⟩ := continues hi k i hact (.adding i l) rfl (s.threads k).missing
      refine ⟨done, ws, ⟨hi.next, hi.nodup, hi.lt, r1, r2, r3, hi.rows, ?_, hi.fresh, hi.texts, hi.count,
        hi.ptr, ?_⟩⟩
      · intro k'
        dsimp only
        by_cases hk : k' = k
        · subst hk; rw [setThread_self]
          exact ⟨[], hp, fun a y => by rw [hck a y]; rfl⟩
        · rw [setThread_ne _ _ _ _ hk]; exact hi.cur k'
      · dsimp only
        rw [sum_missing_keep]; exact hi.miss
  | adding i l =>
    rw [hc] at hck
    have hact : activeOf (s.threads k).cur = some i := by rw [hc]; rfl
    obtain ⟨d, hd, hrow⟩ := hck
    cases l with
    | nil =>
      dsimp only
      obtain ⟨r1, r2, r3, r4, r5, r6⟩ := release hi k i hact (s.threads k).missing
      refine ⟨done ++ [i], ws, ⟨hi.next, r1, r2, r3, r4, r5, ?_, r6, hi.fresh, ?_, hi.count, hi.ptr, ?_⟩⟩
      · intro x hx a y
        rcases List.mem_append.mp hx with h | h
        · exact hi.rows x h a y
        · simp only [List.mem_cons, List.not_mem_nil, or_false] at h
          subst h
          rw [rowOf, hd, List.append_nil]; exact hrow a y
      · rw [List.filterMap_append]
        simpa [textOf, hd] using hi.texts
      · dsimp only
        rw [sum_missing_keep, hi.miss, List.filter_append]
        simp [isMissing, hd]
    | cons x l =>
      dsimp only
      obtain ⟨hlt, hnd⟩ := hi.act_lt k i hact
      obtain ⟨r1, r2, r3⟩ := continues hi k i hact (.adding i l) rfl (s.threads k).missing
      have hother : ∀ r, r ≠ i → ∀ a y, addOut s.out i x a r y = s.out a r y := by
        intro r hr a y; simp [addOut, hr]
      refine ⟨done, ws, ⟨hi.next, hi.nodup, hi.lt, r1, r2, r3, ?_, ?_, ?_, hi.texts, hi.count,
        hi.ptr, ?_⟩⟩
      · intro r hr a y
        dsimp only
        rw [hother r (by rintro rfl; exact hnd hr)]
        exact hi.rows r hr a y
      · intro k'
        dsimp only
        by_cases hk : k' = k
        · subst hk; rw [setThread_self]
          refine ⟨d ++ [x], by rw [hd]; simp, ?_⟩
          intro a y
          rw [rowAfter_snoc, ← hrow a y]
          simp [addOut]
        · rw [setThread_ne _ _ _ _ hk]
          have hck' := hi.cur k'
          cases hcc : (s.threads k').cur with
          | free => trivial
          | «at» r =>
            rw [hcc] at hck'
            have hri : r ≠ i := by
              rintro rfl
              exact hk (hi.act_inj k' k r (by rw [hcc]; rfl) hact)
            intro a y
            rw [hother r hri]; exact hck' a y
          | adding r l' =>
            rw [hcc] at hck'
            have hri : r ≠ i := by
              rintro rfl
              exact hk (hi.act_inj k' k r (by rw [hcc]; rfl) hact)
            obtain ⟨d', h1, h2⟩ := hck'
            exact ⟨d', h1, fun a y => by rw [hother r hri]; exact h2 a y⟩
      · intro r hr a y
        dsimp only at hr ⊢
        rw [hother r (by omega)]
        exact hi.fresh r hr a y
      · dsimp only
        rw [sum_missing_keep]; exact hi.miss

theorem inv_run {pt : Nat → Outcome K} {n : Nat} (sched : List (Fin T)) {s : State T K} {done : List Nat}
    {ws : List String} (hi : Inv pt n s done ws) : ∃ done' ws', Inv pt n (run pt n s sched) done' ws' := by
  induction sched generalizing s done ws with
  | nil => exact ⟨done, ws, hi⟩
  | cons k ks ih =>
    obtain ⟨d1, w1, h1⟩ := inv_step hi k
    exact ih h1

theorem inv_start (pt : Nat → Outcome K) (n : Nat) : Inv pt n (start T K) [] [] := by
  refine ⟨Nat.zero_le _, List.nodup_nil, by simp, ?_, ?_, ?_, by simp, ?_, ?_, by simp, rfl, rfl, ?_⟩
  · intro k i h; simp [start, activeOf] at h
  · intro k k' i h; simp [start, activeOf] at h
  · intro i h; simp [start] at h
  · intro k; trivial
  · intro i h a k; rfl
  · simp [start]

/-- remaining work -/
def curWork (pt : Nat → Outcome K) : Cur K → Nat
  | .free => 0
  | .at i => (match pt i with | .adds l => l.length + 2 | _ => 1)
  | .adding _ l => l.length + 1

theorem run_append (pt : Nat → Outcome K) (n : Nat) (s : State T K) (a b : List (Fin T)) :
    run pt n s (a ++ b) = run pt n (run pt n s a) b := by
  induction a generalizing s with
  | nil => rfl
  | cons k a ih => exact ih _

/-- a busy thread left alone becomes free; the others and the counter are not touched -/
theorem drain (pt : Nat → Outcome K) (n : Nat) : ∀ (w : Nat) (s : State T K) (k : Fin T),
    curWork pt (s.threads k).cur = w → ∃ sched, let s' := run pt n s sched
      (s'.threads k).cur = .free ∧ s'.next = s.next ∧ ∀ j, j ≠ k → s'.threads j = s.threads j := by
  intro w
  induction w with
  | zero =>
    intro s k hw
    refine ⟨[], ?_, rfl, fun _ _ => rfl⟩
    cases hc : (s.threads k).cur with
    | free => simp [run, hc]
    | «at» i => rw [hc] at hw; simp only [curWork] at hw; split at hw <;> simp at hw
    | adding i l => rw [hc] at hw; simp [curWork] at hw
  | succ w ih =>
    intro s k hw
    have key : (step pt n s k).next = s.next ∧
        curWork pt ((step pt n s k).threads k).cur = w ∧
        ∀ j, j ≠ k → (step pt n s k).threads j = s.threads j := by
      unfold step
      dsimp only
      cases hc : (s.threads k).cur with
      | free => rw [hc] at hw; simp [curWork] at hw
      | «at» i =>
        rw [hc] at hw
        dsimp only
        cases hp : pt i with
        | threw t =>
          simp only [curWork, hp] at hw
          refine ⟨rfl, ?_, fun j hj => setThread_ne _ _ _ _ hj⟩
          simp only [setThread_self, curWork]; omega
        | missing =>
          simp only [curWork, hp] at hw
          refine ⟨rfl, ?_, fun j hj => setThread_ne _ _ _ _ hj⟩
          simp only [setThread_self, curWork]; omega
        | adds l =>
          simp only [curWork, hp] at hw
          refine ⟨rfl, ?_, fun j hj => setThread_ne _ _ _ _ hj⟩
          simp only [setThread_self, curWork]; omega
      | adding i l =>
        rw [hc] at hw
        cases l with
        | nil =>
          simp only [curWork, List.length_nil] at hw
          refine ⟨rfl, ?_, fun j hj => setThread_ne _ _ _ _ hj⟩
          simp only [setThread_self, curWork]; omega
        | cons x l =>
          simp only [curWork, List.length_cons] at hw
          refine ⟨rfl, ?_, fun j hj => setThread_ne _ _ _ _ hj⟩
          simp only [setThread_self, curWork]; omega
    obtain ⟨sched, h1, h2, h3⟩ := ih _ k key.2.1
    exact ⟨k :: sched, h1, h2.trans key.1, fun j hj => (h3 j hj).trans (key.2.2 j hj)⟩

theorem drain_all (pt : Nat → Outcome K) (n : Nat) (ks : List (Fin T)) (s : State T K) :
    ∃ sched, let s' := run pt n s sched
      s'.next = s.next ∧ (∀ k ∈ ks, (s'.threads k).cur = .free) ∧
        ∀ k, (s.threads k).cur = .free → (s'.threads k).cur = .free := by
  induction ks generalizing s with
  | nil => exact ⟨[], rfl, by simp, fun _ h => h⟩
  | cons k ks ih =>
    obtain ⟨sch1, h1, h2, h3⟩ := drain pt n _ s k rfl
    obtain ⟨sch2, g1, g2, g3⟩ := ih (run pt n s sch1)
    refine ⟨sch1 ++ sch2, ?_⟩
    rw [run_append]
    refine ⟨g1.trans h2, ?_, ?_⟩
    · intro j hj
      rcases List.mem_cons.mp hj with rfl | hj
      · exact g3 _ h1
      · exact g2 j hj
    · intro j hj
      apply g3
      by_cases hjk : j = k
      · subst hjk; exact h1
      · rw [h3 j hjk]; exact hj

theorem can_finish (pt : Nat → Outcome K) (n : Nat) (k0 : Fin T) : ∀ (m : Nat) (s : State T K),
    n - s.next = m → ∃ sched, Finished n (run pt n s sched) := by
  intro m
  induction m with
  | zero =>
    intro s hm
    obtain ⟨sched, h1, h2, h3⟩ := drain_all pt n (List.finRange T) s
    exact ⟨sched, by rw [h1]; omega, fun k => h2 k (List.mem_finRange k)⟩
  | succ m ih =>
    intro s hm
    obtain ⟨sch1, h1, h2, _⟩ := drain pt n _ s k0 rfl
    have hstep : (step pt n (run pt n s sch1) k0).next = s.next + 1 := by
      unfold step
      dsimp only
      rw [h1]
      dsimp only
      rw [if_pos (by rw [h2]; omega)]
      simp [h2]
    obtain ⟨sch2, h3⟩ := ih (step pt n (run pt n s sch1) k0) (by rw [hstep]; omega)
    refine ⟨sch1 ++ k0 :: sch2, ?_⟩
    rw [run_append]
    exact h3

theorem perm_range {done : List Nat} {n : Nat} (hd : done.Nodup) (h : ∀ i, i ∈ done ↔ i < n) :
    done.Perm (List.range n) := by
  apply (List.perm_ext_iff_of_nodup hd List.nodup_range).mpr
  intro i; rw [h, List.mem_range]

/-- what the finished state looks like -/
theorem finished_spec {pt : Nat → Outcome K} {n : Nat} {s : State T K} {done : List Nat} {ws : List String}
    (hi : Inv pt n s done ws) (hf : Finished n s) :
    ws.Perm ((List.range n).filterMap fun i => textOf (pt i)) ∧
    s.ex.count = ws.length ∧ s.ex.ptr = (if ws = [] then none else some (lines ws)) ∧
    ∑ k, (s.threads k).missing = ((List.range n).filter fun i => isMissing (pt i)).length ∧
    (∀ i, i < n → ∀ a k, s.out a i k = rowOf pt i a k) ∧ ∀ i, n ≤ i → ∀ a k, s.out a i k = 0 := by
  have hnext : s.next = n := le_antisymm hi.next hf.1
  have hmem : ∀ i, i ∈ done ↔ i < n := by
    intro i
    constructor
    · intro h; have := hi.lt i h; omega
    · intro h
      rcases hi.cover i (by omega) with h | ⟨k, h⟩
      · exact h
      · rw [hf.2 k] at h; simp [activeOf] at h
  have hperm := perm_range hi.nodup hmem
  refine ⟨hi.texts.trans (hperm.filterMap _), hi.count, hi.ptr, ?_, ?_, ?_⟩
  · rw [hi.miss]; exact (hperm.filter _).length_eq
  · intro i h; exact hi.rows i ((hmem i).mpr h)
  · intro i h; exact hi.fresh i (by omega)

/-- the serial loop -/
theorem serialLoop_ok (pt : Nat → Outcome K) : ∀ (is : List Nat) (o : Out K), is.Nodup →
    (∀ i ∈ is, ∃ l, pt i = .adds l) → (∀ i ∈ is, ∀ a k, o a i k = 0) →
    ∃ o', serialLoop pt is o = .ok o' ∧ (∀ i ∈ is, ∀ a k, o' a i k = rowOf pt i a k) ∧
      ∀ i, i ∉ is → ∀ a k, o' a i k = o a i k := by
  intro is
  induction is with
  | nil => intro o _ _ _; exact ⟨o, rfl, by simp, fun _ _ _ _ => rfl⟩
  | cons i is ih =>
    intro o hnd hpt hz
    obtain ⟨l, hl⟩ := hpt i (by simp)
    have hni : i ∉ is := (List.nodup_cons.mp hnd).1
    obtain ⟨o', h1, h2, h3⟩ := ih (l.foldl (fun o x => addOut o i x) o) (List.nodup_cons.mp hnd).2
      (fun j hj => hpt j (by simp [hj])) (by
        intro j hj a k
        rw [foldl_other l i j (by rintro rfl; exact hni hj)]
        exact hz j (by simp [hj]) a k)
    refine ⟨o', by rw [serialLoop, hl]; exact h1, ?_, ?_⟩
    · intro j hj a k
      rcases List.mem_cons.mp hj with rfl | hj
      · rw [h3 j hni, rowOf, hl]
        exact foldl_row l j o zeroOut (fun a k => by rw [hz j (by simp)]; rfl) a k
      · exact h2 j hj a k
    · intro j hj a k
      rw [h3 j (fun h => hj (by simp [h]))]
      exact foldl_other l i j (fun h => hj (by simp [h])) o a k

theorem serialLoop_error (pt : Nat → Outcome K) : ∀ (is : List Nat) (o : Out K),
    (∃ i ∈ is, ∀ l, pt i ≠ .adds l) → ∃ e, serialLoop pt is o = .error e := by
  intro is
  induction is with
  | nil => intro o ⟨i, h, _⟩; simp at h
  | cons i is ih =>
    intro o ⟨j, hj, hne⟩
    rw [serialLoop]
    cases hp : pt i with
    | threw w => exact ⟨_, rfl⟩
    | missing => exact ⟨_, rfl⟩
    | adds l =>
      apply ih
      rcases List.mem_cons.mp hj with rfl | hj
      · exact absurd hp (hne l)
      · exact ⟨j, hj, hne⟩

end

end Brille.ParInterp
