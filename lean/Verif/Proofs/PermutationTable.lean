import Verif.Model.PermutationTable
import Verif.Spec.PermutationTable
import Mathlib.Tactic.Ring
import Mathlib.Tactic.Linarith
import Mathlib.Data.List.Basic

namespace Brille.PermTable
open Brille.Spec

/-- The concrete effect of an operation. -/
def step (t : Table) : TableOp → Option Table
  | .set i j p => some (set t i j p).1
  | .overwrite i j p => (overwrite t i j p).map (·.1)
  | .insertKeys ks => some (insertKeys t ks)
  | .refresh n modes => (refresh t n modes).map (·.1)

def run (t : Table) : List TableOp → Option Table
  | [] => some t
  | o :: os => (step t o).bind (run · os)

theorem key_inj {n i j k l : Nat} (hj : j < n) (hl : l < n) (h : i * n + j = k * n + l) :
    i = k ∧ j = l := by
  have hn : 0 < n := by omega
  have h1 : (i * n + j) / n = i := by
    rw [mul_comm, Nat.mul_add_div hn, Nat.div_eq_of_lt hj]; rfl
  have h2 : (k * n + l) / n = k := by
    rw [mul_comm, Nat.mul_add_div hn, Nat.div_eq_of_lt hl]; rfl
  have h3 : i = k := by rw [← h1, ← h2, h]
  subst h3
  exact ⟨rfl, by omega⟩

theorem key_pos {n i j : Nat} (hj : j < n) (hij : i ≠ j) : i * n + j ≠ 0 := by
  intro h
  have h2 : j = 0 := by omega
  have h1 : i * n = 0 := by omega
  rcases Nat.mul_eq_zero.1 h1 with h | h <;> omega

/-- findPermutation returns an index of the (possibly extended) list holding the vector. -/
theorem findPermutation_get (ps : List (List Nat)) (v : List Nat) :
    (if (findPermutation ps v).1 then ps else ps ++ [v])[(findPermutation ps v).2]? = some v ∧
    ((findPermutation ps v).1 = false → (findPermutation ps v).2 = ps.length) := by
  induction ps with
  | nil => simp [findPermutation]
  | cons p ps ih =>
    simp only [findPermutation]
    by_cases h : p = v
    · simp [h]
    · simp only [h, if_false]
      obtain ⟨h1, h2⟩ := ih
      cases hc : (findPermutation ps v).1
      · simp only [hc] at h1 h2 ⊢
        exact ⟨by simpa using h1, by simpa using h2⟩
      · simp only [hc] at h1 h2 ⊢
        exact ⟨by simpa using h1, by simp⟩

theorem getElem?_extend (ps : List (List Nat)) (c : Bool) (v : List Nat) (k : Nat) (x : List Nat)
    (h : ps[k]? = some x) : (if c then ps else ps ++ [v])[k]? = some x := by
  cases c
  · simp only [Bool.false_eq_true, if_false]
    rw [List.getElem?_append_left]
    · exact h
    · by_contra hlt
      rw [List.getElem?_eq_none (by omega)] at h
      exact absurd h (by simp)
  · simpa using h

/-- entry represented by an optional map value -/
def Rep (ps : List (List Nat)) : Option Nat → Entry → Prop
  | none, e => e = .absent
  | some 0, e => e = .pending
  | some (k + 1), e => ∃ p, ps[k]? = some p ∧ e = .stored p

/-- simulation relation (off-diagonal pairs) -/
structure Sim (t : Table) (m : PairMap) : Prop where
  size : t.indexSize = m.n
  zero : t.permutations[0]? = some (List.range m.modes)
  rep : ∀ i j, i ≠ j → i < m.n → j < m.n →
    Rep t.permutations (t.ijmap (i * m.n + j)) (m.entry i j)

theorem Rep_extend {ps : List (List Nat)} {c : Bool} {v : List Nat} {o : Option Nat} {e : Entry}
    (h : Rep ps o e) : Rep (if c then ps else ps ++ [v]) o e := by
  match o, h with
  | none, h => exact h
  | some 0, h => exact h
  | some (k + 1), h =>
    obtain ⟨p, hp, he⟩ := h
    exact ⟨p, getElem?_extend ps c v k p hp, he⟩

theorem sim_store {t : Table} {m : PairMap} (hs : Sim t m) {i j : Nat} (hi : i < m.n) (hj : j < m.n)
    (hij : i ≠ j) (v : List Nat) :
    Sim { t with
        permutations := if (findPermutation t.permutations v).1 then t.permutations
          else t.permutations ++ [v]
        ijmap := mapSet t.ijmap (ij2key t i j) ((findPermutation t.permutations v).2 + offset) }
      (m.put i j (.stored v)) := by
  refine ⟨hs.size, getElem?_extend _ _ _ _ _ hs.zero, ?_⟩
  intro a b hab ha hb
  simp only [PairMap.put] at ha hb ⊢
  simp only [ij2key, hij, if_false, hs.size, mapSet]
  by_cases hk : a * m.n + b = i * m.n + j
  · obtain ⟨rfl, rfl⟩ := key_inj hb hj hk
    simp only [and_self, if_true, offset, Rep]
    exact ⟨v, (findPermutation_get t.permutations v).1, rfl⟩
  · have hne : ¬ (a = i ∧ b = j) := by
      rintro ⟨rfl, rfl⟩; exact hk rfl
    simp only [hk, if_false, hne]
    exact Rep_extend (hs.rep a b hab ha hb)

theorem insertKeys_spec (ks : List Nat) (t : Table) :
    (insertKeys t ks).indexSize = t.indexSize ∧ (insertKeys t ks).permutations = t.permutations ∧
    ∀ k, (insertKeys t ks).ijmap k =
      (match t.ijmap k with | some v => some v | none => if k ∈ ks then some 0 else none) := by
  induction ks generalizing t with
  | nil =>
    refine ⟨rfl, rfl, ?_⟩
    intro k
    simp only [insertKeys]
    cases t.ijmap k <;> simp
  | cons a ks ih =>
    simp only [insertKeys]
    cases ha : t.ijmap a with
    | some v =>
      simp only
      obtain ⟨h1, h2, h3⟩ := ih t
      refine ⟨h1, h2, ?_⟩
      intro k
      rw [h3 k]
      cases hk : t.ijmap k with
      | some w => rfl
      | none =>
        have : k ≠ a := by rintro rfl; rw [ha] at hk; exact absurd hk (by simp)
        simp [this]
    | none =>
      simp only
      obtain ⟨h1, h2, h3⟩ := ih { t with ijmap := mapSet t.ijmap a 0 }
      refine ⟨h1, h2, ?_⟩
      intro k
      rw [h3 k]
      simp only [mapSet]
      by_cases hk : k = a
      · subst hk; simp [ha]
      · simp [hk]

theorem sim_step {t : Table} {m : PairMap} (hs : Sim t m) (o : TableOp) (ho : OpOk m.n o) :
    (∀ m', m.step o = some m' → ∃ t', step t o = some t' ∧ Sim t' m') ∧
    (m.step o = none → step t o = none) := by
  cases o with
  | set i j v =>
    obtain ⟨hi, hj, hij⟩ := ho
    have hr := hs.rep i j hij hi hj
    have hk : ij2key t i j = i * m.n + j := by simp [ij2key, hij, hs.size]
    simp only [PairMap.step, step, set]
    cases hm : t.ijmap (ij2key t i j) with
    | none =>
      rw [hk] at hm; rw [hm] at hr
      simp only [Rep] at hr
      simp only [hr]
      refine ⟨?_, by simp⟩
      intro m' h
      obtain rfl := Option.some.inj h
      exact ⟨_, rfl, sim_store hs hi hj hij v⟩
    | some x =>
      rw [hk] at hm; rw [hm] at hr
      have hne : m.entry i j ≠ .absent := by
        cases x with
        | zero => simp only [Rep] at hr; rw [hr]; simp
        | succ x => obtain ⟨p, _, he⟩ := hr; rw [he]; simp
      cases he : m.entry i j with
      | absent => exact absurd he hne
      | pending =>
        refine ⟨?_, by simp⟩
        intro m' h; obtain rfl := Option.some.inj h; exact ⟨_, rfl, hs⟩
      | stored p =>
        refine ⟨?_, by simp⟩
        intro m' h; obtain rfl := Option.some.inj h; exact ⟨_, rfl, hs⟩
  | overwrite i j v =>
    obtain ⟨hi, hj, hij⟩ := ho
    have hr := hs.rep i j hij hi hj
    have hk : ij2key t i j = i * m.n + j := by simp [ij2key, hij, hs.size]
    simp only [PairMap.step, step, overwrite]
    cases hm : t.ijmap (ij2key t i j) with
    | none =>
      rw [hk] at hm; rw [hm] at hr
      simp only [Rep] at hr
      simp [hr]
    | some x =>
      rw [hk] at hm; rw [hm] at hr
      have hne : m.entry i j ≠ .absent := by
        cases x with
        | zero => simp only [Rep] at hr; rw [hr]; simp
        | succ x => obtain ⟨p, _, he⟩ := hr; rw [he]; simp
      cases he : m.entry i j with
      | absent => exact absurd he hne
      | pending =>
        refine ⟨?_, by simp⟩
        intro m' h; obtain rfl := Option.some.inj h
        exact ⟨_, rfl, sim_store hs hi hj hij v⟩
      | stored p =>
        refine ⟨?_, by simp⟩
        intro m' h; obtain rfl := Option.some.inj h
        exact ⟨_, rfl, sim_store hs hi hj hij v⟩
  | insertKeys ks =>
    simp only [PairMap.step, step]
    refine ⟨?_, by simp⟩
    intro m' h; obtain rfl := Option.some.inj h
    obtain ⟨h1, h2, h3⟩ := insertKeys_spec ks t
    refine ⟨_, rfl, ?_, ?_, ?_⟩
    · rw [h1]; exact hs.size
    · rw [h2]; exact hs.zero
    · intro a b hab ha hb
      have hr := hs.rep a b hab ha hb
      simp only
      rw [h2, h3]
      cases hm : t.ijmap (a * m.n + b) with
      | none =>
        rw [hm] at hr; simp only [Rep] at hr
        simp only [hr]
        split <;> simp [Rep]
      | some x =>
        rw [hm] at hr
        have hne : m.entry a b ≠ .absent := by
          cases x with
          | zero => simp only [Rep] at hr; rw [hr]; simp
          | succ x => obtain ⟨p, _, he⟩ := hr; rw [he]; simp
        cases he : m.entry a b with
        | absent => exact absurd he hne
        | pending => rw [he] at hr; exact hr
        | stored p => rw [he] at hr; exact hr
  | refresh n modes =>
    simp only [PairMap.step, step]
    refine ⟨?_, by simp⟩
    intro m' h; obtain rfl := Option.some.inj h
    obtain ⟨p0, ps, hp⟩ : ∃ p0 ps, t.permutations = p0 :: ps := by
      cases hp : t.permutations with
      | nil => have := hs.zero; rw [hp] at this; simp at this
      | cons a b => exact ⟨a, b, rfl⟩
    have hp0 : p0 = List.range m.modes := by
      have := hs.zero; rw [hp] at this; simpa using this
    have hp0l : p0.length = m.modes := by rw [hp0]; simp
    -- first stage
    set t1 : Table := if n != t.indexSize then { t with ijmap := fun _ => none, indexSize := n } else t
      with ht1
    set m1 : PairMap := if n = m.n then m else { m with n := n, entry := fun _ _ => .absent } with hm1
    have hs1 : Sim t1 m1 := by
      rw [ht1, hm1]
      by_cases hn : n = m.n
      · simp [hn, hs.size, hs]
      · have : (n != t.indexSize) = true := by simp [hs.size, hn]
        simp only [this, if_true, hn, if_false]
        exact ⟨rfl, hs.zero, by intros; simp [Rep]⟩
    have hmodes : m1.modes = m.modes := by rw [hm1]; split <;> rfl
    have hperm : t1.permutations = p0 :: ps := by rw [ht1]; split <;> exact hp
    have hn1 : m1.n = n := by rw [hm1]; split <;> simp_all
    have href : refresh t n modes = if modes != p0.length then
        some (addZeroth { t1 with ijmap := fun k => (t1.ijmap k).map fun _ => 0, permutations := [] }
          modes, n != t.indexSize) else some (t1, n != t.indexSize) := by
      simp only [refresh, ← ht1, hperm]
    rw [href]
    by_cases hb : modes = m.modes
    · simp only [hb, hp0l, bne_self_eq_false, Bool.false_eq_true, if_false, if_true, Option.map_some]
      exact ⟨_, rfl, hs1⟩
    · have : (modes != p0.length) = true := by simp [hp0l, hb]
      simp only [this, if_true, hb, if_false, Option.map_some]
      refine ⟨_, rfl, hs1.size, by simp [addZeroth], ?_⟩
      intro a b hab ha hb'
      have hr := hs1.rep a b hab ha hb'
      simp only [addZeroth, mapSet, key_pos hb' hab, if_false]
      cases hm : t1.ijmap (a * m1.n + b) with
      | none =>
        rw [hm] at hr; simp only [Rep] at hr
        simp [hr, Rep]
      | some x =>
        rw [hm] at hr
        cases x with
        | zero => simp only [Rep] at hr; simp [hr, Rep]
        | succ x => obtain ⟨p, _, he⟩ := hr; simp [he, Rep]

theorem sim_get {t : Table} {m : PairMap} (hs : Sim t m) (i j : Nat) (hi : i < m.n) (hj : j < m.n)
    (hij : i ≠ j) : safeGet t i j = some (m.get i j) ∧
      has t i j = (match m.entry i j with | .stored _ => true | _ => false) ∧
      valueNeeded t i j = (match m.entry i j with | .pending => true | _ => false) := by
  have hr := hs.rep i j hij hi hj
  have hk : ij2key t i j = i * m.n + j := by simp [ij2key, hij, hs.size]
  simp only [safeGet, has, valueNeeded, hk, PairMap.get]
  cases hm : t.ijmap (i * m.n + j) with
  | none =>
    rw [hm] at hr; simp only [Rep] at hr
    simp [hr, hs.zero]
  | some x =>
    rw [hm] at hr
    cases x with
    | zero => simp only [Rep] at hr; simp [hr, offset, hs.zero]
    | succ x => obtain ⟨p, hp, he⟩ := hr; simp [he, offset, hp]

theorem sim_mk0 (n modes : Nat) : Sim (mk0 n modes) (PairMap.empty n modes) := by
  refine ⟨rfl, by simp [mk0, addZeroth, PairMap.empty], ?_⟩
  intro i j hij hi hj
  simp only [PairMap.empty] at hj
  simp only [mk0, addZeroth, mapSet, PairMap.empty, key_pos hj hij, if_false, Rep]

theorem sim_run {t : Table} {m : PairMap} (hs : Sim t m) (ops : List TableOp)
    (ho : ValidHistory m ops) :
    (∀ m', m.run ops = some m' → ∃ t', run t ops = some t' ∧ Sim t' m') ∧
    (m.run ops = none → run t ops = none) := by
  induction ops generalizing t m with
  | nil =>
    refine ⟨?_, by simp [PairMap.run]⟩
    intro m' h; obtain rfl := Option.some.inj h; exact ⟨t, rfl, hs⟩
  | cons o os ih =>
    obtain ⟨h1, h2⟩ := ho
    obtain ⟨a1, a2⟩ := sim_step hs o h1
    cases hm : m.step o with
    | none =>
      simp only [PairMap.run, run, hm, a2 hm, Option.bind_none]
      simp
    | some m1 =>
      obtain ⟨t1, ht1, hs1⟩ := a1 m1 hm
      simp only [PairMap.run, run, hm, ht1, Option.bind_some]
      exact ih hs1 (h2 m1 hm)

end Brille.PermTable
