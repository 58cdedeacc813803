import Verif.Proofs.PermutationTable

/-! C07: the permutation table refines a map from ordered pairs to permutations. -/
namespace Brille.Props
open Brille.PermTable Brille.Spec

/-- **C07.** After every history of `set`/`overwrite`/`insert_keys`/`refresh` on a new table the
concrete table throws exactly when the abstract map does, and otherwise every lookup of a pair of
distinct in-range indices, `has` and `value_needed` agree with the abstract map (which is updated at
the named pair only, and answers the identity permutation for absent or unfilled pairs). -/
theorem C07_table_refines_map (n modes : Nat) (ops : List TableOp)
    (hv : ValidHistory (PairMap.empty n modes) ops) :
    ((PairMap.empty n modes).run ops = none → run (mk0 n modes) ops = none) ∧
    ∀ m, (PairMap.empty n modes).run ops = some m → ∃ t, run (mk0 n modes) ops = some t ∧
      ∀ i j, i < m.n → j < m.n → i ≠ j →
        safeGet t i j = some (m.get i j) ∧
        (has t i j = true ↔ ∃ p, m.entry i j = .stored p) ∧
        (valueNeeded t i j = true ↔ m.entry i j = .pending) := by
  obtain ⟨h1, h2⟩ := sim_run (sim_mk0 n modes) ops hv
  refine ⟨h2, ?_⟩
  intro m hm
  obtain ⟨t, ht, hs⟩ := h1 m hm
  refine ⟨t, ht, ?_⟩
  intro i j hi hj hij
  obtain ⟨g1, g2, g3⟩ := sim_get hs i j hi hj hij
  refine ⟨g1, ?_, ?_⟩
  · rw [g2]; cases m.entry i j <;> simp
  · rw [g3]; cases m.entry i j <;> simp

-- a history which exercises every operation
example : ValidHistory (PairMap.empty 3 2)
    [.insertKeys [1, 5], .overwrite 0 1 [1, 0], .set 2 0 [1, 0], .refresh 3 2] ∧
    ((run (mk0 3 2) [.insertKeys [1, 5], .overwrite 0 1 [1, 0], .set 2 0 [1, 0], .refresh 3 2]).bind
      fun t => safeGet t 2 0) = some [1, 0] := by
  refine ⟨?_, by decide⟩
  refine ⟨trivial, ?_⟩
  rintro m1 h1
  obtain rfl := Option.some.inj h1
  refine ⟨⟨by decide, by decide, by decide⟩, ?_⟩
  rintro m2 h2
  obtain rfl := Option.some.inj h2
  refine ⟨⟨by decide, by decide, by decide⟩, ?_⟩
  rintro m3 h3
  obtain rfl := Option.some.inj h3
  exact ⟨trivial, fun _ _ => trivial⟩

/-- **C07 (keys).** Different ordered pairs of distinct in-range indices never share a key, and none
uses the key 0 reserved for equal indices. -/
theorem C07_keys_distinct (t : Table) (i j k l : Nat) (hj : j < t.indexSize)
    (hl : l < t.indexSize) (hij : i ≠ j) :
    ij2key t i j ≠ ij2key t k k ∧
      (k ≠ l → ij2key t i j = ij2key t k l → i = k ∧ j = l) := by
  constructor
  · simp only [ij2key, hij, if_false, if_true]
    exact key_pos hj hij
  · intro hkl h
    simp only [ij2key, hij, hkl, if_false] at h
    exact key_inj hj hl h

example : ij2key (mk0 3 2) 1 2 = 5 ∧ ij2key (mk0 3 2) 2 1 = 7 ∧ ij2key (mk0 3 2) 1 1 = 0 := by decide

/-- **C07 (diagonal).** Until somebody stores a permutation for an equal pair, looking up equal
indices gives the identity: it holds for a new table and is kept by every operation on distinct
indices, by `insert_keys` and by `refresh`. -/
theorem C07_diagonal_identity (n modes : Nat) (ops : List TableOp)
    (hv : ValidHistory (PairMap.empty n modes) ops) (t : Table) (ht : run (mk0 n modes) ops = some t)
    (i : Nat) : ∃ b, safeGet t i i = some (List.range b) := by
  suffices h : ∀ (ops : List TableOp) (t0 : Table) (m0 : PairMap), Sim t0 m0 →
      (t0.ijmap 0 = none ∨ t0.ijmap 0 = some 0 ∨ t0.ijmap 0 = some 1) → ValidHistory m0 ops →
      run t0 ops = some t → ∃ b, safeGet t i i = some (List.range b) by
    exact h ops _ _ (sim_mk0 n modes) (Or.inr (Or.inr (by simp [mk0, addZeroth, mapSet, offset]))) hv ht
  clear hv ht ops
  intro ops
  induction ops with
  | nil =>
    intro t0 m0 hs h0 _ hr
    obtain rfl := Option.some.inj hr
    refine ⟨m0.modes, ?_⟩
    simp only [safeGet, ij2key, if_true]
    rcases h0 with h | h | h <;> rw [h] <;> simp [offset, hs.zero]
  | cons o os ih =>
    intro t0 m0 hs h0 hv hr
    obtain ⟨hv1, hv2⟩ := hv
    obtain ⟨a1, a2⟩ := sim_step hs o hv1
    simp only [run] at hr
    cases hm : m0.step o with
    | none => rw [a2 hm] at hr; simp at hr
    | some m1 =>
      obtain ⟨t1, ht1, hs1⟩ := a1 m1 hm
      rw [ht1] at hr
      refine ih t1 m1 hs1 ?_ (hv2 m1 hm) hr
      cases o with
      | set a b v =>
        obtain ⟨ha, hb, hab⟩ := hv1
        have hk : ij2key t0 a b = a * m0.n + b := by simp [ij2key, hab, hs.size]
        have hne := key_pos hb hab
        simp only [step, PermTable.set, Option.some.injEq] at ht1
        subst ht1
        cases hx : t0.ijmap (ij2key t0 a b) with
        | some x => exact h0
        | none => simpa [mapSet, hk, hne.symm] using h0
      | overwrite a b v =>
        obtain ⟨ha, hb, hab⟩ := hv1
        have hk : ij2key t0 a b = a * m0.n + b := by simp [ij2key, hab, hs.size]
        have hne := key_pos hb hab
        simp only [step, PermTable.overwrite] at ht1
        cases hx : t0.ijmap (ij2key t0 a b) with
        | none => rw [hx] at ht1; simp at ht1
        | some x =>
          rw [hx] at ht1
          simp only [Option.map_some, Option.some.injEq] at ht1
          subst ht1
          simpa [mapSet, hk, hne.symm] using h0
      | insertKeys ks =>
        simp only [step, Option.some.injEq] at ht1
        subst ht1
        rw [(insertKeys_spec ks t0).2.2 0]
        rcases h0 with h | h | h <;> rw [h] <;> simp
        by_cases h0 : 0 ∈ ks <;> simp [h0]
      | refresh n' modes' =>
        simp only [step, PermTable.refresh] at ht1
        split at ht1
        · simp at ht1
        · split at ht1
          · simp only [Option.map_some, Option.some.injEq] at ht1
            subst ht1
            simp [addZeroth, mapSet, offset]
          · simp only [Option.map_some, Option.some.injEq] at ht1
            subst ht1
            split
            · simp
            · exact h0

/-- **C07 (limits).** Storing a permutation for an equal pair is accepted and changes the answer for
every other equal pair: after `overwrite(1,1,[1,0])` the lookup `(2,2)` is no longer the identity. -/
theorem C07_diagonal_counterexample :
    ∃ t x, overwrite (mk0 3 2) 1 1 [1, 0] = some (t, x) ∧
      safeGet (mk0 3 2) 2 2 = some [0, 1] ∧ safeGet t 2 2 = some [1, 0] := by
  exact ⟨_, _, rfl, by decide, by decide⟩

/-- **C07 (limits).** `set` does not fill an entry that was announced by its key but not yet filled:
the permutation passed to `set` is silently dropped. -/
theorem C07_set_drops_pending :
    valueNeeded (mkKeys 3 2 [1]) 0 1 = true ∧
      safeGet (PermTable.set (mkKeys 3 2 [1]) 0 1 [1, 0]).1 0 1 = some [0, 1] := by
  constructor <;> decide

/-- **C07 (shared storage).** The index returned by `overwrite(i,j,p)` can be used to store the same
permutation for another announced pair, without disturbing the first. -/
theorem C07_overwrite_by_index (t t1 : Table) (i j k l x : Nat) (p : List Nat)
    (h1 : overwrite t i j p = some (t1, x))
    (hkey : t1.ijmap (ij2key t1 k l) ≠ none) :
    ∃ t2, overwriteIdx t1 k l x = some (t2, x) ∧ safeGet t2 k l = some p ∧ safeGet t2 i j = some p := by
  simp only [overwrite] at h1
  cases hx : t.ijmap (ij2key t i j) with
  | none => rw [hx] at h1; simp at h1
  | some y =>
    rw [hx] at h1
    simp only [Option.some.injEq, Prod.mk.injEq] at h1
    obtain ⟨rfl, rfl⟩ := h1
    have hg := (findPermutation_get t.permutations p).1
    simp only [overwriteIdx]
    split
    · next h => exact absurd h hkey
    · refine ⟨_, rfl, ?_, ?_⟩
      · simp [safeGet, ij2key, mapSet, offset, hg]
      · simp only [safeGet, ij2key, mapSet]
        split
        · next v h =>
          have : v = (findPermutation t.permutations p).2 + offset := by
            split at h <;> simp_all
          subst this; simp [offset, hg]
        · next h => split at h <;> simp_all

example : ∃ t1 x, overwrite (mkKeys 3 2 [1, 5]) 0 1 [1, 0] = some (t1, x) ∧
    t1.ijmap (ij2key t1 1 2) ≠ none := ⟨_, _, rfl, by decide⟩

/-- **C07 (needed keys).** The keys built from a list of indices are exactly the keys of the ordered
pairs of different members of the list. -/
theorem C07_keys_from_indices (n : Nat) (l : List Nat) (k : Nat) :
    k ∈ keysFromIndices n l ↔ ∃ a ∈ l, ∃ b ∈ l, a ≠ b ∧ k = a * n + b := by
  induction l with
  | nil => simp [keysFromIndices]
  | cons x xs ih =>
    simp only [keysFromIndices, List.mem_append, List.mem_flatMap, ih, List.mem_cons]
    constructor
    · rintro (⟨y, hy, h⟩ | ⟨a, ha, b, hb, hab, rfl⟩)
      · by_cases hxy : x = y
        · simp [hxy] at h
        · simp only [ne_eq, hxy, not_false_eq_true, if_true, List.mem_cons, List.not_mem_nil,
            or_false] at h
          rcases h with rfl | rfl
          · exact ⟨x, Or.inl rfl, y, Or.inr hy, hxy, rfl⟩
          · exact ⟨y, Or.inr hy, x, Or.inl rfl, fun h => hxy h.symm, by ring⟩
      · exact ⟨a, Or.inr ha, b, Or.inr hb, hab, rfl⟩
    · rintro ⟨a, ha, b, hb, hab, rfl⟩
      rcases ha with rfl | ha <;> rcases hb with rfl | hb
      · exact absurd rfl hab
      · exact Or.inl ⟨b, hb, by simp [hab]⟩
      · refine Or.inl ⟨a, ha, ?_⟩
        rw [if_pos (fun h => hab h.symm)]
        simp only [List.mem_cons, List.not_mem_nil, or_false]
        right; ring
      · exact Or.inr ⟨a, ha, b, hb, hab, rfl⟩

example : keysFromIndices 10 [1, 3] = [13, 31] := by decide

end Brille.Props
