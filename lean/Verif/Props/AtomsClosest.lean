import Verif.Props.Atoms

/-
C56, continued: making a unit cell, and the closest atom.
-/
namespace Brille.Props

open Brille.Atoms Brille.Mot Brille.Spec

/-- **C56 (every atom has a type).** A cell made from positions and types has one type for each position: the types given
if there are as many as positions, otherwise a different one for each atom. -/
theorem C56_types (pos : List (Fin 3 → ℚ)) (typ : List ℕ) :
    (Basis.make pos typ).positions = pos ∧ (Basis.make pos typ).types.length = pos.length ∧
    (typ.length = pos.length → (Basis.make pos typ).types = typ) ∧
    (typ.length ≠ pos.length → (Basis.make pos typ).types.Nodup) := by
  unfold Basis.make
  split
  · rename_i h; exact ⟨rfl, h.symm, fun _ => rfl, fun h' => absurd h.symm h'⟩
  · rename_i h
    exact ⟨rfl, List.length_range, fun h' => absurd h'.symm h, fun _ => List.nodup_range⟩

example : (Basis.make [![0, 0, 0], ![1 / 2, 0, 0]] [3, 3, 3]).types = [0, 1] ∧
    (Basis.make [![0, 0, 0], ![1 / 2, 0, 0]] [3, 3]).types = [3, 3] := by decide +kernel

theorem closer_irrefl (a : Option ℚ) : closer a a = false := by
  cases a <;> simp [closer]

theorem closer_trans {a b c : Option ℚ} (h1 : closer a b = true) (h2 : closer b c = true) : closer a c = true := by
  cases a <;> cases b <;> cases c <;> simp [closer] at h1 h2 ⊢
  exact lt_trans h1 h2

theorem closer_neg_trans {a b c : Option ℚ} (h1 : closer a b = true) (h2 : closer c b = false) : closer a c = true := by
  cases a <;> cases b <;> cases c <;> simp [closer] at h1 h2 ⊢
  exact lt_of_lt_of_le h1 h2

/-- the first of the least entries -/
theorem minElement_spec (d : List (Option ℚ)) (hd : d ≠ []) :
    minElement d < d.length ∧ ∀ i < d.length, closer (d.getD i none) (d.getD (minElement d) none) = false ∧
      (i < minElement d → closer (d.getD (minElement d) none) (d.getD i none) = true) := by
  have key : ∀ n, n ≤ d.length →
      let m := (List.range n).foldl (fun m i => if closer (d.getD i none) (d.getD m none) then i else m) 0
      (m < n ∨ m = 0) ∧ ∀ i < n, closer (d.getD i none) (d.getD m none) = false ∧
        (i < m → closer (d.getD m none) (d.getD i none) = true) := by
    intro n
    induction n with
    | zero => intro _; exact ⟨Or.inr rfl, fun i hi => absurd hi (by omega)⟩
    | succ n ih =>
      intro hn
      have := ih (by omega)
      rw [List.range_succ, List.foldl_append, List.foldl_cons, List.foldl_nil]
      generalize (List.range n).foldl (fun m i => if closer (d.getD i none) (d.getD m none) then i else m) 0 = m at this ⊢
      obtain ⟨h1, h2⟩ := this
      dsimp only at h1 h2 ⊢
      split
      · rename_i hc
        refine ⟨Or.inl (by omega), fun i hi => ?_⟩
        by_cases e : i = n
        · subst e; exact ⟨closer_irrefl _, fun h => absurd h (by omega)⟩
        · obtain ⟨a, b⟩ := h2 i (by omega)
          have : closer (d.getD n none) (d.getD i none) = true := closer_neg_trans hc a
          refine ⟨?_, fun _ => this⟩
          cases hh : closer (d.getD i none) (d.getD n none) with
          | false => rfl
          | true => have := closer_trans this hh; rw [closer_irrefl] at this; cases this
      · rename_i hc
        refine ⟨by omega, fun i hi => ?_⟩
        by_cases e : i = n
        · subst e
          exact ⟨by simpa using hc, fun h => by omega⟩
        · exact h2 i (by omega)
  have hpos := List.length_pos_iff.2 hd
  obtain ⟨h1, h2⟩ := key d.length (Nat.le_refl _)
  exact ⟨by unfold minElement; omega, h2⟩

/-- **C56 (the closest atom).** If an atom of the type is equivalent to the position, the first such is returned and so
reported.  Otherwise, if there are atoms of the type at all, the first of those with the shortest difference to the
position is returned.  The difference returned is the one to the atom returned. -/
theorem C56_closest (near : (Fin 3 → ℚ) → Bool) (b : Basis) (t : ℕ) (x : Fin 3 → ℚ) (f : Bool) (c : ℕ) (d : Fin 3 → ℚ)
    (h : b.closestTo near t x = some (f, c, d)) (k₀ : ℕ) (p₀ : Fin 3 → ℚ) (hp₀ : b.positions[k₀]? = some p₀)
    (ht₀ : b.types[k₀]? = some t) :
    f = (b.equivalentTo near t x).1 ∧ (f = true → c = (b.equivalentTo near t x).2) ∧
    ∃ p, b.positions[c]? = some p ∧ b.types[c]? = some t ∧ d = diffMod x p ∧
      (f = false → ∀ k q, b.positions[k]? = some q → b.types[k]? = some t →
        d 0 ^ 2 + d 1 ^ 2 + d 2 ^ 2 ≤ diffMod x q 0 ^ 2 + diffMod x q 1 ^ 2 + diffMod x q 2 ^ 2 ∧
        (k < c → d 0 ^ 2 + d 1 ^ 2 + d 2 ^ 2 < diffMod x q 0 ^ 2 + diffMod x q 1 ^ 2 + diffMod x q 2 ^ 2)) := by
  have hcheck : ∀ a : Pt × ℕ, ((check near t x a).1 && (check near t x a).2.1) =
      (decide (a.2 = t) && near (diffMod x a.1)) := by
    intro a
    unfold check
    by_cases e : a.2 = t <;> simp [e]
  have hfind : (b.atoms.map (check near t x)).findIdx? (fun a => a.1 && a.2.1) =
      b.atoms.findIdx? fun a => decide (a.2 = t) && near (diffMod x a.1) := by
    rw [List.findIdx?_map]
    congr 1
    funext a
    exact hcheck a
  have hsq : ∀ v : Pt, sumSq v = v 0 ^ 2 + v 1 ^ 2 + v 2 ^ 2 := fun v => by unfold sumSq; ring
  have h0 := h
  unfold Basis.closestTo at h
  dsimp only at h
  rw [hfind] at h
  unfold Basis.equivalentTo
  cases hi : b.atoms.findIdx? fun a => decide (a.2 = t) && near (diffMod x a.1) with
  | some i =>
    rw [hi] at h
    simp only [Option.map_eq_some_iff, Option.isSome_some, Prod.mk.injEq] at h
    obtain ⟨a, ha, rfl, rfl, rfl⟩ := h
    rw [List.findIdx?_eq_some_iff_getElem] at hi
    obtain ⟨hlt, hpred, _⟩ := hi
    rw [Bool.and_eq_true, decide_eq_true_eq] at hpred
    have hat : b.atoms[i]? = some (b.atoms[i].1, t) := by
      rw [List.getElem?_eq_getElem hlt, ← hpred.1]
    obtain ⟨e1, e2⟩ := (atoms_get b i _ t).1 hat
    refine ⟨rfl, fun _ => rfl, _, e1, e2, ?_, by simp⟩
    exact closestTo_diff near b t x _ _ _ _ h0 e1 e2
  | none =>
    rw [hi] at h
    simp only [Option.map_eq_some_iff, Option.isSome_none, Prod.mk.injEq] at h
    obtain ⟨a, ha, hf, hc, hd⟩ := h
    subst hf
    refine ⟨rfl, by simp, ?_⟩
    have hmap : (b.atoms.map (check near t x)).map (fun a => if a.1 then some (sumSq a.2.2) else none) =
        b.atoms.map fun a => if a.2 = t then some (sumSq (diffMod x a.1)) else none := by
      rw [List.map_map]
      refine List.map_congr_left fun a _ => ?_
      simp only [Function.comp, check]
      by_cases e : a.2 = t <;> simp [e]
    rw [hmap] at hc
    have hmem : b.atoms[k₀]? = some (p₀, t) := (atoms_get b k₀ p₀ t).2 ⟨hp₀, ht₀⟩
    have hne : (b.atoms.map fun a => if a.2 = t then some (sumSq (diffMod x a.1)) else none) ≠ [] := by
      intro e
      rw [List.map_eq_nil_iff] at e
      rw [e] at hmem; simp at hmem
    obtain ⟨hlt, hmin⟩ := minElement_spec _ hne
    rw [hc] at hlt hmin
    rw [List.length_map] at hlt hmin
    have hget : ∀ k q, b.positions[k]? = some q → b.types[k]? = some t → k < b.atoms.length ∧
        (b.atoms.map fun a => if a.2 = t then some (sumSq (diffMod x a.1)) else none).getD k none =
          some (sumSq (diffMod x q)) := by
      intro k q hq ht
      have := (atoms_get b k q t).2 ⟨hq, ht⟩
      refine ⟨(List.getElem?_eq_some_iff.1 this).1, ?_⟩
      rw [List.getD_eq_getElem?_getD, List.getElem?_map, this]
      simp
    -- the atom found is of the type
    have htc : b.atoms[c].2 = t := by
      by_contra hn
      obtain ⟨l0, g0⟩ := hget k₀ p₀ hp₀ ht₀
      have := (hmin k₀ l0).1
      rw [g0, List.getD_eq_getElem?_getD, List.getElem?_map, List.getElem?_eq_getElem hlt] at this
      simp [hn, closer] at this
    have hat : b.atoms[c]? = some (b.atoms[c].1, t) := by
      rw [List.getElem?_eq_getElem hlt, ← htc]
    obtain ⟨e1, e2⟩ := (atoms_get b c _ t).1 hat
    have hdd := closestTo_diff near b t x _ _ _ _ h0 e1 e2
    refine ⟨_, e1, e2, hdd, fun _ k q hq ht => ?_⟩
    obtain ⟨l1, g1⟩ := hget k q hq ht
    obtain ⟨_, g2⟩ := hget c _ e1 e2
    obtain ⟨m1, m2⟩ := hmin k l1
    rw [g1, g2] at m1 m2
    rw [← hsq, ← hsq, hdd]
    refine ⟨?_, fun hk => ?_⟩
    · simpa [closer] using m1
    · simpa [closer] using m2 hk

-- the closest of three atoms of the type, of which none is equivalent
example : (Basis.closestTo isZero ⟨[![0, 0, 0], ![1 / 4, 0, 0], ![3 / 4, 0, 0]], [7, 8, 8]⟩ 8 ![7 / 10, 0, 0]).map
    (fun r => (r.1, r.2.1, r.2.2 0)) = some (false, 2, -1 / 20) := by decide +kernel

end Brille.Props
