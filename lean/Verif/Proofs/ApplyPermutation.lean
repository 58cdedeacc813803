import Verif.Model.ApplyPermutation
import Mathlib.Data.Fintype.Card
import Mathlib.Data.Finset.Card
import Mathlib.Logic.Function.Basic
import Mathlib.GroupTheory.Perm.Cycle.Basic
import Mathlib.Tactic.Tauto

namespace Brille.ApplyPerm

variable {n : Nat} {α : Type}

@[simp] theorem put_same {β} (x : Fin n → β) (i : Fin n) (v : β) : put x i v i = v := by simp [put]

theorem put_ne {β} (x : Fin n → β) {i j : Fin n} (v : β) (h : j ≠ i) : put x i v j = x j := by
  simp [put, h]

/-- The state between two iterations of the outer loop: the positions in `D` are finished, the others
untouched. -/
structure Inv (o : Fin n → α) (p : Fin n → Fin n) (D : Finset (Fin n)) (s : State n α) : Prop where
  done : ∀ j ∈ D, s.indices j = j ∧ s.objects j = some (o (p j))
  todo : ∀ j ∉ D, s.indices j = p j ∧ s.objects j = some (o j)
  closed : ∀ j ∉ D, p j ∉ D

/-- The state inside the cycle started at `i`, with the hole at `h`. -/
structure CInv (o : Fin n → α) (p : Fin n → Fin n) (i : Fin n) (D : Finset (Fin n)) (h : Fin n)
    (s : State n α) : Prop where
  done : ∀ j ∈ D, s.indices j = j ∧ s.objects j = some (o (p j))
  todo : ∀ j ∉ D, s.indices j = p j ∧ (j ≠ h → s.objects j = some (o j))
  closed : ∀ j ∉ D, p j ∉ D ∨ p j = i
  hole : h ∉ D
  prev : h = i ∨ ∃ g ∈ D, p g = h

theorem cycle_spec (o : Fin n → α) {p : Fin n → Fin n} (hp : Function.Injective p) (i : Fin n) :
    ∀ (fuel : Nat) (D : Finset (Fin n)) (h : Fin n) (s : State n α), CInv o p i D h s →
      n - D.card < fuel → (i ∉ D → h = i) →
      ∃ s' c, cycle i fuel h s = some (s', c) ∧ ∃ D', D ⊆ D' ∧ (h ≠ c → h ∈ D') ∧ CInv o p i D' c s' ∧ p c = i := by
  intro fuel
  induction fuel with
  | zero => intro D h s _ hf; omega
  | succ f ih =>
    intro D h s inv hf hst
    have hh := (inv.todo h inv.hole).1
    by_cases hend : i = s.indices h
    · refine ⟨s, h, ?_, D, le_refl _, fun x => absurd rfl x, inv, ?_⟩
      · simp [cycle, ← hend]
      · rw [← hh]; exact hend.symm
    · have hpi : p h ≠ i := by rw [← hh]; exact fun e => hend e.symm
      have hnD : p h ∉ D := by
        rcases inv.closed h inv.hole with h1 | h1
        · exact h1
        · exact absurd h1 hpi
      have hnh : p h ≠ h := by
        intro e
        rcases inv.prev with h1 | ⟨g, hg, h1⟩
        · exact hpi (e.trans h1)
        · exact inv.hole ((hp (h1.trans e.symm)) ▸ hg)
      have key : CInv o p i (insert h D) (p h)
          { objects := put (put s.objects h (s.objects (p h))) (p h) none,
            indices := put s.indices h h } := by
        refine ⟨?_, ?_, ?_, ?_, Or.inr ⟨h, by simp, rfl⟩⟩
        · intro j hj
          by_cases e : j = h
          · subst e
            refine ⟨by simp, ?_⟩
            dsimp only
            rw [put_ne _ _ (fun x => hnh x.symm), put_same]
            exact (inv.todo (p j) hnD).2 hnh
          · have hjD : j ∈ D := by simpa [e] using hj
            have e2 : j ≠ p h := fun x => hnD (x ▸ hjD)
            exact ⟨by simpa [put_ne _ _ e] using (inv.done j hjD).1,
              by simpa [put_ne _ _ e, put_ne _ _ e2] using (inv.done j hjD).2⟩
        · intro j hj
          have e : j ≠ h := fun x => hj (by simp [x])
          have hjD : j ∉ D := fun x => hj (by simp [x])
          refine ⟨by simpa [put_ne _ _ e] using (inv.todo j hjD).1, fun e2 => ?_⟩
          simpa [put_ne _ _ e, put_ne _ _ e2] using (inv.todo j hjD).2 e
        · intro j hj
          have e : j ≠ h := fun x => hj (by simp [x])
          have hjD : j ∉ D := fun x => hj (by simp [x])
          rcases inv.closed j hjD with h1 | h1
          · by_cases e2 : p j = h
            · rcases inv.prev with h3 | ⟨g, hg, h3⟩
              · exact Or.inr (e2.trans h3)
              · exact absurd ((hp (h3.trans e2.symm)) ▸ hg) hjD
            · left; simp [e2, h1]
          · exact Or.inr h1
        · simp [hnh, hnD]
      have hcard : (insert h D).card = D.card + 1 := Finset.card_insert_of_notMem inv.hole
      have hle : (insert h D).card ≤ n := by simpa using Finset.card_le_univ (insert h D)
      have hiD : i ∉ insert h D → p h = i := by
        intro x
        have : i ∉ D := fun y => x (by simp [y])
        exact absurd (by simp [hst this]) x
      obtain ⟨s', c, h1, D', h2, h3, h4, h5⟩ := ih _ _ _ key (by omega) hiD
      refine ⟨s', c, ?_, D', fun x hx => h2 (by simp [hx]), fun _ => h2 (by simp), h4, h5⟩
      rw [← h1]
      conv_lhs => rw [cycle]
      rw [if_neg hend, hh]

theorem applyAt_spec (o : Fin n → α) {p : Fin n → Fin n} (hp : Function.Injective p) (i : Fin n)
    (D : Finset (Fin n)) (s : State n α) (inv : Inv o p D s) :
    ∃ s', applyAt s i = some s' ∧ ∃ D', D ⊆ D' ∧ i ∈ D' ∧ Inv o p D' s' := by
  by_cases hi : i = s.indices i
  · refine ⟨s, by simp [applyAt, ← hi], insert i D, fun x hx => by simp [hx], by simp, ?_⟩
    by_cases hD : i ∈ D
    · rwa [Finset.insert_eq_of_mem hD]
    · have hpi : p i = i := by rw [← (inv.todo i hD).1]; exact hi.symm
      refine ⟨?_, ?_, ?_⟩
      · intro j hj
        by_cases e : j = i
        · subst e; rw [hpi]; exact ⟨hi.symm, (inv.todo j hD).2⟩
        · exact inv.done j (by simpa [e] using hj)
      · intro j hj; exact inv.todo j (fun x => hj (by simp [x]))
      · intro j hj
        have e : j ≠ i := fun x => hj (by simp [x])
        have := inv.closed j (fun x => hj (by simp [x]))
        have e2 : p j ≠ i := fun x => e (hp (x.trans hpi.symm))
        simp [e2, this]
  · have hD : i ∉ D := fun x => hi (inv.done i x).1.symm
    have key : CInv o p i D i { s with objects := put s.objects i none } := by
      refine ⟨?_, ?_, fun j hj => Or.inl (inv.closed j hj), hD, Or.inl rfl⟩
      · intro j hj
        have e : j ≠ i := fun x => hD (x ▸ hj)
        simpa [put_ne _ _ e] using inv.done j hj
      · intro j hj
        exact ⟨(inv.todo j hj).1, fun e => by simpa [put_ne _ _ e] using (inv.todo j hj).2⟩
    obtain ⟨s', c, h1, D', h2, h3, h4, h5⟩ :=
      cycle_spec o hp i (n + 1) D i _ key (by omega) (fun _ => rfl)
    refine ⟨{ objects := put s'.objects c (s.objects i), indices := put s'.indices c c }, ?_,
      insert c D', fun x hx => by simp [h2 hx], ?_, ?_⟩
    · simp only [applyAt, if_neg hi, h1]
    · by_cases e : i = c
      · simp [e]
      · simp [h3 e]
    · refine ⟨?_, ?_, ?_⟩
      · intro j hj
        by_cases e : j = c
        · subst e; simp [h5, (inv.todo i hD).2]
        · simpa [put_ne _ _ e] using h4.done j (by simpa [e] using hj)
      · intro j hj
        have e : j ≠ c := fun x => hj (by simp [x])
        have := h4.todo j (fun x => hj (by simp [x]))
        simpa [put_ne _ _ e] using ⟨this.1, this.2 e⟩
      · intro j hj
        have e : j ≠ c := fun x => hj (by simp [x])
        have hjD : j ∉ D' := fun x => hj (by simp [x])
        have hpji : p j ≠ i := fun x => e (hp (x.trans h5.symm))
        rcases h4.closed j hjD with h6 | h6
        · by_cases e2 : p j = c
          · rcases h4.prev with h7 | ⟨g, hg, h7⟩
            · exact absurd (e2.trans h7) hpji
            · exact absurd ((hp (h7.trans e2.symm)) ▸ hg) hjD
          · simp [e2, h6]
        · exact absurd h6 hpji

theorem foldlM_spec (o : Fin n → α) {p : Fin n → Fin n} (hp : Function.Injective p) :
    ∀ (l : List (Fin n)) (D : Finset (Fin n)) (s : State n α), Inv o p D s →
      ∃ s', l.foldlM applyAt s = some s' ∧ ∃ D', D ⊆ D' ∧ (∀ i ∈ l, i ∈ D') ∧ Inv o p D' s' := by
  intro l
  induction l with
  | nil => intro D s inv; exact ⟨s, rfl, D, le_refl _, by simp, inv⟩
  | cons i l ih =>
    intro D s inv
    obtain ⟨s1, h1, D1, h2, h3, inv1⟩ := applyAt_spec o hp i D s inv
    obtain ⟨s2, h4, D2, h5, h6, inv2⟩ := ih D1 s1 inv1
    refine ⟨s2, ?_, D2, fun x hx => h5 (h2 hx), ?_, inv2⟩
    · simp [List.foldlM, h1, h4]
    · intro j hj
      rcases List.mem_cons.1 hj with rfl | hj
      · exact h5 h3
      · exact h6 j hj

theorem applyPermutation_spec (o : Fin n → α) {p : Fin n → Fin n} (hp : Function.Injective p) :
    applyPermutation o p = some { objects := fun i => some (o (p i)), indices := fun i => i } := by
  obtain ⟨s, h1, D, -, h3, inv⟩ := foldlM_spec o hp (List.finRange n) ∅
    { objects := fun i => some (o i), indices := p } ⟨by simp, by simp, by simp⟩
  rw [applyPermutation, h1]
  have a : s.objects = fun i => some (o (p i)) := funext fun i => (inv.done i (h3 i (List.mem_finRange i))).2
  have b : s.indices = fun i => i := funext fun i => (inv.done i (h3 i (List.mem_finRange i))).1
  cases s; simp_all

/-! ### `apply_inverse_permutation` -/

/-- `i` is the least position of its cycle. -/
def Least (p : Equiv.Perm (Fin n)) (i : Fin n) : Prop := ∀ j, p.SameCycle i j → i ≤ j

/-- What the code as written leaves at position `j`. -/
structure Final (ofIdx o : Fin n → α) (p : Equiv.Perm (Fin n)) (j : Fin n) (v : α) : Prop where
  fixed : p j = j → v = o j
  least : ∀ i, p i = j → p i ≠ i → Least p i → v = o i
  other : ∀ i, p i = j → p i ≠ i → ¬ Least p i → v = ofIdx j

structure IInv (ofIdx o : Fin n → α) (p : Equiv.Perm (Fin n)) (D : Finset (Fin n))
    (s : IState n α) : Prop where
  done : ∀ j ∈ D, s.indices j = j ∧ Final ofIdx o p j (s.objects j)
  todo : ∀ j ∉ D, s.indices j = p j ∧ s.objects j = o j
  closed : ∀ j k, p.SameCycle j k → j ∈ D → k ∈ D

structure WInv (ofIdx o : Fin n → α) (p : Equiv.Perm (Fin n)) (i : Fin n) (D C : Finset (Fin n))
    (s : IState n α) : Prop where
  done : ∀ j ∈ D, s.indices j = j ∧ Final ofIdx o p j (s.objects j)
  cyc : ∀ j ∈ C, p.SameCycle i j ∧ s.indices j = j ∧ Final ofIdx o p j (s.objects j)
  iC : i ∉ C
  todo : ∀ j, j ∉ D → j ∉ C → j ≠ i → s.indices j = p j ∧ s.objects j = o j
  -- `g` is the last position finished
  front : ∃ g, p g = s.indices i ∧ (∀ j ∈ C, j ≠ g → p j ∈ C) ∧
    ((g = i ∧ C = ∅ ∧ s.objects i = o i) ∨ (g ∈ C ∧ p i ∈ C ∧ s.objects i = ofIdx (s.indices i)))

theorem while_spec (ofIdx o : Fin n → α) (p : Equiv.Perm (Fin n)) (i : Fin n)
    (D : Finset (Fin n)) (hl : Least p i) (hDi : ∀ j, p.SameCycle i j → j ∉ D) (hpi : p i ≠ i) :
    ∀ (fuel : Nat) (C : Finset (Fin n)) (s : IState n α), WInv ofIdx o p i D C s →
      n - C.card < fuel →
      ∃ s', inverseWhile ofIdx i fuel s = some s' ∧ s'.indices i = i ∧
        ∃ C', WInv ofIdx o p i D C' s' := by
  intro fuel
  induction fuel with
  | zero => intro C s _ hf; omega
  | succ f ih =>
    intro C s inv hf
    by_cases hend : i = s.indices i
    · exact ⟨s, by simp [inverseWhile, ← hend], hend.symm, C, inv⟩
    · obtain ⟨g, hg, hcl, hcase⟩ := inv.front
      have hsc : p.SameCycle i (p g) := by
        rcases hcase with ⟨rfl, -, -⟩ | ⟨h, -, -⟩
        · exact ⟨1, by simp⟩
        · exact Equiv.Perm.sameCycle_apply_right.2 (inv.cyc g h).1
      have hti : p g ≠ i := fun e => hend (by rw [← hg, e])
      have htC : p g ∉ C := by
        intro hC
        -- `C` is closed under `p`, hence contains the whole cycle and `i`
        have hcl' : ∀ j ∈ C, p j ∈ C := by
          intro j hj
          by_cases e : j = g
          · rw [e]; exact hC
          · exact hcl j hj e
        have hmap : C.map p.toEmbedding = C := by
          apply Finset.eq_of_subset_of_card_le
          · intro x hx
            obtain ⟨y, hy, rfl⟩ := Finset.mem_map.1 hx
            exact hcl' y hy
          · simp
        have hback : ∀ j, p j ∈ C → j ∈ C := by
          intro j hj
          rw [← hmap] at hj
          obtain ⟨y, hy, e⟩ := Finset.mem_map.1 hj
          have : y = j := p.injective e
          exact this ▸ hy
        rcases hcase with ⟨rfl, hE, -⟩ | ⟨-, h, -⟩
        · rw [hE] at hC; simp at hC
        · exact inv.iC (hback i h)
      have htD : p g ∉ D := hDi _ hsc
      have ht := inv.todo _ htD htC hti
      have key : WInv ofIdx o p i D (insert (p g) C)
          { objects := put (put s.objects (p g) (s.objects i)) i (ofIdx (p (p g))),
            indices := put (put s.indices (p g) (p g)) i (p (p g)) } := by
        refine ⟨?_, ?_, ?_, ?_, ?_⟩
        · intro j hj
          have e1 : j ≠ p g := fun x => htD (x ▸ hj)
          have e2 : j ≠ i := fun x => hDi i (Equiv.Perm.SameCycle.refl p i) (x ▸ hj)
          simpa [put_ne _ _ e1, put_ne _ _ e2] using inv.done j hj
        · intro j hj
          by_cases e : j = p g
          · subst e
            refine ⟨hsc, by simp [put_ne _ _ hti], ?_⟩
            simp only [put_ne _ _ hti, put_same]
            refine ⟨?_, ?_, ?_⟩
            · intro h
              have hgg : p g = g := p.injective h
              rcases hcase with ⟨rfl, -, -⟩ | ⟨h2, -, -⟩
              · exact absurd hgg hti
              · exact absurd (hgg.symm ▸ h2) htC
            · intro i' h1 _ h3
              have : i' = g := p.injective h1
              subst this
              rcases hcase with ⟨rfl, -, h⟩ | ⟨h, -, -⟩
              · exact h
              · exfalso
                have := h3 i (inv.cyc i' h).1.symm
                have h4 := hl i' (inv.cyc i' h).1
                exact inv.iC (le_antisymm this h4 ▸ h)
            · intro i' h1 _ h3
              have : i' = g := p.injective h1
              subst this
              rcases hcase with ⟨rfl, -, -⟩ | ⟨-, -, h⟩
              · exact absurd hl h3
              · rw [h, ← hg]
          · have hjC : j ∈ C := by simpa [e] using hj
            have e2 : j ≠ i := fun x => inv.iC (x ▸ hjC)
            have := inv.cyc j hjC
            simpa [put_ne _ _ e, put_ne _ _ e2] using this
        · simp [inv.iC, Ne.symm hti]
        · intro j h1 h2 h3
          have e : j ≠ p g := fun x => h2 (by simp [x])
          have := inv.todo j h1 (fun x => h2 (by simp [x])) h3
          simpa [put_ne _ _ e, put_ne _ _ h3] using this
        · refine ⟨p g, by simp, ?_, Or.inr ⟨by simp, ?_, by simp⟩⟩
          · intro j hj hne
            have hjC : j ∈ C := by simpa [hne] using hj
            by_cases e : j = g
            · simp [e]
            · simp [hcl j hjC e]
          · rcases hcase with ⟨rfl, -, -⟩ | ⟨-, h, -⟩
            · simp
            · simp [h]
      have hcard : (insert (p g) C).card = C.card + 1 := Finset.card_insert_of_notMem htC
      have hle : (insert (p g) C).card ≤ n := by simpa using Finset.card_le_univ (insert (p g) C)
      obtain ⟨s', h1, h2, h3⟩ := ih _ _ key (by omega)
      refine ⟨s', ?_, h2, h3⟩
      rw [← h1]
      conv_lhs => rw [inverseWhile]
      rw [if_neg hend]
      simp only [← hg, ht.1]

theorem inverseAt_spec (ofIdx o : Fin n → α) (p : Equiv.Perm (Fin n)) (i : Fin n)
    (D : Finset (Fin n)) (hlt : ∀ j, j < i → j ∈ D) (s : IState n α) (inv : IInv ofIdx o p D s) :
    ∃ s', inverseWhile ofIdx i (n + 1) s = some s' ∧ ∃ D', D ⊆ D' ∧ i ∈ D' ∧ IInv ofIdx o p D' s' := by
  by_cases hi : i = s.indices i
  · refine ⟨s, by simp [inverseWhile, ← hi], insert i D, fun x hx => by simp [hx], by simp, ?_⟩
    by_cases hD : i ∈ D
    · rwa [Finset.insert_eq_of_mem hD]
    · have hpi : p i = i := by rw [← (inv.todo i hD).1]; exact hi.symm
      refine ⟨?_, ?_, ?_⟩
      · intro j hj
        by_cases e : j = i
        · subst e
          refine ⟨hi.symm, fun _ => (inv.todo j hD).2, ?_, ?_⟩
          · intro i' h1 h2
            have : i' = j := p.injective (h1.trans hpi.symm)
            exact absurd (this ▸ hpi) h2
          · intro i' h1 h2
            have : i' = j := p.injective (h1.trans hpi.symm)
            exact absurd (this ▸ hpi) h2
        · exact inv.done j (by simpa [e] using hj)
      · intro j hj; exact inv.todo j (fun x => hj (by simp [x]))
      · intro j k hsc hj
        rcases Finset.mem_insert.1 hj with rfl | hj
        · have : k = j := by
            obtain ⟨z, hz⟩ := hsc
            rw [← hz, Equiv.Perm.zpow_apply_eq_self_of_apply_eq_self hpi]
          simp [this]
        · simp [inv.closed j k hsc hj]
  · have hD : i ∉ D := fun x => hi (inv.done i x).1.symm
    have hpi : p i ≠ i := fun x => hi (by rw [(inv.todo i hD).1, x])
    have hDi : ∀ j, p.SameCycle i j → j ∉ D := fun j h x => hD (inv.closed j i h.symm x)
    have hl : Least p i := fun j h => by
      by_contra hlt'
      exact hDi j h (hlt j (not_le.1 hlt'))
    have key : WInv ofIdx o p i D ∅ s :=
      ⟨inv.done, by simp, by simp, fun j h _ _ => inv.todo j h,
        i, (inv.todo i hD).1.symm, by simp, Or.inl ⟨rfl, rfl, (inv.todo i hD).2⟩⟩
    obtain ⟨s', h1, h2, C, h3⟩ := while_spec ofIdx o p i D hl hDi hpi (n + 1) ∅ s key (by omega)
    obtain ⟨g, hg, hcl, hcase⟩ := h3.front
    rw [h2] at hg
    have hgC : g ∈ C ∧ p i ∈ C ∧ s'.objects i = ofIdx i := by
      rcases hcase with ⟨rfl, -, -⟩ | ⟨a, b, c⟩
      · exact absurd hg hpi
      · exact ⟨a, b, by rw [c, h2]⟩
    -- `insert i C` is the whole cycle
    have hcl' : ∀ j ∈ insert i C, p j ∈ insert i C := by
      intro j hj
      rcases Finset.mem_insert.1 hj with rfl | hj
      · simp [hgC.2.1]
      · by_cases e : j = g
        · simp [e, hg]
        · simp [hcl j hj e]
    have hpow : ∀ (m : Nat) j, j ∈ insert i C → (p ^ m) j ∈ insert i C := by
      intro m
      induction m with
      | zero => intro j hj; simpa using hj
      | succ m ihm =>
        intro j hj
        rw [pow_succ', Equiv.Perm.mul_apply]
        exact hcl' _ (ihm j hj)
    have hcycle : ∀ j k, p.SameCycle j k → j ∈ insert i C → k ∈ insert i C := by
      intro j k hsc hj
      obtain ⟨m, -, hm⟩ := hsc.exists_pow_eq'
      rw [← hm]; exact hpow m j hj
    refine ⟨s', h1, insert i C ∪ D, Finset.subset_union_right, by simp, ?_, ?_, ?_⟩
    · intro j hj
      rcases Finset.mem_union.1 hj with hj | hj
      · rcases Finset.mem_insert.1 hj with rfl | hj
        · refine ⟨h2, fun h => absurd h hpi, ?_, ?_⟩
          · intro i' e1 _ e3
            have : i' = g := p.injective (e1.trans hg.symm)
            subst this
            exfalso
            have a := e3 j (h3.cyc i' hgC.1).1.symm
            have b := hl i' (h3.cyc i' hgC.1).1
            exact h3.iC (le_antisymm a b ▸ hgC.1)
          · intro _ _ _ _; exact hgC.2.2
        · exact (h3.cyc j hj).2
      · exact h3.done j hj
    · intro j hj
      rw [Finset.mem_union, Finset.mem_insert] at hj
      push Not at hj
      exact h3.todo j hj.2 hj.1.2 hj.1.1
    · intro j k hsc hj
      rcases Finset.mem_union.1 hj with hj | hj
      · exact Finset.mem_union_left _ (hcycle j k hsc hj)
      · exact Finset.mem_union_right _ (inv.closed j k hsc hj)

theorem inverse_foldlM (ofIdx o : Fin n → α) (p : Equiv.Perm (Fin n)) :
    ∀ (l : List (Fin n)) (D : Finset (Fin n)) (s : IState n α), l.Pairwise (· < ·) →
      (∀ j, j ∉ l → j ∈ D ∨ ∀ i ∈ l, i < j) → IInv ofIdx o p D s →
      ∃ s', l.foldlM (fun s i => inverseWhile ofIdx i (n + 1) s) s = some s' ∧
        ∃ D', D ⊆ D' ∧ (∀ i ∈ l, i ∈ D') ∧ IInv ofIdx o p D' s' := by
  intro l
  induction l with
  | nil => intro D s _ _ inv; exact ⟨s, rfl, D, le_refl _, by simp, inv⟩
  | cons i l ih =>
    intro D s hs hlow inv
    have hs' := List.pairwise_cons.1 hs
    obtain ⟨s1, h1, D1, h2, h3, inv1⟩ := inverseAt_spec ofIdx o p i D (by
      intro j hj
      have hjl : j ∉ i :: l := by
        intro hm
        rcases List.mem_cons.1 hm with e | hm
        · exact absurd hj (e ▸ lt_irrefl _)
        · exact absurd (lt_trans hj (hs'.1 j hm)) (lt_irrefl _)
      rcases hlow j hjl with h | h
      · exact h
      · exact absurd (lt_trans hj (h i (by simp))) (lt_irrefl _)) s inv
    obtain ⟨s2, h4, D2, h5, h6, inv2⟩ := ih D1 s1 hs'.2 (by
      intro j hj
      by_cases e : j = i
      · exact Or.inl (e ▸ h3)
      · rcases hlow j (by simp [e, hj]) with h | h
        · exact Or.inl (h2 h)
        · exact Or.inr fun k hk => h k (by simp [hk])) inv1
    refine ⟨s2, ?_, D2, fun x hx => h5 (h2 hx), ?_, inv2⟩
    · simp [List.foldlM, h1, h4]
    · intro j hj
      rcases List.mem_cons.1 hj with rfl | hj
      · exact h5 h3
      · exact h6 j hj

theorem applyInverse_spec (ofIdx o : Fin n → α) (p : Equiv.Perm (Fin n)) :
    ∃ s, applyInversePermutation ofIdx o p = some s ∧ (∀ i, s.indices i = i) ∧
      ∀ j, Final ofIdx o p j (s.objects j) := by
  obtain ⟨s, h1, D, -, h3, inv⟩ := inverse_foldlM ofIdx o p (List.finRange n) ∅
    { objects := o, indices := p } (List.pairwise_lt_finRange n)
    (fun j hj => absurd (List.mem_finRange j) hj) ⟨by simp, by simp, by simp⟩
  exact ⟨s, h1, fun i => (inv.done i (h3 i (List.mem_finRange i))).1,
    fun i => (inv.done i (h3 i (List.mem_finRange i))).2⟩

end Brille.ApplyPerm
