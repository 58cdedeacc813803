import Verif.Proofs.Lapjv

namespace Brille.Lapjv

set_option linter.unusedSectionVars false

variable {n : Nat} {K : Type} [NeZero n] [Field K] [LinearOrder K]

/-! ### the column list and the predecessors -/

def InjOn (l : Nat → Fin n) : Prop := ∀ a b, a < n → b < n → l a = l b → a = b

theorem swap_apply (l : Nat → Fin n) (k up : Nat) : ∀ x, ∃ y, swap l k up x = l y ∧
    ((x = up ∧ y = k) ∨ (x ≠ up ∧ x = k ∧ y = up) ∨ (x ≠ up ∧ x ≠ k ∧ y = x)) := by
  intro x
  unfold swap
  by_cases h1 : x = up
  · exact ⟨k, by rw [if_pos h1], Or.inl ⟨h1, rfl⟩⟩
  · by_cases h2 : x = k
    · exact ⟨up, by rw [if_neg h1, if_pos h2], Or.inr (Or.inl ⟨h1, h2, rfl⟩)⟩
    · exact ⟨x, by rw [if_neg h1, if_neg h2], Or.inr (Or.inr ⟨h1, h2, rfl⟩)⟩

theorem InjOn.swap {l : Nat → Fin n} (h : InjOn l) {k up : Nat} (hk : k < n) (hup : up < n) :
    InjOn (swap l k up) := by
  intro a b ha hb hab
  obtain ⟨x, hx, hx'⟩ := swap_apply l k up a
  obtain ⟨y, hy, hy'⟩ := swap_apply l k up b
  rw [hx, hy] at hab
  have := h x y (by omega) (by omega) hab
  omega

theorem swap_low (l : Nat → Fin n) {k up x : Nat} (h1 : x < up) (h2 : x < k) : swap l k up x = l x := by
  unfold swap
  rw [if_neg (by omega), if_neg (by omega)]

/-- where predecessors come from -/
def PredOk (colsol : Fin n → Option (Fin n)) (freerow : Fin n) (l : Nat → Fin n) (pred : Fin n → Fin n)
    (low : Nat) : Prop :=
  ∀ q, q < n → pred (l q) = freerow ∨ ∃ p, p < q ∧ p < low ∧ colsol (l p) = some (pred (l q))

theorem PredOk.swap {colsol : Fin n → Option (Fin n)} {freerow : Fin n} {l : Nat → Fin n}
    {pred : Fin n → Fin n} {low : Nat} (h : PredOk colsol freerow l pred low) {k up : Nat} (hk : k < n)
    (hup : up < n) (h1 : low ≤ up) (h2 : low ≤ k) : PredOk colsol freerow (swap l k up) pred low := by
  intro q hq
  obtain ⟨y, hy, hy'⟩ := swap_apply l k up q
  rw [hy]
  rcases h y (by omega) with h3 | ⟨p, hp1, hp2, hp3⟩
  · exact Or.inl h3
  · refine Or.inr ⟨p, by omega, hp2, ?_⟩
    rw [swap_low l (by omega) (by omega)]
    exact hp3

/-- the part of the invariant of the search that always holds -/
structure DW (colsol : Fin n → Option (Fin n)) (freerow : Fin n) (s : Dij n K) : Prop where
  inj : InjOn s.collist
  lowup : s.low ≤ s.up
  up : s.up ≤ n
  pred : PredOk colsol freerow s.collist s.pred s.low

/-- … and the columns up to `up` are assigned -/
structure DInv (colsol : Fin n → Option (Fin n)) (freerow : Fin n) (s : Dij n K) : Prop extends
    DW colsol freerow s where
  asg : ∀ p, p < s.up → colsol (s.collist p) ≠ none

theorem minFold {colsol : Fin n → Option (Fin n)} {freerow : Fin n} : ∀ (len k : Nat) (s : Dij n K),
    k + len ≤ n → s.up ≤ k → s.low < s.up → DW colsol freerow s →
    let r := (List.range' k len).foldl minStep s
    DW colsol freerow r ∧ r.low = s.low ∧ s.low < r.up ∧ (∀ p, p < s.low → r.collist p = s.collist p) := by
  intro len
  induction len with
  | zero => intro k s _ _ h2 h; exact ⟨h, rfl, h2, fun _ _ => rfl⟩
  | succ len ih =>
    intro k s hk h1 h2 h
    rw [List.range'_succ, List.foldl_cons]
    have step : DW colsol freerow (minStep s k) ∧ (minStep s k).low = s.low ∧
        s.low < (minStep s k).up ∧ (minStep s k).up ≤ k + 1 ∧
        ∀ p, p < s.low → (minStep s k).collist p = s.collist p := by
      unfold minStep
      dsimp only
      by_cases hle : s.d (s.collist k) ≤ s.min
      · rw [if_pos hle]
        by_cases hlt : s.d (s.collist k) < s.min
        · rw [if_pos hlt]
          refine ⟨⟨?_, ?_, ?_, ?_⟩, rfl, ?_, ?_, ?_⟩
          · exact h.inj.swap (by omega) (show s.low < n by omega)
          · dsimp only; omega
          · dsimp only; omega
          · exact h.pred.swap (by omega) (show s.low < n by omega) (Nat.le_refl _) (by omega)
          · dsimp only; omega
          · dsimp only; omega
          · intro p hp; exact swap_low _ hp (by omega)
        · rw [if_neg hlt]
          refine ⟨⟨?_, ?_, ?_, ?_⟩, rfl, ?_, ?_, ?_⟩
          · exact h.inj.swap (by omega) (by omega)
          · dsimp only; omega
          · dsimp only; omega
          · exact h.pred.swap (by omega) (by omega) h.lowup (by omega)
          · dsimp only; omega
          · dsimp only; omega
          · intro p hp; exact swap_low _ (by omega) (by omega)
      · rw [if_neg hle]
        exact ⟨h, rfl, h2, by omega, fun _ _ => rfl⟩
    obtain ⟨g1, g2, g3, g4, g5⟩ := step
    obtain ⟨f1, f2, f3, f4⟩ := ih (k + 1) (minStep s k) (by omega) g4 (by omega) g1
    exact ⟨f1, f2.trans g2, by omega, fun p hp => (f4 p (by omega)).trans (g5 p hp)⟩

theorem newMinimum_spec {colsol : Fin n → Option (Fin n)} {freerow : Fin n} {s : Dij n K}
    (h : DW colsol freerow s) (hul : s.up = s.low) (hup : s.up < n) :
    ∃ s', newMinimum s = some s' ∧ DW colsol freerow s' ∧ s'.low = s.low ∧ s.low < s'.up ∧
      ∀ p, p < s.low → s'.collist p = s.collist p := by
  unfold newMinimum
  rw [if_pos hup]
  have hw : DW colsol freerow
      { s with ready := s.low, min := s.d (s.collist s.up), up := s.up + 1 } :=
    ⟨h.inj, by dsimp only; omega, by dsimp only; omega, h.pred⟩
  obtain ⟨f1, f2, f3, f4⟩ := minFold (n - (s.up + 1)) (s.up + 1) _ (by omega) (Nat.le_refl _)
    (by dsimp only; omega) hw
  exact ⟨_, rfl, f1, f2, f3, f4⟩

theorem unassignedAt_some {colsol : Fin n → Option (Fin n)} {s : Dij n K} {j : Fin n}
    (h : unassignedAt colsol s = some j) : colsol j = none := by
  unfold unassignedAt at h
  rw [Option.map_eq_some_iff] at h
  obtain ⟨k, hk, rfl⟩ := h
  have := List.find?_some hk
  simpa using this

theorem unassignedAt_none {colsol : Fin n → Option (Fin n)} {s : Dij n K}
    (h : unassignedAt colsol s = none) : ∀ p, s.low ≤ p → p < s.up → colsol (s.collist p) ≠ none := by
  intro p h1 h2
  unfold unassignedAt at h
  rw [Option.map_eq_none_iff, List.find?_eq_none] at h
  have := h p (by rw [List.mem_range'_1]; omega)
  simpa using this

theorem relax_spec {colsol : Fin n → Option (Fin n)} {freerow : Fin n} (c : Fin n → Fin n → K)
    (v : Fin n → K) (i : Fin n) (hh : K) : ∀ (len k : Nat) (s : Dij n K), k + len ≤ n → s.up ≤ k →
    DInv colsol freerow s → (∃ p, p < s.low ∧ colsol (s.collist p) = some i) →
    ∃ s' e, relax c v colsol i hh (List.range' k len) s = (s', e) ∧ s'.low = s.low ∧
      (e = none → DInv colsol freerow s') ∧
      ∀ j, e = some j → DW colsol freerow s' ∧ colsol j = none := by
  intro len
  induction len with
  | zero => intro k s _ _ h _; exact ⟨s, none, rfl, rfl, fun _ => h, by simp⟩
  | succ len ih =>
    intro k s hk h1 h hp
    obtain ⟨p, hp1, hp2⟩ := hp
    rw [List.range'_succ, relax]
    dsimp only
    by_cases hlt : c i (s.collist k) - v (s.collist k) - hh < s.d (s.collist k)
    · rw [if_pos hlt]
      have hpred : PredOk colsol freerow s.collist (put s.pred (s.collist k) i) s.low := by
        intro q hq
        by_cases hqk : s.collist q = s.collist k
        · have := h.inj q k hq (by omega) hqk
          subst this
          right
          rw [put_self]
          exact ⟨p, by have := h.lowup; omega, hp1, hp2⟩
        · rw [put_ne _ _ hqk]; exact h.pred q hq
      by_cases hmin : c i (s.collist k) - v (s.collist k) - hh = s.min
      · rw [if_pos hmin]
        cases hcs : colsol (s.collist k) with
        | none =>
          exact ⟨_, _, rfl, rfl, by simp, fun j hj => by
            obtain rfl := Option.some.inj hj
            exact ⟨⟨h.inj, h.lowup, h.up, hpred⟩, hcs⟩⟩
        | some x =>
          dsimp only
          have hlow := h.lowup
          refine ih (k + 1) _ (by omega) (by dsimp only; omega) ⟨⟨?_, ?_, ?_, ?_⟩, ?_⟩ ⟨p, hp1, ?_⟩
          · exact h.inj.swap (by omega) (by omega)
          · dsimp only; omega
          · dsimp only; omega
          · exact hpred.swap (by omega) (by omega) h.lowup (by omega)
          · intro r hr
            dsimp only at hr ⊢
            obtain ⟨y, hy, hy'⟩ := swap_apply s.collist k s.up r
            rw [hy]
            by_cases hrup : r = s.up
            · have : y = k := by omega
              rw [this, hcs]; simp
            · exact h.asg y (by omega)
          · dsimp only
            rw [swap_low _ (by omega) (by omega)]
            exact hp2
      · rw [if_neg hmin]
        exact ih (k + 1) _ (by omega) (by dsimp only; omega) ⟨⟨h.inj, h.lowup, h.up, hpred⟩, h.asg⟩
          ⟨p, hp1, hp2⟩
    · rw [if_neg hlt]
      exact ih (k + 1) s (by omega) (by omega) h ⟨p, hp1, hp2⟩

theorem scan_spec {colsol : Fin n → Option (Fin n)} {freerow : Fin n} (c : Fin n → Fin n → K)
    (v : Fin n → K) {s : Dij n K} (h : DInv colsol freerow s) (hlt : s.low < s.up) :
    ∃ s' e, scan c v colsol s = some (s', e) ∧ s'.low = s.low + 1 ∧
      (e = none → DInv colsol freerow s') ∧ ∀ j, e = some j → DW colsol freerow s' ∧ colsol j = none := by
  unfold scan
  dsimp only
  cases hcs : colsol (s.collist s.low) with
  | none => exact absurd hcs (h.asg s.low hlt)
  | some i =>
    dsimp only
    have hup := h.up
    obtain ⟨s', e, h1, h2, h3, h4⟩ := relax_spec (colsol := colsol) (freerow := freerow) c v i
      (c i (s.collist s.low) - v (s.collist s.low) - s.min) (n - s.up) s.up { s with low := s.low + 1 }
      (by omega) (Nat.le_refl _) ⟨⟨h.inj, hlt, h.up, by
        intro q hq
        rcases h.pred q hq with h3 | ⟨p, a, b, d⟩
        · exact Or.inl h3
        · exact Or.inr ⟨p, a, by dsimp only; omega, d⟩⟩, h.asg⟩ ⟨s.low, Nat.lt_succ_self _, hcs⟩
    exact ⟨s', e, by rw [h1], h2, h3, h4⟩

theorem surj_of_inj {l : Nat → Fin n} (h : InjOn l) (j : Fin n) : ∃ q, q < n ∧ l q = j := by
  have hinj : Function.Injective (fun x : Fin n => l x.val) := by
    intro a b hab
    exact Fin.ext (h a b a.isLt b.isLt hab)
  obtain ⟨x, hx⟩ := Finite.surjective_of_injective hinj j
  exact ⟨x, x.isLt, hx⟩

theorem dijStep_spec {colsol : Fin n → Option (Fin n)} {freerow : Fin n} (c : Fin n → Fin n → K)
    (v : Fin n → K) {s : Dij n K} (h : DInv colsol freerow s) (hu : ∃ u, colsol u = none) :
    ∃ s' e, dijStep c v colsol s = some (s', e) ∧ (e = none → s'.low = s.low + 1 ∧ DInv colsol freerow s') ∧
      ∀ j, e = some j → DW colsol freerow s' ∧ colsol j = none := by
  unfold dijStep
  by_cases hul : s.up = s.low
  · rw [if_pos hul]
    have hup : s.up < n := by
      obtain ⟨u, hu⟩ := hu
      obtain ⟨q, hq, rfl⟩ := surj_of_inj h.inj u
      by_contra hge
      exact h.asg q (by omega) hu
    obtain ⟨s1, h1, h2, h3, h4, h5⟩ := newMinimum_spec h.toDW hul hup
    rw [h1]
    dsimp only
    cases hua : unassignedAt colsol s1 with
    | some j =>
      exact ⟨s1, some j, rfl, by simp, fun j' hj' => by
        obtain rfl := Option.some.inj hj'
        exact ⟨h2, unassignedAt_some hua⟩⟩
    | none =>
      dsimp only
      have hinv : DInv colsol freerow s1 := by
        refine ⟨h2, ?_⟩
        intro p hp
        by_cases hpl : p < s.low
        · rw [h5 p hpl]; exact h.asg p (by omega)
        · exact unassignedAt_none hua p (by omega) hp
      obtain ⟨s', e, g1, g2, g3, g4⟩ := scan_spec c v hinv (by omega)
      exact ⟨s', e, g1, fun he => ⟨by omega, g3 he⟩, g4⟩
  · rw [if_neg hul]
    have := h.lowup
    obtain ⟨s', e, g1, g2, g3, g4⟩ := scan_spec c v h (by omega)
    exact ⟨s', e, g1, fun he => ⟨g2, g3 he⟩, g4⟩

theorem search_spec {colsol : Fin n → Option (Fin n)} {freerow : Fin n} (c : Fin n → Fin n → K)
    (v : Fin n → K) (hu : ∃ u, colsol u = none) : ∀ (f : Nat) (s : Dij n K), n < f + s.low →
    DInv colsol freerow s → ∃ s' j, search c v colsol f s = some (s', j) ∧ DW colsol freerow s' ∧
      colsol j = none := by
  intro f
  induction f with
  | zero =>
    intro s hf h
    have := h.lowup
    have := h.up
    omega
  | succ f ih =>
    intro s hf h
    obtain ⟨s', e, h1, h2, h3⟩ := dijStep_spec c v h hu
    rw [search, h1]
    cases e with
    | some j => exact ⟨s', j, rfl, h3 j rfl⟩
    | none =>
      obtain ⟨a, b⟩ := h2 rfl
      exact ih s' (by omega) b

theorem start_inv (colsol : Fin n → Option (Fin n)) (freerow : Fin n) (c : Fin n → Fin n → K)
    (v : Fin n → K) : DInv colsol freerow (dijStart c v freerow) := by
  refine ⟨⟨?_, Nat.le_refl _, Nat.zero_le _, fun q _ => Or.inl rfl⟩, ?_⟩
  · intro a b ha hb hab
    have := congrArg Fin.val hab
    simp only [dijStart, Fin.ofNat] at this
    rw [Nat.mod_eq_of_lt ha, Nat.mod_eq_of_lt hb] at this
    exact this
  · intro p hp; exact absurd hp (Nat.not_lt_zero _)

/-! ### the change along the path -/

theorem walk_spec {colsol0 : Fin n → Option (Fin n)} {freerow : Fin n} {rest : List (Fin n)}
    {l : Nat → Fin n} (hinj : InjOn l) {pred : Fin n → Fin n} {low : Nat}
    (hpred : PredOk colsol0 freerow l pred low) (hnd : (freerow :: rest).Nodup) :
    ∀ (f q : Nat) (rowsol colsol : Fin n → Option (Fin n)), q < f → q < n →
      (∀ j i, j ≠ l q → colsol j = some i → i ∉ freerow :: rest ∧ rowsol i = some j) →
      (∀ i, i ∉ freerow :: rest → ∃ j, j ≠ l q ∧ rowsol i = some j ∧ colsol j = some i) →
      (∀ p, p < q → colsol (l p) = colsol0 (l p)) →
      ∃ r c, walk pred freerow f rowsol colsol (l q) = some (r, c) ∧ Match r c rest := by
  intro f
  induction f with
  | zero => intro q _ _ h; omega
  | succ f ih =>
    intro q rowsol colsol hf hq h1 h2 h3
    rw [walk]
    by_cases hi : pred (l q) = freerow
    · rw [if_neg (by simp [hi])]
      refine ⟨_, _, rfl, ⟨(List.nodup_cons.mp hnd).2, ?_, ?_⟩⟩
      · intro j i hj
        by_cases hjq : j = l q
        · subst hjq
          rw [put_self] at hj
          obtain rfl := Option.some.inj hj
          exact ⟨by rw [hi]; exact (List.nodup_cons.mp hnd).1, put_self _ _ _⟩
        · rw [put_ne _ _ hjq] at hj
          obtain ⟨a, b⟩ := h1 j i hjq hj
          simp only [List.mem_cons, not_or] at a
          exact ⟨a.2, by rw [put_ne _ _ (by rw [hi]; exact a.1)]; exact b⟩
      · intro i hir
        by_cases hif : i = pred (l q)
        · subst hif; exact ⟨l q, put_self _ _ _, put_self _ _ _⟩
        · obtain ⟨j, a, b, d⟩ := h2 i (by
            simp only [List.mem_cons, not_or]; exact ⟨by rw [← hi]; exact hif, hir⟩)
          exact ⟨j, by rw [put_ne _ _ hif]; exact b, by rw [put_ne _ _ a]; exact d⟩
    · rw [if_pos hi]
      rcases hpred q hq with hfr | ⟨p, hpq, hpl, hp⟩
      · exact absurd hfr hi
      · have hcp : colsol (l p) = some (pred (l q)) := by rw [h3 p hpq]; exact hp
        have hlpq : l p ≠ l q := fun he => by have := hinj p q (by omega) hq he; omega
        obtain ⟨hnf, hrow⟩ := h1 (l p) _ hlpq hcp
        rw [hrow]
        dsimp only
        refine ih p _ _ (by omega) (by omega) ?_ ?_ ?_
        · intro j i hjp hj
          by_cases hjq : j = l q
          · subst hjq
            rw [put_self] at hj
            obtain rfl := Option.some.inj hj
            exact ⟨hnf, put_self _ _ _⟩
          · rw [put_ne _ _ hjq] at hj
            obtain ⟨a, b⟩ := h1 j i hjq hj
            refine ⟨a, ?_⟩
            rw [put_ne _ _ ?_]
            · exact b
            · rintro rfl
              rw [hrow] at b
              exact hjp (Option.some.inj b).symm
        · intro i hi'
          by_cases hii : i = pred (l q)
          · subst hii; exact ⟨l q, fun he => hlpq he.symm, put_self _ _ _, put_self _ _ _⟩
          · obtain ⟨j, a, b, d⟩ := h2 i hi'
            refine ⟨j, ?_, by rw [put_ne _ _ hii]; exact b, by rw [put_ne _ _ a]; exact d⟩
            rintro rfl
            rw [hcp] at d
            exact hii (Option.some.inj d).symm
        · intro p' hp'
          rw [put_ne _ _ (fun he => by have := hinj p' q (by omega) hq he; omega)]
          exact h3 p' (by omega)

theorem augment_spec (c : Fin n → Fin n → K) : ∀ (free : List (Fin n)) (v : Fin n → K)
    (rowsol colsol : Fin n → Option (Fin n)), Match rowsol colsol free →
    ∃ v' r k, augment c free v rowsol colsol = some (v', r, k) ∧ Match r k [] := by
  intro free
  induction free with
  | nil => intro v rowsol colsol h; exact ⟨v, rowsol, colsol, rfl, h⟩
  | cons i rest ih =>
    intro v rowsol colsol h
    obtain ⟨s, e, h1, h2, h3⟩ := search_spec c v (h.unassigned (i := i) (by simp)) (n + 1)
      (dijStart c v i) (by omega) (start_inv colsol i c v)
    obtain ⟨q, hq, rfl⟩ := surj_of_inj h2.inj e
    obtain ⟨r, k, g1, g2⟩ := walk_spec h2.inj h2.pred h.nodup (n + 1) q rowsol colsol (by omega) hq
      (fun j i' _ hj => h.col j i' hj)
      (fun i' hi' => by
        obtain ⟨j, a, b⟩ := h.row i' hi'
        exact ⟨j, (fun he => by rw [he, h3] at b; cases b), a, b⟩)
      (fun _ _ => rfl)
    obtain ⟨v', r', k', f1, f2⟩ := ih (newPrices v s) r k g2
    exact ⟨v', r', k', by rw [augment, h1]; dsimp only; rw [g1]; exact f1, f2⟩

/-! ### the whole -/

variable [IsStrictOrderedRing K]

theorem lapjvMain_spec (hn : 2 ≤ n) {q : K} (hq : 0 < q) {c : Fin n → Fin n → K}
    (hc : ∀ i j, Disc q (c i j)) : ∃ f r, (∀ f', f ≤ f' → lapjvMain c f' = some r) ∧
      Match r.rowsol r.colsol [] := by
  have hn0 : (0 : K) < n := by exact_mod_cast (by omega : 0 < n)
  -- a quantum for the costs and epsilon together
  have hq' : 0 < q / (10000 * n) := by positivity
  have hc' : ∀ i j, Disc (q / (10000 * n)) (c i j) := by
    intro i j
    obtain ⟨z, hz⟩ := hc i j
    refine ⟨z * (10000 * n), ?_⟩
    rw [hz]
    push_cast
    field_simp
  have he : Disc (q / (10000 * n)) (epsilon c) := by
    choose z hz using hc
    refine ⟨∑ i, ∑ j, z i j, ?_⟩
    unfold epsilon
    simp only [hz]
    push_cast
    rw [div_mul_eq_mul_div, Finset.mul_sum]
    congr 1
    apply Finset.sum_congr rfl
    intro i _
    rw [Finset.mul_sum]
  obtain ⟨done, hred⟩ := columnReduction_inv (n := n) hc'
  obtain ⟨v, ht, hv⟩ := transfer_spec hn hc' (epsilon c) (columnReduction c)
    (fun i hi => by obtain ⟨j, a, _⟩ := hred.row i hi; exact ⟨j, a⟩) (List.finRange n) _ [] hred.v
  obtain ⟨f1, s1, a1, b1, d1⟩ := arrLoop_spec hn hq' hc' he _
    { v := v, rowsol := (columnReduction c).rowsol, colsol := (columnReduction c).colsol
      todo := [] ++ (List.finRange n).filter fun i => decide ((columnReduction c).nmatch i = 0), kept := [] }
    rfl ⟨hv, by
      have := match_after_reduction hred
      simpa using this⟩
  have b1' : ArrInv (q / (10000 * n)) { s1 with todo := s1.kept, kept := [] } :=
    ⟨b1.v, by have := b1.ok; rw [d1] at this; simpa using this⟩
  obtain ⟨f2, s2, a2, b2, d2⟩ := arrLoop_spec hn hq' hc' he _ _ rfl b1'
  obtain ⟨v', r, k, g1, g2⟩ := augment_spec c s2.kept s2.v s2.rowsol s2.colsol (by
    have := b2.ok; rw [d2] at this; simpa using this)
  refine ⟨f1 + f2, ⟨r, k, v'⟩, ?_, g2⟩
  intro f' hf'
  unfold lapjvMain arrTwice
  dsimp only
  rw [ht]
  dsimp only
  have e1 := arrLoop_mono c (epsilon c) f1 _ _ a1 (f' - f1)
  rw [show f1 + (f' - f1) = f' by omega] at e1
  have e2 := arrLoop_mono c (epsilon c) f2 _ _ a2 (f' - f2)
  rw [show f2 + (f' - f2) = f' by omega] at e2
  rw [e1]
  dsimp only [Option.bind]
  rw [e2]
  dsimp only
  rw [g1]

end Brille.Lapjv
