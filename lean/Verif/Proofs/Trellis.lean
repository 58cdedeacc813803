import Verif.Model.Trellis
import Verif.Spec.Trellis
import Mathlib.Tactic.Ring
import Mathlib.Tactic.Linarith
import Mathlib.Tactic.FinCases
import Mathlib.Data.Fin.VecNotation
import Mathlib.Data.Fintype.Basic

namespace Brille.Trellis

open Brille.Spec

/-! ### find_bin -/

theorem findBin_spec {edges : List ℚ} (hinc : Increasing edges) {x : ℚ} {i : Nat}
    (h : InBin edges i x) : findBin edges x = i := by
  obtain ⟨a, b, ha, hb, hax, hxb⟩ := h
  have hi : i < edges.length := (List.getElem?_eq_some_iff.1 ha).1
  have hi1 : i + 1 < edges.length := (List.getElem?_eq_some_iff.1 hb).1
  have ha' : edges[i] = a := (List.getElem?_eq_some_iff.1 ha).2
  have hb' : edges[i + 1] = b := (List.getElem?_eq_some_iff.1 hb).2
  have hd : edges.findIdx (fun b => decide (x < b)) = i + 1 := by
    rw [List.findIdx_eq hi1]
    refine ⟨by simp [hb', hxb], ?_⟩
    intro j hj
    have : edges[j] ≤ edges[i] := by
      rcases Nat.lt_or_ge j i with h | h
      · exact le_of_lt (List.pairwise_iff_getElem.1 hinc j i (by omega) hi h)
      · have : j = i := by omega
        subst this; exact le_refl _
    simp only [decide_eq_false_iff_not, not_lt]
    rw [ha'] at this; exact le_trans this hax
  cases edges with
  | nil => simp at hi
  | cons f l =>
    have hne : ¬ ((f :: l).length - 1 < i + 1 ∧ x < f) := by
      simp only [List.length_cons] at hi1 ⊢; omega
    simp only [findBin, hd, if_neg hne]
    simp

theorem findBin_below {edges : List ℚ} {x : ℚ} (h : ∀ f, edges.head? = some f → x < f) :
    findBin edges x = 0 := by
  cases edges with
  | nil => simp [findBin]
  | cons f l =>
    have := h f rfl
    simp [findBin, List.findIdx_cons, this]

theorem findBin_above {edges : List ℚ} {x : ℚ} (h : ∀ b ∈ edges, b ≤ x) :
    findBin edges x = edges.length - 1 := by
  have hd : edges.findIdx (fun b => decide (x < b)) = edges.length := by
    rw [List.findIdx_eq_length]
    intro b hb; simp [h b hb]
  cases edges with
  | nil => simp [findBin]
  | cons f l =>
    have hne : ¬ ((f :: l).length - 1 < (f :: l).length ∧ x < f) :=
      fun hc => absurd hc.2 (not_lt.2 (h f (by simp)))
    simp only [findBin, hd, if_neg hne]
    simp

/-! ### node numbering -/

variable (t : Grid)

theorem sub2idx_eq (sub : Fin 3 → Nat) :
    t.sub2idx sub = sub 0 + t.size 0 * (sub 1 + t.size 1 * sub 2) := by
  simp [Grid.sub2idx, sub2idxSpan, List.finRange_succ, Grid.span]
  ring

theorem nodeCount_eq : t.nodeCount = t.size 0 * t.size 1 * t.size 2 := by
  simp [Grid.nodeCount, List.finRange_succ, Grid.size]

theorem idx2sub_sub2idx (sub : Fin 3 → Nat) (h : ∀ d, sub d < t.size d) :
    t.idx2sub (t.sub2idx sub) = sub := by
  have h0 := h 0; have h1 := h 1; have h2 := h 2
  have p0 : 0 < t.size 0 := by omega
  have p1 : 0 < t.size 1 := by omega
  rw [sub2idx_eq]
  have e2 : (sub 0 + t.size 0 * (sub 1 + t.size 1 * sub 2)) / (t.size 1 * t.size 0) = sub 2 := by
    have e : sub 0 + t.size 0 * (sub 1 + t.size 1 * sub 2) =
      (sub 0 + t.size 0 * sub 1) + (t.size 1 * t.size 0) * sub 2 := by ring
    rw [e, Nat.add_mul_div_left _ _ (Nat.mul_pos p1 p0), Nat.div_eq_of_lt, Nat.zero_add]
    have : sub 0 + t.size 0 * sub 1 < t.size 0 * (sub 1 + 1) := by
      rw [Nat.mul_add]; omega
    exact lt_of_lt_of_le this (by rw [Nat.mul_comm (t.size 1)]; exact Nat.mul_le_mul_left _ h1)
  have e3 : sub 0 + t.size 0 * (sub 1 + t.size 1 * sub 2) - sub 2 * (t.size 1 * t.size 0) =
      sub 0 + t.size 0 * sub 1 := by
    have e : sub 0 + t.size 0 * (sub 1 + t.size 1 * sub 2) =
      (sub 0 + t.size 0 * sub 1) + sub 2 * (t.size 1 * t.size 0) := by ring
    rw [e, Nat.add_sub_cancel]
  have e1 : (sub 0 + t.size 0 * sub 1) / t.size 0 = sub 1 := by
    rw [Nat.add_mul_div_left _ _ p0, Nat.div_eq_of_lt h0, Nat.zero_add]
  have e0 : sub 0 + t.size 0 * sub 1 - sub 1 * t.size 0 = sub 0 := by
    rw [Nat.mul_comm (sub 1), Nat.add_sub_cancel]
  funext d
  simp only [Grid.idx2sub, idx2subSpan, Grid.span, Nat.mul_one, e2, e3, e1, e0, Nat.div_one]
  fin_cases d <;> rfl

theorem sub2idx_lt (sub : Fin 3 → Nat) (h : ∀ d, sub d < t.size d) :
    t.sub2idx sub < t.nodeCount := by
  have h0 := h 0; have h1 := h 1; have h2 := h 2
  rw [sub2idx_eq, nodeCount_eq, Nat.mul_assoc]
  have a : sub 1 + t.size 1 * sub 2 + 1 ≤ t.size 1 * t.size 2 := by
    calc sub 1 + t.size 1 * sub 2 + 1 ≤ t.size 1 * (sub 2 + 1) := by rw [Nat.mul_add]; omega
      _ ≤ _ := Nat.mul_le_mul_left _ h2
  calc sub 0 + t.size 0 * (sub 1 + t.size 1 * sub 2)
      < t.size 0 * (sub 1 + t.size 1 * sub 2 + 1) := by rw [Nat.mul_succ]; omega
    _ ≤ _ := Nat.mul_le_mul_left _ a

theorem sub2idx_idx2sub (idx : Nat) (h : idx < t.nodeCount) :
    t.sub2idx (t.idx2sub idx) = idx ∧ ∀ d, t.idx2sub idx d < t.size d := by
  rw [nodeCount_eq] at h
  have p0 : 0 < t.size 0 := by
    rcases Nat.eq_zero_or_pos (t.size 0) with e | e
    · simp [e] at h
    · exact e
  have p1 : 0 < t.size 1 := by
    rcases Nat.eq_zero_or_pos (t.size 1) with e | e
    · simp [e] at h
    · exact e
  have d2 := Nat.div_add_mod idx (t.size 1 * t.size 0)
  have r2 : idx - idx / (t.size 1 * t.size 0) * (t.size 1 * t.size 0) = idx % (t.size 1 * t.size 0) := by
    rw [Nat.mul_comm (idx / (t.size 1 * t.size 0))]; omega
  have d1 := Nat.div_add_mod (idx % (t.size 1 * t.size 0)) (t.size 0)
  have r1 : idx % (t.size 1 * t.size 0) - idx % (t.size 1 * t.size 0) / t.size 0 * t.size 0 =
      idx % (t.size 1 * t.size 0) % t.size 0 := by
    rw [Nat.mul_comm (idx % (t.size 1 * t.size 0) / t.size 0) (t.size 0)]; omega
  have hs : t.idx2sub idx = mk3 (idx % (t.size 1 * t.size 0) % t.size 0)
      (idx % (t.size 1 * t.size 0) / t.size 0) (idx / (t.size 1 * t.size 0)) := by
    funext d
    simp only [Grid.idx2sub, idx2subSpan, Grid.span, Nat.mul_one, r2, r1, Nat.div_one, mk3]
  constructor
  · rw [sub2idx_eq, hs]
    simp only [mk3]
    simp only [Fin.isValue, if_true, Fin.reduceEq, if_false]
    have e : t.size 0 * (idx % (t.size 1 * t.size 0) / t.size 0 + t.size 1 * (idx / (t.size 1 * t.size 0))) =
      t.size 0 * (idx % (t.size 1 * t.size 0) / t.size 0) + t.size 1 * t.size 0 * (idx / (t.size 1 * t.size 0)) := by
      ring
    rw [e]; omega
  · intro d
    rw [hs]
    fin_cases d
    · exact Nat.mod_lt _ p0
    · have := Nat.mod_lt idx (Nat.mul_pos p1 p0)
      exact (Nat.div_lt_iff_lt_mul p0).2 this
    · refine (Nat.div_lt_iff_lt_mul (Nat.mul_pos p1 p0)).2 ?_
      calc idx < t.size 0 * t.size 1 * t.size 2 := h
        _ = _ := by simp; ring

theorem sub2idx_inj {a b : Fin 3 → Nat} (ha : ∀ d, a d < t.size d) (hb : ∀ d, b d < t.size d)
    (h : t.sub2idx a = t.sub2idx b) : a = b := by
  rw [← idx2sub_sub2idx t a ha, h, idx2sub_sub2idx t b hb]

/-! ### neighbours -/

theorem mem_ite_nil {β : Type} {c : Prop} [Decidable c] {l : List β} {x : β} :
    x ∈ (if c then l else []) ↔ c ∧ x ∈ l := by
  by_cases h : c <;> simp [h]

theorem mem_nodeNeighbours_raw (idx n : Nat) :
    n ∈ t.nodeNeighbours idx ↔ ∃ i j k : Nat, i < 3 ∧ j < 3 ∧ k < 3 ∧
      (0 < t.idx2sub idx 0 + i ∧ t.idx2sub idx 0 + i < t.size 0 + 1) ∧
      (0 < t.idx2sub idx 1 + j ∧ t.idx2sub idx 1 + j < t.size 1 + 1) ∧
      (0 < t.idx2sub idx 2 + k ∧ t.idx2sub idx 2 + k < t.size 2 + 1) ∧
      ¬ (1 = i ∧ 1 = j ∧ 1 = k) ∧
      t.isNull n = false ∧
      n = t.sub2idx (mk3 (t.idx2sub idx 0 + i - 1) (t.idx2sub idx 1 + j - 1) (t.idx2sub idx 2 + k - 1)) := by
  simp only [Grid.nodeNeighbours, List.mem_flatMap, List.mem_range, mem_ite_nil, List.mem_singleton,
    Bool.not_eq_true']
  constructor
  · rintro ⟨i, hi, h1, j, hj, h2, k, hk, h3, h4, h5, h6⟩
    exact ⟨i, j, k, hi, hj, hk, h1, h2, h3, h4, h6 ▸ h5, h6⟩
  · rintro ⟨i, j, k, hi, hj, hk, h1, h2, h3, h4, h5, h6⟩
    exact ⟨i, hi, h1, j, hj, h2, k, hk, h3, h4, h6 ▸ h5, h6⟩

theorem mem_nodeNeighbours (idx : Nat) (hidx : idx < t.nodeCount) (n : Nat) :
    n ∈ t.nodeNeighbours idx ↔
      n < t.nodeCount ∧ t.isNull n = false ∧ Touching (t.idx2sub idx) (t.idx2sub n) := by
  obtain ⟨hx, hs⟩ := sub2idx_idx2sub t idx hidx
  have hs0 := hs 0; have hs1 := hs 1; have hs2 := hs 2
  rw [mem_nodeNeighbours_raw]
  constructor
  · rintro ⟨i, j, k, hi, hj, hk, h1, h2, h3, h4, h5, h6⟩
    have hok : ∀ d, mk3 (t.idx2sub idx 0 + i - 1) (t.idx2sub idx 1 + j - 1)
        (t.idx2sub idx 2 + k - 1) d < t.size d := by
      intro d; fin_cases d <;> simp [mk3] <;> omega
    refine ⟨h6 ▸ sub2idx_lt t _ hok, h5, ?_⟩
    rw [h6, idx2sub_sub2idx t _ hok]
    constructor
    · intro e
      apply h4
      have e0 := congrFun e 0; have e1 := congrFun e 1; have e2 := congrFun e 2
      simp [mk3] at e0 e1 e2
      omega
    · intro d; fin_cases d <;> simp [mk3] <;> omega
  · rintro ⟨hn, h5, hne, ht⟩
    obtain ⟨hy, hr⟩ := sub2idx_idx2sub t n hn
    have t0 := ht 0; have t1 := ht 1; have t2 := ht 2
    have r0 := hr 0; have r1 := hr 1; have r2 := hr 2
    refine ⟨t.idx2sub n 0 + 1 - t.idx2sub idx 0, t.idx2sub n 1 + 1 - t.idx2sub idx 1,
      t.idx2sub n 2 + 1 - t.idx2sub idx 2, by omega, by omega, by omega, by omega, by omega, by omega,
      ?_, h5, ?_⟩
    · rintro ⟨e0, e1, e2⟩
      apply hne
      funext d
      fin_cases d
      · show t.idx2sub idx 0 = t.idx2sub n 0; omega
      · show t.idx2sub idx 1 = t.idx2sub n 1; omega
      · show t.idx2sub idx 2 = t.idx2sub n 2; omega
    · conv_lhs => rw [← hy]
      congr 1
      funext d
      fin_cases d
      · show t.idx2sub n 0 = t.idx2sub idx 0 + (t.idx2sub n 0 + 1 - t.idx2sub idx 0) - 1; omega
      · show t.idx2sub n 1 = t.idx2sub idx 1 + (t.idx2sub n 1 + 1 - t.idx2sub idx 1) - 1; omega
      · show t.idx2sub n 2 = t.idx2sub idx 2 + (t.idx2sub n 2 + 1 - t.idx2sub idx 2) - 1; omega

theorem nodup_flatMap {β γ : Type} {l : List β} {f : β → List γ} (hl : l.Nodup)
    (h1 : ∀ a ∈ l, (f a).Nodup) (h2 : ∀ a ∈ l, ∀ b ∈ l, ∀ x, x ∈ f a → x ∈ f b → a = b) :
    (l.flatMap f).Nodup := by
  induction l with
  | nil => simp
  | cons a l ih =>
    rw [List.flatMap_cons, List.nodup_append]
    have hl' := List.nodup_cons.1 hl
    refine ⟨h1 a (by simp), ih hl'.2 (fun b hb => h1 b (by simp [hb]))
      (fun b hb c hc => h2 b (by simp [hb]) c (by simp [hc])), ?_⟩
    intro x hx y hy e
    subst e
    obtain ⟨b, hb, hxb⟩ := List.mem_flatMap.1 hy
    exact hl'.1 (h2 a (by simp) b (by simp [hb]) x hx hxb ▸ hb)

theorem nodup_ite_nil {β : Type} {c : Prop} [Decidable c] {l : List β} (h : c → l.Nodup) :
    (if c then l else []).Nodup := by
  by_cases hc : c <;> simp [hc, h]

theorem nodup_nodeNeighbours (idx : Nat) (hidx : idx < t.nodeCount) : (t.nodeNeighbours idx).Nodup := by
  obtain ⟨-, hs⟩ := sub2idx_idx2sub t idx hidx
  have hs0 := hs 0; have hs1 := hs 1; have hs2 := hs 2
  -- equal numbers come from equal steps
  have key : ∀ i j k i' j' k' : Nat,
      (0 < t.idx2sub idx 0 + i ∧ t.idx2sub idx 0 + i < t.size 0 + 1) →
      (0 < t.idx2sub idx 1 + j ∧ t.idx2sub idx 1 + j < t.size 1 + 1) →
      (0 < t.idx2sub idx 2 + k ∧ t.idx2sub idx 2 + k < t.size 2 + 1) →
      (0 < t.idx2sub idx 0 + i' ∧ t.idx2sub idx 0 + i' < t.size 0 + 1) →
      (0 < t.idx2sub idx 1 + j' ∧ t.idx2sub idx 1 + j' < t.size 1 + 1) →
      (0 < t.idx2sub idx 2 + k' ∧ t.idx2sub idx 2 + k' < t.size 2 + 1) →
      t.sub2idx (mk3 (t.idx2sub idx 0 + i - 1) (t.idx2sub idx 1 + j - 1) (t.idx2sub idx 2 + k - 1)) =
      t.sub2idx (mk3 (t.idx2sub idx 0 + i' - 1) (t.idx2sub idx 1 + j' - 1) (t.idx2sub idx 2 + k' - 1)) →
      i = i' ∧ j = j' ∧ k = k' := by
    intro i j k i' j' k' a b c a' b' c' e
    have e' := sub2idx_inj t (by intro d; fin_cases d <;> simp [mk3] <;> omega)
      (by intro d; fin_cases d <;> simp [mk3] <;> omega) e
    have e0 := congrFun e' 0; have e1 := congrFun e' 1; have e2 := congrFun e' 2
    simp [mk3] at e0 e1 e2
    omega
  unfold Grid.nodeNeighbours
  refine nodup_flatMap List.nodup_range ?_ ?_
  · intro i _
    refine nodup_ite_nil fun hi => nodup_flatMap List.nodup_range ?_ ?_
    · intro j _
      refine nodup_ite_nil fun hj => nodup_flatMap List.nodup_range ?_ ?_
      · intro k _
        exact nodup_ite_nil fun _ => nodup_ite_nil fun _ => nodup_ite_nil fun _ => by simp
      · intro k _ k' _ x
        simp only [mem_ite_nil, List.mem_singleton]
        rintro ⟨h3, -, -, h6⟩ ⟨h3', -, -, h6'⟩
        exact (key _ _ _ _ _ _ hi hj h3 hi hj h3' (h6 ▸ h6')).2.2
    · intro j _ j' _ x
      simp only [mem_ite_nil, List.mem_flatMap, List.mem_singleton]
      rintro ⟨h2, k, -, h3, -, -, h6⟩ ⟨h2', k', -, h3', -, -, h6'⟩
      exact (key _ _ _ _ _ _ hi h2 h3 hi h2' h3' (h6 ▸ h6')).2.1
  · intro i _ i' _ x
    simp only [mem_ite_nil, List.mem_flatMap, List.mem_singleton]
    rintro ⟨h1, j, -, h2, k, -, h3, -, -, h6⟩ ⟨h1', j', -, h2', k', -, h3', -, -, h6'⟩
    exact (key _ _ _ _ _ _ h1 h2 h3 h1' h2' h3' (h6 ▸ h6')).1

/-! ### the order of centres and intersections -/

theorem getElem?_flatMap_uniform {β γ : Type} (m : Nat) : ∀ (l : List β) (f : β → List γ),
    (∀ a ∈ l, (f a).length = m) → ∀ (q r : Nat), r < m →
      (l.flatMap f)[r + m * q]? = (l[q]?).bind (fun a => (f a)[r]?) := by
  intro l f
  induction l with
  | nil => intro _ q r _; simp
  | cons a l ih =>
    intro h q r hr
    have ha : (f a).length = m := h a (by simp)
    cases q with
    | zero => simp [List.getElem?_append, ha, hr]
    | succ q =>
      rw [List.flatMap_cons, List.getElem?_append_right (by rw [ha, Nat.mul_succ]; omega), ha]
      have : r + m * (q + 1) - m = r + m * q := by rw [Nat.mul_succ]; omega
      rw [this, ih (fun b hb => h b (by simp [hb])) q r hr]
      simp

/-- Indexing the triple loop over `z`, `y`, `x`. -/
theorem triple_getElem? (X Y Z : List ℚ) (i j k : Nat) (hi : i < X.length) (hj : j < Y.length)
    (hk : k < Z.length) :
    (Z.flatMap fun z => Y.flatMap fun y => X.map fun x => (mk3 x y z : Fin 3 → ℚ))[i + X.length * (j + Y.length * k)]? =
      some (mk3 X[i] Y[j] Z[k]) := by
  have e : i + X.length * (j + Y.length * k) = (i + X.length * j) + (X.length * Y.length) * k := by ring
  have hl : ∀ z, (Y.flatMap fun y => X.map fun x => (mk3 x y z : Fin 3 → ℚ)).length = X.length * Y.length := by
    intro z
    simp [List.length_flatMap, Nat.mul_comm]
  rw [e, getElem?_flatMap_uniform (X.length * Y.length) Z _ (fun z _ => hl z) k]
  · rw [List.getElem?_eq_getElem hk, Option.bind_some,
      getElem?_flatMap_uniform X.length Y _ (fun y _ => by simp) j i hi, List.getElem?_eq_getElem hj]
    simp [hi]
  · calc i + X.length * j < X.length * (j + 1) := by rw [Nat.mul_succ]; omega
      _ ≤ _ := Nat.mul_le_mul_left _ hj

theorem triple_length (X Y Z : List ℚ) :
    (Z.flatMap fun z => Y.flatMap fun y => X.map fun x => (mk3 x y z : Fin 3 → ℚ)).length =
      X.length * Y.length * Z.length := by
  simp [List.length_flatMap, Nat.mul_comm]

/-! ### node_subscript -/

theorem onBoundary_cases (near : ℚ → ℚ → Bool) (edges : List ℚ) (x : ℚ) (i : Nat) :
    (onBoundary near edges x i = 1 ∧ i + 2 < edges.length ∧ near (edges.getD (i + 1) 0) x = true) ∨
    (onBoundary near edges x i = -1 ∧ 0 < i ∧ near (edges.getD i 0) x = true) ∨
    onBoundary near edges x i = 0 := by
  unfold onBoundary
  by_cases h : i + 2 < edges.length ∧ near (edges.getD (i + 1) 0) x = true
  · left; rw [if_pos h]; exact ⟨rfl, h⟩
  · by_cases h2 : 0 < i ∧ near (edges.getD i 0) x = true
    · right; left; rw [if_neg h, if_pos h2]; exact ⟨rfl, h2⟩
    · right; right; rw [if_neg h, if_neg h2]

theorem findBin_lt {edges : List ℚ} (h : edges ≠ []) (x : ℚ) : findBin edges x < edges.length := by
  cases edges with
  | nil => exact absurd rfl h
  | cons f l =>
    have hle : (f :: l).findIdx (fun b => decide (x < b)) ≤ (f :: l).length := List.findIdx_le_length
    simp only [findBin]
    generalize (f :: l).findIdx (fun b => decide (x < b)) = d at hle ⊢
    simp only [List.length_cons] at hle ⊢
    split_ifs <;> omega

theorem inBin_findBin {edges : List ℚ} (hinc : Increasing edges) {x : ℚ}
    (hlo : ∃ f, edges.head? = some f ∧ f ≤ x) (hhi : ∃ b ∈ edges, x < b) :
    InBin edges (findBin edges x) x := by
  obtain ⟨f, hf, hfx⟩ := hlo
  obtain ⟨b, hb, hxb⟩ := hhi
  have hlt : edges.findIdx (fun b => decide (x < b)) < edges.length :=
    List.findIdx_lt_length_of_exists ⟨b, hb, by simpa using hxb⟩
  obtain ⟨d, hd⟩ : ∃ d, edges.findIdx (fun b => decide (x < b)) = d := ⟨_, rfl⟩
  rw [hd] at hlt
  obtain ⟨h1, h2⟩ := (List.findIdx_eq hlt).1 hd
  have hd0 : d ≠ 0 := by
    rintro rfl
    cases edges with
    | nil => simp at hf
    | cons g l =>
      simp at hf h1
      subst hf
      exact absurd h1 (not_lt.2 hfx)
  obtain ⟨i, rfl⟩ := Nat.exists_eq_succ_of_ne_zero hd0
  have hib : InBin edges i x := by
    refine ⟨edges[i], edges[i + 1], List.getElem?_eq_getElem _, List.getElem?_eq_getElem hlt, ?_, ?_⟩
    · have := h2 i (Nat.lt_succ_self i)
      simpa using this
    · simpa using h1
  rw [findBin_spec hinc hib]
  exact hib

/-- The subscript after the steps chosen by `m`. -/
def masked (sub close : Fin 3 → Int) (m : Fin 3 → Bool) : Fin 3 → Int :=
  fun d => if m d then sub d + close d else sub d

theorem fin3_ext {β : Type} {a b : Fin 3 → β} (h0 : a 0 = b 0) (h1 : a 1 = b 1) (h2 : a 2 = b 2) :
    a = b := by
  funext d
  fin_cases d
  · exact h0
  · exact h1
  · exact h2

theorem masked_mem (sub close : Fin 3 → Int) (m : Fin 3 → Bool) :
    masked sub close m = sub ∨ masked sub close m ∈ candidates sub close := by
  -- steps along axes that are not close change nothing
  let m' : Fin 3 → Bool := fun d => m d && decide (close d ≠ 0)
  have hm : masked sub close m = masked sub close m' := by
    funext d
    by_cases h : m d = true <;> by_cases hc : close d = 0 <;> simp [masked, m', h, hc]
  have hc : ∀ d, m' d = true → close d ≠ 0 := by
    intro d h; simp [m'] at h; exact h.2
  rw [hm]
  clear_value m'
  have hcount : (List.finRange 3).countP (fun i => decide (close i ≠ 0)) =
      (if close 0 ≠ 0 then 1 else 0) + (if close 1 ≠ 0 then 1 else 0) + (if close 2 ≠ 0 then 1 else 0) := by
    simp [List.finRange_succ, List.countP_cons]
    split <;> split <;> split <;> rfl
  have hone : ∀ i, close i ≠ 0 → bump sub close i ∈ candidates sub close := by
    intro i hi
    have : 0 < (List.finRange 3).countP (fun i => decide (close i ≠ 0)) :=
      List.countP_pos_iff.2 ⟨i, List.mem_finRange i, by simpa using hi⟩
    simp only [candidates, this, if_true, List.mem_append, List.mem_map, List.mem_filter]
    exact Or.inl (Or.inl ⟨i, ⟨List.mem_finRange i, by simpa using hi⟩, rfl⟩)
  have htwo : ∀ i j, i ≠ j → close i ≠ 0 → close j ≠ 0 →
      bump (bump sub close i) close j ∈ candidates sub close := by
    intro i j hij hi hj
    have : 1 < (List.finRange 3).countP (fun i => decide (close i ≠ 0)) := by
      rw [hcount]
      fin_cases i <;> fin_cases j <;> simp_all <;> split <;> simp
    simp only [candidates, this, if_true, List.mem_append, List.mem_map, List.mem_flatMap, List.mem_filter]
    exact Or.inl (Or.inr ⟨i, ⟨List.mem_finRange i, by simpa using hi⟩, j,
      ⟨List.mem_finRange j, by simpa using hj⟩, rfl⟩)
  have hthree : close 0 ≠ 0 → close 1 ≠ 0 → close 2 ≠ 0 →
      (fun d => sub d + close d) ∈ candidates sub close := by
    intro h0 h1 h2
    have : 2 < (List.finRange 3).countP (fun i => decide (close i ≠ 0)) := by
      rw [hcount]; simp [h0, h1, h2]
    simp only [candidates, this, if_true, List.mem_append]
    exact Or.inr (by simp)
  cases e0 : m' 0 <;> cases e1 : m' 1 <;> cases e2 : m' 2
  · left; apply fin3_ext <;> simp [masked, e0, e1, e2]
  · right
    have := hone 2 (hc 2 e2)
    rwa [show masked sub close m' = bump sub close 2 by apply fin3_ext <;> simp [masked, bump, e0, e1, e2]]
  · right
    have := hone 1 (hc 1 e1)
    rwa [show masked sub close m' = bump sub close 1 by apply fin3_ext <;> simp [masked, bump, e0, e1, e2]]
  · right
    have := htwo 1 2 (by decide) (hc 1 e1) (hc 2 e2)
    rwa [show masked sub close m' = bump (bump sub close 1) close 2 by apply fin3_ext <;> simp [masked, bump, e0, e1, e2]]
  · right
    have := hone 0 (hc 0 e0)
    rwa [show masked sub close m' = bump sub close 0 by apply fin3_ext <;> simp [masked, bump, e0, e1, e2]]
  · right
    have := htwo 0 2 (by decide) (hc 0 e0) (hc 2 e2)
    rwa [show masked sub close m' = bump (bump sub close 0) close 2 by apply fin3_ext <;> simp [masked, bump, e0, e1, e2]]
  · right
    have := htwo 0 1 (by decide) (hc 0 e0) (hc 1 e1)
    rwa [show masked sub close m' = bump (bump sub close 0) close 1 by apply fin3_ext <;> simp [masked, bump, e0, e1, e2]]
  · right
    have := hthree (hc 0 e0) (hc 1 e1) (hc 2 e2)
    rwa [show masked sub close m' = fun d => sub d + close d by apply fin3_ext <;> simp [masked, e0, e1, e2]]

theorem candidates_cases (sub close s : Fin 3 → Int) (h : s ∈ candidates sub close) (d : Fin 3) :
    s d = sub d ∨ s d = sub d + close d ∨ s d = sub d + close d + close d := by
  simp only [candidates, List.mem_append, mem_ite_nil, List.mem_map, List.mem_flatMap, List.mem_filter,
    List.mem_singleton] at h
  rcases h with ((⟨-, i, -, rfl⟩ | ⟨-, i, -, j, -, rfl⟩) | ⟨-, rfl⟩)
  · by_cases e : d = i
    · subst e; right; left; simp [bump]
    · left; simp [bump, e]
  · by_cases e : d = i <;> by_cases e' : d = j
    · subst e; subst e'; right; right; simp [bump]
    · subst e; right; left; simp [bump, e']
    · subst e'; right; left; simp [bump, e]
    · left; simp [bump, e, e']
  · right; left; rfl

theorem nodeSubscript_cases (near : ℚ → ℚ → Bool) (x : Fin 3 → ℚ) :
    let sub : Fin 3 → Int := fun d => (findBin (t.knots d) (x d) : Int)
    let close : Fin 3 → Int := fun d => onBoundary near (t.knots d) (x d) (findBin (t.knots d) (x d))
    (t.okNotNull (t.nodeSubscript near x) = true ∧
      (t.nodeSubscript near x = sub ∨ t.nodeSubscript near x ∈ candidates sub close)) ∨
    (t.nodeSubscript near x = sub ∧ t.okNotNull sub = false ∧
      ∀ s ∈ candidates sub close, t.okNotNull s = false) := by
  intro sub close
  have hdef : t.nodeSubscript near x = if t.okNotNull sub then sub else
      match (candidates sub close).find? t.okNotNull with
      | some s => s
      | none => sub := rfl
  by_cases h : t.okNotNull sub = true
  · left; rw [hdef, if_pos h]; exact ⟨h, Or.inl rfl⟩
  · rw [hdef, if_neg h]
    cases hf : (candidates sub close).find? t.okNotNull with
    | some s =>
      left
      exact ⟨List.find?_some hf, Or.inr (List.mem_of_find?_eq_some hf)⟩
    | none =>
      right
      refine ⟨rfl, by simpa using h, fun s hs => ?_⟩
      have := List.find?_eq_none.1 hf s hs
      simpa using this

end Brille.Trellis
