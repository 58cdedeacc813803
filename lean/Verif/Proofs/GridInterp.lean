import Verif.Model.GridInterp
import Verif.Spec.Interpolate
import Mathlib.Tactic.Ring
import Mathlib.Tactic.Linarith

namespace Brille.GridInterp
open Brille.Fill Brille.Spec

section
variable {K : Type} [Semiring K]

/-- a loop over `0 … n-1` keeps an invariant -/
theorem foldlM_range {σ : Type} (f : σ → Nat → Option σ) (P : Nat → σ → Prop) (n : Nat) (s : σ) (h0 : P 0 s)
    (hs : ∀ k s, k < n → P k s → ∃ s', f s k = some s' ∧ P (k + 1) s') :
    ∃ s', (List.range n).foldlM f s = some s' ∧ P n s' := by
  induction n with
  | zero => exact ⟨s, rfl, h0⟩
  | succ n ih =>
    obtain ⟨s1, h1, h2⟩ := ih (fun k s hk => hs k s (by omega))
    obtain ⟨s2, h3, h4⟩ := hs n s1 (by omega) h2
    refine ⟨s2, ?_, h4⟩
    rw [List.range_succ, List.foldlM_append, h1]
    simp [h3]

theorem spanInto_spec (h : Held K) (w e : K) (src dst : Nat) (o : Buf K)
    (hsrc : src + h.elements.span ≤ h.rows * h.cols) (hdst : dst + h.elements.span ≤ o.size) :
    ∃ o', spanInto h w e src dst o = some o' ∧ o'.size = o.size ∧
      (∀ s, s < h.elements.span → o'.val (dst + s) = o.val (dst + s) + w * e * h.mem (src + s)) ∧
      ∀ k, (k < dst ∨ dst + h.elements.span ≤ k) → o'.val k = o.val k := by
  obtain ⟨o', h1, h2, h3, h4⟩ := foldlM_range
    (fun o s => (read h (src + s)).bind fun x => o.add (dst + s) (w * e * x))
    (fun m o' => o'.size = o.size ∧
      (∀ s, s < m → o'.val (dst + s) = o.val (dst + s) + w * e * h.mem (src + s)) ∧
      ∀ k, (k < dst ∨ dst + m ≤ k) → o'.val k = o.val k) h.elements.span o ⟨rfl, by simp, by simp⟩ (by
    rintro k o1 hk ⟨a1, a2, a3⟩
    have hr : read h (src + k) = some (h.mem (src + k)) := by rw [read, if_pos (by omega)]
    refine ⟨{ o1 with val := fun j => if j = dst + k then o1.val j + w * e * h.mem (src + k) else o1.val j },
      ?_, a1, ?_, ?_⟩
    · simp only [hr, Option.bind_some, Buf.add]
      rw [if_pos (by omega)]
    · intro s hs
      simp only
      by_cases hsk : s = k
      · subst hsk
        rw [if_pos rfl, a3 _ (by omega)]
      · rw [if_neg (by omega), a2 s (by omega)]
    · intro j hj
      simp only
      rw [if_neg (by omega), a3 j (by omega)])
  exact ⟨o', h1, h2, h3, h4⟩

/-- the factor as a function -/
def factorOf (h : Held K) (phase : Option (Nat → (Nat → K) → (Nat → K) → K)) (a b : Nat) : K :=
  match phase with
  | none => 1
  | some f => f h.elements.span (fun k => h.mem (a + k)) (fun k => h.mem (b + k))

/-- the data are stored without gaps -/
def Tight (h : Held K) : Prop := h.cols = h.branches * h.elements.span

theorem in_row {rows cols branches span i b : Nat} (ht : cols = branches * span) (hi : i < rows) (hb : b < branches) :
    i * cols + b * span + span ≤ rows * cols := by
  have h1 : (b + 1) * span ≤ branches * span := Nat.mul_le_mul_right _ hb
  have h2 : (i + 1) * cols ≤ rows * cols := Nat.mul_le_mul_right _ hi
  rw [Nat.add_mul] at h1 h2
  omega

theorem branchInto_spec (h : Held K) (phase : Option (Nat → (Nat → K) → (Nat → K) → K)) (perm : List Nat) (w : K)
    (i0 i ox : Nat) (o : Buf K) (ht : Tight h) (h0 : i0 < h.rows) (hi : i < h.rows)
    (hp : ModeMap h.branches perm) (hox : ox + h.branches * h.elements.span ≤ o.size) :
    ∃ o', branchInto h phase perm w i0 i ox o = some o' ∧ o'.size = o.size ∧
      (∀ b s, b < h.branches → s < h.elements.span →
        o'.val (ox + (b * h.elements.span + s)) = o.val (ox + (b * h.elements.span + s)) +
          w * factorOf h phase (i0 * h.cols + b * h.elements.span) (i * h.cols + perm.getD b 0 * h.elements.span) *
          h.mem (i * h.cols + (perm.getD b 0 * h.elements.span + s))) ∧
      ∀ k, (k < ox ∨ ox + h.branches * h.elements.span ≤ k) → o'.val k = o.val k := by
  obtain ⟨o', h1, h2, h3, h4⟩ := foldlM_range
    (fun o b => (perm[b]?).bind fun p =>
      (factor h phase (i0 * h.cols + b * h.elements.span) (i * h.cols + p * h.elements.span)).bind fun e =>
        spanInto h w e (i * h.cols + p * h.elements.span) (ox + b * h.elements.span) o)
    (fun m o' => o'.size = o.size ∧
      (∀ b s, b < m → s < h.elements.span →
        o'.val (ox + (b * h.elements.span + s)) = o.val (ox + (b * h.elements.span + s)) +
          w * factorOf h phase (i0 * h.cols + b * h.elements.span) (i * h.cols + perm.getD b 0 * h.elements.span) *
          h.mem (i * h.cols + (perm.getD b 0 * h.elements.span + s))) ∧
      ∀ k, (k < ox ∨ ox + m * h.elements.span ≤ k) → o'.val k = o.val k) h.branches o
    ⟨rfl, by simp, by simp⟩ (by
    rintro b o1 hb ⟨a1, a2, a3⟩
    have hbl : b < perm.length := by rw [hp.1]; exact hb
    have hget : perm[b]? = some (perm.getD b 0) := by simp [List.getD, hbl]
    have hpb : perm.getD b 0 < h.branches := by
      have : perm.getD b 0 = perm[b] := by simp [List.getD, hbl]
      rw [this]; exact hp.2 _ (List.getElem_mem hbl)
    generalize perm.getD b 0 = p at hget hpb
    have hsrc := in_row ht hi hpb
    have hsrc0 := in_row ht h0 hb
    have hfac : factor h phase (i0 * h.cols + b * h.elements.span) (i * h.cols + p * h.elements.span) =
        some (factorOf h phase (i0 * h.cols + b * h.elements.span) (i * h.cols + p * h.elements.span)) := by
      cases phase with
      | none => rfl
      | some f => simp only [factor, factorOf]; rw [if_pos (Or.inr ⟨hsrc0, hsrc⟩)]
    have hb1 : (b + 1) * h.elements.span ≤ h.branches * h.elements.span := Nat.mul_le_mul_right _ hb
    rw [Nat.add_mul] at hb1
    obtain ⟨o2, b1, b2, b3, b4⟩ := spanInto_spec h w
      (factorOf h phase (i0 * h.cols + b * h.elements.span) (i * h.cols + p * h.elements.span))
      (i * h.cols + p * h.elements.span) (ox + b * h.elements.span) o1 hsrc (by omega)
    refine ⟨o2, ?_, b2.trans a1, ?_, ?_⟩
    · simp only [hget, Option.bind_some, hfac, b1]
    · intro c s hc hs
      by_cases hcb : c = b
      · subst hcb
        have e1 : perm.getD c 0 = p := by
          rw [List.getD, hget]; rfl
        rw [e1, ← Nat.add_assoc, b3 s hs, a3 _ (by omega), Nat.add_assoc (i * h.cols)]
      · have hc1 : (c + 1) * h.elements.span ≤ b * h.elements.span := Nat.mul_le_mul_right _ (by omega)
        rw [Nat.add_mul] at hc1
        rw [b4 _ (by omega), a2 c s (by omega) hs]
    · intro k hk
      rw [Nat.add_mul] at hk
      rw [b4 k (by omega), a3 k (by omega)])
  exact ⟨o', h1, h2, h3, h4⟩

/-- the vertices of an interpolation with their permutations -/
def contribution (h : Held K) (phase : Option (Nat → (Nat → K) → (Nat → K) → K)) (i0 b s : Nat)
    (x : List Nat × Nat × K) : K :=
  x.2.2 * factorOf h phase (i0 * h.cols + b * h.elements.span) (x.2.1 * h.cols + x.1.getD b 0 * h.elements.span) *
    h.mem (x.2.1 * h.cols + (x.1.getD b 0 * h.elements.span + s))

theorem vertexInto_spec (h : Held K) (phase : Option (Nat → (Nat → K) → (Nat → K) → K)) (i0 ox : Nat)
    (ht : Tight h) (h0 : i0 < h.rows) (perms : List (List Nat)) (iw : List (Nat × K)) (o : Buf K)
    (hl : perms.length = iw.length) (hp : ∀ p ∈ perms, ModeMap h.branches p) (hi : ∀ x ∈ iw, x.1 < h.rows)
    (hox : ox + h.branches * h.elements.span ≤ o.size) :
    ∃ o', vertexInto h phase i0 ox perms iw o = some o' ∧ o'.size = o.size ∧
      (∀ b s, b < h.branches → s < h.elements.span →
        o'.val (ox + (b * h.elements.span + s)) = o.val (ox + (b * h.elements.span + s)) +
          ((perms.zip iw).map (contribution h phase i0 b s)).sum) ∧
      ∀ k, (k < ox ∨ ox + h.branches * h.elements.span ≤ k) → o'.val k = o.val k := by
  induction iw generalizing perms o with
  | nil => exact ⟨o, by cases perms <;> rfl, rfl, by simp, fun _ _ => rfl⟩
  | cons x iw ih =>
    cases perms with
    | nil => simp at hl
    | cons p ps =>
      obtain ⟨o1, a1, a2, a3, a4⟩ := branchInto_spec h phase p x.2 i0 x.1 ox o ht h0 (hi x (by simp))
        (hp p (by simp)) hox
      obtain ⟨o2, b1, b2, b3, b4⟩ := ih ps o1 (by simpa using hl) (fun q hq => hp q (by simp [hq]))
        (fun y hy => hi y (by simp [hy])) (by rw [a2]; exact hox)
      refine ⟨o2, ?_, b2.trans a2, ?_, ?_⟩
      · simp only [vertexInto, a1, Option.bind_some, b1]
      · intro b s hb hs
        rw [b3 b s hb hs, a3 b s hb hs, List.zip_cons_cons, List.map_cons, List.sum_cons, add_assoc]
        rfl
      · intro k hk
        rw [b4 k hk, a4 k hk]

end

section
variable {W T R : Type} [Semiring T] [Semiring R]

/-- what one point needs -/
structure PointOk (g : Grid T R) (iw : List (Nat × W)) : Prop where
  found : iw ≠ []
  inside : ∀ x ∈ iw, x.1 < g.values.rows ∧ x.1 < g.vectors.rows

/-- what the table has to give -/
def TableOk (g : Grid T R) : Prop :=
  ∀ i j, ∃ p, PermTable.safeGet g.table i j = some p ∧ ModeMap g.values.branches p ∧ ModeMap g.vectors.branches p

/-- the permutations used for a point -/
def permsFor (t : PermTable.Table) (iw : List (Nat × W)) : List (List Nat) :=
  iw.map fun x => (PermTable.safeGet t ((iw.map Prod.fst).headD 0) x.1).getD []

omit [Semiring T] [Semiring R] in
theorem getPermutations_ok {g : Grid T R} (ht : TableOk g) {iw : List (Nat × W)} (hne : iw ≠ []) :
    Interp.getPermutations g.table iw = some (permsFor g.table iw) ∧
      (permsFor g.table iw).length = iw.length ∧
      ∀ p ∈ permsFor g.table iw, ModeMap g.values.branches p ∧ ModeMap g.vectors.branches p := by
  cases iw with
  | nil => exact absurd rfl hne
  | cons x iw =>
    refine ⟨?_, by simp [permsFor], ?_⟩
    · simp only [Interp.getPermutations, permsFor, List.map_cons, List.headD_cons]
      have : ∀ l : List (Nat × W), l.mapM (fun y => PermTable.safeGet g.table x.1 y.1) =
          some (l.map fun y => (PermTable.safeGet g.table x.1 y.1).getD []) := by
        intro l
        induction l with
        | nil => rfl
        | cons a l ih =>
          obtain ⟨p, hp, _⟩ := ht x.1 a.1
          rw [List.mapM_cons, hp, ih]
          simp [hp]
      rw [this]
      simp
    · intro p hp
      simp only [permsFor, List.mem_map] at hp
      obtain ⟨y, _, rfl⟩ := hp
      obtain ⟨q, hq, hm⟩ := ht (((x :: iw).map Prod.fst).headD 0) y.1
      rw [hq]; exact hm

/-- the interpolated element of a mode -/
def resultOf {K : Type} [Semiring K] (h : Held K) (phase : Option (Nat → (Nat → K) → (Nat → K) → K))
    (t : PermTable.Table) (iw : List (Nat × W)) (wt : W → K) (b s : Nat) : K :=
  (((permsFor t iw).zip (iw.map fun x => (x.1, wt x.2))).map
    (contribution h phase ((iw.map Prod.fst).headD 0) b s)).sum

theorem dualInto_spec (c : Numeric W T R) (g : Grid T R) (iw : List (Nat × W)) (i : Nat) (o : Buf T × Buf R)
    (hv : Tight g.values) (hw : Tight g.vectors) (ht : TableOk g) (hi : PointOk g iw)
    (h1 : i * g.values.cols + g.values.cols ≤ o.1.size) (h2 : i * g.vectors.cols + g.vectors.cols ≤ o.2.size) :
    ∃ o', dualInto c g iw g.values.cols g.vectors.cols i o = some o' ∧ o'.1.size = o.1.size ∧ o'.2.size = o.2.size ∧
      (∀ b s, b < g.values.branches → s < g.values.elements.span →
        o'.1.val (i * g.values.cols + (b * g.values.elements.span + s)) =
          o.1.val (i * g.values.cols + (b * g.values.elements.span + s)) +
          resultOf g.values none g.table iw c.weightT b s) ∧
      (∀ b s, b < g.vectors.branches → s < g.vectors.elements.span →
        o'.2.val (i * g.vectors.cols + (b * g.vectors.elements.span + s)) =
          o.2.val (i * g.vectors.cols + (b * g.vectors.elements.span + s)) +
          resultOf g.vectors (some c.phase) g.table iw c.weightR b s) ∧
      (∀ k, (k < i * g.values.cols ∨ i * g.values.cols + g.values.cols ≤ k) → o'.1.val k = o.1.val k) ∧
      (∀ k, (k < i * g.vectors.cols ∨ i * g.vectors.cols + g.vectors.cols ≤ k) → o'.2.val k = o.2.val k) := by
  obtain ⟨e1, e2, e3⟩ := getPermutations_ok ht hi.found
  obtain ⟨x, rest, rfl⟩ : ∃ x rest, iw = x :: rest := by
    cases iw with
    | nil => exact absurd rfl hi.found
    | cons x r => exact ⟨x, r, rfl⟩
  obtain ⟨v, a1, a2, a3, a4⟩ := vertexInto_spec g.values none x.1 (i * g.values.cols) hv (hi.inside x (by simp)).1
    (permsFor g.table (x :: rest)) ((x :: rest).map fun y => (y.1, c.weightT y.2)) o.1 (by simpa using e2)
    (fun p hp => (e3 p hp).1) (by
      intro y hy
      simp only [List.mem_map] at hy
      obtain ⟨z, hz, rfl⟩ := hy
      exact (hi.inside z hz).1) (by rw [← hv]; exact h1)
  obtain ⟨w, b1, b2, b3, b4⟩ := vertexInto_spec g.vectors (some c.phase) x.1 (i * g.vectors.cols) hw
    (hi.inside x (by simp)).2
    (permsFor g.table (x :: rest)) ((x :: rest).map fun y => (y.1, c.weightR y.2)) o.2 (by simpa using e2)
    (fun p hp => (e3 p hp).2) (by
      intro y hy
      simp only [List.mem_map] at hy
      obtain ⟨z, hz, rfl⟩ := hy
      exact (hi.inside z hz).2) (by rw [← hw]; exact h2)
  refine ⟨(v, w), ?_, a2, b2, ?_, ?_, ?_, ?_⟩
  · simp only [dualInto, e1, Option.bind_some, List.map_cons, mixInto]
    simp only [List.map_cons] at a1 b1
    rw [a1, Option.bind_some, b1]
    rfl
  · intro b s hb hs
    rw [a3 b s hb hs]; rfl
  · intro b s hb hs
    rw [b3 b s hb hs]; rfl
  · intro k hk; exact a4 k (by rw [← hv]; exact hk)
  · intro k hk; exact b4 k (by rw [← hw]; exact hk)

/-- the loop over the points -/
theorem points_spec (kind : Kind) (c : Numeric W T R) (g : Grid T R) (locate : Nat → List (Nat × W)) (n : Nat)
    (hv : Tight g.values) (hw : Tight g.vectors) (ht : TableOk g) (hloc : ∀ i, i < n → PointOk g (locate i))
    (o : Buf T × Buf R) (h1 : n * g.values.cols ≤ o.1.size) (h2 : n * g.vectors.cols ≤ o.2.size) :
    ∀ m, m ≤ n → ∃ o', points kind c g locate g.values.cols g.vectors.cols (List.range m) o = .ok o' ∧
      o'.1.size = o.1.size ∧ o'.2.size = o.2.size ∧
      (∀ i b s, i < m → b < g.values.branches → s < g.values.elements.span →
        o'.1.val (i * g.values.cols + (b * g.values.elements.span + s)) =
          o.1.val (i * g.values.cols + (b * g.values.elements.span + s)) +
          resultOf g.values none g.table (locate i) c.weightT b s) ∧
      (∀ i b s, i < m → b < g.vectors.branches → s < g.vectors.elements.span →
        o'.2.val (i * g.vectors.cols + (b * g.vectors.elements.span + s)) =
          o.2.val (i * g.vectors.cols + (b * g.vectors.elements.span + s)) +
          resultOf g.vectors (some c.phase) g.table (locate i) c.weightR b s) ∧
      (∀ k, m * g.values.cols ≤ k → o'.1.val k = o.1.val k) ∧
      (∀ k, m * g.vectors.cols ≤ k → o'.2.val k = o.2.val k) := by
  have happ : ∀ (l : List Nat) (j : Nat) (o o1 : Buf T × Buf R),
      points kind c g locate g.values.cols g.vectors.cols l o = .ok o1 → locate j ≠ [] →
      points kind c g locate g.values.cols g.vectors.cols (l ++ [j]) o =
        match dualInto c g (locate j) g.values.cols g.vectors.cols j o1 with
        | none => .error .ub
        | some o2 => .ok o2 := by
    intro l
    induction l with
    | nil =>
      intro j o o1 ho hj
      simp only [points, Except.ok.injEq] at ho
      subst ho
      simp only [List.nil_append, points]
      all_goals
        split
        · rename_i hh; exact absurd hh hj
        · cases dualInto c g (locate j) g.values.cols g.vectors.cols j o <;> rfl
    | cons a l ih =>
      intro j o o1 ho hj
      simp only [List.cons_append, points] at ho ⊢
      generalize locate a = la at ho ⊢
      cases hd : dualInto c g la g.values.cols g.vectors.cols a o with
      | none =>
        cases la <;> cases kind <;> simp only [hd] at ho <;> cases ho
      | some o2 =>
        cases la <;> cases kind <;> simp only [hd] at ho ⊢ <;> first | exact ih j _ _ ho hj | cases ho
  intro m
  induction m with
  | zero =>
    intro _
    exact ⟨o, rfl, rfl, rfl, by simp, by simp, fun _ _ => rfl, fun _ _ => rfl⟩
  | succ m ih =>
    intro hm
    obtain ⟨o1, a1, a2, a3, a4, a5, a6, a7⟩ := ih (by omega)
    have hP := hloc m (by omega)
    have k1 : (m + 1) * g.values.cols ≤ n * g.values.cols := Nat.mul_le_mul_right _ hm
    have k2 : (m + 1) * g.vectors.cols ≤ n * g.vectors.cols := Nat.mul_le_mul_right _ hm
    rw [Nat.add_mul, Nat.one_mul] at k1 k2
    obtain ⟨o2, b1, b2, b3, b4, b5, b6, b7⟩ := dualInto_spec c g (locate m) m o1 hv hw ht hP
      (by rw [a2]; exact k1.trans h1) (by rw [a3]; exact k2.trans h2)
    refine ⟨o2, ?_, b2.trans a2, b3.trans a3, ?_, ?_, ?_, ?_⟩
    · rw [List.range_succ, happ _ m o o1 a1 hP.found, b1]
    · intro i b s hi hb hs
      have hr := in_row hv (show i < i + 1 by omega) hb
      by_cases him : i = m
      · subst him
        rw [b4 b s hb hs]
        rw [a6 _ (by omega)]
      · have hle : (i + 1) * g.values.cols ≤ m * g.values.cols := Nat.mul_le_mul_right _ (by omega)
        rw [b6 _ (by omega), a4 i b s (by omega) hb hs]
    · intro i b s hi hb hs
      have hr := in_row hw (show i < i + 1 by omega) hb
      by_cases him : i = m
      · subst him
        rw [b5 b s hb hs]
        rw [a7 _ (by omega)]
      · have hle : (i + 1) * g.vectors.cols ≤ m * g.vectors.cols := Nat.mul_le_mul_right _ (by omega)
        rw [b7 _ (by omega), a5 i b s (by omega) hb hs]
    · intro k hk
      rw [Nat.add_mul, Nat.one_mul] at hk
      rw [b6 k (by omega), a6 k (by omega)]
    · intro k hk
      rw [Nat.add_mul, Nat.one_mul] at hk
      rw [b7 k (by omega), a7 k (by omega)]

end

end Brille.GridInterp
