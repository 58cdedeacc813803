import Verif.Model.Munkres
import Mathlib.Data.Fintype.Card
import Mathlib.Data.Fintype.Fin
import Mathlib.Algebra.Order.BigOperators.Group.Finset
import Mathlib.Data.Fintype.EquivFin
import Mathlib.Tactic.Abel

namespace Brille.Munkres

set_option linter.unusedSectionVars false

variable {N : Nat} {K : Type}

/-! ### the alternating path -/

inductive AltPath (mask : Fin N → Fin N → Mark) : Fin N → List (Fin N × Fin N) → Prop
  | nil {c} : (∀ r, mask r c ≠ .stared) → AltPath mask c []
  | cons {r c c' P} : mask r c = .stared → mask r c' = .primed → AltPath mask c' P →
      AltPath mask c ((r, c) :: (r, c') :: P)

structure MaskOk (mask : Fin N → Fin N → Mark) (rank : Fin N → Nat) (r0 : Fin N) : Prop where
  starRow : ∀ r c c', mask r c = .stared → mask r c' = .stared → c = c'
  starCol : ∀ r r' c, mask r c = .stared → mask r' c = .stared → r = r'
  primeRow : ∀ r c c', mask r c = .primed → mask r c' = .primed → c = c'
  noStar : ∀ c, mask r0 c ≠ .stared
  primed : ∀ r r' c, mask r' c = .primed → mask r c = .stared → ∃ c', mask r c' = .primed
  rank : ∀ r r' c, r ≠ r0 → mask r c = .primed → mask r' c = .stared → rank r' < rank r

section
variable {mask : Fin N → Fin N → Mark} {rank : Fin N → Nat} {r0 : Fin N}

theorem AltPath.lt (h : MaskOk mask rank r0) {c : Fin N} {P : List (Fin N × Fin N)}
    (hp : AltPath mask c P) : ∀ b, (∀ r, mask r c = .stared → rank r < b) → ∀ p ∈ P, rank p.1 < b := by
  induction hp with
  | nil _ => simp
  | @cons r c c' P h1 h2 h3 ih =>
    intro b hb p hp
    have hr : r ≠ r0 := by rintro rfl; exact h.noStar _ h1
    simp only [List.mem_cons] at hp
    rcases hp with rfl | rfl | hp
    · exact hb _ h1
    · exact hb _ h1
    · exact lt_trans (ih (rank r) (fun r' hr' => h.rank r r' c' hr h2 hr') p hp) (hb _ h1)

theorem AltPath.tail_lt (h : MaskOk mask rank r0) {r c c' : Fin N} {P : List (Fin N × Fin N)}
    (h1 : mask r c = .stared) (h2 : mask r c' = .primed) (h3 : AltPath mask c' P) :
    ∀ p ∈ P, rank p.1 < rank r := by
  have hr : r ≠ r0 := by rintro rfl; exact h.noStar _ h1
  exact h3.lt h (rank r) (fun r' hr' => h.rank r r' c' hr h2 hr')

theorem AltPath.nodup (h : MaskOk mask rank r0) {c : Fin N} {P : List (Fin N × Fin N)}
    (hp : AltPath mask c P) : P.Nodup := by
  induction hp with
  | nil _ => simp
  | @cons r c c' P h1 h2 h3 ih =>
    have hlt := AltPath.tail_lt h h1 h2 h3
    have hn : ∀ x, (r, x) ∉ P := fun x hx => absurd (hlt _ hx) (lt_irrefl _)
    simp only [List.nodup_cons, List.mem_cons, not_or]
    refine ⟨⟨?_, hn c⟩, hn c', ih⟩
    intro he
    rw [Prod.mk.injEq] at he
    rw [he.2, h2] at h1
    cases h1

theorem AltPath.cell {c : Fin N} {P : List (Fin N × Fin N)}
    (hp : AltPath mask c P) : ∀ p ∈ P, (∃ x, mask p.1 x = .stared ∧ (p.1, x) ∈ P) ∧
      ∃ x, mask p.1 x = .primed ∧ (p.1, x) ∈ P := by
  induction hp with
  | nil _ => simp
  | @cons r c c' P h1 h2 h3 ih =>
    intro p hp
    simp only [List.mem_cons] at hp
    rcases hp with rfl | rfl | hp
    · exact ⟨⟨c, h1, by simp⟩, ⟨c', h2, by simp⟩⟩
    · exact ⟨⟨c, h1, by simp⟩, ⟨c', h2, by simp⟩⟩
    · obtain ⟨⟨x, hx, hx'⟩, ⟨y, hy, hy'⟩⟩ := ih p hp
      exact ⟨⟨x, hx, by simp [hx']⟩, ⟨y, hy, by simp [hy']⟩⟩

theorem AltPath.first (h : MaskOk mask rank r0) {c : Fin N} {P : List (Fin N × Fin N)}
    (hp : AltPath mask c P) : ∀ r, mask r c = .stared → (r, c) ∈ P := by
  intro r hr
  cases hp with
  | nil hn => exact absurd hr (hn r)
  | cons h1 h2 h3 => rw [h.starCol _ _ _ hr h1]; simp

theorem AltPath.star_col (h : MaskOk mask rank r0) {c : Fin N} {P : List (Fin N × Fin N)}
    (hp : AltPath mask c P) : ∀ p ∈ P, mask p.1 p.2 = .primed → ∀ r, mask r p.2 = .stared → (r, p.2) ∈ P := by
  induction hp with
  | nil _ => simp
  | @cons r c c' P h1 h2 h3 ih =>
    intro p hp hpp r' hr'
    simp only [List.mem_cons] at hp
    rcases hp with rfl | rfl | hp
    · dsimp only at hpp; rw [h1] at hpp; cases hpp
    · dsimp only at *
      have := h3.first h r' hr'
      simp [this]
    · have := ih p hp hpp r' hr'
      simp [this]

theorem AltPath.no_prime (h : MaskOk mask rank r0) {c : Fin N} {P : List (Fin N × Fin N)}
    (hp : AltPath mask c P) : ∀ q, mask q c = .primed → (q, c) ∉ P := by
  cases hp with
  | nil _ => simp
  | @cons r _ c' P h1 h2 h3 =>
    intro q hq hm
    have hlt := AltPath.tail_lt h h1 h2 h3
    simp only [List.mem_cons, Prod.mk.injEq, and_true] at hm
    rcases hm with rfl | ⟨rfl, rfl⟩ | hm
    · rw [h1] at hq; cases hq
    · rw [h1] at h2; cases h2
    · have hq0 : q ≠ r0 := by
        rintro rfl
        obtain ⟨⟨x, hx, _⟩, _⟩ := h3.cell _ hm
        exact h.noStar x hx
      have h4 := h.rank q r c hq0 hq h1
      have h5 := hlt _ hm
      dsimp only at h5
      omega

theorem AltPath.prime_col (h : MaskOk mask rank r0) {c : Fin N} {P : List (Fin N × Fin N)}
    (hp : AltPath mask c P) : ∀ q q' x, mask q x = .primed → mask q' x = .primed → (q, x) ∈ P →
      (q', x) ∈ P → q = q' := by
  induction hp with
  | nil _ => simp
  | @cons r c c' P h1 h2 h3 ih =>
    intro q q' x hq hq' hm hm'
    have hnp := h3.no_prime h
    simp only [List.mem_cons, Prod.mk.injEq] at hm hm'
    rcases hm with ⟨rfl, rfl⟩ | ⟨rfl, rfl⟩ | hm
    · rw [h1] at hq; cases hq
    · rcases hm' with ⟨rfl, rfl⟩ | ⟨rfl, _⟩ | hm'
      · rfl
      · rfl
      · exact absurd hm' (hnp _ hq')
    · rcases hm' with ⟨rfl, rfl⟩ | ⟨rfl, rfl⟩ | hm'
      · rw [h1] at hq'; cases hq'
      · exact absurd hm (hnp _ hq)
      · exact ih q q' x hq hq' hm hm'

end

def flipped : Mark → Mark
  | .stared => .normal
  | .primed => .stared
  | .normal => .normal

theorem flip_apply (mask : Fin N → Fin N → Mark) (p : Fin N × Fin N) (i j : Fin N) :
    flip mask p i j = if (i, j) = p then flipped (mask i j) else mask i j := by
  obtain ⟨r, c⟩ := p
  unfold flip
  dsimp only
  by_cases h : (i, j) = (r, c)
  · rw [if_pos h]
    rw [Prod.mk.injEq] at h
    obtain ⟨rfl, rfl⟩ := h
    cases hm : mask i j <;> simp [put, hm, flipped]
  · rw [if_neg h]
    have h' : ¬ (i = r ∧ j = c) := by rintro ⟨rfl, rfl⟩; exact h rfl
    cases hm : mask r c <;> simp [put, hm, h']

theorem foldl_flip (L : List (Fin N × Fin N)) (hL : L.Nodup) (mask : Fin N → Fin N → Mark) (i j : Fin N) :
    L.foldl flip mask i j = if (i, j) ∈ L then flipped (mask i j) else mask i j := by
  induction L generalizing mask with
  | nil => simp
  | cons p L ih =>
    rw [List.nodup_cons] at hL
    rw [List.foldl_cons, ih hL.2, flip_apply]
    by_cases h : (i, j) = p
    · subst h
      simp [hL.1]
    · simp [h]

/-- the mask after step five -/
def newMask (mask : Fin N → Fin N → Mark) (L : List (Fin N × Fin N)) : Fin N → Fin N → Mark :=
  let mask := L.reverse.foldl flip mask
  fun i j => if mask i j = .primed then .normal else mask i j

theorem newMask_stared (mask : Fin N → Fin N → Mark) (L : List (Fin N × Fin N)) (hL : L.Nodup)
    (i j : Fin N) : newMask mask L i j = .stared ↔
      (mask i j = .stared ∧ (i, j) ∉ L) ∨ (mask i j = .primed ∧ (i, j) ∈ L) := by
  unfold newMask
  rw [foldl_flip _ (List.nodup_reverse.mpr hL)]
  simp only [List.mem_reverse]
  by_cases h : (i, j) ∈ L <;> cases hm : mask i j <;> simp [h, flipped]

theorem newMask_not_primed (mask : Fin N → Fin N → Mark) (L : List (Fin N × Fin N)) (i j : Fin N) :
    newMask mask L i j ≠ .primed := by
  unfold newMask
  split_ifs with h
  · simp
  · exact h

section
variable {mask : Fin N → Fin N → Mark} {rank : Fin N → Nat} {r0 c0 : Fin N}

theorem path_nodup (h : MaskOk mask rank r0) {P : List (Fin N × Fin N)}
    (hp : AltPath mask c0 P) : ((r0, c0) :: P).Nodup := by
  rw [List.nodup_cons]
  refine ⟨?_, hp.nodup h⟩
  intro hm
  obtain ⟨⟨x, hx, _⟩, _⟩ := hp.cell _ hm
  exact h.noStar x hx

theorem new_row (h : MaskOk mask rank r0) {P : List (Fin N × Fin N)}
    (hp : AltPath mask c0 P) (r c c' : Fin N) (h1 : newMask mask ((r0, c0) :: P) r c = .stared)
    (h2 : newMask mask ((r0, c0) :: P) r c' = .stared) : c = c' := by
  rw [newMask_stared _ _ (path_nodup h hp)] at h1 h2
  have key : ∀ x y, mask r x = .stared → (r, x) ∉ ((r0, c0) :: P) → mask r y = .primed →
      (r, y) ∈ ((r0, c0) :: P) → False := by
    intro x y hx hxn hy hym
    rcases List.mem_cons.mp hym with he | hm
    · rw [Prod.mk.injEq] at he
      rw [he.1] at hx
      exact h.noStar x hx
    · obtain ⟨⟨z, hz, hzm⟩, _⟩ := hp.cell _ hm
      dsimp only at hz hzm
      rw [h.starRow r x z hx hz] at hxn
      exact hxn (List.mem_cons_of_mem _ hzm)
  rcases h1 with ⟨a1, b1⟩ | ⟨a1, b1⟩ <;> rcases h2 with ⟨a2, b2⟩ | ⟨a2, b2⟩
  · exact h.starRow r c c' a1 a2
  · exact (key c c' a1 b1 a2 b2).elim
  · exact (key c' c a2 b2 a1 b1).elim
  · exact h.primeRow r c c' a1 a2

theorem new_col (h : MaskOk mask rank r0) {P : List (Fin N × Fin N)}
    (hp : AltPath mask c0 P) (r r' c : Fin N) (h1 : newMask mask ((r0, c0) :: P) r c = .stared)
    (h2 : newMask mask ((r0, c0) :: P) r' c = .stared) : r = r' := by
  rw [newMask_stared _ _ (path_nodup h hp)] at h1 h2
  have key : ∀ x y, mask x c = .stared → (x, c) ∉ ((r0, c0) :: P) → mask y c = .primed →
      (y, c) ∈ ((r0, c0) :: P) → False := by
    intro x y hx hxn hy hym
    apply hxn
    rcases List.mem_cons.mp hym with he | hm
    · rw [Prod.mk.injEq] at he
      obtain ⟨rfl, rfl⟩ := he
      exact List.mem_cons_of_mem _ (hp.first h x hx)
    · exact List.mem_cons_of_mem _ (hp.star_col h _ hm hy x hx)
  rcases h1 with ⟨a1, b1⟩ | ⟨a1, b1⟩ <;> rcases h2 with ⟨a2, b2⟩ | ⟨a2, b2⟩
  · exact h.starCol r r' c a1 a2
  · exact (key r r' a1 b1 a2 b2).elim
  · exact (key r' r a2 b2 a1 b1).elim
  · rcases List.mem_cons.mp b1 with e1 | m1 <;> rcases List.mem_cons.mp b2 with e2 | m2
    · rw [Prod.mk.injEq] at e1 e2; rw [e1.1, e2.1]
    · rw [Prod.mk.injEq] at e1
      obtain ⟨rfl, rfl⟩ := e1
      exact absurd m2 (hp.no_prime h _ a2)
    · rw [Prod.mk.injEq] at e2
      obtain ⟨rfl, rfl⟩ := e2
      exact absurd m1 (hp.no_prime h _ a1)
    · exact hp.prime_col h r r' c a1 a2 m1 m2

theorem new_rows (h : MaskOk mask rank r0) (h0 : mask r0 c0 = .primed) {P : List (Fin N × Fin N)}
    (hp : AltPath mask c0 P) (r : Fin N) (hr : r = r0 ∨ ∃ c, mask r c = .stared) :
    ∃ c, newMask mask ((r0, c0) :: P) r c = .stared := by
  simp only [newMask_stared _ _ (path_nodup h hp)]
  rcases hr with rfl | ⟨c, hc⟩
  · exact ⟨c0, Or.inr ⟨h0, by simp⟩⟩
  · by_cases hm : (r, c) ∈ ((r0, c0) :: P)
    · rcases List.mem_cons.mp hm with he | hm
      · rw [Prod.mk.injEq] at he
        rw [he.1] at hc
        exact absurd hc (h.noStar c)
      · obtain ⟨_, ⟨x, hx, hxm⟩⟩ := hp.cell _ hm
        exact ⟨x, Or.inr ⟨hx, List.mem_cons_of_mem _ hxm⟩⟩
    · exact ⟨c, Or.inl ⟨hc, hm⟩⟩

end

section
variable [AddCommGroup K] [LinearOrder K]

theorem path_spec (s : State N K) {rank : Fin N → Nat} {r0 : Fin N} (h : MaskOk s.mask rank r0) :
    ∀ (f : Nat) (c : Fin N), (∃ q, s.mask q c = .primed) → (∀ r, s.mask r c = .stared → rank r < f) →
      ∃ P, path s (f + 1) c = some P ∧ AltPath s.mask c P := by
  intro f
  induction f with
  | zero =>
    intro c hq hb
    have hn : ∀ r, s.mask r c ≠ .stared := fun r hr => absurd (hb r hr) (Nat.not_lt_zero _)
    have : (List.finRange N).find? (fun r => decide (s.mask r c = .stared)) = none := by
      rw [List.find?_eq_none]; intro r _; simp [hn r]
    exact ⟨[], by rw [path, this], .nil hn⟩
  | succ f ih =>
    intro c hq hb
    cases hf : (List.finRange N).find? (fun r => decide (s.mask r c = .stared)) with
    | none =>
      rw [List.find?_eq_none] at hf
      have hn : ∀ r, s.mask r c ≠ .stared := fun r => by
        have := hf r (List.mem_finRange r); simpa using this
      refine ⟨[], ?_, .nil hn⟩
      have : (List.finRange N).find? (fun r => decide (s.mask r c = .stared)) = none := by
        rw [List.find?_eq_none]; intro r _; simp [hn r]
      rw [path, this]
    | some r =>
      have hr : s.mask r c = .stared := by simpa using List.find?_some hf
      obtain ⟨q, hq⟩ := hq
      obtain ⟨x, hx⟩ := h.primed r q c hq hr
      have hr0 : r ≠ r0 := by rintro rfl; exact h.noStar _ hr
      cases hg : (List.finRange N).find? (fun c' => decide (s.mask r c' = .primed)) with
      | none =>
        rw [List.find?_eq_none] at hg
        have := hg x (List.mem_finRange x)
        simp [hx] at this
      | some c' =>
        have hc' : s.mask r c' = .primed := by simpa using List.find?_some hg
        obtain ⟨P, hP, hA⟩ := ih c' ⟨r, hc'⟩ (fun r' hr' => by
          have h1 := h.rank r r' c' hr0 hc' hr'
          have h2 := hb r hr
          omega)
        exact ⟨_, by rw [path, hf]; dsimp only; rw [hg]; dsimp only; rw [hP]; rfl, .cons hr hc' hA⟩

variable [IsOrderedAddMonoid K]

/-! ### the invariants -/

structure Base (cost0 : Fin N → Fin N → K) (s : State N K) : Prop where
  nonneg : ∀ r c, 0 ≤ s.cost r c
  pot : ∃ u v : Fin N → K, ∀ r c, cost0 r c = s.cost r c + u r + v c
  starZero : ∀ r c, s.mask r c = .stared → s.cost r c = 0
  starRow : ∀ r c c', s.mask r c = .stared → s.mask r c' = .stared → c = c'
  starCol : ∀ r r' c, s.mask r c = .stared → s.mask r' c = .stared → r = r'

structure Inv3 (cost0 : Fin N → Fin N → K) (s : State N K) : Prop extends Base cost0 s where
  step : s.step = 3
  rows : ∀ r, s.rowcover r = false
  cols : ∀ c, s.colcover c = false
  noPrime : ∀ r c, s.mask r c ≠ .primed

def coveredRows (s : State N K) : Nat := (Finset.univ.filter fun r => s.rowcover r = true).card

structure Inv46 (cost0 : Fin N → Fin N → K) (s : State N K) (rank : Fin N → Nat) : Prop
    extends Base cost0 s where
  cross : ∀ r c, s.mask r c = .stared → s.rowcover r = !s.colcover c
  colStar : ∀ c, s.colcover c = true → ∃ r, s.mask r c = .stared
  rowStar : ∀ r, s.rowcover r = true → ∃ c, s.mask r c = .stared
  rowPrime : ∀ r, s.rowcover r = true → ∃ c, s.mask r c = .primed
  primeCov : ∀ r c, s.mask r c = .primed → s.rowcover r = true ∧ s.colcover c = false
  primeZero : ∀ r c, s.mask r c = .primed → s.cost r c = 0
  primeRow : ∀ r c c', s.mask r c = .primed → s.mask r c' = .primed → c = c'
  rankDec : ∀ r r' c, s.mask r c = .primed → s.mask r' c = .stared → rank r' < rank r
  rankLt : ∀ r, s.rowcover r = true → rank r < coveredRows s
  free : ∃ c, ∀ r, s.mask r c ≠ .stared

structure Inv5 (cost0 : Fin N → Fin N → K) (s : State N K) : Prop extends Base cost0 s where
  step : s.step = 5
  ready : ∃ r0 c0 rank, s.stored = some (r0, c0) ∧ s.mask r0 c0 = .primed ∧ MaskOk s.mask rank r0 ∧
    ∀ r, s.mask r c0 = .stared → rank r < N
  primeZero : ∀ r c, s.mask r c = .primed → s.cost r c = 0

/-! ### step one -/

theorem rowMin_fold (f : Fin N → K) (cs : List (Fin N)) (a : K) :
    (cs.foldl (fun m c => if f c < m then f c else m) a) ≤ a ∧
    ∀ c ∈ cs, (cs.foldl (fun m c => if f c < m then f c else m) a) ≤ f c := by
  induction cs generalizing a with
  | nil => simp
  | cons c cs ih =>
    rw [List.foldl_cons]
    obtain ⟨h1, h2⟩ := ih (if f c < a then f c else a)
    have ha : (if f c < a then f c else a) ≤ a ∧ (if f c < a then f c else a) ≤ f c := by
      split_ifs with h
      · exact ⟨h.le, le_refl _⟩
      · exact ⟨le_refl _, not_lt.mp h⟩
    refine ⟨h1.trans ha.1, ?_⟩
    intro x hx
    rcases List.mem_cons.mp hx with rfl | hx
    · exact h1.trans ha.2
    · exact h2 x hx

theorem rowMin_le (f : Fin N → K) (c : Fin N) : rowMin f ≤ f c := by
  unfold rowMin
  have hc := List.mem_finRange c
  cases h : List.finRange N with
  | nil => rw [h] at hc; simp at hc
  | cons c0 cs =>
    dsimp only
    rw [h] at hc
    obtain ⟨h1, h2⟩ := rowMin_fold f cs (f c0)
    rcases List.mem_cons.mp hc with rfl | hc
    · exact h1
    · exact h2 c hc

/-! ### step two -/

structure Inv2 (cost0 : Fin N → Fin N → K) (s : State N K) : Prop extends Base cost0 s where
  noPrime : ∀ r c, s.mask r c ≠ .primed
  covered : ∀ r c, s.mask r c = .stared → s.rowcover r = true ∧ s.colcover c = true

theorem starCell_inv {cost0 : Fin N → Fin N → K} {s : State N K} (h : Inv2 cost0 s) (p : Fin N × Fin N) :
    Inv2 cost0 (starCell s p) := by
  unfold starCell
  split_ifs with hc
  · obtain ⟨hz, hr, hcc⟩ := hc
    have hst : ∀ r c, put s.mask p.1 p.2 .stared r c = .stared →
        (r = p.1 ∧ c = p.2) ∨ s.mask r c = .stared := by
      intro r c h1
      unfold put at h1
      by_cases h2 : r = p.1 ∧ c = p.2
      · exact Or.inl h2
      · rw [if_neg h2] at h1; exact Or.inr h1
    refine ⟨⟨h.nonneg, h.pot, ?_, ?_, ?_⟩, ?_, ?_⟩
    · intro r c h1
      rcases hst r c h1 with ⟨rfl, rfl⟩ | h1
      · exact hz
      · exact h.starZero r c h1
    · intro r c c' h1 h2
      rcases hst r c h1 with ⟨rfl, rfl⟩ | h1 <;> rcases hst _ c' h2 with ⟨h3, rfl⟩ | h2
      · rfl
      · have := (h.covered _ _ h2).1; rw [hr] at this; cases this
      · subst h3
        have := (h.covered _ _ h1).1; rw [hr] at this; cases this
      · exact h.starRow r c c' h1 h2
    · intro r r' c h1 h2
      rcases hst r c h1 with ⟨rfl, rfl⟩ | h1 <;> rcases hst r' _ h2 with ⟨rfl, h3⟩ | h2
      · rfl
      · have := (h.covered _ _ h2).2; rw [hcc] at this; cases this
      · subst h3
        have := (h.covered _ _ h1).2; rw [hcc] at this; cases this
      · exact h.starCol r r' c h1 h2
    · intro r c
      simp only [put]
      split_ifs
      · simp
      · exact h.noPrime r c
    · intro r c h1
      simp only [put1]
      rcases hst r c h1 with ⟨rfl, rfl⟩ | h1
      · simp
      · obtain ⟨h2, h3⟩ := h.covered r c h1
        rw [h2, h3]
        simp
  · exact h

theorem foldl_starCell {cost0 : Fin N → Fin N → K} (L : List (Fin N × Fin N)) {s : State N K}
    (h : Inv2 cost0 s) : Inv2 cost0 (L.foldl starCell s) := by
  induction L generalizing s with
  | nil => exact h
  | cons p L ih => exact ih (starCell_inv h p)

theorem start_inv3 (cost0 : Fin N → Fin N → K) :
    Inv3 cost0 (stepTwo (stepOne (reset cost0))) := by
  have h2 : Inv2 cost0 (stepOne (reset cost0)) := by
    refine ⟨⟨?_, ⟨fun r => rowMin (cost0 r), fun _ => 0, ?_⟩, ?_, ?_, ?_⟩, ?_, ?_⟩
    · intro r c
      exact sub_nonneg.mpr (rowMin_le _ c)
    · intro r c
      simp [stepOne, reset]
    all_goals intros; simp_all [stepOne, reset]
  have h3 := foldl_starCell (cells N) h2
  exact ⟨⟨h3.nonneg, h3.pot, h3.starZero, h3.starRow, h3.starCol⟩, rfl, fun _ => rfl, fun _ => rfl,
    h3.noPrime⟩

/-! ### step three -/

theorem stepThree_spec {cost0 : Fin N → Fin N → K} {s : State N K} (h : Inv3 cost0 s) :
    ((stepThree s).step = 7 ∧ Base cost0 (stepThree s) ∧ ∀ c, ∃ r, (stepThree s).mask r c = .stared) ∨
    ((stepThree s).step = 4 ∧ (stepThree s).mask = s.mask ∧ ∃ rank, Inv46 cost0 (stepThree s) rank) := by
  have hcov : ∀ c, (stepThree s).colcover c = true ↔ ∃ r, s.mask r c = .stared := by
    intro c
    simp only [stepThree, h.cols]
    simp
  have hbase : Base cost0 (stepThree s) := ⟨h.nonneg, h.pot, h.starZero, h.starRow, h.starCol⟩
  by_cases hall : ∀ c, ∃ r, s.mask r c = .stared
  · left
    refine ⟨?_, hbase, hall⟩
    show (if N ≤ _ then 7 else 4) = 7
    rw [if_pos]
    rw [List.filter_eq_self.mpr]
    · simp
    · intro c _; exact (hcov c).mpr (hall c)
  · right
    push Not at hall
    obtain ⟨c, hc⟩ := hall
    refine ⟨?_, rfl, fun _ => 0, ⟨hbase, ?_, ?_, ?_, ?_, ?_, ?_, ?_, ?_, ?_, ⟨c, hc⟩⟩⟩
    · show (if N ≤ _ then 7 else 4) = 4
      rw [if_neg]
      rw [not_le]
      calc _ < (List.finRange N).length := by
            apply List.length_filter_lt_length_iff_exists.mpr
            refine ⟨c, List.mem_finRange c, ?_⟩
            intro hcc
            obtain ⟨r, hr⟩ := (hcov c).mp hcc
            exact hc r hr
        _ = N := List.length_finRange
    · intro r x hx
      rw [(hcov x).mpr ⟨r, hx⟩]
      exact h.rows r
    · intro x hx; exact (hcov x).mp hx
    · intro r hr; have := h.rows r; change s.rowcover r = true at hr; rw [this] at hr; cases hr
    · intro r hr; have := h.rows r; change s.rowcover r = true at hr; rw [this] at hr; cases hr
    · intro r x hx; exact absurd hx (h.noPrime r x)
    · intro r x hx; exact absurd hx (h.noPrime r x)
    · intro r x x' hx; exact absurd hx (h.noPrime r x)
    · intro r r' x hx; exact absurd hx (h.noPrime r x)
    · intro r hr; have := h.rows r; change s.rowcover r = true at hr; rw [this] at hr; cases hr

/-! ### step four -/

theorem findZero_some {s : State N K} {p : Fin N × Fin N} (h : findZero s = some p) :
    s.cost p.1 p.2 = 0 ∧ s.rowcover p.1 = false ∧ s.colcover p.2 = false := by
  simpa using List.find?_some h

theorem mem_cells (p : Fin N × Fin N) : p ∈ cells N := by
  simp [cells]

theorem findZero_none {s : State N K} (h : findZero s = none) :
    ∀ r c, s.rowcover r = false → s.colcover c = false → s.cost r c ≠ 0 := by
  intro r c h1 h2 h3
  unfold findZero at h
  rw [List.find?_eq_none] at h
  have := h (r, c) (mem_cells _)
  simp [h1, h2, h3] at this

theorem put_prime {mask : Fin N → Fin N → Mark} {r c i j : Fin N}
    (h : put mask r c .primed i j = .primed) : (i = r ∧ j = c) ∨ mask i j = .primed := by
  unfold put at h
  by_cases h2 : i = r ∧ j = c
  · exact Or.inl h2
  · rw [if_neg h2] at h; exact Or.inr h

theorem put_star {mask : Fin N → Fin N → Mark} {r c i j : Fin N} (hn : mask r c ≠ .stared) :
    put mask r c .primed i j = .stared ↔ mask i j = .stared := by
  unfold put
  by_cases h2 : i = r ∧ j = c
  · obtain ⟨rfl, rfl⟩ := h2
    simp [hn]
  · rw [if_neg h2]

theorem stepFour_spec {cost0 : Fin N → Fin N → K} {s : State N K} {rank : Fin N → Nat}
    (h : Inv46 cost0 s rank) (hstep : s.step = 4) :
    (findZero s = none ∧ stepFour s = { s with step := 6 }) ∨
    (findZero s ≠ none ∧ (stepFour s).step = 4 ∧ (∃ rank', Inv46 cost0 (stepFour s) rank') ∧
      (∀ r c, (stepFour s).mask r c = .stared ↔ s.mask r c = .stared) ∧
      coveredRows (stepFour s) = coveredRows s + 1) ∨
    (findZero s ≠ none ∧ Inv5 cost0 (stepFour s) ∧
      (∀ r c, (stepFour s).mask r c = .stared ↔ s.mask r c = .stared) ∧
      ∃ r0 c0, (stepFour s).stored = some (r0, c0)) := by
  unfold stepFour
  cases hf : findZero s with
  | none => left; exact ⟨rfl, rfl⟩
  | some p =>
    obtain ⟨r, c⟩ := p
    obtain ⟨hz, hr, hc⟩ := findZero_some hf
    dsimp only at hz hr hc ⊢
    have hns : s.mask r c ≠ .stared := by
      intro hs; have := h.cross r c hs; rw [hr, hc] at this; cases this
    have hnp : s.mask r c ≠ .primed := by
      intro hs; have := (h.primeCov r c hs).1; rw [hr] at this; cases this
    have hstar : ∀ i j, put s.mask r c .primed i j = .stared ↔ s.mask i j = .stared :=
      fun i j => put_star hns
    have hself : put s.mask r c .primed r c = .primed := by simp [put]
    have hmono : ∀ i j, s.mask i j = .primed → put s.mask r c .primed i j = .primed := by
      intro i j hij; unfold put; split_ifs <;> simp [hij]
    have hbase : ∀ (f : State N K), f.cost = s.cost → f.mask = put s.mask r c .primed → Base cost0 f := by
      intro f h1 h2
      refine ⟨by rw [h1]; exact h.nonneg, by rw [h1]; exact h.pot, ?_, ?_, ?_⟩
      · intro i j hij; rw [h2, hstar] at hij; rw [h1]; exact h.starZero i j hij
      · intro i j j' h3 h4; rw [h2, hstar] at h3 h4; exact h.starRow i j j' h3 h4
      · intro i i' j h3 h4; rw [h2, hstar] at h3 h4; exact h.starCol i i' j h3 h4
    have hpz : ∀ i j, put s.mask r c .primed i j = .primed → s.cost i j = 0 := by
      intro i j hij
      rcases put_prime hij with ⟨rfl, rfl⟩ | hij
      · exact hz
      · exact h.primeZero i j hij
    have hprow : ∀ i j j', put s.mask r c .primed i j = .primed → put s.mask r c .primed i j' = .primed →
        j = j' := by
      intro i j j' h1 h2
      rcases put_prime h1 with ⟨rfl, rfl⟩ | h1 <;> rcases put_prime h2 with ⟨h3, rfl⟩ | h2
      · rfl
      · have := (h.primeCov _ _ h2).1; rw [hr] at this; cases this
      · have := (h.primeCov _ _ ‹s.mask i j = .primed›).1; rw [h3, hr] at this; cases this
      · exact h.primeRow i j j' h1 h2
    cases hsc : starCol { s with mask := put s.mask r c .primed } r with
    | some c' =>
      right; left
      have hs' : put s.mask r c .primed r c' = .stared := by
        simpa using List.find?_some hsc
      have hs : s.mask r c' = .stared := (hstar r c').mp hs'
      have hcc' : c ≠ c' := by rintro rfl; exact hns hs
      dsimp only
      have hcard : (Finset.univ.filter fun i => put1 s.rowcover r true i = true).card = coveredRows s + 1 := by
        have : (Finset.univ.filter fun i => put1 s.rowcover r true i = true) =
            insert r (Finset.univ.filter fun i => s.rowcover i = true) := by
          ext i
          simp only [Finset.mem_filter, Finset.mem_univ, true_and, Finset.mem_insert, put1]
          by_cases hi : i = r <;> simp [hi]
        rw [this, Finset.card_insert_of_notMem (by simp [hr])]
        rfl
      refine ⟨by simp, hstep, ⟨fun i => if i = r then coveredRows s else rank i, ?_⟩, hstar, hcard⟩
      refine ⟨hbase _ rfl rfl, ?_, ?_, ?_, ?_, ?_, hpz, hprow, ?_, ?_, ?_⟩
      · intro i j hij
        dsimp only at hij ⊢
        rw [hstar] at hij
        simp only [put1]
        by_cases hi : i = r
        · subst hi
          have hj : j = c' := h.starRow i j c' hij hs
          simp [hj]
        · have hj : j ≠ c' := by rintro rfl; exact hi (h.starCol i r j hij hs)
          simp only [hi, hj, if_false]
          exact h.cross i j hij
      · intro j hj
        dsimp only at hj ⊢
        simp only [put1] at hj
        by_cases hjc : j = c'
        · simp [hjc] at hj
        · simp only [hjc, if_false] at hj
          obtain ⟨i, hi⟩ := h.colStar j hj
          exact ⟨i, (hstar i j).mpr hi⟩
      · intro i hi
        dsimp only at hi ⊢
        simp only [put1] at hi
        by_cases hir : i = r
        · subst hir; exact ⟨c', hs'⟩
        · simp only [hir, if_false] at hi
          obtain ⟨j, hj⟩ := h.rowStar i hi
          exact ⟨j, (hstar i j).mpr hj⟩
      · intro i hi
        dsimp only at hi ⊢
        simp only [put1] at hi
        by_cases hir : i = r
        · subst hir; exact ⟨c, hself⟩
        · simp only [hir, if_false] at hi
          obtain ⟨j, hj⟩ := h.rowPrime i hi
          exact ⟨j, hmono i j hj⟩
      · intro i j hij
        dsimp only at hij ⊢
        simp only [put1]
        rcases put_prime hij with ⟨rfl, rfl⟩ | hij
        · simp [hcc', hc]
        · obtain ⟨h1, h2⟩ := h.primeCov i j hij
          rw [h1, h2]; simp
      · intro i i' j hij hi'j
        dsimp only at hij hi'j ⊢
        rw [hstar] at hi'j
        rcases put_prime hij with ⟨rfl, rfl⟩ | hij
        · have hcov : s.rowcover i' = true := by rw [h.cross i' j hi'j, hc]; rfl
          have hne : i' ≠ i := by rintro rfl; rw [hr] at hcov; cases hcov
          simp only [hne, if_false, if_true]
          exact h.rankLt i' hcov
        · obtain ⟨h1, h2⟩ := h.primeCov i j hij
          have hcov : s.rowcover i' = true := by rw [h.cross i' j hi'j, h2]; rfl
          have hne : i' ≠ r := by rintro rfl; rw [hr] at hcov; cases hcov
          have hne' : i ≠ r := by rintro rfl; rw [hr] at h1; cases h1
          simp only [hne, hne', if_false]
          exact h.rankDec i i' j hij hi'j
      · intro i hi
        unfold coveredRows
        dsimp only at hi ⊢
        rw [hcard]
        by_cases hir : i = r
        · simp only [hir, if_true]; exact Nat.lt_succ_self _
        · simp only [hir, if_false]
          simp only [put1, hir, if_false] at hi
          have := h.rankLt i hi
          omega
      · obtain ⟨j, hj⟩ := h.free
        exact ⟨j, fun i hi => hj i ((hstar i j).mp hi)⟩
    | none =>
      right; right
      dsimp only
      have hno : ∀ j, s.mask r j ≠ .stared := by
        intro j hj
        unfold starCol at hsc
        rw [List.find?_eq_none] at hsc
        have := hsc j (List.mem_finRange j)
        simp only [decide_eq_true_eq] at this
        exact this ((hstar r j).mpr hj)
      refine ⟨by simp, ⟨hbase _ rfl rfl, rfl, ⟨r, c, rank, rfl, hself, ?_, ?_⟩, hpz⟩, hstar, ⟨r, c, rfl⟩⟩
      · refine ⟨?_, ?_, hprow, ?_, ?_, ?_⟩
        · intro i j j' h1 h2; rw [hstar] at h1 h2; exact h.starRow i j j' h1 h2
        · intro i i' j h1 h2; rw [hstar] at h1 h2; exact h.starCol i i' j h1 h2
        · intro j hj; rw [hstar] at hj; exact hno j hj
        · intro i i' j h1 h2
          rw [hstar] at h2
          have hcj : s.colcover j = false := by
            rcases put_prime h1 with ⟨_, rfl⟩ | h1
            · exact hc
            · exact (h.primeCov _ _ h1).2
          have hcov : s.rowcover i = true := by rw [h.cross i j h2, hcj]; rfl
          obtain ⟨x, hx⟩ := h.rowPrime i hcov
          exact ⟨x, hmono i x hx⟩
        · intro i i' j hne h1 h2
          rw [hstar] at h2
          rcases put_prime h1 with ⟨h3, _⟩ | h1
          · exact absurd h3 hne
          · exact h.rankDec i i' j h1 h2
      · intro i hi
        rw [hstar] at hi
        have hcov : s.rowcover i = true := by rw [h.cross i c hi, hc]; rfl
        have h1 := h.rankLt i hcov
        have h2 : coveredRows s ≤ N := by
          unfold coveredRows
          exact (Finset.card_le_univ _).trans (by simp)
        omega

/-! ### step five -/

/-- the rows without a star -/
noncomputable def unstarred (s : State N K) : Nat :=
  open Classical in (Finset.univ.filter fun r => ∀ c, s.mask r c ≠ .stared).card

theorem stepFive_spec {cost0 : Fin N → Fin N → K} {s : State N K} (h : Inv5 cost0 s) :
    ∃ s', stepFive s = some s' ∧ Inv3 cost0 s' ∧ unstarred s' < unstarred s := by
  obtain ⟨r0, c0, rank, hst, hp, hm, hr⟩ := h.ready
  obtain ⟨P, hP, hA⟩ := path_spec s hm N c0 ⟨r0, hp⟩ hr
  refine ⟨_, by unfold stepFive; rw [hst]; dsimp only; rw [hP], ?_, ?_⟩
  · refine ⟨⟨h.nonneg, h.pot, ?_, ?_, ?_⟩, rfl, fun _ => rfl, fun _ => rfl, ?_⟩
    · intro r c hrc
      change newMask s.mask ((r0, c0) :: P) r c = .stared at hrc
      rw [newMask_stared _ _ (path_nodup hm hA)] at hrc
      rcases hrc with ⟨h1, _⟩ | ⟨h1, _⟩
      · exact h.starZero r c h1
      · exact h.primeZero r c h1
    · intro r c c' h1 h2; exact new_row hm hA r c c' h1 h2
    · intro r r' c h1 h2; exact new_col hm hA r r' c h1 h2
    · intro r c; exact newMask_not_primed s.mask ((r0, c0) :: P) r c
  · classical
    apply Finset.card_lt_card
    rw [Finset.ssubset_iff_of_subset]
    · refine ⟨r0, by simp [hm.noStar], ?_⟩
      simp only [Finset.mem_filter, Finset.mem_univ, true_and, not_forall, not_not]
      exact new_rows hm hp hA r0 (Or.inl rfl)
    · intro r hr
      simp only [Finset.mem_filter, Finset.mem_univ, true_and] at hr ⊢
      intro c hc
      obtain ⟨x, hx⟩ := new_rows hm hp hA r (Or.inr ⟨c, hc⟩)
      exact hr x hx

/-! ### step six -/

theorem smallest_fold (s : State N K) (L : List (Fin N × Fin N)) (m : Option K) :
    (∀ x, L.foldl (smaller s) m = some x → m = some x ∨
      ∃ p ∈ L, s.rowcover p.1 = false ∧ s.colcover p.2 = false ∧ s.cost p.1 p.2 = x) ∧
    (∀ y, m = some y → ∃ x, L.foldl (smaller s) m = some x ∧ x ≤ y) ∧
    (∀ p ∈ L, s.rowcover p.1 = false → s.colcover p.2 = false →
      ∃ x, L.foldl (smaller s) m = some x ∧ x ≤ s.cost p.1 p.2) := by
  induction L generalizing m with
  | nil =>
    refine ⟨fun x h => Or.inl h, fun y h => ⟨y, h, le_refl _⟩, by simp⟩
  | cons p L ih =>
    rw [List.foldl_cons]
    obtain ⟨h1, h2, h3⟩ := ih (smaller s m p)
    have f1 : ∀ x, smaller s m p = some x → m = some x ∨
        (s.rowcover p.1 = false ∧ s.colcover p.2 = false ∧ s.cost p.1 p.2 = x) := by
      intro x hx
      unfold smaller at hx
      split_ifs at hx with hc
      · cases m with
        | none => exact Or.inr ⟨hc.1, hc.2, Option.some.inj hx⟩
        | some y =>
          dsimp only at hx
          split_ifs at hx
          · exact Or.inr ⟨hc.1, hc.2, Option.some.inj hx⟩
          · exact Or.inl hx
      · exact Or.inl hx
    have f2 : ∀ y, m = some y → ∃ x, smaller s m p = some x ∧ x ≤ y := by
      rintro y rfl
      unfold smaller
      split_ifs with hc
      · dsimp only
        split_ifs with hlt
        · exact ⟨_, rfl, hlt.le⟩
        · exact ⟨_, rfl, le_refl _⟩
      · exact ⟨_, rfl, le_refl _⟩
    have f3 : s.rowcover p.1 = false → s.colcover p.2 = false →
        ∃ x, smaller s m p = some x ∧ x ≤ s.cost p.1 p.2 := by
      intro hr hc
      unfold smaller
      rw [if_pos ⟨hr, hc⟩]
      cases m with
      | none => exact ⟨_, rfl, le_refl _⟩
      | some y =>
        dsimp only
        split_ifs with hlt
        · exact ⟨_, rfl, le_refl _⟩
        · exact ⟨_, rfl, not_lt.mp hlt⟩
    refine ⟨?_, ?_, ?_⟩
    · intro x hx
      rcases h1 x hx with h | ⟨q, hq, h⟩
      · rcases f1 x h with h | h
        · exact Or.inl h
        · exact Or.inr ⟨p, by simp, h⟩
      · exact Or.inr ⟨q, by simp [hq], h⟩
    · intro y hy
      obtain ⟨x, hx, hxl⟩ := f2 y hy
      obtain ⟨z, hz, hzl⟩ := h2 x hx
      exact ⟨z, hz, hzl.trans hxl⟩
    · intro q hq hq1 hq2
      rcases List.mem_cons.mp hq with rfl | hq
      · obtain ⟨x, hx, hxl⟩ := f3 hq1 hq2
        obtain ⟨z, hz, hzl⟩ := h2 x hx
        exact ⟨z, hz, hzl.trans hxl⟩
      · exact h3 q hq hq1 hq2

theorem exists_uncovered {cost0 : Fin N → Fin N → K} {s : State N K} {rank : Fin N → Nat}
    (h : Inv46 cost0 s rank) : ∃ r c, s.rowcover r = false ∧ s.colcover c = false := by
  obtain ⟨c, hc⟩ := h.free
  have hcol : s.colcover c = false := by
    by_contra hcc
    obtain ⟨r, hr⟩ := h.colStar c (by simpa using hcc)
    exact hc r hr
  by_contra hno
  push Not at hno
  have hrow : ∀ r, ∃ x, s.mask r x = .stared := by
    intro r
    apply h.rowStar
    by_contra hr
    exact hno r c (by simpa using hr) hcol
  choose f hf using hrow
  have hinj : Function.Injective f := by
    intro r r' he
    exact h.starCol r r' (f r) (hf r) (by rw [he]; exact hf r')
  obtain ⟨r, hr⟩ := Finite.surjective_of_injective hinj c
  exact hc r (hr ▸ hf r)

theorem stepSix_spec {cost0 : Fin N → Fin N → K} {s : State N K} {rank : Fin N → Nat}
    (h : Inv46 cost0 s rank) :
    ∃ s', stepSix s = some s' ∧ s'.step = 4 ∧ Inv46 cost0 s' rank ∧ s'.mask = s.mask ∧
      s'.rowcover = s.rowcover ∧ findZero s' ≠ none := by
  obtain ⟨r1, c1, hr1, hc1⟩ := exists_uncovered h
  obtain ⟨hx1, _, hx3⟩ := smallest_fold s (cells N) none
  obtain ⟨x, hx, _⟩ := hx3 (r1, c1) (mem_cells _) hr1 hc1
  have hmin : ∀ r c, s.rowcover r = false → s.colcover c = false → x ≤ s.cost r c := by
    intro r c h1 h2
    obtain ⟨y, hy, hyl⟩ := hx3 (r, c) (mem_cells _) h1 h2
    rw [hx] at hy
    obtain rfl := Option.some.inj hy
    exact hyl
  obtain ⟨⟨r2, c2⟩, _, hr2, hc2, hxe⟩ := (hx1 x hx).resolve_left (by simp)
  dsimp only at hr2 hc2 hxe
  have hx0 : 0 ≤ x := hxe ▸ h.nonneg r2 c2
  have hsm : smallestUncovered s = some x := hx
  have h6 : stepSix s = some { s with
      cost := fun r c =>
        let y := if s.rowcover r = true then s.cost r c + x else s.cost r c
        if s.colcover c = false then y - x else y
      step := 4 } := by unfold stepSix; rw [hsm]
  refine ⟨_, h6, rfl, ?_, rfl, rfl, ?_⟩
  · refine ⟨⟨?_, ?_, ?_, h.starRow, h.starCol⟩, h.cross, h.colStar, h.rowStar, h.rowPrime, h.primeCov, ?_,
      h.primeRow, h.rankDec, h.rankLt, h.free⟩
    · intro r c
      dsimp only
      cases hr : s.rowcover r <;> cases hc : s.colcover c <;> simp
      · exact hmin r c hr hc
      · exact h.nonneg r c
      · exact h.nonneg r c
      · exact add_nonneg (h.nonneg r c) hx0
    · obtain ⟨u, v, huv⟩ := h.pot
      refine ⟨fun r => if s.rowcover r = true then u r - x else u r,
        fun c => if s.colcover c = false then v c + x else v c, ?_⟩
      intro r c
      dsimp only
      rw [huv r c]
      cases hr : s.rowcover r <;> cases hc : s.colcover c <;> simp <;> abel
    · intro r c hs
      have h1 := h.cross r c hs
      have h2 := h.starZero r c hs
      dsimp only
      rw [h2, h1]
      cases hc : s.colcover c <;> simp
    · intro r c hs
      obtain ⟨h1, h3⟩ := h.primeCov r c hs
      have h2 := h.primeZero r c hs
      dsimp only
      rw [h1, h3, h2]
      simp
  · intro hn
    refine findZero_none hn r2 c2 hr2 hc2 ?_
    dsimp only
    rw [hr2, hc2]
    simp [hxe]

/-! ### the run -/

theorem next_three {s : State N K} (h : s.step = 3) : next s = some (stepThree s) := by
  unfold next; rw [h]; rfl

theorem next_four {s : State N K} (h : s.step = 4) : next s = some (stepFour s) := by
  unfold next; rw [h]; rfl

theorem next_five {s : State N K} (h : s.step = 5) : next s = stepFive s := by
  unfold next; rw [h]; rfl

theorem turns_add (a b : Nat) (s : State N K) :
    turns (a + b) s = (turns a s).bind (turns b) := by
  induction a generalizing s with
  | zero => simp [turns]
  | succ a ih =>
    rw [Nat.succ_add, turns, turns]
    cases h : next s with
    | none => rfl
    | some s' => exact ih s'

theorem unstarred_congr {s s' : State N K} (h : ∀ r c, s'.mask r c = .stared ↔ s.mask r c = .stared) :
    unstarred s' = unstarred s := by
  classical
  unfold unstarred
  congr 1
  ext r
  simp only [Finset.mem_filter, Finset.mem_univ, true_and, ne_eq, h]

theorem covered_le (s : State N K) : coveredRows s ≤ N := by
  unfold coveredRows
  exact (Finset.card_le_univ _).trans (by simp)

/-- from step four with an uncovered zero, one turn -/
theorem four_found {cost0 : Fin N → Fin N → K} {s : State N K} {rank : Fin N → Nat}
    (h : Inv46 cost0 s rank) (hstep : s.step = 4) (hz : findZero s ≠ none) :
    next s = some (stepFour s) ∧ unstarred (stepFour s) = unstarred s ∧
    (((stepFour s).step = 4 ∧ (∃ rank', Inv46 cost0 (stepFour s) rank') ∧
      coveredRows (stepFour s) = coveredRows s + 1) ∨ Inv5 cost0 (stepFour s)) := by
  refine ⟨next_four hstep, ?_⟩
  rcases stepFour_spec h hstep with ⟨h1, _⟩ | ⟨_, h2, h3, h4, h5⟩ | ⟨_, h2, h3, _⟩
  · exact absurd h1 hz
  · exact ⟨unstarred_congr h4, Or.inl ⟨h2, h3, h5⟩⟩
  · exact ⟨unstarred_congr h3, Or.inr h2⟩

/-- from step four, step five is reached -/
theorem four_to_five {cost0 : Fin N → Fin N → K} : ∀ (m : Nat) (s : State N K) (rank : Fin N → Nat),
    N - coveredRows s = m → Inv46 cost0 s rank → s.step = 4 →
    ∃ k s', turns k s = some s' ∧ Inv5 cost0 s' ∧ unstarred s' = unstarred s := by
  intro m
  induction m with
  | zero =>
    intro s rank hm h hstep
    -- all rows covered: impossible
    obtain ⟨r, c, hr, _⟩ := exists_uncovered h
    exfalso
    have : coveredRows s < N := by
      unfold coveredRows
      calc _ < (Finset.univ : Finset (Fin N)).card := by
            apply Finset.card_lt_card
            rw [Finset.ssubset_iff_of_subset (Finset.filter_subset _ _)]
            exact ⟨r, Finset.mem_univ _, by simp [hr]⟩
        _ = N := by simp
    omega
  | succ m ih =>
    intro s rank hm h hstep
    have found : ∀ (s1 : State N K), N - coveredRows s1 = m + 1 → (∃ rank, Inv46 cost0 s1 rank) →
        s1.step = 4 → findZero s1 ≠ none →
        ∃ k s', turns k s1 = some s' ∧ Inv5 cost0 s' ∧ unstarred s' = unstarred s1 := by
      rintro s1 hm1 ⟨rank1, h1⟩ hstep1 hz
      obtain ⟨hn, hu, h4 | h5⟩ := four_found h1 hstep1 hz
      · obtain ⟨a, ⟨rank', b⟩, c⟩ := h4
        obtain ⟨k, s', e1, e2, e3⟩ := ih (stepFour s1) rank' (by rw [c]; omega) b a
        refine ⟨k + 1, s', ?_, e2, e3.trans hu⟩
        rw [turns, hn]; exact e1
      · exact ⟨1, stepFour s1, by rw [turns, hn]; rfl, h5, hu⟩
    by_cases hz : findZero s = none
    · have h6 : next s = some { s with step := 6 } := by
        rw [next_four hstep]
        unfold stepFour; rw [hz]
      have hi6 : Inv46 cost0 { s with step := 6 } rank :=
        ⟨⟨h.nonneg, h.pot, h.starZero, h.starRow, h.starCol⟩, h.cross, h.colStar, h.rowStar, h.rowPrime,
          h.primeCov, h.primeZero, h.primeRow, h.rankDec, h.rankLt, h.free⟩
      obtain ⟨s', e1, e2, e3, e4, e5, e6⟩ := stepSix_spec hi6
      have hcov : coveredRows s' = coveredRows s := by unfold coveredRows; rw [e5]
      obtain ⟨k, s'', f1, f2, f3⟩ := found s' (by rw [hcov]; exact hm) ⟨rank, e3⟩ e2 e6
      refine ⟨k + 1 + 1, s'', ?_, f2, ?_⟩
      · rw [turns, h6]
        show turns (k + 1) _ = _
        rw [turns]
        have : next { s with step := 6 } = some s' := e1
        rw [this]; exact f1
      · rw [f3]; apply unstarred_congr; intro r c; rw [e4]
    · exact found s hm ⟨rank, h⟩ hstep hz

/-- from step three, step seven is reached -/
theorem three_to_seven {cost0 : Fin N → Fin N → K} : ∀ (m : Nat) (s : State N K), unstarred s = m →
    Inv3 cost0 s → ∃ k s', turns k s = some s' ∧ s'.step = 7 ∧ Base cost0 s' ∧
      ∀ c, ∃ r, s'.mask r c = .stared := by
  intro m
  induction m using Nat.strong_induction_on with
  | _ m ih =>
    intro s hm h
    have hn : next s = some (stepThree s) := next_three h.step
    rcases stepThree_spec h with ⟨h7, hb, hall⟩ | ⟨h4, hmask, rank, hi⟩
    · exact ⟨1, stepThree s, by rw [turns, hn]; rfl, h7, hb, hall⟩
    · obtain ⟨k, s5, e1, e2, e3⟩ := four_to_five _ (stepThree s) rank rfl hi h4
      obtain ⟨s3, f1, f2, f3⟩ := stepFive_spec e2
      have hu : unstarred (stepThree s) = unstarred s := unstarred_congr (fun r c => by rw [hmask])
      obtain ⟨k', s', g1, g2, g3, g4⟩ := ih (unstarred s3) (by omega) s3 rfl f2
      refine ⟨1 + (k + (1 + k')), s', ?_, g2, g3, g4⟩
      rw [turns_add, turns, hn]
      show (turns 0 (stepThree s)).bind _ = _
      show turns (k + (1 + k')) (stepThree s) = _
      rw [turns_add, e1]
      show turns (1 + k') s5 = _
      rw [turns_add, turns]
      have : next s5 = stepFive s5 := next_five e2.step
      rw [this, f1]
      exact g1

theorem turns_seven (s : State N K) (h : s.step = 7) (k : Nat) : turns k s = some s := by
  induction k with
  | zero => rfl
  | succ k ih =>
    rw [turns]
    have : next s = some s := by unfold next; rw [h]; rfl
    rw [this]; exact ih

theorem outOf_spec (s : State N K) (r c : Fin N) (hc : s.mask r c = .stared)
    (hu : ∀ c', s.mask r c' = .stared → c' = c) : outOf s r = some c := by
  have key : ∀ (L : List (Fin N)) (o : Option (Fin N)), (o = some c ∨ c ∈ L) →
      L.foldl (fun o c => if s.mask r c = .stared then some c else o) o = some c := by
    intro L
    induction L with
    | nil => intro o h; simpa using h
    | cons a L ih =>
      intro o h
      rw [List.foldl_cons]
      apply ih
      by_cases ha : s.mask r a = .stared
      · left; rw [if_pos ha, hu a ha]
      · rw [if_neg ha]
        rcases h with h | h
        · exact Or.inl h
        · rcases List.mem_cons.mp h with rfl | h
          · exact absurd hc ha
          · exact Or.inr h
  exact key _ none (Or.inr (List.mem_finRange c))

theorem run_spec (cost0 : Fin N → Fin N → K) :
    ∃ k s, (∀ k', k ≤ k' → turns k' (reset cost0) = some s) ∧ s.step = 7 ∧ Base cost0 s ∧
      ∀ c, ∃ r, s.mask r c = .stared := by
  obtain ⟨k, s, h1, h2, h3, h4⟩ := three_to_seven _ _ rfl (start_inv3 cost0)
  refine ⟨2 + k, s, ?_, h2, h3, h4⟩
  intro k' hk
  obtain ⟨d, rfl⟩ := Nat.exists_eq_add_of_le hk
  rw [turns_add, turns_add]
  have h12 : turns 2 (reset cost0) = some (stepTwo (stepOne (reset cost0))) := rfl
  rw [h12]
  show (turns k _).bind _ = _
  rw [h1]
  exact turns_seven s h2 d

end

end Brille.Munkres
