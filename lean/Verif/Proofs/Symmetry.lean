import Verif.Model.Symmetry
import Mathlib.Algebra.Group.Submonoid.Membership
import Mathlib.Tactic.Ring
import Mathlib.Tactic.Linarith

namespace Brille.Sym

variable {α : Type} {G : Type} [Monoid G]

/-- The operations in `S`, read as elements of a monoid by `φ`: products are products, and the comparison is
equality. -/
structure Reads (o : Ops α) (S : α → Prop) (φ : α → G) : Prop where
  one : φ o.e = 1
  mul : ∀ a b, φ (o.mul a b) = φ a * φ b
  e_mem : S o.e
  mul_mem : ∀ a b, S a → S b → S (o.mul a b)
  beq : ∀ a b, S a → S b → (o.beq a b = true ↔ φ a = φ b)

variable {o : Ops α} {S : α → Prop} {φ : α → G} (hr : Reads o S φ)
include hr

theorem has_iff {M : List α} {y : α} (hM : ∀ m ∈ M, S m) (hy : S y) :
    has o M y = true ↔ φ y ∈ M.map φ := by
  unfold has
  rw [List.any_eq_true, List.mem_map]
  constructor
  · rintro ⟨m, hm, h⟩
    exact ⟨m, hm, (hr.beq m y (hM m hm) hy).mp h⟩
  · rintro ⟨m, hm, h⟩
    exact ⟨m, hm, (hr.beq m y (hM m hm) hy).mpr h⟩

/-- operations in `S`, no two of them the same -/
def Distinct (S : α → Prop) (φ : α → G) (M : List α) : Prop := (∀ m ∈ M, S m) ∧ (M.map φ).Nodup

theorem addMissing_spec {gen : List α} {y : α} (hg : Distinct S φ gen) (hy : S y) :
    Distinct S φ (addMissing o gen y) ∧ (∃ l, addMissing o gen y = gen ++ l) ∧
    ∀ x, x ∈ (addMissing o gen y).map φ ↔ x ∈ gen.map φ ∨ x = φ y := by
  unfold addMissing
  by_cases h : has o gen y = true
  · rw [if_pos h]
    refine ⟨hg, ⟨[], by simp⟩, fun x => ⟨Or.inl, ?_⟩⟩
    rintro (h' | rfl)
    · exact h'
    · exact (has_iff hr hg.1 hy).mp h
  · rw [if_neg h]
    rw [has_iff hr hg.1 hy] at h
    refine ⟨⟨?_, ?_⟩, ⟨[y], rfl⟩, fun x => by simp⟩
    · intro m hm
      rcases List.mem_append.mp hm with hm | hm
      · exact hg.1 m hm
      · rw [List.mem_singleton] at hm; rw [hm]; exact hy
    · rw [List.map_append, List.nodup_append]
      refine ⟨hg.2, by simp, ?_⟩
      intro a ha b hb hab
      simp only [List.map_cons, List.map_nil, List.mem_singleton] at hb
      rw [hab, hb] at ha
      exact h ha

theorem mulAll_fold {x : α} (hx : S x) : ∀ (l : List α) {gen : List α}, (∀ m ∈ l, S m) → Distinct S φ gen →
    Distinct S φ (l.foldl (fun g h => addMissing o g (o.mul x h)) gen) ∧
    (∃ l', l.foldl (fun g h => addMissing o g (o.mul x h)) gen = gen ++ l') ∧
    ∀ y, y ∈ (l.foldl (fun g h => addMissing o g (o.mul x h)) gen).map φ ↔
      y ∈ gen.map φ ∨ ∃ h ∈ l.map φ, y = φ x * h := by
  intro l
  induction l with
  | nil => intro gen _ hg; exact ⟨hg, ⟨[], by simp⟩, by simp⟩
  | cons a l ih =>
    intro gen hl hg
    obtain ⟨h1, ⟨l1, h2⟩, h3⟩ := addMissing_spec hr hg (hr.mul_mem x a hx (hl a List.mem_cons_self))
    obtain ⟨g1, ⟨l2, g2⟩, g3⟩ := ih (fun m hm => hl m (List.mem_cons_of_mem _ hm)) h1
    refine ⟨g1, ⟨l1 ++ l2, by rw [List.foldl_cons, g2, h2, List.append_assoc]⟩, fun y => ?_⟩
    rw [List.foldl_cons, g3, h3, hr.mul]
    simp only [List.map_cons, List.mem_cons, exists_eq_or_imp]
    tauto

theorem mulAll_spec {x : α} (hx : S x) {gen : List α} (hg : Distinct S φ gen) :
    Distinct S φ (mulAll o x gen) ∧ (∃ l, mulAll o x gen = gen ++ l) ∧
    ∀ y, y ∈ (mulAll o x gen).map φ ↔ y ∈ gen.map φ ∨ ∃ h ∈ gen.map φ, y = φ x * h :=
  mulAll_fold hr hx gen hg.1 hg

/-- `0 + 1 + … + n` -/
def tri : Nat → Nat
  | 0 => 0
  | n + 1 => tri n + (n + 1)

omit hr in
theorem le_tri (n : Nat) : n ≤ tri n := by
  cases n with
  | zero => exact le_refl _
  | succ n => rw [tri]; omega

theorem powers_spec {g : α} (hg : S g) {base : List α} : ∀ (count i : Nat) {x : α} {gen : List α}, S x →
    φ x = φ g ^ i → Distinct S φ gen → (∃ l, gen = base ++ l) →
    (∀ y, y ∈ gen.map φ ↔ ∃ k ≤ tri i, ∃ h ∈ base.map φ, y = φ g ^ k * h) →
    Distinct S φ (powers o g count x gen) ∧ (∃ l, powers o g count x gen = base ++ l) ∧
    ∀ y, y ∈ (powers o g count x gen).map φ ↔ ∃ k ≤ tri (i + count), ∃ h ∈ base.map φ, y = φ g ^ k * h := by
  intro count
  induction count with
  | zero => intro i x gen _ _ h1 h2 h3; exact ⟨h1, h2, h3⟩
  | succ count ih =>
    intro i x gen hx hpow h1 ⟨l, h2⟩ h3
    have hx' : S (o.mul g x) := hr.mul_mem g x hg hx
    have hpow' : φ (o.mul g x) = φ g ^ (i + 1) := by rw [hr.mul, hpow, pow_succ']
    obtain ⟨a1, ⟨l', a2⟩, a3⟩ := mulAll_spec hr hx' h1
    have := ih (i + 1) hx' hpow' a1 ⟨l ++ l', by rw [a2, h2, List.append_assoc]⟩ (by
      intro y
      rw [a3, h3]
      constructor
      · rintro (⟨k, hk, h, hh, rfl⟩ | ⟨h', hh', rfl⟩)
        · exact ⟨k, hk.trans (by rw [tri]; omega), h, hh, rfl⟩
        · obtain ⟨k, hk, h, hh, rfl⟩ := (h3 h').mp hh'
          refine ⟨(i + 1) + k, by rw [tri]; omega, h, hh, ?_⟩
          rw [hpow', pow_add (φ g) (i + 1) k, mul_assoc]
      · rintro ⟨k, hk, h, hh, rfl⟩
        by_cases hki : k ≤ tri i
        · exact Or.inl ⟨k, hki, h, hh, rfl⟩
        · refine Or.inr ⟨φ g ^ (k - (i + 1)) * h, (h3 _).mpr ⟨k - (i + 1), ?_, h, hh, rfl⟩, ?_⟩
          · rw [tri] at hk; omega
          · rw [hpow', ← mul_assoc, ← pow_add]
            have := le_tri i
            congr 2
            omega)
    rw [show i + (count + 1) = i + 1 + count by omega]
    exact this

theorem extend_spec {g : α} (hg : S g) {gen : List α} (hd : Distinct S φ gen) :
    Distinct S φ (extend o gen g) ∧ (∃ l, extend o gen g = gen ++ l) ∧
    ∀ y, y ∈ (extend o gen g).map φ ↔ ∃ k ≤ tri (o.order g), ∃ h ∈ gen.map φ, y = φ g ^ k * h := by
  have := powers_spec hr hg (base := gen) (o.order g) 0 hr.e_mem (by rw [hr.one, pow_zero]) hd ⟨[], by simp⟩ (by
    intro y
    simp only [tri, Nat.le_zero]
    constructor
    · intro h; exact ⟨0, rfl, y, h, by simp⟩
    · rintro ⟨_, rfl, h, hh, rfl⟩; simpa using hh)
  rw [Nat.zero_add] at this
  exact this

theorem generate_fold : ∀ (gens : List α) {gen : List α}, (∀ g ∈ gens, S g) → Distinct S φ gen →
    Distinct S φ (gens.foldl (extend o) gen) ∧ ∃ l, gens.foldl (extend o) gen = gen ++ l := by
  intro gens
  induction gens with
  | nil => intro gen _ h; exact ⟨h, [], by simp⟩
  | cons g gens ih =>
    intro gen hS hd
    obtain ⟨h1, ⟨l, h2⟩, _⟩ := extend_spec hr (hS g List.mem_cons_self) hd
    obtain ⟨g1, l', g2⟩ := ih (fun x hx => hS x (List.mem_cons_of_mem _ hx)) h1
    exact ⟨g1, l ++ l', by rw [List.foldl_cons, g2, h2, List.append_assoc]⟩

theorem distinct_e : Distinct S φ [o.e] := ⟨fun m hm => by rw [List.mem_singleton.mp hm]; exact hr.e_mem, by simp⟩

theorem generate_distinct {gens : List α} (hS : ∀ g ∈ gens, S g) : Distinct S φ (generate o gens) :=
  (generate_fold hr gens hS (distinct_e hr)).1

omit hr in
theorem generate_append (a b : List α) : generate o (a ++ b) = b.foldl (extend o) (generate o a) := by
  unfold generate
  rw [List.foldl_append]

theorem generate_snoc {gens : List α} {g : α} (hS : ∀ x ∈ gens, S x) (hg : S g) (y : G) :
    y ∈ (generate o (gens ++ [g])).map φ ↔
      ∃ k ≤ tri (o.order g), ∃ h ∈ (generate o gens).map φ, y = φ g ^ k * h := by
  rw [generate_append, List.foldl_cons, List.foldl_nil]
  exact (extend_spec hr hg (generate_distinct hr hS)).2.2 y

theorem generate_mono {a b : List α} (ha : ∀ x ∈ a, S x) (hb : ∀ x ∈ b, S x) :
    ∀ y ∈ generate o a, y ∈ generate o (a ++ b) := by
  rw [generate_append]
  obtain ⟨_, l, h⟩ := generate_fold hr b hb (generate_distinct hr ha)
  rw [h]
  intro y hy
  exact List.mem_append_left _ hy

theorem generate_one (gens : List α) (hS : ∀ g ∈ gens, S g) : (1 : G) ∈ (generate o gens).map φ := by
  obtain ⟨_, l, h⟩ := generate_fold hr gens hS (distinct_e hr)
  unfold generate
  rw [h, List.map_append, List.map_cons, hr.one]
  simp

theorem generate_gen {gens : List α} (hS : ∀ g ∈ gens, S g) {g : α} (hg : g ∈ gens) (ho : 0 < o.order g) :
    φ g ∈ (generate o gens).map φ := by
  obtain ⟨a, b, rfl⟩ := List.append_of_mem hg
  have ha : ∀ x ∈ a, S x := fun x hx => hS x (List.mem_append_left _ hx)
  have hb : ∀ x ∈ b, S x := fun x hx => hS x (List.mem_append_right _ (List.mem_cons_of_mem _ hx))
  have hsg : S g := hS g hg
  have h1 : φ g ∈ (generate o (a ++ [g])).map φ := by
    rw [generate_snoc hr ha hsg]
    refine ⟨1, le_trans ho (le_tri _), 1, generate_one hr a ha, by simp⟩
  obtain ⟨m, hm, hφ⟩ := List.mem_map.mp h1
  have : m ∈ generate o ((a ++ [g]) ++ b) := generate_mono hr (by
    intro x hx
    rcases List.mem_append.mp hx with h | h
    · exact ha x h
    · rw [List.mem_singleton.mp h]; exact hsg) hb m hm
  rw [show a ++ g :: b = (a ++ [g]) ++ b by simp]
  rw [List.mem_map]
  exact ⟨m, this, hφ⟩

theorem generate_closure : ∀ {gens : List α}, (∀ g ∈ gens, S g) → ∀ y ∈ (generate o gens).map φ,
    y ∈ Submonoid.closure {x | x ∈ gens.map φ} := by
  intro gens
  induction gens using List.reverseRecOn with
  | nil =>
    intro _ y hy
    simp only [generate, List.foldl_nil, List.map_cons, List.map_nil, List.mem_singleton, hr.one] at hy
    rw [hy]
    exact Submonoid.one_mem _
  | append_singleton gens g ih =>
    intro hS y hy
    have ha : ∀ x ∈ gens, S x := fun x hx => hS x (List.mem_append_left _ hx)
    have hg : S g := hS g (by simp)
    rw [generate_snoc hr ha hg] at hy
    obtain ⟨k, _, h, hh, rfl⟩ := hy
    refine Submonoid.mul_mem _ (Submonoid.pow_mem _ (Submonoid.subset_closure (by simp)) k) ?_
    exact Submonoid.closure_mono (by intro x hx; simp at hx ⊢; exact Or.inl hx) (ih ha h hh)

/-- the set of elements that a list stands for is closed under multiplication -/
def ClosedSet (φ : α → G) (M : List α) : Prop := ∀ a ∈ M.map φ, ∀ b ∈ M.map φ, a * b ∈ M.map φ

/-- If the set is closed under multiplication by the generators, from the right, it is everything. -/
theorem closure_of_right {gens : List α} (hS : ∀ g ∈ gens, S g)
    (h : ∀ a ∈ (generate o gens).map φ, ∀ g ∈ gens, a * φ g ∈ (generate o gens).map φ) (y : G) :
    y ∈ (generate o gens).map φ ↔ y ∈ Submonoid.closure {x | x ∈ gens.map φ} := by
  refine ⟨generate_closure hr hS y, fun hy => ?_⟩
  refine Submonoid.closure_induction_right (motive := fun y _ => y ∈ (generate o gens).map φ)
    (generate_one hr gens hS) ?_ hy
  intro x _ z hz hx
  obtain ⟨g, hg, rfl⟩ := List.mem_map.mp hz
  exact h x hx g hg

/-- One more generator `g` keeps the set closed, if enough powers of `g` are taken and the set before, times
`g`, is in the set after. -/
theorem closed_snoc {gens : List α} {g : α} (hS : ∀ x ∈ gens, S x) (hg : S g)
    (hc : ClosedSet φ (generate o gens)) {n : Nat} (hn : 0 < n) (hpow : φ g ^ n = 1) (hn' : n ≤ tri (o.order g) + 1)
    (hperm : ∀ h ∈ (generate o gens).map φ, ∃ k, ∃ h' ∈ (generate o gens).map φ, h * φ g = φ g ^ k * h') :
    ClosedSet φ (generate o (gens ++ [g])) := by
  have hall : ∀ k, ∀ h ∈ (generate o gens).map φ, φ g ^ k * h ∈ (generate o (gens ++ [g])).map φ := by
    intro k h hh
    rw [generate_snoc hr hS hg]
    refine ⟨k % n, by have := Nat.mod_lt k hn; omega, h, hh, ?_⟩
    conv_lhs => rw [← Nat.div_add_mod k n, pow_add, pow_mul, hpow, one_pow, one_mul]
  have hp : ∀ b, ∀ h ∈ (generate o gens).map φ, ∃ k, ∃ h' ∈ (generate o gens).map φ,
      h * φ g ^ b = φ g ^ k * h' := by
    intro b
    induction b with
    | zero => intro h hh; exact ⟨0, h, hh, by simp⟩
    | succ b ih =>
      intro h hh
      obtain ⟨k, h', hh', he⟩ := ih h hh
      obtain ⟨k', h'', hh'', he'⟩ := hperm h' hh'
      refine ⟨k + k', h'', hh'', ?_⟩
      rw [pow_succ, ← mul_assoc, he, mul_assoc, he', ← mul_assoc, pow_add]
  intro x hx y hy
  obtain ⟨a, _, h, hh, rfl⟩ := (generate_snoc hr hS hg x).mp hx
  obtain ⟨b, _, h', hh', rfl⟩ := (generate_snoc hr hS hg y).mp hy
  obtain ⟨k, h'', hh'', he⟩ := hp b h hh
  have : φ g ^ a * h * (φ g ^ b * h') = φ g ^ (a + k) * (h'' * h') := by
    rw [mul_assoc, ← mul_assoc h, he, pow_add, mul_assoc, mul_assoc]
  rw [this]
  exact hall _ _ (hc _ hh'' _ hh')

/-! ### generators -/

theorem collect_spec : ∀ (fuel : Nat) (lA lB : List α), lA.length ≤ fuel → (∀ x ∈ lA, 0 < o.order x) →
    (∀ x ∈ lA, S x) → (∀ x ∈ lB, S x) →
    ∃ l, (∀ x ∈ l, x ∈ lA) ∧ (collect o fuel lA lB).1 = [] ∧ (collect o fuel lA lB).2 = lB ++ l ∧
      ∀ x ∈ lA, φ x ∈ (generate o (lB ++ l)).map φ := by
  intro fuel
  induction fuel with
  | zero =>
    intro lA lB h _ _ _
    have : lA = [] := List.length_eq_zero_iff.mp (Nat.le_zero.mp h)
    subst this
    exact ⟨[], by simp, by rw [collect], by rw [collect]; simp, by simp⟩
  | succ fuel ih =>
    intro lA lB h hord hA hB
    cases lA with
    | nil => exact ⟨[], by simp, by rw [collect], by rw [collect]; simp, by simp⟩
    | cons a lA =>
      have ha : S a := hA a List.mem_cons_self
      have hB' : ∀ x ∈ lB ++ [a], S x := by
        intro x hx
        rcases List.mem_append.mp hx with h | h
        · exact hB x h
        · rw [List.mem_singleton.mp h]; exact ha
      have hgenS := generate_distinct hr hB'
      have hain : has o (generate o (lB ++ [a])) a = true := by
        rw [has_iff hr hgenS.1 ha]
        exact generate_gen hr hB' (by simp) (hord a List.mem_cons_self)
      have hlen : ((a :: lA).filter fun m => !has o (generate o (lB ++ [a])) m).length ≤ fuel := by
        rw [List.filter_cons, hain]
        simp only [Bool.not_true, Bool.false_eq_true, if_false]
        have := List.length_filter_le (fun m => !has o (generate o (lB ++ [a])) m) lA
        simp at h
        omega
      obtain ⟨l, h0, h1, h2, h3⟩ := ih _ (lB ++ [a]) hlen
        (fun x hx => hord x (List.mem_of_mem_filter hx)) (fun x hx => hA x (List.mem_of_mem_filter hx)) hB'
      refine ⟨a :: l, ?_, ?_, ?_, ?_⟩
      · intro x hx
        rcases List.mem_cons.mp hx with rfl | hx
        · exact List.mem_cons_self
        · exact List.mem_of_mem_filter (h0 x hx)
      · rw [collect]; exact h1
      · rw [collect, h2]; simp
      · intro x hx
        rw [show lB ++ a :: l = (lB ++ [a]) ++ l by simp]
        by_cases hin : has o (generate o (lB ++ [a])) x = true
        · rw [has_iff hr hgenS.1 (hA x hx)] at hin
          obtain ⟨m, hm, hφ⟩ := List.mem_map.mp hin
          rw [List.mem_map]
          refine ⟨m, generate_mono hr hB' ?_ m hm, hφ⟩
          intro y hy
          exact hA y (List.mem_of_mem_filter (h0 y hy))
        · apply h3
          rw [List.mem_filter]
          exact ⟨hx, by simpa using hin⟩

omit hr in
theorem prune_sublist : ∀ (fuel i : Nat) (lB : List α), List.Sublist (prune o fuel i lB) lB := by
  intro fuel
  induction fuel with
  | zero => intro i lB; exact List.Sublist.refl _
  | succ fuel ih =>
    intro i lB
    rw [prune]
    cases h : lB[i]? with
    | none => exact List.Sublist.refl _
    | some b =>
      dsimp only
      by_cases hh : has o (generate o (lB.eraseIdx i)) b = true
      · rw [if_pos hh]
        exact (ih _ _).trans (List.eraseIdx_sublist _ _)
      · rw [if_neg hh]
        exact ih _ _

/-- If the sets generated by the lists that are tried are closed, pruning loses nothing. -/
theorem prune_spec : ∀ (fuel i : Nat) (lB : List α), (∀ x ∈ lB, 0 < o.order x) → (∀ x ∈ lB, S x) →
      (∀ l, List.Sublist l lB → ClosedSet φ (generate o l)) →
      ∀ y ∈ (generate o lB).map φ, y ∈ (generate o (prune o fuel i lB)).map φ := by
  intro fuel
  induction fuel with
  | zero => intro i lB _ _ _ y hy; exact hy
  | succ fuel ih =>
    intro i lB hord hS hc y hy
    rw [prune]
    cases h : lB[i]? with
    | none => exact hy
    | some b =>
      dsimp only
      by_cases hh : has o (generate o (lB.eraseIdx i)) b = true
      · rw [if_pos hh]
        have hS' : ∀ x ∈ lB.eraseIdx i, S x := fun x hx => hS x ((List.eraseIdx_sublist _ _).subset hx)
        have hsb : S b := hS b (List.mem_of_getElem? h)
        have hord' : ∀ x ∈ lB.eraseIdx i, 0 < o.order x := fun x hx => hord x ((List.eraseIdx_sublist _ _).subset hx)
        apply ih i _ hord' hS' (fun l hl => hc l (hl.trans (List.eraseIdx_sublist _ _)))
        rw [has_iff hr (generate_distinct hr hS').1 hsb] at hh
        have hcl := hc _ (List.eraseIdx_sublist lB i)
        have hy' := generate_closure hr hS y hy
        have hall := closure_of_right hr hS' (fun a ha g hg => hcl a ha _ (generate_gen hr hS' hg (hord' g hg)))
        rw [hall]
        refine (Submonoid.closure_le.mpr ?_) hy'
        intro x hx
        obtain ⟨m, hm, rfl⟩ := List.mem_map.mp hx
        obtain ⟨j, hj⟩ := List.getElem?_of_mem hm
        by_cases hji : j = i
        · subst hji
          rw [h] at hj
          rw [← Option.some.inj hj]
          exact (hall _).mp hh
        · apply Submonoid.subset_closure
          rw [Set.mem_ofPred_eq, List.mem_map]
          exact ⟨m, (List.mem_eraseIdx_iff_getElem?).mpr ⟨j, hji, hj⟩, rfl⟩
      · rw [if_neg hh]
        exact ih _ _ hord hS hc y hy

end Brille.Sym
