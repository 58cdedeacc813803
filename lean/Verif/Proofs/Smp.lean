import Verif.Model.Smp
import Mathlib.Data.Fintype.Card
import Mathlib.Data.Fintype.EquivFin
import Mathlib.Data.List.Nodup
import Mathlib.Algebra.BigOperators.Fin
import Mathlib.Algebra.Order.BigOperators.Group.Finset
import Mathlib.Tactic.Ring
import Mathlib.Tactic.Linarith

namespace Brille.Smp

set_option linter.unusedSectionVars false

variable {n : Nat} {P : Type} [LinearOrder P] [NeZero n]

theorem put_self {α : Type} (f : Fin n → α) (k : Fin n) (x : α) : put f k x k = x := by simp [put]

theorem put_ne {α : Type} (f : Fin n → α) {k j : Fin n} (x : α) (h : j ≠ k) : put f k x j = f j := by
  simp [put, h]

/-! ### the preference lists -/

theorem fold_less (tmp : Fin n → P) : ∀ (l : List (Fin n)) (b : Fin n),
    tmp (l.foldl (lessStep tmp) b) ≤ tmp b ∧ ∀ k ∈ l, tmp (l.foldl (lessStep tmp) b) ≤ tmp k := by
  intro l
  induction l with
  | nil => intro b; simp
  | cons x l ih =>
    intro b
    obtain ⟨h1, h2⟩ := ih (lessStep tmp b x)
    have h3 : tmp (lessStep tmp b x) ≤ tmp b ∧ tmp (lessStep tmp b x) ≤ tmp x := by
      unfold lessStep
      by_cases h : tmp x < tmp b
      · rw [if_pos h]; exact ⟨h.le, le_refl _⟩
      · rw [if_neg h]; exact ⟨le_refl _, not_lt.mp h⟩
    rw [List.foldl_cons]
    refine ⟨h1.trans h3.1, ?_⟩
    intro k hk
    rcases List.mem_cons.mp hk with rfl | hk
    · exact h1.trans h3.2
    · exact h2 k hk

theorem argmin_le (tmp : Fin n → P) (k : Fin n) : tmp (argmin tmp) ≤ tmp k :=
  (fold_less tmp _ 0).2 k (List.mem_finRange k)

/-- the entries not yet chosen keep their values, those chosen are `big` -/
theorem picks_spec {big : P} (prefs : Fin n → P) (hb : ∀ k, prefs k < big) :
    ∀ (m : Nat) (S : Finset (Fin n)) (tmp : Fin n → P), m + S.card = n →
      (∀ k, k ∈ S → tmp k = big) → (∀ k, k ∉ S → tmp k = prefs k) →
      (picks big m tmp).length = m ∧ (picks big m tmp).Nodup ∧ (∀ k ∈ picks big m tmp, k ∉ S) ∧
        (picks big m tmp).Pairwise fun a b => prefs a ≤ prefs b := by
  intro m
  induction m with
  | zero => intro S tmp _ _ _; simp [picks]
  | succ m ih =>
    intro S tmp hm h1 h2
    have hex : ∃ k, k ∉ S := by
      by_contra hno
      push Not at hno
      have : S = Finset.univ := Finset.eq_univ_iff_forall.mpr hno
      rw [this, Finset.card_univ, Fintype.card_fin] at hm
      omega
    have hns : argmin tmp ∉ S := by
      intro hin
      obtain ⟨k, hk⟩ := hex
      have := argmin_le tmp k
      rw [h1 _ hin, h2 k hk] at this
      exact absurd (hb k) (not_lt.mpr this)
    obtain ⟨g1, g2, g3, g4⟩ := ih (insert (argmin tmp) S) (put tmp (argmin tmp) big)
      (by rw [Finset.card_insert_of_notMem hns]; omega)
      (by
        intro k hk
        by_cases he : k = argmin tmp
        · subst he; exact put_self _ _ _
        · rw [put_ne _ _ he]
          exact h1 k (by simpa [he] using hk))
      (by
        intro k hk
        simp only [Finset.mem_insert, not_or] at hk
        rw [put_ne _ _ hk.1]
        exact h2 k hk.2)
    refine ⟨by rw [picks, List.length_cons, g1], ?_, ?_, ?_⟩
    · rw [picks, List.nodup_cons]
      exact ⟨fun hin => g3 _ hin (Finset.mem_insert_self _ _), g2⟩
    · intro k hk
      rw [picks] at hk
      rcases List.mem_cons.mp hk with rfl | hk
      · exact hns
      · have := g3 k hk
        simp only [Finset.mem_insert, not_or] at this
        exact this.2
    · rw [picks, List.pairwise_cons]
      refine ⟨?_, g4⟩
      intro k hk
      have h3 := g3 k hk
      simp only [Finset.mem_insert, not_or] at h3
      have := argmin_le tmp k
      rwa [h2 _ hns, h2 k h3.2] at this

theorem picks_all {big : P} (prefs : Fin n → P) (hb : ∀ k, prefs k < big) :
    (picks big n prefs).length = n ∧ (∀ k, k ∈ picks big n prefs) ∧
      (picks big n prefs).Pairwise fun a b => prefs a ≤ prefs b := by
  obtain ⟨h1, h2, _, h4⟩ := picks_spec prefs hb n ∅ prefs (by simp) (by simp) (by simp)
  refine ⟨h1, ?_, h4⟩
  intro k
  have hc : (picks big n prefs).toFinset.card = Fintype.card (Fin n) := by
    rw [List.toFinset_card_of_nodup h2, h1, Fintype.card_fin]
  have := Finset.card_eq_iff_eq_univ _ |>.mp hc
  have hk : k ∈ (picks big n prefs).toFinset := by rw [this]; exact Finset.mem_univ k
  exact List.mem_toFinset.mp hk

variable {big : P} {prefs : Fin n → Fin n → P}

theorem cpref_some (hb : ∀ i j, prefs i j < big) (i j : Fin n) : ∃ a, cpref big prefs i j = some a := by
  unfold cpref
  cases h : (corder big prefs i).findIdx? (fun x => x == j) with
  | some a => exact ⟨a, rfl⟩
  | none =>
    rw [List.findIdx?_eq_none_iff] at h
    have := h j ((picks_all (fun j => prefs j i) (fun k => hb k i)).2.1 j)
    simp at this

/-! ### the matching -/

structure Inv (big : P) (prefs : Fin n → Fin n → P) (s : State n) : Prop where
  row : ∀ r, s.rmatched r = true → s.cmatched (s.rsol r) = true ∧ s.csol (s.rsol r) = r
  col : ∀ c, s.cmatched c = true → s.rmatched (s.csol c) = true ∧ s.rsol (s.csol c) = c
  count : s.nsel = (Finset.univ.filter fun c => s.cmatched c = true).card
  past : ∀ r p c, p < s.rproposed r → (rpref big prefs r)[p]? = some c → s.cmatched c = true
  cur : ∀ r, s.rmatched r = true → (rpref big prefs r)[s.rproposed r]? = some (s.rsol r)
  le : ∀ r, s.rproposed r < n

theorem Inv.init : Inv big prefs (init (n := n)) := by
  refine ⟨by simp [Smp.init], by simp [Smp.init], by simp [Smp.init], by simp [Smp.init],
    by simp [Smp.init], ?_⟩
  intro r
  exact Nat.pos_of_ne_zero (NeZero.ne n)

/-- a row whose columns are all taken is itself taken -/
theorem matched_of_full {s : State n} (h : Inv big prefs s) (hc : ∀ c, s.cmatched c = true) (r : Fin n) :
    s.rmatched r = true := by
  have hinj : Function.Injective s.csol := by
    intro a b hab
    rw [← (h.col a (hc a)).2, ← (h.col b (hc b)).2, hab]
  obtain ⟨c, rfl⟩ := Finite.surjective_of_injective hinj r
  exact (h.col c (hc c)).1

theorem full_of_matched {s : State n} (h : Inv big prefs s) (hr : ∀ r, s.rmatched r = true) (c : Fin n) :
    s.cmatched c = true := by
  have hinj : Function.Injective s.rsol := by
    intro a b hab
    rw [← (h.row a (hr a)).2, ← (h.row b (hr b)).2, hab]
  obtain ⟨r, rfl⟩ := Finite.surjective_of_injective hinj c
  exact (h.row r (hr r)).1

/-- when a row has one refusal more, it still has a column to ask -/
theorem next_lt (hb : ∀ i j, prefs i j < big) {s : State n} (h : Inv big prefs s) {r c : Fin n}
    (hc : s.cmatched c = true) (hrc : (rpref big prefs r)[s.rproposed r]? = some c) {r' : Fin n}
    (hun : s.rmatched r' = false) : s.rproposed r + 1 < n := by
  have hlt := h.le r
  by_contra hge
  have hlast : s.rproposed r + 1 = n := by omega
  have hall : ∀ c, s.cmatched c = true := by
    intro c'
    obtain ⟨p, hp, hpc⟩ := List.getElem_of_mem ((picks_all (prefs r) (hb r)).2.1 c')
    have hp' : p < n := by rwa [(picks_all (prefs r) (hb r)).1] at hp
    have he : (rpref big prefs r)[p]? = some c' := by
      rw [← hpc]; exact List.getElem?_eq_getElem hp
    by_cases hpl : p = s.rproposed r
    · subst hpl
      rw [he] at hrc
      rw [Option.some.inj hrc]; exact hc
    · exact h.past r p c' (by omega) he
  rw [matched_of_full h hall r'] at hun
  cases hun

def weight (s : State n) : Nat := ∑ r, s.rproposed r + s.nsel

theorem sum_put (f : Fin n → Nat) (k : Fin n) : ∑ r, put f k (f k + 1) r = ∑ r, f r + 1 := by
  have : ∀ r, put f k (f k + 1) r = f r + (if r = k then 1 else 0) := by
    intro r
    by_cases h : r = k
    · subst h; rw [put_self, if_pos rfl]
    · rw [put_ne _ _ h, if_neg h, Nat.add_zero]
  rw [Finset.sum_congr rfl (fun r _ => this r), Finset.sum_add_distrib]
  simp

theorem rowStep_matched {s : State n} {i : Fin n} (hi : s.rmatched i = true) :
    rowStep big prefs s i = some s := by
  unfold rowStep
  rw [if_pos hi]

theorem rowStep_spec (hb : ∀ i j, prefs i j < big) {s : State n} (h : Inv big prefs s) {i : Fin n}
    (hi : s.rmatched i = false) :
    ∃ s', rowStep big prefs s i = some s' ∧ Inv big prefs s' ∧ weight s' = weight s + 1 := by
  unfold rowStep
  rw [if_neg (by simp [hi])]
  have hlen : s.rproposed i < (rpref big prefs i).length := by
    rw [show (rpref big prefs i).length = n from (picks_all (prefs i) (hb i)).1]; exact h.le i
  obtain ⟨c, hc⟩ : ∃ c, (rpref big prefs i)[s.rproposed i]? = some c :=
    ⟨_, List.getElem?_eq_getElem hlen⟩
  rw [hc]
  dsimp only
  by_cases hm : s.cmatched c = true
  · rw [if_pos hm]
    obtain ⟨a, ha⟩ := cpref_some hb i i
    obtain ⟨b, hb'⟩ := cpref_some hb i (s.csol c)
    rw [ha, hb']
    dsimp only
    obtain ⟨ho, hoc⟩ := h.col c hm
    have hoi : s.csol c ≠ i := by intro he; rw [he, hi] at ho; cases ho
    by_cases hab : a < b
    · rw [if_pos hab]
      have hcur := h.cur _ ho
      rw [hoc] at hcur
      have hnext := next_lt hb h hm hcur hi
      refine ⟨_, rfl, ⟨?_, ?_, h.count, ?_, ?_, ?_⟩, ?_⟩
      · intro r hr
        dsimp only at hr ⊢
        by_cases hri : r = i
        · subst hri; rw [put_self, put_self]; exact ⟨hm, rfl⟩
        · rw [put_ne _ _ hri] at hr
          have hro : r ≠ s.csol c := by rintro rfl; rw [put_self] at hr; cases hr
          rw [put_ne _ _ hro] at hr
          obtain ⟨x, y⟩ := h.row r hr
          rw [put_ne _ _ hri, put_ne _ _ hro]
          refine ⟨x, ?_⟩
          rw [put_ne _ _ (by intro he; rw [he] at y; exact hro y.symm)]
          exact y
      · intro c' hc'
        dsimp only at hc' ⊢
        by_cases hcc : c' = c
        · subst hcc; rw [put_self, put_self, put_self]; exact ⟨rfl, rfl⟩
        · obtain ⟨x, y⟩ := h.col c' hc'
          have h1 : s.csol c' ≠ i := by intro he; rw [he, hi] at x; cases x
          have h2 : s.csol c' ≠ s.csol c := by intro he; rw [he, hoc] at y; exact hcc y.symm
          rw [put_ne _ _ hcc, put_ne _ _ h1, put_ne _ _ h2, put_ne _ _ h1, put_ne _ _ h2]
          exact ⟨x, y⟩
      · intro r p c' hp hpc
        dsimp only at hp ⊢
        by_cases hro : r = s.csol c
        · subst hro
          rw [put_self] at hp
          by_cases hpl : p = s.rproposed (s.csol c)
          · subst hpl
            rw [hpc] at hcur
            rw [Option.some.inj hcur]; exact hm
          · exact h.past _ p c' (by omega) hpc
        · rw [put_ne _ _ hro] at hp
          exact h.past r p c' hp hpc
      · intro r hr
        dsimp only at hr ⊢
        by_cases hri : r = i
        · subst hri
          rw [put_self, put_ne _ _ (Ne.symm hoi)]
          exact hc
        · rw [put_ne _ _ hri] at hr
          have hro : r ≠ s.csol c := by rintro rfl; rw [put_self] at hr; cases hr
          rw [put_ne _ _ hro] at hr
          rw [put_ne _ _ hri, put_ne _ _ hro, put_ne _ _ hro]
          exact h.cur r hr
      · intro r
        dsimp only
        by_cases hro : r = s.csol c
        · subst hro; rw [put_self]; exact hnext
        · rw [put_ne _ _ hro]; exact h.le r
      · unfold weight
        dsimp only
        rw [sum_put]
        omega
    · rw [if_neg hab]
      have hnext := next_lt hb h hm hc hi
      refine ⟨_, rfl, ⟨h.row, h.col, h.count, ?_, ?_, ?_⟩, ?_⟩
      · intro r p c' hp hpc
        dsimp only at hp ⊢
        by_cases hri : r = i
        · subst hri
          rw [put_self] at hp
          by_cases hpl : p = s.rproposed r
          · subst hpl
            rw [hpc] at hc
            rw [Option.some.inj hc]; exact hm
          · exact h.past _ p c' (by omega) hpc
        · rw [put_ne _ _ hri] at hp
          exact h.past r p c' hp hpc
      · intro r hr
        dsimp only at hr ⊢
        rw [put_ne _ _ (by rintro rfl; rw [hi] at hr; cases hr)]
        exact h.cur r hr
      · intro r
        dsimp only
        by_cases hri : r = i
        · subst hri; rw [put_self]; exact hnext
        · rw [put_ne _ _ hri]; exact h.le r
      · unfold weight
        dsimp only
        rw [sum_put]
        omega
  · rw [if_neg hm]
    refine ⟨_, rfl, ⟨?_, ?_, ?_, ?_, ?_, h.le⟩, ?_⟩
    · intro r hr
      dsimp only at hr ⊢
      by_cases hri : r = i
      · subst hri; rw [put_self, put_self, put_self]; exact ⟨rfl, rfl⟩
      · rw [put_ne _ _ hri] at hr
        obtain ⟨x, y⟩ := h.row r hr
        have hne : s.rsol r ≠ c := by intro he; rw [he] at x; exact hm x
        rw [put_ne _ _ hri, put_ne _ _ hne, put_ne _ _ hne]
        exact ⟨x, y⟩
    · intro c' hc'
      dsimp only at hc' ⊢
      by_cases hcc : c' = c
      · subst hcc; rw [put_self, put_self, put_self]; exact ⟨rfl, rfl⟩
      · rw [put_ne _ _ hcc] at hc'
        obtain ⟨x, y⟩ := h.col c' hc'
        have h1 : s.csol c' ≠ i := by intro he; rw [he, hi] at x; cases x
        rw [put_ne _ _ hcc, put_ne _ _ h1, put_ne _ _ h1]
        exact ⟨x, y⟩
    · dsimp only
      have : (Finset.univ.filter fun x => put s.cmatched c true x = true) =
          insert c (Finset.univ.filter fun x => s.cmatched x = true) := by
        ext x
        by_cases hx : x = c
        · subst hx; simp [put_self]
        · simp [put_ne _ _ hx, hx]
      rw [this, Finset.card_insert_of_notMem (by simpa using hm), h.count]
    · intro r p c' hp hpc
      dsimp only at hp ⊢
      by_cases hcc : c' = c
      · subst hcc; rw [put_self]
      · rw [put_ne _ _ hcc]; exact h.past r p c' hp hpc
    · intro r hr
      dsimp only at hr ⊢
      by_cases hri : r = i
      · subst hri; rw [put_self]; exact hc
      · rw [put_ne _ _ hri] at hr ⊢
        exact h.cur r hr
    · unfold weight
      dsimp only
      omega

theorem sweep_spec (hb : ∀ i j, prefs i j < big) : ∀ (l : List (Fin n)) (s : State n), Inv big prefs s →
    ∃ s', sweep big prefs s l = some s' ∧ Inv big prefs s' ∧ weight s ≤ weight s' ∧
      ((∃ r ∈ l, s.rmatched r = false) → weight s < weight s') := by
  intro l
  induction l with
  | nil => intro s h; exact ⟨s, rfl, h, le_refl _, by simp⟩
  | cons i l ih =>
    intro s h
    rw [sweep]
    by_cases hi : s.rmatched i = true
    · rw [rowStep_matched hi]
      obtain ⟨s', h1, h2, h3, h4⟩ := ih s h
      refine ⟨s', h1, h2, h3, ?_⟩
      rintro ⟨r, hr, hrm⟩
      rcases List.mem_cons.mp hr with rfl | hr
      · rw [hi] at hrm; cases hrm
      · exact h4 ⟨r, hr, hrm⟩
    · obtain ⟨s1, g1, g2, g3⟩ := rowStep_spec hb h (i := i) (by simpa using hi)
      rw [g1]
      obtain ⟨s', h1, h2, h3, _⟩ := ih s1 g2
      exact ⟨s', h1, h2, by omega, fun _ => by omega⟩

theorem weight_lt {s : State n} (h : Inv big prefs s) (hs : s.nsel < n) : weight s < n * n := by
  have h1 : ∑ r, s.rproposed r ≤ ∑ _r : Fin n, (n - 1) :=
    Finset.sum_le_sum fun r _ => by have := h.le r; omega
  rw [Finset.sum_const, Finset.card_univ, Fintype.card_fin, smul_eq_mul] at h1
  have h2 : n * (n - 1) + n = n * n := by
    obtain ⟨m, rfl⟩ : ∃ m, n = m + 1 := ⟨n - 1, by omega⟩
    simp only [Nat.add_sub_cancel]
    ring
  unfold weight
  omega

theorem exists_unmatched {s : State n} (h : Inv big prefs s) (hs : s.nsel < n) :
    ∃ r, s.rmatched r = false := by
  by_contra hno
  push Not at hno
  have hr : ∀ r, s.rmatched r = true := fun r => by simpa using hno r
  have hc := full_of_matched h hr
  have : (Finset.univ.filter fun c => s.cmatched c = true) = Finset.univ := by
    ext c; simp [hc c]
  have hcount := h.count
  rw [this, Finset.card_univ, Fintype.card_fin] at hcount
  omega

theorem loop_spec (hb : ∀ i j, prefs i j < big) : ∀ (f : Nat) (s : State n), Inv big prefs s →
    n * n ≤ f + weight s → ∃ s', loop big prefs f s = some s' ∧ Inv big prefs s' ∧ n ≤ s'.nsel := by
  intro f
  induction f with
  | zero =>
    intro s h hf
    refine ⟨s, rfl, h, ?_⟩
    by_contra hlt
    have := weight_lt h (by omega)
    omega
  | succ f ih =>
    intro s h hf
    rw [loop]
    by_cases hs : s.nsel < n
    · rw [if_pos hs]
      obtain ⟨s1, h1, h2, _, h4⟩ := sweep_spec hb (List.finRange n) s h
      rw [h1]
      obtain ⟨r, hr⟩ := exists_unmatched h hs
      have := h4 ⟨r, List.mem_finRange r, hr⟩
      exact ih s1 h2 (by omega)
    · rw [if_neg hs]
      exact ⟨s, rfl, h, by omega⟩

theorem smp_spec (hb : ∀ i j, prefs i j < big) : ∃ rsol csol, smp big prefs = some (rsol, csol) ∧
    (∀ r, csol (rsol r) = r) ∧ ∀ c, rsol (csol c) = c := by
  have hn : 0 < n := Nat.pos_of_ne_zero (NeZero.ne n)
  obtain ⟨s, h1, h2, h3⟩ := loop_spec hb (n * n * n) (init (n := n)) (Inv.init (big := big) (prefs := prefs))
    (by
      have : n * n * 1 ≤ n * n * n := Nat.mul_le_mul_left _ hn
      omega)
  have hcard : (Finset.univ.filter fun c => s.cmatched c = true).card = Fintype.card (Fin n) := by
    have hle := Finset.card_le_univ (Finset.univ.filter fun c => s.cmatched c = true)
    rw [← h2.count] at hle ⊢
    rw [Fintype.card_fin] at hle ⊢
    omega
  have hall : ∀ c, s.cmatched c = true := by
    intro c
    have := (Finset.card_eq_iff_eq_univ _).mp hcard
    have hc : c ∈ Finset.univ.filter fun c => s.cmatched c = true := by rw [this]; exact Finset.mem_univ c
    simpa using hc
  refine ⟨s.rsol, s.csol, by rw [smp, h1]; rfl, ?_, ?_⟩
  · intro r
    exact (h2.row r (matched_of_full h2 hall r)).2
  · intro c
    exact (h2.col c (hall c)).2

/-! ### rows without rivals -/

theorem favourite_first {σ : Fin n → Fin n} (hσ : ∀ r c, c ≠ σ r → prefs r (σ r) < prefs r c) (r : Fin n) :
    (rpref big prefs r)[0]? = some (σ r) := by
  have hn : 0 < n := Nat.pos_of_ne_zero (NeZero.ne n)
  obtain ⟨m, hm⟩ : ∃ m, n = m + 1 := ⟨n - 1, by omega⟩
  have : argmin (prefs r) = σ r := by
    by_contra hne
    exact absurd (hσ r _ hne) (not_lt.mpr (argmin_le (prefs r) (σ r)))
  unfold rpref
  have h : ∀ k, k = m + 1 → (picks big k (prefs r))[0]? = some (σ r) := by
    rintro k rfl
    rw [picks, this]
    rfl
  exact h n hm

theorem rowStep_favourite (hb : ∀ i j, prefs i j < big) {σ : Fin n → Fin n} (hinj : Function.Injective σ)
    (hσ : ∀ r c, c ≠ σ r → prefs r (σ r) < prefs r c) {s s' : State n} (h : Inv big prefs s)
    (h0 : ∀ r, s.rproposed r = 0) {i : Fin n} (he : rowStep big prefs s i = some s') :
    Inv big prefs s' ∧ ∀ r, s'.rproposed r = 0 := by
  by_cases hi : s.rmatched i = true
  · rw [rowStep_matched hi] at he
    obtain rfl := Option.some.inj he
    exact ⟨h, h0⟩
  · have hi' : s.rmatched i = false := by simpa using hi
    obtain ⟨s1, g1, g2, _⟩ := rowStep_spec hb h hi'
    obtain rfl : s1 = s' := by rw [he] at g1; exact (Option.some.inj g1).symm
    refine ⟨g2, ?_⟩
    have hm : ¬ s.cmatched (σ i) = true := by
      intro hm
      obtain ⟨ho, hoc⟩ := h.col _ hm
      have hcur := h.cur _ ho
      rw [h0, favourite_first hσ, hoc] at hcur
      have := hinj (Option.some.inj hcur)
      rw [this, hi'] at ho
      cases ho
    unfold rowStep at he
    rw [if_neg hi, h0, favourite_first hσ] at he
    dsimp only at he
    rw [if_neg hm] at he
    obtain rfl := Option.some.inj he
    exact h0

theorem sweep_favourite (hb : ∀ i j, prefs i j < big) {σ : Fin n → Fin n} (hinj : Function.Injective σ)
    (hσ : ∀ r c, c ≠ σ r → prefs r (σ r) < prefs r c) : ∀ (l : List (Fin n)) {s s' : State n},
    Inv big prefs s → (∀ r, s.rproposed r = 0) → sweep big prefs s l = some s' →
    Inv big prefs s' ∧ ∀ r, s'.rproposed r = 0 := by
  intro l
  induction l with
  | nil => intro s s' h h0 he; rw [sweep] at he; obtain rfl := Option.some.inj he; exact ⟨h, h0⟩
  | cons i l ih =>
    intro s s' h h0 he
    rw [sweep] at he
    cases hs : rowStep big prefs s i with
    | none => rw [hs] at he; simp at he
    | some s1 =>
      rw [hs] at he
      obtain ⟨a, b⟩ := rowStep_favourite hb hinj hσ h h0 hs
      exact ih a b he

theorem loop_favourite (hb : ∀ i j, prefs i j < big) {σ : Fin n → Fin n} (hinj : Function.Injective σ)
    (hσ : ∀ r c, c ≠ σ r → prefs r (σ r) < prefs r c) : ∀ (f : Nat) {s s' : State n},
    Inv big prefs s → (∀ r, s.rproposed r = 0) → loop big prefs f s = some s' →
    Inv big prefs s' ∧ ∀ r, s'.rproposed r = 0 := by
  intro f
  induction f with
  | zero => intro s s' h h0 he; rw [loop] at he; obtain rfl := Option.some.inj he; exact ⟨h, h0⟩
  | succ f ih =>
    intro s s' h h0 he
    rw [loop] at he
    by_cases hs : s.nsel < n
    · rw [if_pos hs] at he
      cases hw : sweep big prefs s (List.finRange n) with
      | none => rw [hw] at he; simp at he
      | some s1 =>
        rw [hw] at he
        obtain ⟨a, b⟩ := sweep_favourite hb hinj hσ _ h h0 hw
        exact ih a b he
    · rw [if_neg hs] at he
      obtain rfl := Option.some.inj he
      exact ⟨h, h0⟩

theorem smp_favourite (hb : ∀ i j, prefs i j < big) {σ : Fin n → Fin n} (hinj : Function.Injective σ)
    (hσ : ∀ r c, c ≠ σ r → prefs r (σ r) < prefs r c) : ∃ csol, smp big prefs = some (σ, csol) := by
  obtain ⟨rsol, csol, h1, h2, _⟩ := smp_spec (big := big) (prefs := prefs) hb
  refine ⟨csol, ?_⟩
  rw [h1]
  unfold smp at h1
  rw [Option.map_eq_some_iff] at h1
  obtain ⟨s, h3, h4⟩ := h1
  obtain ⟨a, b⟩ := loop_favourite hb hinj hσ _ Inv.init (fun _ => rfl) h3
  obtain ⟨rfl, rfl⟩ := Prod.mk.inj h4
  have hn : 0 < n := Nat.pos_of_ne_zero (NeZero.ne n)
  obtain ⟨s', e1, e2, e3⟩ := loop_spec hb (n * n * n) (init (n := n)) (Inv.init (big := big) (prefs := prefs))
    (by
      have : n * n * 1 ≤ n * n * n := Nat.mul_le_mul_left _ hn
      omega)
  obtain rfl : s' = s := by rw [h3] at e1; exact (Option.some.inj e1).symm
  have hall : ∀ r, s'.rmatched r = true := by
    intro r
    apply matched_of_full a
    intro c
    by_contra hc
    have hlt : (Finset.univ.filter fun c => s'.cmatched c = true).card < Fintype.card (Fin n) := by
      apply Finset.card_lt_univ_of_notMem (x := c)
      simpa using hc
    rw [← a.count, Fintype.card_fin] at hlt
    omega
  congr 2
  funext r
  have := a.cur r (hall r)
  rw [b, favourite_first hσ] at this
  exact (Option.some.inj this).symm

end Brille.Smp
