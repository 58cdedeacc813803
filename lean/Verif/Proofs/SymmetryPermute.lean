import Verif.Model.Symmetry
import Mathlib.Data.List.Perm.Basic
import Mathlib.Data.List.Nodup
import Mathlib.Data.List.NodupEquivFin

namespace Brille.Sym

variable {α : Type}

theorem permuteOk_iff (n : Nat) (p : List Nat) : permuteOk n p = true ↔ p.Perm (List.range n) := by
  unfold permuteOk
  rw [Bool.and_eq_true, List.isSublist_iff_sublist, decide_eq_true_eq]
  constructor
  · rintro ⟨h1, h2⟩
    have : p.insertionSort (· ≤ ·) = List.range n :=
      h1.eq_of_length (by rw [List.length_insertionSort, List.length_range, h2])
    rw [← this]
    exact (List.perm_insertionSort _ p).symm
  · intro h
    have h2 : p.length = n := by rw [h.length_eq, List.length_range]
    refine ⟨?_, h2⟩
    have : p.insertionSort (· ≤ ·) = List.range n := by
      apply List.Perm.eq_of_pairwise (le := (· ≤ ·))
      · intro a b _ _ h1 h2; exact le_antisymm h1 h2
      · exact List.pairwise_insertionSort _ _
      · exact List.pairwise_le_range
      · exact (List.perm_insertionSort _ p).trans h
    rw [this]

theorem inversePerm_fold {p : List Nat} (hnd : p.Nodup) (hlt : ∀ i ∈ p, i < p.length) (s0 : List Nat)
    (hs0 : s0.length = p.length) : ∀ m, m ≤ p.length →
    ((List.range m).foldl (fun s i => s.set (p.getD i 0) i) s0).length = p.length ∧
    ∀ i (hi : i < m), ((List.range m).foldl (fun s i => s.set (p.getD i 0) i) s0)[p.getD i 0]? = some i := by
  intro m
  induction m with
  | zero => intro _; exact ⟨hs0, by simp⟩
  | succ m ih =>
    intro hm
    obtain ⟨h1, h2⟩ := ih (by omega)
    rw [List.range_succ, List.foldl_append, List.foldl_cons, List.foldl_nil]
    refine ⟨by rw [List.length_set, h1], ?_⟩
    have hget : ∀ i, i < p.length → p.getD i 0 < p.length := by
      intro i hi
      rw [List.getD_eq_getElem?_getD, List.getElem?_eq_getElem hi, Option.getD_some]
      exact hlt _ (List.getElem_mem hi)
    intro i hi
    by_cases him : i = m
    · subst him
      rw [List.getElem?_set_self (by rw [h1]; exact hget i (by omega))]
    · rw [List.getElem?_set_ne ?_]
      · exact h2 i (by omega)
      · intro he
        rw [List.getD_eq_getElem?_getD, List.getD_eq_getElem?_getD, List.getElem?_eq_getElem (by omega),
          List.getElem?_eq_getElem (by omega), Option.getD_some, Option.getD_some] at he
        exact im_absurd hnd (by omega) (by omega) he (fun h => him h.symm)
where
  im_absurd {p : List Nat} (hnd : p.Nodup) {i j : Nat} (hi : i < p.length) (hj : j < p.length)
      (h : p[i] = p[j]) (hne : i ≠ j) : False := hne ((List.Nodup.getElem_inj_iff hnd).mp h)

/-- `s` sends each position to the place where its entry has to go, to give `F`. -/
structure Sends (n : Nat) (F : List α) (s : List Nat) (R : List α) : Prop where
  lenF : F.length = n
  lenS : s.length = n
  lenR : R.length = n
  nodup : s.Nodup
  lt : ∀ x ∈ s, x < n
  goal : ∀ (x : Nat) (hx : x < n), F[s.getD x 0]? = R[x]?

/-- the positions that are not yet right -/
def wrong (n : Nat) (s : List Nat) : Nat := ((List.range n).filter fun x => decide (s.getD x 0 ≠ x)).length

theorem getD_lt {s : List Nat} {x : Nat} (h : x < s.length) : s.getD x 0 = s[x] := by
  rw [List.getD_eq_getElem?_getD, List.getElem?_eq_getElem h, Option.getD_some]

theorem Sends.swap {n : Nat} {F : List α} {s : List Nat} {R : List α} (h : Sends n F s R) {i : Nat} (hi : i < n)
    (hne : s.getD i 0 ≠ i) {a b : α} (ha : R[i]? = some a) (hb : R[s.getD i 0]? = some b) :
    Sends n F ((s.set i (s.getD (s.getD i 0) 0)).set (s.getD i 0) (s.getD i 0))
      ((R.set i b).set (s.getD i 0) a) ∧
    wrong n ((s.set i (s.getD (s.getD i 0) 0)).set (s.getD i 0) (s.getD i 0)) < wrong n s ∧
    (∀ x, x ≠ i → s.getD x 0 = x →
      ((s.set i (s.getD (s.getD i 0) 0)).set (s.getD i 0) (s.getD i 0)).getD x 0 = x) := by
  obtain ⟨h1, h2, h3, h4, h5, h6⟩ := h
  have hki : s.getD i 0 < n := by
    rw [getD_lt (by omega)]; exact h5 _ (List.getElem_mem _)
  generalize hk : s.getD i 0 = k at *
  have hval : ∀ x, x < n → ((s.set i (s.getD k 0)).set k k).getD x 0 =
      if x = k then k else if x = i then s.getD k 0 else s.getD x 0 := by
    intro x hx
    rw [List.getD_eq_getElem?_getD, List.getElem?_set, List.getElem?_set]
    by_cases hxk : k = x
    · rw [if_pos hxk, if_pos (by simp; omega), if_pos hxk.symm]; rfl
    · rw [if_neg hxk, if_neg (show ¬ x = k from fun h => hxk h.symm)]
      by_cases hxi : i = x
      · rw [if_pos hxi, if_pos (by omega), if_pos hxi.symm]; rfl
      · rw [if_neg hxi, if_neg (show ¬ x = i from fun h => hxi h.symm), List.getD_eq_getElem?_getD]
  have hRval : ∀ x, x < n → ((R.set i b).set k a)[x]? =
      if x = k then some a else if x = i then some b else R[x]? := by
    intro x hx
    rw [List.getElem?_set, List.getElem?_set]
    by_cases hxk : k = x
    · rw [if_pos hxk, if_pos (by simp; omega), if_pos hxk.symm]
    · rw [if_neg hxk, if_neg (show ¬ x = k from fun h => hxk h.symm)]
      by_cases hxi : i = x
      · rw [if_pos hxi, if_pos (by omega), if_pos hxi.symm]
      · rw [if_neg hxi, if_neg (show ¬ x = i from fun h => hxi h.symm)]
  have inj : ∀ x y, x < n → y < n → s.getD x 0 = s.getD y 0 → x = y := by
    intro x y hx hy he
    rw [getD_lt (by omega), getD_lt (by omega)] at he
    exact (List.Nodup.getElem_inj_iff h4).mp he
  have hlen : ((s.set i (s.getD k 0)).set k k).length = n := by simp [h2]
  have slt : ∀ x, x < n → s.getD x 0 < n := by
    intro x hx; rw [getD_lt (by omega)]; exact h5 _ (List.getElem_mem _)
  have hright : ∀ x, x ≠ i → s.getD x 0 = x → ((s.set i (s.getD k 0)).set k k).getD x 0 = x := by
    intro x hxi hx
    by_cases hxn : x < n
    · rw [hval x hxn]
      by_cases hxk : x = k
      · rw [if_pos hxk, hxk]
      · rw [if_neg hxk, if_neg hxi]; exact hx
    · rw [List.getD_eq_getElem?_getD, List.getElem?_eq_none (by omega)] at hx ⊢
      exact hx
  refine ⟨⟨h1, hlen, by simp [h3], ?_, ?_, ?_⟩, ?_, hright⟩
  · rw [List.nodup_iff_injective_getElem]
    intro ⟨x, hx⟩ ⟨y, hy⟩ he
    rw [hlen] at hx hy
    have he' : ((s.set i (s.getD k 0)).set k k).getD x 0 = ((s.set i (s.getD k 0)).set k k).getD y 0 := by
      rw [getD_lt (s := (s.set i (s.getD k 0)).set k k) (by omega),
        getD_lt (s := (s.set i (s.getD k 0)).set k k) (by omega)]; exact he
    rw [hval x hx, hval y hy] at he'
    apply Fin.ext
    show x = y
    by_cases hxk : x = k <;> by_cases hyk : y = k
    · omega
    · rw [if_pos hxk, if_neg hyk] at he'
      by_cases hyi : y = i
      · rw [if_pos hyi] at he'
        exact absurd (inj k i hki hi (by rw [← he', hk])) hne
      · rw [if_neg hyi] at he'
        exact absurd (inj y i hy hi (by rw [← he', hk])) hyi
    · rw [if_neg hxk, if_pos hyk] at he'
      by_cases hxi : x = i
      · rw [if_pos hxi] at he'
        exact absurd (inj k i hki hi (by rw [he', hk])) hne
      · rw [if_neg hxi] at he'
        exact absurd (inj x i hx hi (by rw [he', hk])) hxi
    · rw [if_neg hxk, if_neg hyk] at he'
      by_cases hxi : x = i <;> by_cases hyi : y = i
      · omega
      · rw [if_pos hxi, if_neg hyi] at he'
        exact absurd (inj k y hki hy he') (fun h => hyk h.symm)
      · rw [if_neg hxi, if_pos hyi] at he'
        exact absurd (inj x k hx hki he') hxk
      · rw [if_neg hxi, if_neg hyi] at he'
        exact inj x y hx hy he'
  · intro v hv
    obtain ⟨x, hx, rfl⟩ := List.getElem_of_mem hv
    have hxn : x < n := by omega
    rw [← getD_lt hx, hval x hxn]
    by_cases hxk : x = k
    · rw [if_pos hxk]; exact hki
    · rw [if_neg hxk]
      by_cases hxi : x = i
      · rw [if_pos hxi]; exact slt k hki
      · rw [if_neg hxi]; exact slt x hxn
  · intro x hx
    rw [hval x hx, hRval x hx]
    by_cases hxk : x = k
    · rw [if_pos hxk, if_pos hxk, ← ha, ← h6 i hi, hk]
    · rw [if_neg hxk, if_neg hxk]
      by_cases hxi : x = i
      · rw [if_pos hxi, if_pos hxi, ← hb, h6 k hki]
      · rw [if_neg hxi, if_neg hxi, h6 x hx]
  · unfold wrong
    rw [← List.countP_eq_length_filter, ← List.countP_eq_length_filter]
    have hkr : k ∈ List.range n := List.mem_range.mpr hki
    have hskk : s.getD k 0 ≠ k := fun h => hne (inj k i hki hi (by rw [h, hk]))
    rw [(List.perm_cons_erase hkr).countP_eq, (List.perm_cons_erase hkr).countP_eq, List.countP_cons,
      List.countP_cons]
    have e1 : decide (((s.set i (s.getD k 0)).set k k).getD k 0 ≠ k) = false := by
      rw [hval k hki, if_pos rfl]; simp
    have e2 : decide (s.getD k 0 ≠ k) = true := by simp only [decide_eq_true_eq]; exact hskk
    rw [e1, e2]
    have hle : List.countP (fun x => decide (((s.set i (s.getD k 0)).set k k).getD x 0 ≠ x))
        ((List.range n).erase k) ≤ List.countP (fun x => decide (s.getD x 0 ≠ x)) ((List.range n).erase k) := by
      apply List.countP_mono_left
      intro x _ hx
      simp only [decide_eq_true_eq] at hx ⊢
      intro hs
      by_cases hxi : x = i
      · rw [hxi, hk] at hs; exact hne hs
      · exact hx (hright x hxi hs)
    simp only [Bool.false_eq_true, if_false, if_true]
    omega

theorem swapping_spec {n : Nat} {F : List α} : ∀ (fuel i : Nat) (s : List Nat) (R : List α), Sends n F s R →
    (∀ x, x < i → s.getD x 0 = x) → (n - i) + wrong n s ≤ fuel →
    (∀ x, x < n → (swapping fuel i s R).1.getD x 0 = x) ∧ (swapping fuel i s R).1.length = n ∧
      (swapping fuel i s R).2 = F := by
  intro fuel
  have done : ∀ {i : Nat} {s : List Nat} {R : List α}, Sends n F s R → (∀ x, x < i → s.getD x 0 = x) → n ≤ i →
      (∀ x, x < n → s.getD x 0 = x) ∧ s.length = n ∧ R = F := by
    intro i s R h hi hn
    refine ⟨fun x hx => hi x (by omega), h.lenS, ?_⟩
    apply List.ext_getElem?
    intro x
    by_cases hx : x < n
    · rw [← h.goal x hx, hi x (by omega)]
    · rw [List.getElem?_eq_none (by rw [h.lenR]; omega), List.getElem?_eq_none (by rw [h.lenF]; omega)]
  induction fuel with
  | zero =>
    intro i s R h hi hf
    exact done h hi (by omega)
  | succ fuel ih =>
    intro i s R h hi hf
    rw [swapping]
    by_cases hin : i < R.length
    · rw [if_pos hin]
      rw [h.lenR] at hin
      by_cases hs : s.getD i 0 = i
      · rw [if_pos hs]
        refine ih (i + 1) s R h ?_ (by omega)
        intro x hx
        by_cases hxi : x = i
        · rw [hxi]; exact hs
        · exact hi x (by omega)
      · rw [if_neg hs]
        have hk : s.getD i 0 < n := by
          rw [getD_lt (by rw [h.lenS]; omega)]; exact h.lt _ (List.getElem_mem _)
        have hiR : i < R.length := by rw [h.lenR]; exact hin
        have hkR : s.getD i 0 < R.length := by rw [h.lenR]; exact hk
        have ha : R[i]? = some R[i] := List.getElem?_eq_getElem hiR
        have hb : R[s.getD i 0]? = some R[s.getD i 0] := List.getElem?_eq_getElem hkR
        obtain ⟨g1, g2, g3⟩ := h.swap hin hs ha hb
        dsimp only
        rw [ha, hb]
        dsimp only
        exact ih i _ _ g1 (fun x hx => g3 x (by omega) (hi x hx)) (by omega)
    · rw [if_neg hin]
      rw [h.lenR] at hin
      exact done h hi (by omega)

theorem permute_spec {p : List Nat} {R : List α} (hp : p.Perm (List.range R.length)) :
    ∃ F, permute p R = some F ∧ F.length = R.length ∧ ∀ j, j < R.length → F[j]? = R[p.getD j 0]? := by
  have hlen : p.length = R.length := by rw [hp.length_eq, List.length_range]
  have hnd : p.Nodup := hp.nodup_iff.mpr List.nodup_range
  have hlt : ∀ i ∈ p, i < p.length := fun i hi => by
    rw [hlen]; exact List.mem_range.mp (hp.subset hi)
  have hget : ∀ i, i < R.length → p.getD i 0 < R.length := by
    intro i hi
    rw [getD_lt (by omega), ← hlen]
    exact hlt _ (List.getElem_mem _)
  have hinv := inversePerm_fold hnd hlt (p.insertionSort (· ≤ ·)) (List.length_insertionSort _ _) p.length (le_refl _)
  have hS : (inversePerm p).length = R.length := hinv.1.trans hlen
  have hI : ∀ i, i < R.length → (inversePerm p)[p.getD i 0]? = some i := fun i hi => hinv.2 i (by omega)
  -- every position is some `p[i]`
  have surj : ∀ x, x < R.length → ∃ i, i < R.length ∧ p.getD i 0 = x := by
    intro x hx
    have : x ∈ p := hp.mem_iff.mpr (List.mem_range.mpr hx)
    obtain ⟨i, hi, he⟩ := List.getElem_of_mem this
    exact ⟨i, by omega, by rw [getD_lt hi]; exact he⟩
  let F := (List.finRange R.length).map fun j : Fin R.length => R[p.getD j.val 0]'(hget j.val j.isLt)
  have hF : ∀ j, j < R.length → F[j]? = R[p.getD j 0]? := by
    intro j hj
    simp only [F, List.getElem?_map]
    rw [List.getElem?_eq_getElem (by simpa using hj), List.getElem?_eq_getElem (hget j hj)]
    simp
  have hFlen : F.length = R.length := by simp [F]
  have hsends : Sends R.length F (inversePerm p) R := by
    have val : ∀ i, i < R.length → (inversePerm p).getD (p.getD i 0) 0 = i := by
      intro i hi
      rw [List.getD_eq_getElem?_getD, hI i hi]; rfl
    refine ⟨hFlen, hS, rfl, ?_, ?_, ?_⟩
    · rw [List.nodup_iff_injective_getElem]
      intro ⟨x, hx⟩ ⟨y, hy⟩ he
      obtain ⟨i, hi, rfl⟩ := surj x (by omega)
      obtain ⟨j, hj, rfl⟩ := surj y (by omega)
      have he' : (inversePerm p).getD (p.getD i 0) 0 = (inversePerm p).getD (p.getD j 0) 0 := by
        rw [getD_lt hx, getD_lt hy]; exact he
      rw [val i hi, val j hj] at he'
      subst he'
      rfl
    · intro v hv
      obtain ⟨x, hx, rfl⟩ := List.getElem_of_mem hv
      obtain ⟨i, hi, hix⟩ := surj x (by omega)
      subst hix
      rw [← getD_lt hx, val i hi]
      exact hi
    · intro x hx
      obtain ⟨i, hi, hix⟩ := surj x hx
      subst hix
      rw [val i hi]
      exact hF i hi
  have hw : wrong R.length (inversePerm p) ≤ R.length := by
    unfold wrong
    exact (List.length_filter_le _ _).trans (by simp)
  obtain ⟨h1, h2, h3⟩ := swapping_spec (2 * R.length) 0 (inversePerm p) R hsends (by simp) (by omega)
  refine ⟨F, ?_, hFlen, hF⟩
  unfold permute
  rw [if_pos ((permuteOk_iff _ _).mpr hp)]
  have hsort : (swapping (2 * R.length) 0 (inversePerm p) R).1.Pairwise (· ≤ ·) := by
    rw [List.pairwise_iff_getElem]
    intro i j hi hj hij
    rw [← getD_lt hi, ← getD_lt hj, h1 i (by omega), h1 j (by omega)]
    omega
  dsimp only
  rw [if_pos (by simpa using hsort), h3]

theorem permute_none {p : List Nat} {R : List α} (hp : ¬ p.Perm (List.range R.length)) : permute p R = none := by
  unfold permute
  rw [if_neg (fun h => hp ((permuteOk_iff _ _).mp h))]

end Brille.Sym
