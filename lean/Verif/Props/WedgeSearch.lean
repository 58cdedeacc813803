/-
C89: the planes chosen to bound the irreducible Brillouin zone.
-/
import Verif.Proofs.WedgeSearch
import Mathlib.Tactic.IntervalCases
import Mathlib.Data.List.GetD

set_option linter.unusedSectionVars false

namespace Brille.Props

open Brille.Spec Brille.WedgeSearch

variable {K : Type} [Field K] [LinearOrder K]

/-! ### the special points that are left -/

/-- At the end the special points that are left are those that were there in the beginning and are not on the negative side of any of the
planes, in the same order. -/
theorem C89_retained {sorted : List (List ℕ) → List (List ℕ)} (hsort : ∀ l, (sorted l).Perm l) (twoFolds mirrors : Bool)
    (a b : Fin 3 → V K) (ops : List (Op K)) (special : List (V K)) :
    (search twoFolds mirrors sorted a b ops special).special =
      special.filter fun p => decide (∀ n ∈ (search twoFolds mirrors sorted a b ops special).normals, 0 ≤ dot n p) := by
  have h := search_made (good := fun _ _ => True) (special := special) hsort a b ops twoFolds mirrors
    (fun _ _ _ _ _ => ⟨fun _ _ _ => trivial, fun _ _ _ => trivial⟩) (fun _ _ _ _ _ _ => trivial) fun _ _ _ _ _ _ _ _ => trivial
  refine h.kept.trans ?_
  unfold above
  congr 1
  funext p
  rw [Bool.eq_iff_iff, List.all_eq_true, decide_eq_true_iff]
  simp

/-! ### room for the normals -/

theorem normalsOf_length (o : Op K) (pts : List (V K)) (p0 p1 : V K) :
    (normalsOf o pts p0 p1).2.length ≤ if o.order = 2 then 1 else 2 := by
  unfold normalsOf
  by_cases h : 2 < o.order
  · have h2 : ¬o.order = 2 := by omega
    rw [if_pos h, if_neg h2]
    dsimp only
    split <;> simp
  · rw [if_neg h]
    dsimp only
    split <;> split <;> simp

/-- No more normals are found than there is room for. -/
theorem C89_room {sorted : List (List ℕ) → List (List ℕ)} (hsort : ∀ l, (sorted l).Perm l) (twoFolds mirrors : Bool)
    (a b : Fin 3 → V K) (ops : List (Op K)) (special : List (V K)) :
    (search twoFolds mirrors sorted a b ops special).normals.length ≤ expected ops := by
  have one : ∀ o : Op K, 1 ≤ if o.order = 2 then 1 else 2 := fun o => by split <;> omega
  have h := search_made (good := fun i ns => ∃ o, ops[i]? = some o ∧ ns.length ≤ if o.order = 2 then 1 else 2) (special := special) hsort a b
    ops twoFolds mirrors
    (fun _ i o ho _ => ⟨fun _ _ _ => ⟨o, ho, one o⟩, fun _ _ _ => ⟨o, ho, one o⟩⟩) (fun i o ho _ _ _ => ⟨o, ho, one o⟩)
    fun i o ho pts p0 p1 _ _ => ⟨o, ho, normalsOf_length o pts p0 p1⟩
  obtain ⟨cuts, h1, h2, h3, h4⟩ := h.cuts
  rw [h1]
  rw [h2] at h3
  let w : ℕ → ℕ := fun i => (ops[i]?.map fun o => if o.order = 2 then 1 else 2).getD 0
  have hlen : (cuts.flatMap Prod.snd).length ≤ ((cuts.map Prod.fst).map w).sum := by
    rw [List.length_flatMap, List.map_map]
    refine List.sum_le_sum fun c hc => ?_
    obtain ⟨o, ho, hl⟩ := h4 c hc
    simpa [w, ho] using hl
  have hexp : expected ops = ((List.range ops.length).map w).sum := by
    unfold expected
    congr 1
    refine List.ext_getElem (by simp) fun i h5 h6 => ?_
    simp only [List.getElem_map, List.getElem_range, w]
    rw [List.getElem?_eq_getElem (by simpa using h5)]
    rfl
  refine hlen.trans ?_
  rw [hexp, ← List.sum_toFinset w h3, ← List.sum_toFinset w List.nodup_range]
  refine Finset.sum_le_sum_of_subset fun x hx => ?_
  obtain ⟨c, hc, rfl⟩ := List.mem_map.mp (List.mem_toFinset.mp hx)
  obtain ⟨o, ho, _⟩ := h4 c hc
  rw [List.mem_toFinset, List.mem_range]
  by_contra hcon
  rw [List.getElem?_eq_none (by omega)] at ho
  cases ho

/-! ### when a plane is used -/

/-- The planes from two equivalent points are used only if some special points are cut away, if more than two are left, and if each plane
has a special point strictly on its positive side. -/
theorem C89_use (i : ℕ) (o : Op K) (st : St K) (jk : ℕ × ℕ) :
    tryPair i o st jk = st ∨ ∃ ns, (tryPair i o st jk).normals = st.normals ++ ns ∧ (tryPair i o st jk).used = st.used ++ [i] ∧
      2 < (tryPair i o st jk).special.length ∧ (tryPair i o st jk).special.length < st.special.length ∧
      ∀ n ∈ ns, ∃ p ∈ st.special, 0 < dot n p := by
  unfold tryPair
  split
  · dsimp only
    split
    · split
      · next hk =>
        refine Or.inr ⟨_, rfl, rfl, hk.1, hk.2, fun n hn => ?_⟩
        have h2 := hk.2
        unfold keepIf at h2
        split at h2
        · omega
        · next hc =>
          simp only [List.any_eq_true, Bool.not_eq_true', not_exists, not_and, Bool.not_eq_false] at hc
          obtain ⟨p, hp, h⟩ := hc n hn
          exact ⟨p, hp, of_decide_eq_true h⟩
      · exact Or.inl rfl
    · exact Or.inl rfl
  · exact Or.inl rfl

theorem volumeSum_ne {l : List (V K)} (h : volumeSum l ≠ 0) : ∃ p ∈ l, ∃ q ∈ l, ∃ r ∈ l, dot p (cross q r) ≠ 0 := by
  induction l with
  | nil => exact absurd rfl h
  | cons a l ih =>
    match l, ih, h with
    | [], _, h => exact absurd rfl h
    | [_], _, h => exact absurd rfl h
    | q :: r :: l, ih, h =>
      by_cases h0 : dot a (cross q r) = 0
      · have : volumeSum (q :: r :: l) ≠ 0 := fun e => h (by rw [volumeSum, e, h0, abs, neg_zero, max_self, add_zero])
        obtain ⟨p, hp, q', hq, r', hr, h1⟩ := ih this
        exact ⟨p, List.mem_cons_of_mem _ hp, q', List.mem_cons_of_mem _ hq, r', List.mem_cons_of_mem _ hr, h1⟩
      · exact ⟨a, by simp, q, by simp, r, by simp, h0⟩

/-- The plane of a mirror is used only if the special points that are left are not all in a plane through the origin. -/
theorem C89_use_mirror (st : St K) (io : ℕ × Op K) :
    mirror st io = st ∨ io.2.isometry = -2 ∧ (mirror st io).used = st.used ++ [io.1] ∧
      ((mirror st io).normals = st.normals ++ [io.2.axis] ∨ (mirror st io).normals = st.normals ++ [-io.2.axis]) ∧
      ∃ p ∈ (mirror st io).special, ∃ q ∈ (mirror st io).special, ∃ r ∈ (mirror st io).special, dot p (cross q r) ≠ 0 := by
  unfold mirror
  by_cases h2 : io.2.isometry = -2
  · rw [if_neg (not_not.mpr h2)]
    dsimp only
    have hn : (if enough (above [io.2.axis] st.special) then io.2.axis else -io.2.axis) = io.2.axis ∨
        (if enough (above [io.2.axis] st.special) then io.2.axis else -io.2.axis) = -io.2.axis := by
      split
      · exact Or.inl rfl
      · exact Or.inr rfl
    generalize (if enough (above [io.2.axis] st.special) then io.2.axis else -io.2.axis) = nrm at hn
    split
    · next he =>
      have he' := he
      unfold enough at he'
      rw [Bool.and_eq_true] at he'
      exact Or.inr ⟨h2, rfl, hn.imp (fun e => by rw [e]; rfl) (fun e => by rw [e]; rfl), volumeSum_ne (of_decide_eq_true he'.2)⟩
    · exact Or.inl rfl
  · rw [if_pos h2]
    exact Or.inl rfl

/-! ### equivalent points -/

section equivalent

variable {o : Op K} {special : List (V K)}

theorem at_inj (hnd : special.Nodup) {x y : ℕ} (hx : x < special.length) (hy : y < special.length)
    (h : special.getD x 0 = special.getD y 0) : x = y := by
  rw [List.getD_eq_getElem _ _ hx, List.getD_eq_getElem _ _ hy] at h
  exact (List.Nodup.getElem_inj_iff hnd).mp h

theorem typeOrder_complete (hnd : special.Nodup) {j x n : ℕ} (hx : x < special.length) (hc : carried o special n x j = true) :
    ∀ ns left, n ∈ ns → x ∈ left → (∀ y ∈ left, y < special.length) → x ∈ typeOrder o special j ns left
  | [], _, h, _, _ => by simp at h
  | m :: ns, left, h, hl, hy => by
    rw [typeOrder]
    by_cases hm : carried o special m x j = true
    · have hin : x ∈ left.filter fun k => carried o special m k j := List.mem_filter.mpr ⟨hl, hm⟩
      rcases getLastD_mem_or (left.filter fun k => carried o special m k j) special.length with hg | hg
      · have h1 := List.mem_filter.mp hg
        have : x = _ := at_inj hnd hx (hy _ h1.1) ((of_decide_eq_true hm).symm.trans (of_decide_eq_true h1.2))
        rw [List.mem_cons]
        exact Or.inl this
      · cases hf : left.filter fun k => carried o special m k j with
        | nil => rw [hf] at hin; simp at hin
        | cons c l =>
          rcases List.eq_nil_or_concat (c :: l) with h0 | ⟨l', y, h0⟩
          · cases h0
          · rw [hf, h0] at hg
            have : y ∈ left.filter fun k => carried o special m k j := by rw [hf, h0]; simp
            have h1 := hy y (List.mem_filter.mp this).1
            simp at hg
            omega
    · refine List.mem_cons_of_mem _ (typeOrder_complete hnd hx hc ns _ ?_ (List.mem_filter.mpr ⟨hl, by simpa using hm⟩)
        fun y h1 => hy y (List.mem_filter.mp h1).1)
      rcases List.mem_cons.mp h with rfl | h
      · exact absurd hc hm
      · exact h

theorem oneType_lt {found : List ℕ} {j : ℕ} (hj : j < special.length) : ∀ y ∈ oneType o special found j, y < special.length := by
  intro y hy
  rcases List.mem_cons.mp hy with rfl | hy
  · exact hj
  · exact List.mem_range.mp (List.mem_filter.mp hy).1

theorem oneType_carried (hb : ∀ x, o.turn^[o.order] x = x) (ho : 0 < o.order) {found : List ℕ} {j x : ℕ}
    (hx : x ∈ oneType o special found j) :
    ∃ n ∈ List.range o.order, carried o special n x j = true := by
  rcases List.mem_cons.mp hx with rfl | hx
  · exact ⟨0, List.mem_range.mpr ho, decide_eq_true rfl⟩
  · have h := (List.mem_filter.mp hx).2
    rw [Bool.and_eq_true] at h
    obtain ⟨n, hn, hc⟩ := List.any_eq_true.mp h.2
    rcases Nat.lt_or_ge n o.order with h1 | h1
    · exact ⟨n, List.mem_range.mpr h1, hc⟩
    · have : n = o.order := by have := List.mem_range.mp hn; omega
      refine ⟨0, List.mem_range.mpr ho, ?_⟩
      have h2 := of_decide_eq_true hc
      rw [this, hb] at h2
      exact decide_eq_true h2

theorem groups_complete (hnd : special.Nodup) (hb : ∀ x, o.turn^[o.order] x = x) (ho : 0 < o.order) {x : ℕ} :
    ∀ js found, (∀ j ∈ js, j < special.length) → x ∈ js → x ∉ found → ∃ s ∈ groups o special js found, x ∈ s
  | [], _, _, h, _ => by simp at h
  | j :: js, found, hjs, hx, hf => by
    rw [groups]
    have hj := hjs j List.mem_cons_self
    have hjs' : ∀ i ∈ js, i < special.length := fun i hi => hjs i (List.mem_cons_of_mem _ hi)
    split
    · next hjf =>
      rcases List.mem_cons.mp hx with rfl | hx
      · exact absurd hjf hf
      · exact groups_complete hnd hb ho js found hjs' hx hf
    · by_cases ht : x ∈ oneType o special found j
      · obtain ⟨n, hn, hc⟩ := oneType_carried hb ho ht
        exact ⟨_, List.mem_cons_self, typeOrder_complete hnd (oneType_lt hj x ht) hc _ _ hn ht (oneType_lt hj)⟩
      · rcases List.mem_cons.mp hx with rfl | hx
        · exact absurd List.mem_cons_self ht
        · obtain ⟨s, hs, hxs⟩ := groups_complete hnd hb ho js (found ++ oneType o special found j) hjs' hx (by simp [hf, ht])
          exact ⟨s, List.mem_cons_of_mem _ hs, hxs⟩

theorem typeOrder_mem {j x : ℕ} (hx : x < special.length) : ∀ ns left, x ∈ typeOrder o special j ns left → x ∈ left
  | [], _, h => by simp [typeOrder] at h
  | n :: ns, left, h => by
    rw [typeOrder] at h
    rcases List.mem_cons.mp h with h | h
    · rcases getLastD_mem_or (left.filter fun k => carried o special n k j) special.length with hg | hg
      · rw [← h] at hg; exact (List.mem_filter.mp hg).1
      · omega
    · exact (List.mem_filter.mp (typeOrder_mem hx ns _ h)).1

theorem groups_fresh {x : ℕ} (hx : x < special.length) : ∀ js found s, s ∈ groups o special js found → x ∈ s → x ∉ found
  | [], _, s, h, _ => by simp [groups] at h
  | j :: js, found, s, h, hs => by
    rw [groups] at h
    split at h
    · exact groups_fresh hx js found s h hs
    · next hj =>
      rcases List.mem_cons.mp h with rfl | h
      · have := typeOrder_mem hx _ _ hs
        rcases List.mem_cons.mp this with rfl | this
        · exact hj
        · have := (List.mem_filter.mp this).2
          simp only [Bool.and_eq_true, decide_eq_true_iff] at this
          exact this.1.2
      · have := groups_fresh hx js _ s h hs
        simp only [List.mem_append, not_or] at this
        exact this.1

theorem groups_apart : ∀ js found,
    (groups o special js found).Pairwise fun s s' => ∀ x < special.length, x ∈ s → x ∉ s'
  | [], _ => List.Pairwise.nil
  | j :: js, found => by
    rw [groups]
    split
    · exact groups_apart js found
    · refine List.Pairwise.cons (fun s' hs' x hx h1 h2 => ?_) (groups_apart js _)
      have := groups_fresh hx js _ s' hs' h2
      exact this (List.mem_append_right _ (typeOrder_mem hx _ _ h1))

/-- The special points are divided into groups: each of the points is in one group and in no other; the entries of a group that are points
are, in turn, where the operation carries one of them, the others being marked as missing. -/
theorem C89_groups (hnd : special.Nodup) (hb : ∀ x, o.turn^[o.order] x = x) (ho : 0 < o.order) :
    (∀ x < special.length, ∃ s ∈ oneSym o special, x ∈ s) ∧
    ((oneSym o special).Pairwise fun s s' => ∀ x < special.length, x ∈ s → x ∉ s') ∧
    ∀ s ∈ oneSym o special, s.length = o.order ∧ ∃ j : ℕ, ∀ t x, s[t]? = some x → x < special.length →
      special.getD x 0 = o.turn^[t] (special.getD j 0) := by
  refine ⟨fun x hx => groups_complete hnd hb ho _ [] (fun j hj => List.mem_range.mp hj) (List.mem_range.mpr hx) (by simp),
    groups_apart _ _, fun s hs => ?_⟩
  obtain ⟨j, left, rfl⟩ := groups_mem o special _ _ s hs
  refine ⟨by rw [typeOrder_length, List.length_range], j, fun t x ht hx => ?_⟩
  have hl : t < o.order := by
    have := (List.getElem?_eq_some_iff.mp ht).1
    rwa [typeOrder_length, List.length_range] at this
  exact (typeOrder_sound o special j _ left t t x (List.getElem?_range hl) ht hx).2.symm

end equivalent

variable [IsStrictOrderedRing K]

/-! ### what is cut away -/

/-- The two planes found from two points, for an operation of an order above two, leave both. -/
theorem C89_pair (o : Op K) (pts : List (V K)) (p0 p1 : V K) (ho : 2 < o.order) :
    ∀ n ∈ (normalsOf o pts p0 p1).2, 0 ≤ dot n p0 ∧ 0 ≤ dot n p1 := by
  unfold normalsOf
  rw [if_pos ho]
  dsimp only
  have e1 : dot p1 (cross o.axis p0) = dot (cross o.axis p0) p1 := dot_comm _ _
  have e2 : dot (cross o.axis p1) p0 = -dot (cross o.axis p0) p1 := dot_cross _ _ _
  have e3 : dot (cross p0 o.axis) p1 = -dot (cross o.axis p0) p1 := by rw [cross_swap, dot_neg]
  have e4 : dot (cross p1 o.axis) p0 = dot (cross o.axis p0) p1 := by rw [cross_swap, dot_neg, e2, neg_neg]
  split
  · next h =>
    rw [e1] at h
    intro n hn
    rcases List.mem_cons.mp hn with rfl | hn
    · exact ⟨by rw [e2]; linarith, by rw [dot_cross_right]⟩
    · rw [List.mem_singleton.mp hn]
      exact ⟨by rw [cross_swap, dot_neg, dot_cross_right, neg_zero], by rw [e3]; linarith⟩
  · next h =>
    rw [e1, not_lt] at h
    intro n hn
    rcases List.mem_cons.mp hn with rfl | hn
    · exact ⟨by rw [dot_cross_right], h⟩
    · rw [List.mem_singleton.mp hn]
      exact ⟨by rw [e4]; exact h, by rw [cross_swap, dot_neg, dot_cross_right, neg_zero]⟩

theorem axis_of_notParallel {q x : V K} (h : notParallel q x = true) : q ≠ 0 := by
  rintro rfl
  have := of_decide_eq_true h
  apply this
  simp only [dot, Pi.zero_apply]
  ring

/-- the planes found from two equivalent points -/
theorem normalsOf_good {o : Op K} (ho : PointOperation o) (pts : List (V K)) (p p' : V K)
    (hp : p' = o.turn p ∨ o.turn^[o.order] p' = o.turn p) (h : (normalsOf o pts p p').1 = true) :
    (∀ n ∈ (normalsOf o pts p p').2, dot n o.axis = 0) ∧ (o.isometry ≠ -2 → Reaches o (normalsOf o pts p p').2) := by
  unfold normalsOf at h ⊢
  by_cases h2 : 2 < o.order
  · rw [if_pos h2] at h ⊢
    dsimp only at h ⊢
    rw [Bool.and_eq_true] at h
    have hq := axis_of_notParallel h.1
    have both : o.isometry ≠ -2 → Reaches o [cross o.axis p, cross p' o.axis] ∧ Reaches o [cross o.axis p', cross p o.axis] := by
      intro hi
      by_cases h3 : o.isometry = -3
      · rcases hp with rfl | hp
        · exact reaches_two ho hi hq p
        · rw [(ho.inverting h3).1, (ho.inverting h3).2.1] at hp
          obtain rfl : p' = -o.turn p := by rw [← hp, neg_neg]
          exact reaches_inverted ho h3 hq p
      · have : p' = o.turn p := hp.elim id fun hp => by rwa [ho.back h3] at hp
        rw [this]
        exact reaches_two ho hi hq p
    split
    · refine ⟨fun n hn => ?_, fun hi => (both hi).2⟩
      rcases List.mem_cons.mp hn with rfl | hn
      · exact dot_cross_left _ _
      · rw [List.mem_singleton.mp hn]; exact dot_cross_right _ _
    · refine ⟨fun n hn => ?_, fun hi => (both hi).1⟩
      rcases List.mem_cons.mp hn with rfl | hn
      · exact dot_cross_left _ _
      · rw [List.mem_singleton.mp hn]; exact dot_cross_right _ _
  · rw [if_neg h2] at h ⊢
    dsimp only at h ⊢
    have hq := axis_of_notParallel h
    have ho2 : o.order = 2 := by have := ho.order; omega
    split
    · refine ⟨fun n hn => ?_, fun hi => reaches_one ho hi ho2 hq (dot_cross_left _ _)⟩
      rw [List.mem_singleton.mp hn]; exact dot_cross_left _ _
    · have : dot (-cross o.axis p) o.axis = 0 := by rw [dot_neg, dot_cross_left, neg_zero]
      refine ⟨fun n hn => ?_, fun hi => reaches_one ho hi ho2 hq this⟩
      rw [List.mem_singleton.mp hn]; exact this

theorem perp_special {q d n : V K} (hd : d ≠ 0) (h : cross d q = 0) (hn : dot n d = 0) : dot n q = 0 := perp_of_parallel hd h hn

theorem directions_ne {a b : Fin 3 → V K} {c : K} (hab : BelongTogether a b c) :
    ∀ k < 9, (directions b).getD k 0 ≠ 0 := by
  obtain ⟨hc, hd⟩ := hab
  have d : ∀ i j, dot (a i) (b j) = if i = j then c else 0 := hd
  have sub : ∀ x y z : V K, dot x (y - z) = dot x y - dot x z := fun x y z => by simp only [dot, Pi.sub_apply]; ring
  intro k hk h0
  have h : ∀ i, dot (a i) ((directions b).getD k 0) = 0 := fun i => by rw [h0, dot_zero]
  interval_cases k
  · exact hc (by simpa [directions, d] using h 0)
  · exact hc (by simpa [directions, d] using h 1)
  · exact hc (by simpa [directions, d] using h 2)
  · exact hc (by simpa [directions, d, dot_add] using h 0)
  · exact hc (by simpa [directions, d, sub] using h 0)
  · exact hc (by simpa [directions, d, dot_add] using h 0)
  · exact hc (by simpa [directions, d, dot_add] using h 1)
  · exact hc (by simpa [directions, d, sub] using h 0)
  · exact hc (by simpa [directions, d, sub] using h 1)

/-- the planes found from special directions contain the axis, if the directions No. 3, 6 and 7 are the same in both lattices -/
theorem special_perp {a b : Fin 3 → V K} {c : K} (hab : BelongTogether a b c) {q : V K}
    (hreal : ∀ k ∈ [3, 6, 7], cross ((directions b).getD k 0) q = 0 → cross ((directions a).getD k 0) q = 0) :
    Special a b q fun n => dot n q = 0 := by
  have hba : BelongTogether b a c := ⟨hab.1, fun i j => by rw [dot_comm, hab.2 j i]; simp [eq_comm]⟩
  constructor
  · intro k hk h
    have hne := directions_ne hab k hk
    have hne' := directions_ne hba k hk
    have right : ∀ x, dot (cross x ((directions b).getD k 0)) q = 0 := fun x => perp_special hne h (dot_cross_right _ _)
    have left : ∀ x, k ∈ [3, 6, 7] → dot (cross ((directions a).getD k 0) x) q = 0 :=
      fun x hm => perp_special hne' (hreal k hm h) (dot_cross_left _ _)
    interval_cases k
    · exact right _
    · exact right _
    · exact right _
    · exact left _ (by simp)
    · exact right _
    · exact right _
    · exact left _ (by simp)
    · exact left _ (by simp)
    · exact right _
  · intro k hk h
    have hne' := directions_ne hba k (by omega)
    refine perp_special hne' h ?_
    interval_cases k
    · have := hab.2 0 1
      rw [dot_comm] at this
      simpa [directions] using this
    · have := hab.2 1 0
      rw [dot_comm] at this
      simpa [directions] using this

/-- The normals come from the operations, each of which is used once at most.  The planes of an operation that is not a mirror contain its
axis, and every vector has an image under a power of the operation that is on the positive side of all of them: nothing that the
operation does not give back is cut away.  The same holds for a mirror whose own plane was taken.

Not shown is that the planes of all the operations together leave an image of every vector; the program checks the volume of the part it has
found. -/
theorem C89_cuts_partial {sorted : List (List ℕ) → List (List ℕ)} (hsort : ∀ l, (sorted l).Perm l) (twoFolds mirrors : Bool)
    {a b : Fin 3 → V K} {c : K} (hab : BelongTogether a b c) (ops : List (Op K)) (hops : ∀ o ∈ ops, PointOperation o)
    (hreal : ∀ o ∈ ops, o.isometry = 2 → ∀ k ∈ [3, 6, 7],
      cross ((directions b).getD k 0) o.axis = 0 → cross ((directions a).getD k 0) o.axis = 0)
    (special : List (V K)) :
    ∃ cuts : List (ℕ × List (V K)), (search twoFolds mirrors sorted a b ops special).normals = cuts.flatMap Prod.snd ∧
      (cuts.map Prod.fst).Nodup ∧ ∀ d ∈ cuts, ∃ o, ops[d.1]? = some o ∧
        (o.isometry ≠ -2 → (∀ n ∈ d.2, dot n o.axis = 0) ∧ Reaches o d.2) ∧
        (o.isometry = -2 → d.2 = [o.axis] ∨ d.2 = [-o.axis] → Reaches o d.2) := by
  have h := search_made (good := fun i ns => ∃ o, ops[i]? = some o ∧
      (o.isometry ≠ -2 → (∀ n ∈ ns, dot n o.axis = 0) ∧ Reaches o ns) ∧
      (o.isometry = -2 → ns = [o.axis] ∨ ns = [-o.axis] → Reaches o ns)) (special := special) hsort a b ops twoFolds mirrors ?_ ?_ ?_
  · obtain ⟨cuts, h1, h2, h3, h4⟩ := h.cuts
    exact ⟨cuts, h1, h2 ▸ h3, h4⟩
  · intro _ i o ho h2
    have hm := List.mem_of_getElem? ho
    have hp := hops o hm
    have hs := special_perp hab (hreal o hm h2)
    have main : ∀ n, dot n o.axis = 0 → ∃ o', ops[i]? = some o' ∧
        (o'.isometry ≠ -2 → (∀ m ∈ [n], dot m o'.axis = 0) ∧ Reaches o' [n]) ∧
        (o'.isometry = -2 → [n] = [o'.axis] ∨ [n] = [-o'.axis] → Reaches o' [n]) := by
      intro n hn
      refine ⟨o, ho, fun hi => ⟨fun m hm => by rw [List.mem_singleton.mp hm]; exact hn,
        reaches_one hp hi (hp.twofold h2).1 (hp.twofold h2).2 hn⟩, fun hi => ?_⟩
      rw [h2] at hi
      omega
    exact ⟨fun k hk h => main _ (hs.first k hk h), fun k hk h => main _ (hs.second k hk h)⟩
  · intro i o ho hi n hn
    exact ⟨o, ho, fun h => absurd hi h, fun _ _ => reaches_mirror (hops o (List.mem_of_getElem? ho)) hi hn⟩
  · intro i o ho pts p0 p1 hp hr
    have hop := hops o (List.mem_of_getElem? ho)
    have hgood := normalsOf_good hop pts p0 p1 hp hr
    refine ⟨o, ho, fun hi => ⟨hgood.1, hgood.2 hi⟩, fun hi hcase => ?_⟩
    refine (show ∀ ns : List (V K), (ns = [o.axis] ∨ ns = [-o.axis]) → Reaches o ns from ?_) _ hcase
    rintro ns (rfl | rfl)
    · exact reaches_mirror hop hi (Or.inl rfl)
    · exact reaches_mirror hop hi (Or.inr rfl)

/-! ### examples -/

/-- the four-fold rotation about the third axis -/
def fourfoldOp : Op ℚ := { turn := fun x => ![-x 1, x 0, x 2], order := 4, isometry := 4, axis := ![0, 0, 1] }

/-- the two-fold rotation about the first axis -/
def twofold : Op ℚ := { turn := fun x => ![x 0, -x 1, -x 2], order := 2, isometry := 2, axis := ![1, 0, 0] }

/-- the mirror that turns the third axis round -/
def reflection : Op ℚ := { turn := fun x => ![x 0, x 1, -x 2], order := 2, isometry := -2, axis := ![0, 0, 1] }

/-- the four-fold rotoinversion about the third axis -/
def rotoinversion : Op ℚ := { turn := fun x => ![x 1, -x 0, -x 2], order := 4, isometry := -4, axis := ![0, 0, 1] }

theorem fourfoldOp_operation : PointOperation fourfoldOp where
  add x y := by funext i; fin_cases i <;> simp [fourfoldOp]; ring
  dot x y := by simp only [fourfoldOp, dot, Matrix.cons_val]; ring
  order := by decide
  back _ x := by funext i; fin_cases i <;> simp [fourfoldOp]
  inverting h := by simp [fourfoldOp] at h
  twofold h := by simp [fourfoldOp] at h
  mirror h := by simp [fourfoldOp] at h
  about _ x := by funext i; fin_cases i <;> simp [fourfoldOp, cross]
  fixed _ x h := by
    have h0 : -x 1 = x 0 := congrFun h 0
    have h1 : x 0 = x 1 := congrFun h 1
    have e0 : x 0 = 0 := by linarith
    have e1 : x 1 = 0 := by linarith
    funext i; fin_cases i <;> simp [fourfoldOp, cross, e0, e1]

theorem twofold_operation : PointOperation twofold where
  add x y := by funext i; fin_cases i <;> simp [twofold] <;> ring
  dot x y := by simp only [twofold, dot, Matrix.cons_val]; ring
  order := by decide
  back _ x := by funext i; fin_cases i <;> simp [twofold]
  inverting h := by simp [twofold] at h
  twofold _ := ⟨rfl, fun h => one_ne_zero (congrFun h 0 : (1 : ℚ) = 0)⟩
  mirror h := by simp [twofold] at h
  about _ x := by funext i; fin_cases i <;> simp [twofold, cross]
  fixed _ x h := by
    have h0 : -x 1 = x 1 := congrFun h 1
    have h1 : -x 2 = x 2 := congrFun h 2
    have e0 : x 1 = 0 := by linarith
    have e1 : x 2 = 0 := by linarith
    funext i; fin_cases i <;> simp [twofold, cross, e0, e1]

theorem reflection_operation : PointOperation reflection where
  add x y := by funext i; fin_cases i <;> simp [reflection]; ring
  dot x y := by simp only [reflection, dot, Matrix.cons_val]; ring
  order := by decide
  back _ x := by funext i; fin_cases i <;> simp [reflection]
  inverting h := by simp [reflection] at h
  twofold h := by simp [reflection] at h
  mirror _ := ⟨rfl, fun x => by simp [reflection, dot]⟩
  about h := absurd rfl h
  fixed h := absurd rfl h

theorem rotoinversion_operation : PointOperation rotoinversion where
  add x y := by funext i; fin_cases i <;> simp [rotoinversion] <;> ring
  dot x y := by simp only [rotoinversion, dot, Matrix.cons_val]; ring
  order := by decide
  back _ x := by funext i; fin_cases i <;> simp [rotoinversion]
  inverting h := by simp [rotoinversion] at h
  twofold h := by simp [rotoinversion] at h
  mirror h := by simp [rotoinversion] at h
  about _ x := by funext i; fin_cases i <;> simp [rotoinversion, cross]
  fixed _ x h := by
    have h0 : x 1 = x 0 := congrFun h 0
    have h1 : -x 0 = x 1 := congrFun h 1
    have e0 : x 0 = 0 := by linarith
    have e1 : x 1 = 0 := by linarith
    funext i; fin_cases i <;> simp [rotoinversion, cross, e0, e1]

/-- the three-fold rotoinversion about the diagonal -/
def threefoldInversion : Op ℚ := { turn := fun x => ![-x 2, -x 0, -x 1], order := 3, isometry := -3, axis := ![1, 1, 1] }

theorem threefoldInversion_operation : PointOperation threefoldInversion where
  add x y := by funext i; fin_cases i <;> simp [threefoldInversion] <;> ring
  dot x y := by simp only [threefoldInversion, dot, Matrix.cons_val]; ring
  order := by decide
  back h := absurd rfl h
  inverting _ := ⟨rfl, fun x => by funext i; fin_cases i <;> simp [threefoldInversion], fun x h => by
    have h0 : -x 2 = -x 0 := congrFun h 0
    have h1 : -x 0 = -x 1 := congrFun h 1
    have e0 : x 2 = x 0 := by linarith
    have e1 : x 1 = x 0 := by linarith
    funext i; fin_cases i <;> simp [threefoldInversion, cross, e0, e1]⟩
  twofold h := by simp [threefoldInversion] at h
  mirror h := by simp [threefoldInversion] at h
  about _ x := by funext i; fin_cases i <;> simp [threefoldInversion, cross] <;> ring
  fixed _ x h := by
    have h0 : -x 2 = x 0 := congrFun h 0
    have h1 : -x 0 = x 1 := congrFun h 1
    have h2 : -x 1 = x 2 := congrFun h 2
    have e0 : x 0 = 0 := by linarith
    have e1 : x 1 = 0 := by linarith
    have e2 : x 2 = 0 := by linarith
    funext i; fin_cases i <;> simp [threefoldInversion, cross, e0, e1, e2]

/-- a cubic basis -/
def unitBasis : Fin 3 → V ℚ := ![![1, 0, 0], ![0, 1, 0], ![0, 0, 1]]

theorem unitBasis_dual : BelongTogether unitBasis unitBasis 1 := ⟨one_ne_zero, by decide +kernel⟩

/-- the corners of a cube -/
def cubeCorners : List (V ℚ) :=
  [![1, 1, 1], ![1, 1, -1], ![1, -1, 1], ![1, -1, -1], ![-1, 1, 1], ![-1, 1, -1], ![-1, -1, 1], ![-1, -1, -1]]

/-- the search finds two planes for the four-fold rotation, which leave a quarter -/
example : (search true true id unitBasis unitBasis [fourfoldOp] cubeCorners).normals = [![-1, 1, 0], ![1, 1, 0]] ∧
    (search true true id unitBasis unitBasis [fourfoldOp] cubeCorners).special = [![1, 1, 1], ![1, 1, -1], ![-1, 1, 1], ![-1, 1, -1]] := by
  decide +kernel

/-- the corners of a cube, the centres of its faces and the middles of its edges -/
def cubeSpecial : List (V ℚ) :=
  [![1, 0, 0], ![-1, 0, 0], ![0, 1, 0], ![0, -1, 0], ![0, 0, 1], ![0, 0, -1]] ++ cubeCorners ++
  [![1, 1, 0], ![1, -1, 0], ![-1, 1, 0], ![-1, -1, 0], ![1, 0, 1], ![1, 0, -1], ![-1, 0, 1], ![-1, 0, -1],
    ![0, 1, 1], ![0, 1, -1], ![0, -1, 1], ![0, -1, -1]]

/-- several operations are used -/
example : (search true true id unitBasis unitBasis [reflection, twofold, fourfoldOp, rotoinversion, threefoldInversion] cubeSpecial).normals =
    [![0, 1, 0], ![0, 0, 1], ![0, 1, 0], ![1, 0, 0], ![1, -1, 0], ![0, -1, 1]] ∧
    expected [reflection, twofold, fourfoldOp, rotoinversion, threefoldInversion] = 8 := by decide +kernel

example : ∃ cuts : List (ℕ × List (V ℚ)),
    (search true true id unitBasis unitBasis [reflection, twofold, fourfoldOp, rotoinversion, threefoldInversion] cubeSpecial).normals =
        cuts.flatMap Prod.snd ∧
      (cuts.map Prod.fst).Nodup ∧ ∀ d ∈ cuts, ∃ o, [reflection, twofold, fourfoldOp, rotoinversion, threefoldInversion][d.1]? = some o ∧
        (o.isometry ≠ -2 → (∀ n ∈ d.2, dot n o.axis = 0) ∧ Reaches o d.2) ∧
        (o.isometry = -2 → d.2 = [o.axis] ∨ d.2 = [-o.axis] → Reaches o d.2) := by
  refine C89_cuts_partial (fun _ => List.Perm.refl _) true true unitBasis_dual _ ?_ ?_ cubeSpecial
  · intro o ho
    simp only [List.mem_cons, List.not_mem_nil, or_false] at ho
    rcases ho with rfl | rfl | rfl | rfl | rfl
    · exact reflection_operation
    · exact twofold_operation
    · exact fourfoldOp_operation
    · exact rotoinversion_operation
    · exact threefoldInversion_operation
  · intro _ _ _ _ _ h
    exact h

/-- both are used -/
example : (tryPair 0 fourfoldOp ⟨cubeCorners, [], []⟩ (0, 4)).normals = [![-1, 1, 0], ![1, 1, 0]] ∧
    (mirror ⟨cubeSpecial, [], []⟩ (0, reflection)).normals = [![0, 0, 1]] := by decide +kernel

/-- the groups for the four-fold rotation: two times four corners, each followed by its image -/
example : oneSym fourfoldOp cubeCorners = [[0, 4, 6, 2], [1, 5, 7, 3]] ∧ cubeCorners.Nodup := by decide +kernel


/-- the planes for the three-fold rotoinversion -/
example : (search true true id unitBasis unitBasis [threefoldInversion] cubeSpecial).normals = [![1, 0, -1], ![0, -1, 1]] := by decide +kernel

/-! ### where the groups are not complete -/

/-- The order of a three-fold rotoinversion is that of its rotation, so that half of the images are left out: there are points that are in no
group, as a point takes its inverse out of the list without having it in its own group. -/
theorem C89_groups_counterexample : PointOperation threefoldInversion ∧ cubeSpecial.Nodup ∧
    ∃ x < cubeSpecial.length, ∀ s ∈ oneSym threefoldInversion cubeSpecial, x ∉ s :=
  ⟨threefoldInversion_operation, by decide +kernel, by decide +kernel⟩

/-! ### where the planes are not the right ones -/

/-- the corners of an octagonal prism, two on each of four edges -/
def edgePoints : List (V ℚ) :=
  [![1, 0, 1], ![1, 0, -1], ![-1, 0, 1], ![-1, 0, -1], ![0, 1, 1], ![0, 1, -1], ![0, -1, 1], ![0, -1, -1]]

/-- A mirror that was not dealt with as a mirror is taken for a two-fold rotation: the plane contains the axis, which for a mirror is wrong,
and what is cut away has no image in what is left. -/
theorem C89_mirror_counterexample : PointOperation reflection ∧
    (search true false id unitBasis unitBasis [reflection] edgePoints).normals = [![0, 1, 0]] ∧
    ¬Reaches reflection [![0, 1, 0]] := by
  refine ⟨reflection_operation, by decide +kernel, fun h => ?_⟩
  obtain ⟨k, hk⟩ := h ![0, -1, 0]
  have h1 := hk _ List.mem_cons_self
  have key : ∀ k, reflection.turn^[k] ![0, -1, 0] = ![0, -1, 0] := by
    intro k
    induction k with
    | zero => rfl
    | succ k ih =>
      rw [Function.iterate_succ_apply', ih]
      simp [reflection]
  rw [key] at h1
  revert h1
  decide +kernel

/-- a rectangular lattice, described by a basis that is not rectangular -/
def skewReciprocal : Fin 3 → V ℚ := ![![0, 1, 0], ![1, -1, 0], ![0, 0, 1]]

/-- the real lattice of it -/
def skewReal : Fin 3 → V ℚ := ![![1, 1, 0], ![1, 0, 0], ![0, 0, 1]]

/-- The direction No. 3 is the axis of a two-fold rotation, in the reciprocal lattice and not in the real lattice: the plane does not contain the
axis, and half of the axis is cut away. -/
theorem C89_direction_counterexample : PointOperation twofold ∧ BelongTogether skewReal skewReciprocal 1 ∧
    (∀ j, ∃ m : Fin 3 → ℤ, twofold.turn (skewReciprocal j) =
      fun d => (m 0 : ℚ) * skewReciprocal 0 d + m 1 * skewReciprocal 1 d + m 2 * skewReciprocal 2 d) ∧
    (search true true id skewReal skewReciprocal [twofold] cubeCorners).normals = [![1, -2, 0]] ∧
    dot ![1, -2, 0] twofold.axis ≠ 0 ∧ ¬Reaches twofold [![1, -2, 0]] := by
  refine ⟨twofold_operation, ⟨one_ne_zero, by decide +kernel⟩, ?_, by decide +kernel, by decide +kernel, fun h => ?_⟩
  · intro j
    fin_cases j
    · exact ⟨![-1, 0, 0], by decide +kernel⟩
    · exact ⟨![2, 1, 0], by decide +kernel⟩
    · exact ⟨![0, 0, -1], by decide +kernel⟩
  · obtain ⟨k, hk⟩ := h ![-1, 0, 0]
    have h1 := hk _ List.mem_cons_self
    have key : ∀ k, twofold.turn^[k] ![-1, 0, 0] = ![-1, 0, 0] := by
      intro k
      induction k with
      | zero => rfl
      | succ k ih =>
        rw [Function.iterate_succ_apply', ih]
        simp [twofold]
    rw [key] at h1
    revert h1
    decide +kernel

end Brille.Props
