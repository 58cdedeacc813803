/- Proofs about combining vertex bookkeeping of several threads. -/
import Verif.Proofs.VertexMap
import Mathlib.Tactic.Set
import Mathlib.Data.List.Nodup

namespace Brille.VMap

open Brille.StdMap Brille.Spec

variable {V : Type} {near : V → V → Bool}

/-- Apply a function to every recorded answer. -/
def mapRel (f : Rel → Rel) (m : VIM) : VIM := m.map (fun q => (q.1, q.2.map f))

theorem replace_eq (m : VIM) (a b : Rel) : replace m a b = mapRel (fun v => if v = a then b else v) m := rfl

theorem mapRel_mapRel (f g : Rel → Rel) (m : VIM) : mapRel g (mapRel f m) = mapRel (fun x => g (f x)) m := by
  simp [mapRel, Function.comp_def]

theorem mapRel_id (m : VIM) : mapRel (fun x => x) m = m := by simp [mapRel]

theorem find_mapRel (f : Rel → Rel) (m : VIM) (node : Nat) : find (mapRel f m) node = (find m node).map (List.map f) := by
  induction m with
  | nil => rfl
  | cons q m ih =>
    obtain ⟨k, l⟩ := q
    show find ((k, l.map f) :: mapRel f m) node = _
    simp only [find]
    split_ifs
    · rfl
    · exact ih

theorem keys_mapRel (f : Rel → Rel) (m : VIM) : (mapRel f m).map Prod.fst = m.map Prod.fst := by
  simp [mapRel, Function.comp_def]

/-- A sequence of replacements applied to one answer. -/
def subst {α : Type} (a b : α → Rel) (l : List α) (x : Rel) : Rel :=
  l.foldl (fun x d => if x = a d then b d else x) x

theorem foldl_replace {α : Type} (a b : α → Rel) (l : List α) (m : VIM) :
    l.foldl (fun m d => replace m (a d) (b d)) m = mapRel (subst a b l) m := by
  induction l generalizing m with
  | nil => exact (mapRel_id m).symm
  | cons d l ih =>
    rw [List.foldl_cons, ih, replace_eq, mapRel_mapRel]; rfl

theorem subst_miss {α : Type} {a b : α → Rel} {l : List α} {x : Rel} (h : ∀ d ∈ l, a d ≠ x) : subst a b l x = x := by
  induction l with
  | nil => rfl
  | cons d l ih =>
    unfold subst
    rw [List.foldl_cons, if_neg (fun hh => h d (by simp) hh.symm)]
    exact ih (fun d' hd' => h d' (by simp [hd']))

theorem subst_hit {α : Type} {a b : α → Rel} {l : List α} {x y : Rel} (h1 : ∃ d ∈ l, a d = x)
    (h2 : ∀ d ∈ l, a d = x → b d = y) (h3 : ∀ d ∈ l, a d ≠ y) : subst a b l x = y := by
  induction l with
  | nil => simp at h1
  | cons d l ih =>
    unfold subst
    rw [List.foldl_cons]
    by_cases hd : x = a d
    · rw [if_pos hd, h2 d (by simp) hd.symm]
      exact subst_miss (fun d' hd' => h3 d' (by simp [hd']))
    · rw [if_neg hd]
      refine ih ?_ (fun d' hd' => h2 d' (by simp [hd'])) (fun d' hd' => h3 d' (by simp [hd']))
      obtain ⟨d', hd', he⟩ := h1
      rcases List.mem_cons.1 hd' with rfl | hd'
      · exact absurd he.symm hd
      · exact ⟨d', hd', he⟩

/-- The relabelling of `second_copy`. -/
def sec : Rel → Rel
  | (.pristine, i) => (.secondPristine, i)
  | (.appended, i) => (.secondAppended, i)
  | r => r

/-- Answers that are already decoded. -/
def Plain (r : Rel) : Prop := r.1 = .pristine ∨ r.1 = .appended

theorem secondCopy_eq {m : VIM} (h : ∀ q ∈ m, ∀ r ∈ q.2, Plain r) : secondCopy m = some (mapRel sec m) := by
  have inner : ∀ l : List Rel, (∀ r ∈ l, Plain r) → l.mapM toSecond = some (l.map sec) := by
    intro l
    induction l with
    | nil => intro _; rfl
    | cons r l ih =>
      intro hl
      rw [List.mapM_cons, ih (fun r' hr' => hl r' (by simp [hr']))]
      obtain ⟨t, i⟩ := r
      rcases hl (t, i) (by simp) with h | h <;> · dsimp only at h; subst h; rfl
  unfold secondCopy
  induction m with
  | nil => rfl
  | cons q m ih =>
    rw [List.mapM_cons, inner q.2 (h q (by simp)), ih (fun q' hq' => h q' (by simp [hq']))]
    rfl

theorem hasSecond_false {m : VIM} (h : ∀ q ∈ m, ∀ r ∈ q.2, Plain r) : hasSecond m = false := by
  unfold hasSecond
  rw [List.any_eq_false]
  intro q hq
  rw [Bool.not_eq_true, List.any_eq_false]
  intro r hr
  rcases h q hq r hr with h | h <;> simp [h]

theorem merge_spec {m other : VIM} (hm : Sorted m) (ho : Sorted other)
    (hd : ∀ k, find m k = none ∨ find other k = none) :
    ∃ r, merge m other = some r ∧ Sorted r ∧
      ∀ k, find r k = match find other k with | some l => some l | none => find m k := by
  have h1 : other.any (fun p => (find m p.1).isSome) = false := by
    rw [List.any_eq_false]
    intro q hq hs
    rcases hd q.1 with h | h
    · rw [h] at hs; simp at hs
    · rw [find_eq_none] at h; exact h (List.mem_map.2 ⟨q, hq, rfl⟩)
  refine ⟨_, by unfold merge; rw [h1]; rfl, ?_, ?_⟩
  · clear hd h1
    induction other generalizing m with
    | nil => exact hm
    | cons q other ih =>
      rw [List.foldl_cons]
      have ho' := ho; rw [Sorted, List.map_cons, List.pairwise_cons] at ho'
      exact ih (hm.set _ _) ho'.2
  · clear hd h1 hm
    replace ho := ho.nodup
    induction other generalizing m with
    | nil => intro k; rfl
    | cons q other ih =>
      rw [NodupKeys, List.map_cons, List.nodup_cons] at ho
      intro k
      rw [List.foldl_cons, ih (m := set m q.1 q.2) ho.2 k]
      obtain ⟨k', l⟩ := q
      simp only [find, find_set]
      by_cases hk : k = k'
      · subst hk
        rw [(find_eq_none other k).2 ho.1]; simp
      · simp [hk]

theorem subst_hit' {α : Type} {a b : α → Rel} {l : List α} {x : Rel} (h1 : ∃ d ∈ l, a d = x)
    (h2 : ∀ d ∈ l, ∀ d' ∈ l, a d' ≠ b d) : ∃ d ∈ l, a d = x ∧ subst a b l x = b d := by
  induction l with
  | nil => simp at h1
  | cons d l ih =>
    unfold subst
    rw [List.foldl_cons]
    by_cases hd : x = a d
    · rw [if_pos hd]
      exact ⟨d, by simp, hd.symm, subst_miss (fun d' hd' => h2 d (by simp) d' (by simp [hd']))⟩
    · rw [if_neg hd]
      have : ∃ d ∈ l, a d = x := by
        obtain ⟨d', hd', he⟩ := h1
        rcases List.mem_cons.1 hd' with rfl | hd'
        · exact absurd he.symm hd
        · exact ⟨d', hd', he⟩
      obtain ⟨d', hd', h3, h4⟩ := ih this (fun d1 h1 d2 h2' => h2 d1 (by simp [h1]) d2 (by simp [h2']))
      exact ⟨d', by simp [hd'], h3, h4⟩

/-- The renumbering of one answer. -/
def ren (oneP twoP : Map Nat) (x : Rel) : Rel :=
  subst (fun p : (Nat × Nat) × Nat => (.secondPristine, p.1.2)) (fun p => (.pristine, p.2)) (onlySecondOf oneP twoP)
    (subst (fun y : Nat => (.secondPristine, y)) (fun y => (.pristine, y)) (sameOf oneP twoP)
      (subst (fun d : Nat × Nat × Nat => (.secondPristine, d.2.2)) (fun d => (.pristine, d.2.1)) (differOf oneP twoP) x))

theorem renumber_eq (oneP twoP : Map Nat) (m : VIM) : renumber oneP twoP m = mapRel (ren oneP twoP) m := by
  unfold renumber
  simp only [foldl_replace, mapRel_mapRel]
  rfl

theorem ren_other (oneP twoP : Map Nat) {x : Rel} (h : x.1 ≠ .secondPristine) : ren oneP twoP x = x := by
  unfold ren
  rw [subst_miss (l := differOf oneP twoP), subst_miss (l := sameOf oneP twoP), subst_miss]
  all_goals intro d _ hd; exact h (by rw [← hd])

theorem mem_differOf {oneP twoP : Map Nat} (h1 : NodupKeys oneP) (k a b : Nat) :
    (k, a, b) ∈ differOf oneP twoP ↔ find oneP k = some a ∧ find twoP k = some b ∧ b ≠ a := by
  unfold differOf
  rw [List.mem_filterMap]
  constructor
  · rintro ⟨⟨k', a'⟩, hm, hq⟩
    dsimp only at hq
    cases hf : find twoP k' with
    | none => rw [hf] at hq; simp at hq
    | some s =>
      rw [hf] at hq; dsimp only at hq
      split_ifs at hq with hs
      simp only [Option.some.injEq, Prod.mk.injEq] at hq
      obtain ⟨rfl, rfl, rfl⟩ := hq
      exact ⟨(find_iff_mem h1 _ _).2 hm, hf, hs⟩
  · rintro ⟨g1, g2, g3⟩
    exact ⟨(k, a), (find_iff_mem h1 _ _).1 g1, by simp [g2, g3]⟩

theorem mem_sameOf {oneP twoP : Map Nat} (h1 : NodupKeys oneP) (x : Nat) :
    x ∈ sameOf oneP twoP ↔ ∃ k, find oneP k = some x ∧ find twoP k = some x := by
  unfold sameOf
  rw [List.mem_filterMap]
  constructor
  · rintro ⟨⟨k', a'⟩, hm, hq⟩
    dsimp only at hq
    cases hf : find twoP k' with
    | none => rw [hf] at hq; simp at hq
    | some s =>
      rw [hf] at hq; dsimp only at hq
      split_ifs at hq with hs
      simp only [Option.some.injEq] at hq
      subst hq
      exact ⟨k', (find_iff_mem h1 _ _).2 hm, by rw [hf, not_not.1 hs]⟩
  · rintro ⟨k, g1, g2⟩
    exact ⟨(k, x), (find_iff_mem h1 _ _).1 g1, by simp [g2]⟩

/-- The grid rows only the second set asked for, in their new order. -/
def osKeys (oneP twoP : Map Nat) : List Nat := (onlySecondOf oneP twoP).map (fun p => p.1.1)

theorem onlySecond_pairs (oneP twoP : Map Nat) :
    (onlySecondOf oneP twoP).map (fun p => (p.1.1, p.2)) = (osKeys oneP twoP).zipIdx oneP.length := by
  unfold osKeys onlySecondOf
  apply List.ext_getElem <;> simp

theorem mem_onlySecond {oneP twoP : Map Nat} (h2 : NodupKeys twoP) {k b n : Nat}
    (h : ((k, b), n) ∈ onlySecondOf oneP twoP) :
    find oneP k = none ∧ find twoP k = some b ∧ oneP.length ≤ n ∧
      (osKeys oneP twoP)[n - oneP.length]? = some k := by
  have hp : (k, n) ∈ (osKeys oneP twoP).zipIdx oneP.length := by
    rw [← onlySecond_pairs]; exact List.mem_map.2 ⟨_, h, rfl⟩
  rw [List.mk_mem_zipIdx_iff_le_and_getElem?_sub] at hp
  unfold onlySecondOf at h
  have h' := List.fst_mem_of_mem_zipIdx h
  rw [(List.perm_insertionSort _ _).mem_iff, List.mem_filter] at h'
  exact ⟨by simpa using h'.2, (find_iff_mem h2 _ _).2 h'.1, hp⟩

theorem onlySecond_exists {oneP twoP : Map Nat} {k b : Nat}
    (h1 : find oneP k = none) (h3 : find twoP k = some b) :
    ∃ n, ((k, b), n) ∈ onlySecondOf oneP twoP := by
  have : (k, b) ∈ (twoP.filter (fun p => (find oneP p.1).isNone)).insertionSort (fun a b => a.2 ≤ b.2) := by
    rw [(List.perm_insertionSort _ _).mem_iff, List.mem_filter]
    exact ⟨mem_of_find h3, by simp [h1]⟩
  obtain ⟨i, hi, he⟩ := List.getElem_of_mem this
  refine ⟨oneP.length + i, ?_⟩
  unfold onlySecondOf
  rw [List.mk_add_mem_zipIdx_iff_getElem?, List.getElem?_eq_getElem hi, he]

theorem osKeys_nodup {oneP twoP : Map Nat} (h2 : NodupKeys twoP) : (osKeys oneP twoP).Nodup := by
  have : osKeys oneP twoP =
      ((twoP.filter (fun p => (find oneP p.1).isNone)).insertionSort (fun a b => a.2 ≤ b.2)).map Prod.fst := by
    unfold osKeys onlySecondOf
    apply List.ext_getElem <;> simp
  rw [this, ((List.perm_insertionSort _ _).map Prod.fst).nodup_iff]
  exact List.Nodup.sublist (List.filter_sublist.map _) h2

theorem mem_osKeys {oneP twoP : Map Nat} (h2 : NodupKeys twoP) (k : Nat) (h : k ∈ osKeys oneP twoP) :
    find oneP k = none ∧ ∃ b, find twoP k = some b := by
  unfold osKeys at h
  rw [List.mem_map] at h
  obtain ⟨⟨⟨k', b⟩, n⟩, h, rfl⟩ := h
  obtain ⟨g1, g2, _⟩ := mem_onlySecond h2 h
  exact ⟨g1, b, g2⟩

theorem Inv.nodupKeys {p : List V} {s : VMS V} {ord : List Nat} (h : Inv near p s ord) : NodupKeys s.preserve :=
  (zipIdx_nodupKeys h.nodup).perm h.perm.symm

theorem ren_spec {p : List V} {s1 s2 : VMS V} {ord1 ord2 : List Nat} (h1 : Inv near p s1 ord1)
    (h2 : Inv near p s2 ord2) {i k : Nat} (hk : ord2[i]? = some k) :
    ∃ j, ren s1.preserve s2.preserve (.secondPristine, i) = (.pristine, j) ∧
      (ord1 ++ osKeys s1.preserve s2.preserve)[j]? = some k := by
  have hk2 := (h2.find_iff k i).2 hk
  have inj : ∀ k', find s2.preserve k' = some i → k' = k := by
    intro k' hk'
    have := (h2.find_iff k' i).1 hk'
    rw [hk] at this; exact (Option.some.inj this).symm
  unfold ren
  cases hf : find s1.preserve k with
  | some j =>
    have hj := (h1.find_iff k j).1 hf
    have hj' : (ord1 ++ osKeys s1.preserve s2.preserve)[j]? = some k := by
      rw [List.getElem?_append_left (List.getElem?_eq_some_iff.1 hj).1]; exact hj
    by_cases hij : i = j
    · subst hij
      rw [subst_miss (l := differOf _ _)]
      · obtain ⟨d, hd, hd1, hd2⟩ := subst_hit' (a := fun y : Nat => ((.secondPristine, y) : Rel))
          (b := fun y => (.pristine, y)) (l := sameOf s1.preserve s2.preserve) (x := (.secondPristine, i))
          ⟨i, (mem_sameOf h1.nodupKeys i).2 ⟨k, hf, hk2⟩, rfl⟩ (by simp)
        rw [hd2]
        simp only [Prod.mk.injEq, true_and] at hd1
        subst hd1
        exact ⟨d, subst_miss (by simp), hj'⟩
      · rintro ⟨k', a, b⟩ hd he
        simp only [Prod.mk.injEq, true_and] at he
        subst he
        obtain ⟨g1, g2, g3⟩ := (mem_differOf h1.nodupKeys _ _ _).1 hd
        rw [inj k' g2, hf] at g1
        exact g3 (Option.some.inj g1)
    · obtain ⟨d, hd, hd1, hd2⟩ := subst_hit' (a := fun d : Nat × Nat × Nat => ((.secondPristine, d.2.2) : Rel))
        (b := fun d => (.pristine, d.2.1)) (l := differOf s1.preserve s2.preserve) (x := (.secondPristine, i))
        ⟨(k, j, i), (mem_differOf h1.nodupKeys _ _ _).2 ⟨hf, hk2, hij⟩, rfl⟩ (by simp)
      rw [hd2]
      obtain ⟨k', a, b⟩ := d
      simp only [Prod.mk.injEq, true_and] at hd1
      subst hd1
      obtain ⟨g1, g2, g3⟩ := (mem_differOf h1.nodupKeys _ _ _).1 hd
      rw [inj k' g2, hf] at g1
      rw [Option.some.inj g1] at hj'
      exact ⟨a, by rw [subst_miss (l := sameOf _ _) (by simp), subst_miss (by simp)], hj'⟩
  | none =>
    rw [subst_miss (l := differOf _ _), subst_miss (l := sameOf _ _)]
    · obtain ⟨n, hn⟩ := onlySecond_exists hf hk2
      obtain ⟨d, hd, hd1, hd2⟩ := subst_hit' (a := fun p : (Nat × Nat) × Nat => ((.secondPristine, p.1.2) : Rel))
        (b := fun p => (.pristine, p.2)) (l := onlySecondOf s1.preserve s2.preserve) (x := (.secondPristine, i))
        ⟨_, hn, rfl⟩ (by simp)
      obtain ⟨⟨k', b⟩, n'⟩ := d
      simp only [Prod.mk.injEq, true_and] at hd1
      subst hd1
      obtain ⟨g1, g2, g3, g4⟩ := mem_onlySecond h2.nodupKeys hd
      rw [inj k' g2] at g4
      refine ⟨n', hd2, ?_⟩
      rw [List.getElem?_append_right (by rw [← h1.length]; exact g3), ← h1.length]; exact g4
    · rintro y hd he
      simp only [Prod.mk.injEq, true_and] at he
      subst he
      obtain ⟨k', g1, g2⟩ := (mem_sameOf h1.nodupKeys _).1 hd
      rw [inj k' g2, hf] at g1; simp at g1
    · rintro ⟨k', a, b⟩ hd he
      simp only [Prod.mk.injEq, true_and] at he
      subst he
      obtain ⟨g1, g2, g3⟩ := (mem_differOf h1.nodupKeys _ _ _).1 hd
      rw [inj k' g2, hf] at g1; simp at g1

theorem foldl_set_perm {α : Type} (key val : α → Nat) (l : List α) (m : Map Nat)
    (hn : (l.map key).Nodup) (hd : ∀ x ∈ l, find m (key x) = none) :
    (l.foldl (fun m x => set m (key x) (val x)) m).Perm (m ++ l.map (fun x => (key x, val x))) := by
  induction l generalizing m with
  | nil => simp
  | cons x l ih =>
    rw [List.map_cons, List.nodup_cons] at hn
    rw [List.foldl_cons]
    refine (ih _ hn.2 ?_).trans ?_
    · intro y hy
      rw [find_set, if_neg, hd y (by simp [hy])]
      intro he
      exact hn.1 (he ▸ List.mem_map.2 ⟨y, hy, rfl⟩)
    · rw [List.map_cons]
      refine ((set_perm m _ _ (hd x (by simp))).append_right _).trans ?_
      rw [List.cons_append]
      exact List.perm_middle.symm

/-- The combined set before the appended vertices of the second are added. -/
theorem newPreserve_inv {p : List V} {s1 s2 : VMS V} {ord1 ord2 : List Nat} (h1 : Inv near p s1 ord1)
    (h2 : Inv near p s2 ord2) (cap : Nat) :
    Inv near p (VMS.mk s1.pristine s1.appended cap
        ((onlySecondOf s1.preserve s2.preserve).foldl (fun m p => set m p.1.1 p.2) s1.preserve))
      (ord1 ++ osKeys s1.preserve s2.preserve) := by
  have hos := osKeys_nodup (oneP := s1.preserve) h2.nodupKeys
  refine ⟨h1.pristine, ?_, ?_, ?_, h1.sep⟩
  · rw [List.nodup_append]
    refine ⟨h1.nodup, hos, ?_⟩
    rintro a ha b hb rfl
    exact (h1.find_none a).1 (mem_osKeys h2.nodupKeys a hb).1 ha
  · intro k hk
    rcases List.mem_append.1 hk with hk | hk
    · exact h1.bound k hk
    · obtain ⟨b, hb⟩ := (mem_osKeys h2.nodupKeys k hk).2
      exact h2.bound k (List.mem_of_getElem? ((h2.find_iff k b).1 hb))
  · dsimp only
    refine (foldl_set_perm (fun p : (Nat × Nat) × Nat => p.1.1) (fun p => p.2) _ _ hos ?_).trans ?_
    · intro x hx
      exact (mem_osKeys h2.nodupKeys x.1.1 (List.mem_map.2 ⟨x, hx, rfl⟩)).1
    · rw [onlySecond_pairs, List.zipIdx_append, Nat.zero_add, h1.length]
      exact h1.perm.append_right _

theorem addAppended_spec (he : IsEquiv near) {p : List V} {ord : List Nat} (vs : List V) :
    ∀ (out : VMS V) (i : Nat), Inv near p out ord → out.appended.length + vs.length ≤ out.capacity →
    ∃ out' g a, (∀ m, addAppended near out m i vs = some (out', mapRel g m)) ∧ Inv near p out' ord ∧
      out'.appended = out.appended ++ a ∧ (∀ x ∈ a, x ∈ vs) ∧
      (∀ j v, vs[j]? = some v → ∃ t w, g (.secondAppended, i + j) = (.appended, t) ∧
        out'.appended[t]? = some w ∧ near w v = true) ∧
      (∀ r : Rel, r.1 ≠ .secondAppended → g r = r) ∧ (∀ j, j < i → g (.secondAppended, j) = (.secondAppended, j)) := by
  induction vs with
  | nil =>
    intro out i h _
    exact ⟨out, fun x => x, [], fun m => by rw [mapRel_id]; rfl, h, by simp, by simp, by simp, fun _ _ => rfl,
      fun _ _ => rfl⟩
  | cons v vs ih =>
    intro out i h hcap
    rw [List.length_cons] at hcap
    obtain ⟨o1, a1, t, w, e1, e2, e3, e4, e5, e6, e7, e8, e9, e10⟩ := crafted_spec he h v (by omega)
    have hlen : o1.appended.length + vs.length ≤ o1.capacity := by
      rw [e3, List.length_append]; omega
    obtain ⟨o2, g, a2, f1, f2, f3, f4, f5, f6, f7⟩ := ih o1 (i + 1) e2 hlen
    refine ⟨o2, fun x => g (if x = (.secondAppended, i) then (.appended, t) else x), a1 ++ a2, ?_, f2, ?_, ?_, ?_, ?_, ?_⟩
    · intro m
      simp only [addAppended, e1, Option.bind_eq_bind, Option.bind_some]
      rw [f1, replace_eq, mapRel_mapRel]
    · rw [f3, e3, List.append_assoc]
    · intro x hx
      rcases List.mem_append.1 hx with hx | hx
      · rw [e4 x hx]; simp
      · simp [f4 x hx]
    · intro j v' hj
      cases j with
      | zero =>
        simp only [List.getElem?_cons_zero, Option.some.injEq] at hj
        subst hj
        refine ⟨t, w, ?_, ?_, e9⟩
        · simp only [Nat.add_zero, if_true]
          exact f6 _ (by simp)
        · rw [f3, List.getElem?_append_left (List.getElem?_eq_some_iff.1 e8).1]; exact e8
      | succ j =>
        simp only [List.getElem?_cons_succ] at hj
        obtain ⟨t', w', q1, q2, q3⟩ := f5 j v' hj
        refine ⟨t', w', ?_, q2, q3⟩
        dsimp only
        rw [if_neg (by simp only [Prod.mk.injEq, true_and]; omega), ← q1]
        congr 2; omega
    · intro r hr
      dsimp only
      rw [if_neg (by rintro rfl; exact hr rfl)]
      exact f6 r hr
    · intro j hj
      dsimp only
      rw [if_neg (by simp only [Prod.mk.injEq, true_and]; omega)]
      exact f7 j (by omega)

theorem forall₂_mem_left {α β : Type} {R : α → β → Prop} {l : List α} {l' : List β} (h : List.Forall₂ R l l')
    {a : α} (ha : a ∈ l) : ∃ b ∈ l', R a b := by
  induction h with
  | nil => simp at ha
  | cons h1 h2 ih =>
    rcases List.mem_cons.1 ha with rfl | ha
    · exact ⟨_, by simp, h1⟩
    · obtain ⟨b, hb, hr⟩ := ih ha
      exact ⟨b, by simp [hb], hr⟩

theorem Good.val_some {g p : List V} {s : VMS V} {m : VIM} {ord : List Nat} {tasks : List (Nat × Op V)}
    (h : Good near g p s m ord tasks) : ∀ q ∈ m, ∀ r ∈ q.2, ∃ w, val p ord s.appended r = some w := by
  intro q hq r hr
  have := h.res q.1 q.2 ((find_iff_mem h.sorted.nodup _ _).2 hq)
  obtain ⟨op, _, w, hw, _⟩ := forall₂_mem_left this hr
  exact ⟨w, hw⟩

theorem plain_of_val {p : List V} {ord : List Nat} {app : List V} {r : Rel} {w : V}
    (h : val p ord app r = some w) : Plain r := by
  obtain ⟨t, i⟩ := r
  cases t
  · exact Or.inl rfl
  · exact Or.inr rfl
  · simp [val] at h
  · simp [val] at h

theorem combine_spec (he : IsEquiv near) {g p : List V} {s1 s2 : VMS V} {m1 m2 : VIM} {ord1 ord2 : List Nat}
    {t1 t2 : List (Nat × Op V)} (h1 : Good near g p s1 m1 ord1 t1) (h2 : Good near g p s2 m2 ord2 t2)
    (hd : ∀ node, requestsOf t1 node = [] ∨ requestsOf t2 node = []) :
    ∃ s m ord, combine near (s1, m1) (s2, m2) = some (s, m) ∧ Good near g p s m ord (t1 ++ t2) := by
  have hsec := secondCopy_eq (m := m2) (fun q hq r hr => by
    obtain ⟨w, hw⟩ := h2.val_some q hq r hr; exact plain_of_val hw)
  set os := osKeys s1.preserve s2.preserve with hos
  obtain ⟨out, f, a, k1, k2, k3, k4, k5, k6, k7⟩ := addAppended_spec he (p := p) s2.appended
    (VMS.mk s1.pristine s1.appended (s1.appended.length + s2.appended.length)
      ((onlySecondOf s1.preserve s2.preserve).foldl (fun m p => set m p.1.1 p.2) s1.preserve)) 0
    (newPreserve_inv h1.inv h2.inv _) (Nat.le_refl _)
  dsimp only at k3
  -- the renaming of the second map's answers
  set φ : Rel → Rel := fun x => f (ren s1.preserve s2.preserve (sec x)) with hφ
  have hφp : ∀ i k, ord2[i]? = some k → ∃ j, φ (.pristine, i) = (.pristine, j) ∧ (ord1 ++ os)[j]? = some k := by
    intro i k hk
    obtain ⟨j, hj1, hj2⟩ := ren_spec h1.inv h2.inv hk
    refine ⟨j, ?_, hj2⟩
    rw [hφ]
    show f (ren _ _ (.secondPristine, i)) = _
    rw [hj1]; exact k6 _ (by simp)
  have hφa : ∀ i v, s2.appended[i]? = some v → ∃ t w, φ (.appended, i) = (.appended, t) ∧
      out.appended[t]? = some w ∧ near w v = true := by
    intro i v hv
    obtain ⟨t, w, q1, q2, q3⟩ := k5 i v hv
    refine ⟨t, w, ?_, q2, q3⟩
    rw [hφ]
    show f (ren _ _ (.secondAppended, i)) = _
    rw [ren_other _ _ (by simp)]
    rw [Nat.zero_add] at q1; exact q1
  have hres : ∀ r op, Res near g p ord2 s2.appended r op → Res near g p (ord1 ++ os) out.appended (φ r) op := by
    rintro ⟨t, i⟩ op ⟨w, hw, hw1, hw2⟩
    cases t
    · simp only [val, Option.bind_eq_some_iff] at hw
      obtain ⟨k, hk, hw⟩ := hw
      obtain ⟨j, hj1, hj2⟩ := hφp i k hk
      exact ⟨w, by rw [hj1]; simp only [val, hj2, Option.bind_some, hw], hw1, by rw [hj1]; simp⟩
    · simp only [val] at hw
      obtain ⟨t, w', q1, q2, q3⟩ := hφa i w hw
      obtain ⟨v, ty, rfl⟩ := hw2 rfl
      exact ⟨w', by rw [q1]; simp only [val, q2], he.trans _ _ _ q3 hw1, fun _ => ⟨v, ty, rfl⟩⟩
    · simp [val] at hw
    · simp [val] at hw
  have hplain : ∀ q ∈ mapRel φ m2, ∀ r ∈ q.2, Plain r := by
    intro q hq r hr
    unfold mapRel at hq
    rw [List.mem_map] at hq
    obtain ⟨q', hq', rfl⟩ := hq
    rw [List.mem_map] at hr
    obtain ⟨r', hr', rfl⟩ := hr
    have := h2.res q'.1 q'.2 ((find_iff_mem h2.sorted.nodup _ _).2 hq')
    obtain ⟨op, _, hop⟩ := forall₂_mem_left this hr'
    obtain ⟨w, hw, _⟩ := hres _ _ hop
    exact plain_of_val hw
  obtain ⟨m, hm1, hm2, hm3⟩ := merge_spec (m := m1) (other := mapRel φ m2) h1.sorted
    (by unfold Sorted; rw [keys_mapRel]; exact h2.sorted)
    (by
      intro k
      rw [find_mapRel]
      rcases hd k with h | h
      · left; exact (h1.keys k).2 h
      · right; rw [(h2.keys k).2 h]; rfl)
  have hcap : (VMS.mk s1.pristine s1.appended s1.appended.length
      ((onlySecondOf s1.preserve s2.preserve).foldl (fun m p => set m p.1.1 p.2) s1.preserve)).reserveAppended
        (s1.appended.length + s2.appended.length) =
      VMS.mk s1.pristine s1.appended (s1.appended.length + s2.appended.length)
      ((onlySecondOf s1.preserve s2.preserve).foldl (fun m p => set m p.1.1 p.2) s1.preserve) := by
    unfold VMS.reserveAppended
    dsimp only
    split_ifs with hh
    · rfl
    · congr 1; omega
  refine ⟨out, m, ord1 ++ os, ?_, ⟨k2, hm2, ?_, ?_, ?_, ?_⟩⟩
  · unfold combine
    simp only [hsec, Option.bind_eq_bind, Option.bind_some, hcap, k1, renumber_eq, mapRel_mapRel]
    rw [hasSecond_false hplain]
    simp only [Bool.false_eq_true, if_false]
    rw [hm1]; rfl
  · intro node
    rw [hm3, find_mapRel, requestsOf_append, List.append_eq_nil_iff]
    cases hf : find m2 node with
    | some l =>
      have : requestsOf t2 node ≠ [] := fun hh => by rw [(h2.keys node).2 hh] at hf; simp at hf
      simp [this]
    | none =>
      simp only [Option.map_none]
      rw [h1.keys node, (h2.keys node).1 hf]; simp
  · intro node l hl
    rw [hm3, find_mapRel] at hl
    rw [requestsOf_append]
    cases hf : find m2 node with
    | some l2 =>
      rw [hf] at hl
      simp only [Option.map_some, Option.some.injEq] at hl
      subst hl
      have : requestsOf t2 node ≠ [] := fun hh => by rw [(h2.keys node).2 hh] at hf; simp at hf
      rw [(hd node).resolve_right this, List.nil_append, List.forall₂_map_left_iff]
      exact (h2.res node l2 hf).imp hres
    | none =>
      rw [hf] at hl
      simp only [Option.map_none] at hl
      rw [(h2.keys node).1 hf, List.append_nil]
      refine (h1.res node l hl).imp ?_
      intro x y hxy
      rw [k3]; exact hxy.mono os a
  · intro k hk
    rcases List.mem_append.1 hk with hk | hk
    · obtain ⟨t, ht, hh⟩ := h1.usedP k hk
      exact ⟨t, List.mem_append_left _ ht, hh⟩
    · obtain ⟨b, hb⟩ := (mem_osKeys h2.inv.nodupKeys k hk).2
      obtain ⟨t, ht, hh⟩ := h2.usedP k (List.mem_of_getElem? ((h2.inv.find_iff k b).1 hb))
      exact ⟨t, List.mem_append_right _ ht, hh⟩
  · intro x hx
    rw [k3] at hx
    rcases List.mem_append.1 hx with hx | hx
    · obtain ⟨t, ht, hh⟩ := h1.usedA x hx
      exact ⟨t, List.mem_append_left _ ht, hh⟩
    · obtain ⟨t, ht, hh⟩ := h2.usedA x (k4 x hx)
      exact ⟨t, List.mem_append_right _ ht, hh⟩

/-- A workspace serves its tasks. -/
def GoodPair (near : V → V → Bool) (p : List V) (w : VMS V × VIM) (tasks : List (Nat × Op V)) : Prop :=
  ∃ ord, Good near p p w.1 w.2 ord tasks

/-- The tasks of different threads are for different nodes. -/
def Disjoint (jobs : List (List (Nat × Op V))) : Prop :=
  jobs.Pairwise (fun t1 t2 => ∀ node, requestsOf t1 node = [] ∨ requestsOf t2 node = [])

theorem reduceStep_spec (he : IsEquiv near) {p : List V} : ∀ (ws : List (VMS V × VIM)) (jobs : List (List (Nat × Op V))),
    List.Forall₂ (GoodPair near p) ws jobs → Disjoint jobs →
    ∃ ws' jobs', reduceStep near ws = some ws' ∧ List.Forall₂ (GoodPair near p) ws' jobs' ∧ Disjoint jobs' ∧
      jobs'.flatten = jobs.flatten ∧ 2 * ws'.length ≤ ws.length + 1 ∧ (0 < ws.length → 0 < ws'.length)
  | [], [], _, _ => ⟨[], [], rfl, List.Forall₂.nil, by simp [Disjoint], rfl, by simp, by simp⟩
  | [a], [j], h, hd => ⟨[a], [j], rfl, h, hd, rfl, by simp, by simp⟩
  | a :: b :: ws, j1 :: j2 :: jobs, h, hd => by
    rcases h with _ | ⟨⟨o1, g1⟩, h⟩
    rcases h with _ | ⟨⟨o2, g2⟩, h⟩
    unfold Disjoint at hd
    rw [List.pairwise_cons, List.pairwise_cons] at hd
    obtain ⟨hd1, hd2, hd3⟩ := hd
    obtain ⟨s, m, ord, hc, hg⟩ := combine_spec he (s1 := a.1) (m1 := a.2) (s2 := b.1) (m2 := b.2) g1 g2
      (hd1 j2 (by simp))
    obtain ⟨ws', jobs', r1, r2, r3, r4, r5, r6⟩ := reduceStep_spec he ws jobs h hd3
    refine ⟨(s, m) :: ws', (j1 ++ j2) :: jobs', ?_, List.Forall₂.cons ⟨ord, hg⟩ r2, ?_, ?_, ?_, by simp⟩
    · unfold reduceStep
      rw [show combine near a b = combine near (a.1, a.2) (b.1, b.2) from rfl, hc]
      simp [r1]
    · unfold Disjoint
      rw [List.pairwise_cons]
      refine ⟨?_, r3⟩
      intro t ht node
      rw [requestsOf_append, List.append_eq_nil_iff]
      by_contra hcon
      rw [not_or] at hcon
      -- some request of `t` is one of `jobs`
      have hmem : ∃ t' ∈ jobs, requestsOf t' node ≠ [] := by
        obtain ⟨op, hop⟩ := List.exists_mem_of_ne_nil _ hcon.2
        unfold requestsOf at hop
        rw [List.mem_map] at hop
        obtain ⟨x, hx, _⟩ := hop
        rw [List.mem_filter] at hx
        have : x ∈ jobs.flatten := by rw [← r4]; exact List.mem_flatten.2 ⟨t, ht, hx.1⟩
        obtain ⟨t', ht', hxt⟩ := List.mem_flatten.1 this
        refine ⟨t', ht', ?_⟩
        refine List.ne_nil_of_mem (a := x.2) ?_
        unfold requestsOf
        exact List.mem_map.2 ⟨x, List.mem_filter.2 ⟨hxt, hx.2⟩, rfl⟩
      obtain ⟨t', ht', hne⟩ := hmem
      exact hcon.1 ⟨(hd1 t' (by simp [ht']) node).resolve_right hne, (hd2 t' ht' node).resolve_right hne⟩
    · simp [r4]
    · simp only [List.length_cons]; omega
  | [], _ :: _, h, _ => by cases h
  | [_], [], h, _ => by cases h
  | [_], _ :: _ :: _, h, _ => by rcases h with _ | ⟨_, h⟩; cases h
  | _ :: _ :: _, [], h, _ => by cases h
  | _ :: _ :: _, [_], h, _ => by rcases h with _ | ⟨_, h⟩; cases h

theorem reduceLoop_spec (he : IsEquiv near) {p : List V} : ∀ (fuel : Nat) (ws : List (VMS V × VIM))
    (jobs : List (List (Nat × Op V))), List.Forall₂ (GoodPair near p) ws jobs → Disjoint jobs → 0 < ws.length →
    ws.length ≤ fuel →
    ∃ w, reduceLoop near fuel ws = some [w] ∧ GoodPair near p w jobs.flatten
  | 0, ws, _, _, _, h0, hf => by omega
  | fuel + 1, ws, jobs, h, hd, h0, hf => by
    unfold reduceLoop
    by_cases h1 : 1 < ws.length
    · rw [if_pos h1]
      obtain ⟨ws', jobs', r1, r2, r3, r4, r5, r6⟩ := reduceStep_spec he ws jobs h hd
      rw [r1, Option.bind_some]
      obtain ⟨w, q1, q2⟩ := reduceLoop_spec he fuel ws' jobs' r2 r3 (r6 h0) (by omega)
      exact ⟨w, q1, by rw [← r4]; exact q2⟩
    · rw [if_neg h1]
      rcases h with _ | ⟨h, h'⟩
      · simp at h0
      · cases h' with
        | nil => exact ⟨_, rfl, by simpa using h⟩
        | cons _ _ => simp at h1

theorem decode_mapM {offset : Nat} {l : List Rel} (h : ∀ r ∈ l, Plain r) :
    l.mapM (decodeRel offset) = some (l.map (finalIndex offset)) := by
  induction l with
  | nil => rfl
  | cons r l ih =>
    rw [List.mapM_cons, ih (fun r' hr' => h r' (by simp [hr']))]
    obtain ⟨t, i⟩ := r
    rcases h (t, i) (by simp) with h | h <;> · dsimp only at h; subst h; rfl

/-- A good pair, once consolidated, serves its requests. -/
theorem good_final (he : IsEquiv near) {g p : List V} {s : VMS V} {m : VIM} {ord : List Nat} {tasks : List (Nat × Op V)}
    (h : Good near g p s m ord tasks) (hne : tasks ≠ []) :
    ∃ c ks, s.consolidate = some c ∧ c.pristine = ks ++ s.appended ∧ c.appended = [] ∧
      c.preserve = identityMap c.pristine.length ∧
      List.Forall₂ (fun k w => p[k]? = some w) ord ks ∧
      Serves near g tasks c.pristine (decode m s.preserve.length) ∧
      NothingElse near g (tasks.map Prod.snd) c.pristine := by
  obtain ⟨t, ht⟩ := List.exists_mem_of_ne_nil _ hne
  have hreq : requestsOf tasks t.1 ≠ [] := by
    refine List.ne_nil_of_mem (a := t.2) ?_
    exact List.mem_map.2 ⟨t, List.mem_filter.2 ⟨ht, by simp⟩, rfl⟩
  have hor : ord ≠ [] ∨ s.appended ≠ [] := by
    cases hf : find m t.1 with
    | none => exact absurd ((h.keys t.1).1 hf) hreq
    | some l =>
      have hF := h.res t.1 l hf
      obtain ⟨op, hop⟩ := List.exists_mem_of_ne_nil _ hreq
      obtain ⟨i, hi⟩ := List.getElem?_of_mem hop
      obtain ⟨r, _, w, hw, _⟩ := forall₂_getElem?' hF hi
      obtain ⟨ty, j⟩ := r
      cases ty
      · simp only [val, Option.bind_eq_some_iff] at hw
        obtain ⟨k, hk, _⟩ := hw
        exact Or.inl (List.ne_nil_of_mem (List.mem_of_getElem? hk))
      · simp only [val] at hw
        exact Or.inr (List.ne_nil_of_mem (List.mem_of_getElem? hw))
      · simp [val] at hw
      · simp [val] at hw
  obtain ⟨c, ks, c1, c2, c3, c4, c5, c6⟩ := consolidate_spec h.inv hor
  refine ⟨c, ks, c1, c2, c3, c4, c6, ?_, ?_⟩
  · intro node hnode
    cases hf : find m node with
    | none => exact absurd ((h.keys node).1 hf) hnode
    | some l =>
      have hF := h.res node l hf
      refine ⟨l.map (finalIndex ord.length), ?_, ?_⟩
      · unfold decode
        rw [hf, Option.bind_some, h.inv.length]
        refine decode_mapM (fun r hr => ?_)
        obtain ⟨op, _, w, hw, _⟩ := forall₂_mem_left hF hr
        exact plain_of_val hw
      · rw [List.forall₂_map_left_iff]
        refine hF.imp ?_
        rintro r op ⟨w, hw, hw1, _⟩
        refine ⟨w, ?_, hw1⟩
        rw [c2]; exact val_final c6 hw
  · intro w hw
    rw [c2] at hw
    rcases List.mem_append.1 hw with hw | hw
    · obtain ⟨i, hi⟩ := List.getElem?_of_mem hw
      obtain ⟨k, hk, hkw⟩ := forall₂_getElem?' c6 hi
      obtain ⟨t, ht, w', hw', hd⟩ := h.usedP k (List.mem_of_getElem? hk)
      rw [hkw] at hw'
      rw [← Option.some.inj hw'] at hd
      exact ⟨t.2, List.mem_map.2 ⟨t, ht, rfl⟩, hd⟩
    · obtain ⟨t, ht, ty, hty, _⟩ := h.usedA w hw
      refine ⟨t.2, List.mem_map.2 ⟨t, ht, rfl⟩, ?_⟩
      rw [hty]; exact he.refl w

/-- The consolidated rows are separated if the crafted vertices were off the grid. -/
theorem rows_separated {p : List V} (hp : Separated near p) {s : VMS V} {ord : List Nat} (h : Inv near p s ord)
    {ks : List V} (hk : List.Forall₂ (fun k w => p[k]? = some w) ord ks)
    (hx : ∀ x ∈ s.appended, ∀ y ∈ p, near y x = false) (hs : ∀ a b, near a b = near b a) :
    Separated near (ks ++ s.appended) := by
  have hpw : ∀ i j : Nat, i ≠ j → ∀ a b, p[i]? = some a → p[j]? = some b → near a b = false := by
    intro i j hij a b ha hb
    obtain ⟨hi, ha⟩ := List.getElem?_eq_some_iff.1 ha
    obtain ⟨hj, hb⟩ := List.getElem?_eq_some_iff.1 hb
    have := List.pairwise_iff_getElem.1 hp
    rcases Nat.lt_or_gt_of_ne hij with h' | h'
    · rw [← ha, ← hb]; exact this i j hi hj h'
    · rw [← ha, ← hb, hs]; exact this j i hj hi h'
  unfold Separated
  rw [List.pairwise_append]
  refine ⟨?_, h.sep, ?_⟩
  · rw [List.pairwise_iff_getElem]
    intro i j hi hj hij
    obtain ⟨a, ha, ha'⟩ := forall₂_getElem?' hk (List.getElem?_eq_getElem hi)
    obtain ⟨b, hb, hb'⟩ := forall₂_getElem?' hk (List.getElem?_eq_getElem hj)
    refine hpw a b ?_ _ _ ha' hb'
    rintro rfl
    obtain ⟨hi', ha⟩ := List.getElem?_eq_some_iff.1 ha
    obtain ⟨hj', hb⟩ := List.getElem?_eq_some_iff.1 hb
    have := (List.Nodup.getElem_inj_iff h.nodup).1 (ha.trans hb.symm)
    omega
  · intro a ha b hb
    obtain ⟨i, hi⟩ := List.getElem?_of_mem ha
    obtain ⟨k, _, hkw⟩ := forall₂_getElem?' hk hi
    exact hx b hb a (List.mem_of_getElem? hkw)

theorem consolidatePair_spec (he : IsEquiv near) {p : List V} {s : VMS V} {m : VIM} {ord : List Nat}
    {tasks : List (Nat × Op V)} (h : Good near p p s m ord tasks) (hne : tasks ≠ []) :
    ∃ c m' ks, consolidatePair (s, m) = some (c, m') ∧ c.pristine = ks ++ s.appended ∧ c.appended = [] ∧
      List.Forall₂ (fun k w => p[k]? = some w) ord ks ∧
      Good near p c.pristine c m' (List.range c.pristine.length) tasks := by
  obtain ⟨c, ks, c1, c2, c3, c4, c5, c6, c7⟩ := good_final he h hne
  set ψ : Rel → Rel := subst (fun i : Nat => (.appended, i)) (fun i => (.pristine, i + s.preserve.length))
    (List.range s.appended.length) with hψ
  have hψp : ∀ i, ψ (.pristine, i) = (.pristine, i) := fun i => by rw [hψ]; exact subst_miss (by simp)
  have hψa : ∀ i, i < s.appended.length → ψ (.appended, i) = (.pristine, i + ord.length) := by
    intro i hi
    rw [hψ]
    obtain ⟨d, hd, hd1, hd2⟩ := subst_hit' (a := fun i : Nat => ((.appended, i) : Rel))
      (b := fun i => (.pristine, i + s.preserve.length)) (l := List.range s.appended.length) (x := (.appended, i))
      ⟨i, List.mem_range.2 hi, rfl⟩ (by simp)
    rw [hd2]
    simp only [Prod.mk.injEq, true_and] at hd1
    rw [hd1, h.inv.length]
  have hres : ∀ r op, Res near p p ord s.appended r op →
      Res near p c.pristine (List.range c.pristine.length) [] (ψ r) op := by
    rintro r op ⟨w, hw, hw1, _⟩
    have hfin := val_final c5 hw
    rw [← c2] at hfin
    have hlt := (List.getElem?_eq_some_iff.1 hfin).1
    have hψr : ψ r = (.pristine, finalIndex ord.length r) := by
      obtain ⟨t, i⟩ := r
      cases t
      · rw [hψp]; rfl
      · simp only [val] at hw
        rw [hψa i (List.getElem?_eq_some_iff.1 hw).1]
        simp [finalIndex, Nat.add_comm]
      · simp [val] at hw
      · simp [val] at hw
    refine ⟨w, ?_, hw1, by rw [hψr]; simp⟩
    rw [hψr]
    simp only [val]
    rw [List.getElem?_range hlt, Option.bind_some, hfin]
  refine ⟨c, mapRel ψ m, ks, ?_, c2, c3, c5, ⟨⟨rfl, List.nodup_range, by simp, ?_, by rw [c3]; simp [Separated]⟩, ?_, ?_, ?_, ?_, ?_⟩⟩
  · unfold consolidatePair
    simp only [foldl_replace, c1, Option.bind_eq_bind, Option.bind_some]
    rfl
  · rw [c4, identityMap_eq]
  · unfold Sorted; rw [keys_mapRel]; exact h.sorted
  · intro node
    rw [find_mapRel, ← h.keys node]; simp
  · intro node l hl
    rw [find_mapRel] at hl
    simp only [Option.map_eq_some_iff] at hl
    obtain ⟨l', hl', rfl⟩ := hl
    rw [List.forall₂_map_left_iff, c3]
    exact (h.res node l' hl').imp hres
  · intro k hk
    have hlt : k < c.pristine.length := List.mem_range.1 hk
    obtain ⟨op, hop, hd⟩ := c7 _ (List.getElem_mem hlt)
    obtain ⟨t, ht, rfl⟩ := List.mem_map.1 hop
    exact ⟨t, ht, _, List.getElem?_eq_getElem hlt, hd⟩
  · rw [c3]; simp

/-- Everything together. -/
theorem reduce_spec (he : IsEquiv near) {p : List V} (hp : Separated near p) (h2 : 2 ≤ p.length)
    (jobs : List (List (Nat × Op V))) (hj : jobs.flatten ≠ []) (hd : Disjoint jobs)
    (ha : ∀ t ∈ jobs.flatten, Admissible p t.2) :
    ∃ ws r c, jobs.mapM (work near p) = some ws ∧ reduce near ws = some r ∧ r.1.consolidate = some c ∧
      Serves near p jobs.flatten c.pristine (decode r.2 r.1.preserve.length) ∧
      NothingElse near p (jobs.flatten.map Prod.snd) c.pristine ∧
      ((∀ t ∈ jobs.flatten, HonestlyCrafted near p t.2) → Separated near c.pristine) := by
  have hws : ∀ jobs : List (List (Nat × Op V)), (∀ t ∈ jobs.flatten, Admissible p t.2) →
      ∃ ws, jobs.mapM (work near p) = some ws ∧ List.Forall₂ (GoodPair near p) ws jobs := by
    intro jobs
    induction jobs with
    | nil => intro _; exact ⟨[], rfl, List.Forall₂.nil⟩
    | cons j jobs ih =>
      intro h
      obtain ⟨s, m, ord, w1, w2, _⟩ := work_spec he hp h2 j (fun t ht => h t (by simp [ht]))
      obtain ⟨ws, w3, w4⟩ := ih (fun t ht => h t (by rw [List.flatten_cons]; exact List.mem_append_right _ ht))
      exact ⟨(s, m) :: ws, by rw [List.mapM_cons, w1, w3]; rfl, List.Forall₂.cons ⟨ord, w2⟩ w4⟩
  have hsymm : ∀ a b, near a b = near b a := by
    intro a b
    cases hab : near a b <;> cases hba : near b a
    · rfl
    · rw [he.symm _ _ hba] at hab; simp at hab
    · rw [he.symm _ _ hab] at hba; simp at hba
    · rfl
  have hsep : ∀ s m ord, Good near p p s m ord jobs.flatten →
      (∀ t ∈ jobs.flatten, HonestlyCrafted near p t.2) → ∀ x ∈ s.appended, ∀ y ∈ p, near y x = false := by
    intro s m ord hg hh x hx y hy
    obtain ⟨t, ht, ty, hty, hor⟩ := hg.usedA x hx
    rcases hor with hor | hor
    · have := hh t ht
      rw [hty] at this
      exact this hor y hy
    · exact hor y hy
  obtain ⟨ws, hw1, hw2⟩ := hws jobs ha
  match ws, jobs, hw1, hw2, hj, hd, hsep with
  | [], [], _, _, hj, _, _ => simp at hj
  | [w], [j], hw1, hw2, hj, _, hsep =>
    rcases hw2 with _ | ⟨⟨ord, hg⟩, _⟩
    have hfl : [j].flatten = j := by simp
    rw [hfl] at hj hsep ⊢
    obtain ⟨c, ks, c1, c2, c3, c4, c5, c6, c7⟩ := good_final he hg hj
    refine ⟨[w], w, c, hw1, rfl, c1, c6, c7, fun hh => ?_⟩
    rw [c2]
    exact rows_separated hp hg.inv c5 (hsep _ _ _ hg hh) hsymm
  | w1 :: w2 :: ws, j1 :: j2 :: jobs, hw1, hw2, hj, hd, hsep =>
    obtain ⟨ws', jobs', r1, r2, r3, r4, r5, r6⟩ := reduceStep_spec he _ _ hw2 hd
    obtain ⟨w, q1, ord, hg⟩ := reduceLoop_spec he ((w1 :: w2 :: ws).length + 1) ws' jobs' r2 r3
      (r6 (by simp)) (by omega)
    rw [r4] at hg
    obtain ⟨c, m', ks, c1, c2, c0, c3, c4⟩ := consolidatePair_spec he (s := w.1) (m := w.2) hg hj
    obtain ⟨c', ks', d1, d2, d3, d4, d5, d6, d7⟩ := good_final he c4 hj
    have hks : c'.pristine = c.pristine := by
      rw [d2, c0, List.append_nil]
      apply List.ext_getElem
      · rw [← d5.length_eq, List.length_range]
      · intro i hi hi'
        obtain ⟨k, hk, hkw⟩ := forall₂_getElem?' d5 (List.getElem?_eq_getElem hi)
        rw [List.getElem?_range hi', Option.some.injEq] at hk
        subst hk
        rw [List.getElem?_eq_getElem hi'] at hkw
        exact (Option.some.inj hkw).symm
    refine ⟨_, (c, m'), c', hw1, ?_, d1, d6, d7, fun hh => ?_⟩
    · unfold reduce
      simp only [r1, q1, Option.bind_eq_bind, Option.bind_some]
      exact c1
    · rw [hks, c2]
      exact rows_separated hp hg.inv c3 (hsep _ _ _ hg hh) hsymm

theorem disjoint_of_nodes {jobs : List (List (Nat × Op V))} (h : DifferentNodes jobs) : Disjoint jobs := by
  refine h.imp ?_
  intro j1 j2 h node
  by_contra hcon
  rw [not_or] at hcon
  obtain ⟨o1, ho1⟩ := List.exists_mem_of_ne_nil _ hcon.1
  obtain ⟨o2, ho2⟩ := List.exists_mem_of_ne_nil _ hcon.2
  obtain ⟨t1, ht1, _⟩ := List.mem_map.1 ho1
  obtain ⟨t2, ht2, _⟩ := List.mem_map.1 ho2
  rw [List.mem_filter, beq_iff_eq] at ht1 ht2
  exact h t1 ht1.1 t2 ht2.1 (ht1.2.trans ht2.2.symm)

theorem run_spec (he : IsEquiv near) {p : List V} (hp : Separated near p) : ∀ (ops : List (Op V)) {s : VMS V}
    {ord : List Nat}, Inv near p s ord → 0 < s.capacity → (∀ op ∈ ops, Admissible p op) →
    ∃ s' rs o a, s.run near ops = some (s', rs) ∧ Inv near p s' (ord ++ o) ∧ s'.appended = s.appended ++ a ∧
      List.Forall₂ (Res near p p (ord ++ o) s'.appended) rs ops ∧
      (∀ k ∈ o, ∃ op ∈ ops, ∃ w, p[k]? = some w ∧ Delivers near p w op) ∧
      (∀ x ∈ a, ∃ op ∈ ops, ∃ ty, op = .add x ty ∧ (ty = .crafted ∨ ∀ y ∈ p, near y x = false))
  | [], s, ord, h, _, _ => ⟨s, [], [], [], rfl, by simpa using h, by simp, List.Forall₂.nil, by simp, by simp⟩
  | op :: ops, s, ord, h, hc, ha => by
    obtain ⟨s1, r, o1, a1, e1, e2, e3, e4, e5, e6, e7⟩ := perform_spec he hp h hc op (ha op (by simp))
    obtain ⟨s2, rs, o2, a2, f1, f2, f3, f4, f5, f6⟩ := run_spec he hp ops e2 e3 (fun op' h' => ha op' (by simp [h']))
    refine ⟨s2, r :: rs, o1 ++ o2, a1 ++ a2, ?_, ?_, ?_, ?_, ?_, ?_⟩
    · simp [VMS.run, e1, f1]
    · rw [← List.append_assoc]; exact f2
    · rw [f3, e4, List.append_assoc]
    · rw [← List.append_assoc]
      refine List.Forall₂.cons ?_ f4
      rw [f3]; exact e5.mono o2 a2
    · intro k hk
      rcases List.mem_append.1 hk with hk | hk
      · exact ⟨op, by simp, e6 k hk⟩
      · obtain ⟨op', h', hh⟩ := f5 k hk
        exact ⟨op', by simp [h'], hh⟩
    · intro x hx
      rcases List.mem_append.1 hx with hx | hx
      · exact ⟨op, by simp, e7 x hx⟩
      · obtain ⟨op', h', hh⟩ := f6 x hx
        exact ⟨op', by simp [h'], hh⟩

theorem near_comm (he : IsEquiv near) (a b : V) : near a b = near b a := by
  cases hab : near a b <;> cases hba : near b a
  · rfl
  · rw [he.symm _ _ hba] at hab; simp at hab
  · rw [he.symm _ _ hab] at hba; simp at hba
  · rfl

theorem run_final (he : IsEquiv near) {p : List V} (hp : Separated near p) (h2 : 2 ≤ p.length) (ops : List (Op V))
    (hne : ops ≠ []) (ha : ∀ op ∈ ops, Admissible p op) :
    ∃ s0 s rs c, VMS.make p = some s0 ∧ s0.run near ops = some (s, rs) ∧ s.consolidate = some c ∧
      List.Forall₂ (fun r op => ∃ w, c.pristine[finalIndex s.preserve.length r]? = some w ∧ Delivers near p w op) rs ops ∧
      NothingElse near p ops c.pristine ∧
      ((∀ op ∈ ops, HonestlyCrafted near p op) → Separated near c.pristine) := by
  obtain ⟨s0, hs0, hg, hc⟩ := make_spec near h2
  obtain ⟨s, rs, o, a, r1, r2, r3, r4, r5, r6⟩ := run_spec he hp ops hg.inv hc ha
  rw [List.nil_append] at r2 r4
  have happ : s0.appended = [] := by
    unfold VMS.make at hs0
    rw [if_neg (by omega)] at hs0
    rw [← Option.some.inj hs0]
  rw [happ, List.nil_append] at r3
  have hor : o ≠ [] ∨ s.appended ≠ [] := by
    obtain ⟨op, hop⟩ := List.exists_mem_of_ne_nil _ hne
    obtain ⟨i, hi⟩ := List.getElem?_of_mem hop
    obtain ⟨r, _, w, hw, _⟩ := forall₂_getElem?' r4 hi
    obtain ⟨ty, j⟩ := r
    cases ty
    · simp only [val, Option.bind_eq_some_iff] at hw
      obtain ⟨k, hk, _⟩ := hw
      exact Or.inl (List.ne_nil_of_mem (List.mem_of_getElem? hk))
    · simp only [val] at hw
      exact Or.inr (List.ne_nil_of_mem (List.mem_of_getElem? hw))
    · simp [val] at hw
    · simp [val] at hw
  obtain ⟨c, ks, c1, c2, c3, c4, c5, c6⟩ := consolidate_spec r2 hor
  refine ⟨s0, s, rs, c, hs0, r1, c1, ?_, ?_, ?_⟩
  · refine r4.imp ?_
    rintro r op ⟨w, hw, hw1, _⟩
    refine ⟨w, ?_, hw1⟩
    rw [c2, r2.length]; exact val_final c6 hw
  · intro w hw
    rw [c2] at hw
    rcases List.mem_append.1 hw with hw | hw
    · obtain ⟨i, hi⟩ := List.getElem?_of_mem hw
      obtain ⟨k, hk, hkw⟩ := forall₂_getElem?' c6 hi
      obtain ⟨op, hop, w', hw', hd⟩ := r5 k (List.mem_of_getElem? hk)
      rw [hkw] at hw'
      rw [← Option.some.inj hw'] at hd
      exact ⟨op, hop, hd⟩
    · rw [r3] at hw
      obtain ⟨op, hop, ty, hty, _⟩ := r6 w hw
      refine ⟨op, hop, ?_⟩
      rw [hty]; exact he.refl w
  · intro hh
    rw [c2]
    refine rows_separated hp r2 c6 ?_ (near_comm he)
    intro x hx y hy
    rw [r3] at hx
    obtain ⟨op, hop, ty, hty, hor⟩ := r6 x hx
    rcases hor with hor | hor
    · have := hh op hop
      rw [hty] at this
      exact this hor y hy
    · exact hor y hy

/-! ### Any comparison -/

theorem uniqueMatch_some {rows : List V} {v : V} {i : Nat} (h : uniqueMatch near rows v = some (some i)) :
    ∃ w, rows[i]? = some w ∧ near w v = true := by
  unfold uniqueMatch at h
  split_ifs at h with h1 h2
  on_goal 2 => simp at h
  simp only [Option.some.injEq] at h
  subst h
  obtain ⟨a, ha, hav⟩ := List.countP_pos_iff.1 h2
  have hlt : rows.findIdx (fun r => near r v) < rows.length := List.findIdx_lt_length_of_exists ⟨a, ha, hav⟩
  exact ⟨_, List.getElem?_eq_getElem hlt, List.findIdx_getElem (w := hlt)⟩

/-- The invariant without any statement about the comparison. -/
abbrev Inv0 (p : List V) (s : VMS V) (ord : List Nat) : Prop := Inv (fun _ _ => false) p s ord

theorem separated_trivial (l : List V) : Separated (fun _ _ => false) l := by
  unfold Separated
  exact List.pairwise_of_forall (fun _ _ => rfl)

theorem perform_any (hr : ∀ a, near a a = true) {p : List V} {s : VMS V} {ord : List Nat}
    (h : Inv0 p s ord) (op : Op V) (hop : Admissible p op) {s' : VMS V} {r : Rel}
    (he : s.perform near op = some (s', r)) :
    ∃ o a, Inv0 p s' (ord ++ o) ∧ s'.appended = s.appended ++ a ∧ Res near p p (ord ++ o) s'.appended r op := by
  have hkeep : ∀ k w, p[k]? = some w → Delivers near p w op → s.keep k = (s', r) →
      ∃ o a, Inv0 p s' (ord ++ o) ∧ s'.appended = s.appended ++ a ∧ Res near p p (ord ++ o) s'.appended r op := by
    intro k w hw hd hk
    obtain ⟨s1, o, i, h1, h2, h3, h4, h5, h6⟩ := keep_spec h (k := k) (List.getElem?_eq_some_iff.1 hw).1
    rw [h1] at hk
    simp only [Prod.mk.injEq] at hk
    obtain ⟨rfl, rfl⟩ := hk
    exact ⟨o, [], h2, by simpa using h3, w, by simp only [val, h5, Option.bind_some, hw], hd, by simp⟩
  cases op with
  | keep k =>
    simp only [VMS.perform, Option.some.injEq] at he
    have hk : p[k]? = some p[k] := List.getElem?_eq_getElem hop
    exact hkeep k _ hk hk he
  | add v ty =>
    simp only [VMS.perform] at he
    have hcr : (match uniqueMatch near s.appended v with
        | none => none
        | some (some index) => some (s, ((.appended, index) : Rel))
        | some none => s.insert v) = some (s', r) →
        ∃ o a, Inv0 p s' (ord ++ o) ∧ s'.appended = s.appended ++ a ∧
          Res near p p (ord ++ o) s'.appended r (.add v ty) := by
      intro hc
      cases hu : uniqueMatch near s.appended v with
      | none => rw [hu] at hc; simp at hc
      | some x =>
        rw [hu] at hc
        cases x with
        | some i =>
          simp only [Option.some.injEq, Prod.mk.injEq] at hc
          obtain ⟨rfl, rfl⟩ := hc
          obtain ⟨w, hw, hn⟩ := uniqueMatch_some hu
          exact ⟨[], [], by simpa using h, by simp, w, by simpa [val] using hw, hn, fun _ => ⟨v, ty, rfl⟩⟩
        | none =>
          dsimp only at hc
          unfold VMS.insert at hc
          dsimp only at hc
          split_ifs at hc
          all_goals
            simp only [Option.some.injEq, Prod.mk.injEq] at hc
            obtain ⟨rfl, rfl⟩ := hc
            refine ⟨[], [v], ⟨h.pristine, by simpa using h.nodup, by simpa using h.bound, by simpa using h.perm,
              separated_trivial _⟩, rfl, v, by simp [val], hr v, fun _ => ⟨v, ty, rfl⟩⟩
    unfold VMS.add at he
    dsimp only at he
    split_ifs at he with hty
    · cases hu : uniqueMatch near s.pristine v with
      | none => rw [hu] at he; simp at he
      | some x =>
        rw [hu] at he
        cases x with
        | none => exact hcr he
        | some i =>
          obtain ⟨w, hw, hn⟩ := uniqueMatch_some hu
          rw [h.pristine] at hw
          exact hkeep i w hw hn (Option.some.inj he)
    · exact hcr he

theorem run_any (hr : ∀ a, near a a = true) {p : List V} : ∀ (ops : List (Op V)) {s : VMS V} {ord : List Nat}
    {s' : VMS V} {rs : List Rel}, Inv0 p s ord → (∀ op ∈ ops, Admissible p op) → s.run near ops = some (s', rs) →
    ∃ o a, Inv0 p s' (ord ++ o) ∧ s'.appended = s.appended ++ a ∧
      List.Forall₂ (Res near p p (ord ++ o) s'.appended) rs ops
  | [], s, ord, s', rs, h, _, he => by
    simp only [VMS.run, Option.some.injEq, Prod.mk.injEq] at he
    obtain ⟨rfl, rfl⟩ := he
    exact ⟨[], [], by simpa using h, by simp, List.Forall₂.nil⟩
  | op :: ops, s, ord, s', rs, h, ha, he => by
    simp only [VMS.run, Option.bind_eq_bind, Option.bind_eq_some_iff] at he
    obtain ⟨⟨s1, r⟩, he1, ⟨s2, rs2⟩, he2, he3⟩ := he
    simp only [Option.some.injEq, Prod.mk.injEq] at he3
    obtain ⟨rfl, rfl⟩ := he3
    obtain ⟨o1, a1, e1, e2, e3⟩ := perform_any hr h op (ha op (by simp)) he1
    obtain ⟨o2, a2, f1, f2, f3⟩ := run_any hr ops e1 (fun op' h' => ha op' (by simp [h'])) he2
    refine ⟨o1 ++ o2, a1 ++ a2, by rw [← List.append_assoc]; exact f1, by rw [f2, e2, List.append_assoc], ?_⟩
    rw [← List.append_assoc]
    refine List.Forall₂.cons ?_ f3
    rw [f2]; exact e3.mono o2 a2

theorem make_inv0 {p : List V} {s : VMS V} (h : VMS.make p = some s) : Inv0 p s [] := by
  unfold VMS.make at h
  split_ifs at h
  rw [← Option.some.inj h]
  exact ⟨rfl, by simp, by simp, by simp, separated_trivial _⟩

end Brille.VMap
