/-
After the vertices of all threads have been combined, further vertices are looked up or added, and the list is made compact.
-/
import Verif.Proofs.VertexKnit

namespace Brille.VMap

open Brille.Spec Brille.StdMap

variable {V : Type} {near : V → V → Bool}

theorem consolidate_capacity {s c : VMS V} (h : s.consolidate = some c) : c.capacity = c.pristine.length / 2 := by
  unfold VMS.consolidate at h
  cases hr : s.consolidatedRows with
  | none => rw [hr] at h; simp at h
  | some rows =>
    rw [hr] at h
    dsimp only at h
    unfold VMS.make at h
    split_ifs at h with h0
    · simp at h
    · simp only [Option.map_some, Option.some.injEq] at h
      rw [← h]

theorem consolidate_of_pair {s c : VMS V} {m m' : VIM} (h : consolidatePair (s, m) = some (c, m')) : s.consolidate = some c := by
  unfold consolidatePair at h
  simp only [Option.bind_eq_bind, Option.bind_eq_some_iff, Option.some.injEq, Prod.mk.injEq] at h
  obtain ⟨c', h1, rfl, -⟩ := h
  exact h1

/-- the combined set before it is made compact -/
theorem reduce_good (he : IsEquiv near) {p : List V} (hp : Separated near p) (h2 : 2 ≤ p.length)
    (jobs : List (List (Nat × Op V))) (hj : jobs.flatten ≠ []) (hd : Disjoint jobs)
    (ha : ∀ t ∈ jobs.flatten, Admissible p t.2) (hh : ∀ t ∈ jobs.flatten, HonestlyCrafted near p t.2)
    (h3 : ∀ rows lookup, Serves near p jobs.flatten rows lookup → 2 ≤ rows.length) :
    ∃ ws r p' ord, jobs.mapM (work near p) = some ws ∧ reduce near ws = some r ∧ Good near p p' r.1 r.2 ord jobs.flatten ∧
      Separated near p' ∧ (∀ x ∈ r.1.appended, ∀ y ∈ p', near y x = false) ∧ 0 < r.1.capacity := by
  have hws : ∀ jobs : List (List (Nat × Op V)), (∀ t ∈ jobs.flatten, Admissible p t.2) →
      ∃ ws, jobs.mapM (work near p) = some ws ∧ List.Forall₂ (fun w j => GoodPair near p w j ∧ 0 < w.1.capacity) ws jobs := by
    intro jobs
    induction jobs with
    | nil => intro _; exact ⟨[], rfl, List.Forall₂.nil⟩
    | cons j jobs ih =>
      intro h
      obtain ⟨s, m, ord, w1, w2, w5⟩ := work_spec he hp h2 j (fun t ht => h t (by simp [ht]))
      obtain ⟨ws, w3, w4⟩ := ih (fun t ht => h t (by rw [List.flatten_cons]; exact List.mem_append_right _ ht))
      exact ⟨(s, m) :: ws, by rw [List.mapM_cons, w1, w3]; rfl, List.Forall₂.cons ⟨⟨ord, w2⟩, w5⟩ w4⟩
  have hsymm := near_comm he
  have hsep : ∀ s m ord, Good near p p s m ord jobs.flatten → ∀ x ∈ s.appended, ∀ y ∈ p, near y x = false := by
    intro s m ord hg x hx y hy
    obtain ⟨t, ht, ty, hty, hor⟩ := hg.usedA x hx
    rcases hor with hor | hor
    · have := hh t ht
      rw [hty] at this
      exact this hor y hy
    · exact hor y hy
  obtain ⟨ws, hw1, hw2⟩ := hws jobs ha
  match ws, jobs, hw1, hw2, hj, hd, hsep, h3 with
  | [], [], _, _, hj, _, _, _ => simp at hj
  | [w], [j], hw1, hw2, hj, _, hsep, _ =>
    rcases hw2 with _ | ⟨⟨⟨ord, hg⟩, hc⟩, _⟩
    have hfl : [j].flatten = j := by simp
    rw [hfl] at hsep ⊢
    exact ⟨[w], w, p, ord, hw1, rfl, hg, hp, hsep _ _ _ hg, hc⟩
  | w1 :: w2 :: ws, j1 :: j2 :: jobs, hw1, hw2, hj, hd, hsep, h3 =>
    obtain ⟨ws', jobs', r1, r2, r3, r4, r5, r6⟩ := reduceStep_spec he _ _ (hw2.imp fun _ _ h => h.1) hd
    obtain ⟨w, q1, ord, hg⟩ := reduceLoop_spec he ((w1 :: w2 :: ws).length + 1) ws' jobs' r2 r3
      (r6 (by simp)) (by omega)
    rw [r4] at hg
    obtain ⟨c, m', ks, c1, c2, c0, c3, c4⟩ := consolidatePair_spec he (s := w.1) (m := w.2) hg hj
    obtain ⟨c', ks', d1, d2, d3, d4, d5, d6, d7⟩ := good_final he c4 hj
    have hks : c'.pristine = c.pristine := by
      rw [d2, c0, List.append_nil]
      apply List.ext_getElem
      · rw [← d5.length_eq, List.length_range]
      · intro i hi hi'
        obtain ⟨k, hk, hkw⟩ := forall₂_getElem?' d5 (List.getElem?_eq_getElem hi)
        rw [List.getElem?_range hi', Option.some.injEq] at hk
        subst hk
        rw [List.getElem?_eq_getElem hi'] at hkw
        exact (Option.some.inj hkw).symm
    refine ⟨_, (c, m'), c.pristine, _, hw1, ?_, c4, ?_, ?_, ?_⟩
    · unfold reduce
      simp only [r1, q1, Option.bind_eq_bind, Option.bind_some]
      exact c1
    · rw [c2]; exact rows_separated hp hg.inv c3 (hsep _ _ _ hg) hsymm
    · intro x hx; rw [c0] at hx; simp at hx
    · have := h3 _ _ d6
      rw [hks] at this
      show 0 < c.capacity
      rw [consolidate_capacity (consolidate_of_pair c1)]
      omega

/-- Everything together, with the additional vertices. -/
theorem boundary_spec (he : IsEquiv near) {p : List V} (hp : Separated near p) (h2 : 2 ≤ p.length)
    (jobs : List (List (Nat × Op V))) (hj : jobs.flatten ≠ []) (hd : Disjoint jobs)
    (ha : ∀ t ∈ jobs.flatten, Admissible p t.2) (hh : ∀ t ∈ jobs.flatten, HonestlyCrafted near p t.2)
    (h3 : ∀ rows lookup, Serves near p jobs.flatten rows lookup → 2 ≤ rows.length) (extra : List V) :
    ∃ ws r s answers c, jobs.mapM (work near p) = some ws ∧ reduce near ws = some r ∧
      r.1.run near (extra.map fun v => .add v .unknown) = some (s, answers) ∧ s.consolidate = some c ∧
      Serves near p jobs.flatten c.pristine (decode r.2 s.preserve.length) ∧
      List.Forall₂ (fun r v => ∃ w, c.pristine[finalIndex s.preserve.length r]? = some w ∧ near w v = true) answers extra ∧
      (∀ w ∈ c.pristine, (∃ op ∈ jobs.flatten.map Prod.snd, Delivers near p w op) ∨ ∃ v ∈ extra, near w v = true) ∧
      Separated near c.pristine := by
  obtain ⟨ws, r, p', ord, e1, e2, hg, hp', happ, hcap⟩ := reduce_good he hp h2 jobs hj hd ha hh h3
  obtain ⟨s, rs, o, a, f1, f2, f3, f4, f5, f6⟩ := run_spec he hp' (extra.map fun v => .add v .unknown) hg.inv hcap (by
    intro op hop
    obtain ⟨v, -, rfl⟩ := List.mem_map.1 hop
    trivial)
  obtain ⟨t, ht⟩ := List.exists_mem_of_ne_nil _ hj
  have hreq : requestsOf jobs.flatten t.1 ≠ [] :=
    List.ne_nil_of_mem (a := t.2) (List.mem_map.2 ⟨t, List.mem_filter.2 ⟨ht, by simp⟩, rfl⟩)
  have hor : ord ++ o ≠ [] ∨ s.appended ≠ [] := by
    cases hf : find r.2 t.1 with
    | none => exact absurd ((hg.keys t.1).1 hf) hreq
    | some l =>
      have hF := hg.res t.1 l hf
      obtain ⟨op, hop⟩ := List.exists_mem_of_ne_nil _ hreq
      obtain ⟨i, hi⟩ := List.getElem?_of_mem hop
      obtain ⟨r', _, w, hw, _⟩ := forall₂_getElem?' hF hi
      obtain ⟨ty, j⟩ := r'
      cases ty
      · simp only [val, Option.bind_eq_some_iff] at hw
        obtain ⟨k, hk, _⟩ := hw
        exact Or.inl (List.ne_nil_of_mem (List.mem_append_left _ (List.mem_of_getElem? hk)))
      · simp only [val] at hw
        exact Or.inr (by rw [f3]; exact List.ne_nil_of_mem (List.mem_append_left _ (List.mem_of_getElem? hw)))
      · simp [val] at hw
      · simp [val] at hw
  obtain ⟨c, ks, c1, c2, c3, c4, c5, c6⟩ := consolidate_spec f2 hor
  refine ⟨ws, r, s, rs, c, e1, e2, f1, c1, ?_, ?_, ?_, ?_⟩
  · intro node hnode
    cases hf : find r.2 node with
    | none => exact absurd ((hg.keys node).1 hf) hnode
    | some l =>
      have hF := hg.res node l hf
      refine ⟨l.map (finalIndex (ord ++ o).length), ?_, ?_⟩
      · unfold decode
        rw [hf, Option.bind_some, f2.length]
        refine decode_mapM (fun r hr => ?_)
        obtain ⟨op, _, w, hw, _⟩ := forall₂_mem_left hF hr
        exact plain_of_val hw
      · rw [List.forall₂_map_left_iff]
        refine hF.imp ?_
        intro r' op hr'
        obtain ⟨w, hw, hw1, _⟩ := hr'.mono o a
        refine ⟨w, ?_, hw1⟩
        rw [c2, f3]; exact val_final c6 hw
  · rw [List.forall₂_map_right_iff] at f4
    refine f4.imp ?_
    rintro r' v ⟨w, hw, hw1, -⟩
    refine ⟨w, ?_, hw1⟩
    rw [c2, f2.length]; exact val_final c6 hw
  · intro w hw
    rw [c2] at hw
    rcases List.mem_append.1 hw with hw | hw
    · obtain ⟨i, hi⟩ := List.getElem?_of_mem hw
      obtain ⟨k, hk, hkw⟩ := forall₂_getElem?' c6 hi
      rcases List.mem_append.1 (List.mem_of_getElem? hk) with hk | hk
      · obtain ⟨t, ht, w', hw', hd⟩ := hg.usedP k hk
        rw [hkw] at hw'
        rw [← Option.some.inj hw'] at hd
        exact Or.inl ⟨t.2, List.mem_map.2 ⟨t, ht, rfl⟩, hd⟩
      · obtain ⟨op, hop, w', hw', hd⟩ := f5 k hk
        obtain ⟨v, hv, rfl⟩ := List.mem_map.1 hop
        rw [hkw] at hw'
        rw [← Option.some.inj hw'] at hd
        exact Or.inr ⟨v, hv, hd⟩
    · rw [f3] at hw
      rcases List.mem_append.1 hw with hw | hw
      · obtain ⟨t, ht, ty, hty, _⟩ := hg.usedA w hw
        refine Or.inl ⟨t.2, List.mem_map.2 ⟨t, ht, rfl⟩, ?_⟩
        rw [hty]; exact he.refl w
      · obtain ⟨op, hop, ty, hty, -⟩ := f6 w hw
        obtain ⟨v, hv, rfl⟩ := List.mem_map.1 hop
        simp only [Op.add.injEq] at hty
        exact Or.inr ⟨v, hv, by rw [hty.1]; exact he.refl w⟩
  · rw [c2]
    refine rows_separated hp' f2 c6 ?_ (near_comm he)
    intro x hx y hy
    rw [f3] at hx
    rcases List.mem_append.1 hx with hx | hx
    · exact happ x hx y hy
    · obtain ⟨op, hop, ty, hty, hor⟩ := f6 x hx
      obtain ⟨v, hv, rfl⟩ := List.mem_map.1 hop
      simp only [Op.add.injEq] at hty
      rcases hor with hor | hor
      · rw [hor] at hty; simp at hty
      · exact hor y hy

end Brille.VMap
