/- Proofs about the vertex bookkeeping. -/
import Verif.Spec.VertexMap
import Verif.Proofs.StdMap
import Mathlib.Tactic.Tauto

namespace Brille.VMap

open Brille.StdMap Brille.Spec

variable {V : Type} {near : V → V → Bool}

theorem separated_append_single {l : List V} (h : Separated near l) {v : V} (hv : ∀ a ∈ l, near a v = false) :
    Separated near (l ++ [v]) := by
  unfold Separated at *
  rw [List.pairwise_append]
  exact ⟨h, List.pairwise_singleton _ _, fun a ha b hb => by rw [List.mem_singleton.1 hb]; exact hv a ha⟩

/-- With an equivalence and separated rows, at most one row matches. -/
theorem uniqueMatch_spec (he : IsEquiv near) {rows : List V} (h : Separated near rows) (v : V) :
    (∃ i w, uniqueMatch near rows v = some (some i) ∧ rows[i]? = some w ∧ near w v = true) ∨
    (uniqueMatch near rows v = some none ∧ ∀ a ∈ rows, near a v = false) := by
  have hc : rows.countP (fun r => near r v) ≤ 1 := by
    induction rows with
    | nil => simp
    | cons r rows ih =>
      unfold Separated at h
      rw [List.pairwise_cons] at h
      rw [List.countP_cons]
      by_cases hr : near r v = true
      · have : rows.countP (fun r => near r v) = 0 := by
          rw [List.countP_eq_zero]
          intro a ha hav
          have := he.trans _ _ _ hr (he.symm _ _ hav)
          rw [h.1 a ha] at this; simp at this
        simp [this, hr]
      · simp only [hr]; simpa using ih h.2
  unfold uniqueMatch
  rw [if_neg (by omega)]
  by_cases h0 : 0 < rows.countP (fun r => near r v)
  · left
    rw [if_pos h0]
    obtain ⟨a, ha, hav⟩ := List.countP_pos_iff.1 h0
    have hlt : rows.findIdx (fun r => near r v) < rows.length := List.findIdx_lt_length_of_exists ⟨a, ha, hav⟩
    exact ⟨_, _, rfl, List.getElem?_eq_getElem hlt, List.findIdx_getElem (w := hlt)⟩
  · right
    rw [if_neg h0]
    refine ⟨rfl, fun a ha => ?_⟩
    by_contra hav
    exact h0 (List.countP_pos_iff.2 ⟨a, ha, by simpa using hav⟩)

/-- The invariant of a set: `ord` is the order in which grid rows were first asked for. -/
structure Inv (near : V → V → Bool) (p : List V) (s : VMS V) (ord : List Nat) : Prop where
  pristine : s.pristine = p
  nodup : ord.Nodup
  bound : ∀ k ∈ ord, k < p.length
  perm : s.preserve.Perm ord.zipIdx
  sep : Separated near s.appended

theorem zipIdx_nodupKeys {ord : List Nat} (h : ord.Nodup) : NodupKeys ord.zipIdx := by
  unfold NodupKeys; rw [List.zipIdx_map_fst]; exact h

theorem Inv.find_iff {p : List V} {s : VMS V} {ord : List Nat} (h : Inv near p s ord) (k i : Nat) :
    find s.preserve k = some i ↔ ord[i]? = some k := by
  rw [find_perm ((zipIdx_nodupKeys h.nodup).perm h.perm.symm) h.perm, find_iff_mem (zipIdx_nodupKeys h.nodup),
    List.mk_mem_zipIdx_iff_getElem?]

theorem Inv.length {p : List V} {s : VMS V} {ord : List Nat} (h : Inv near p s ord) :
    s.preserve.length = ord.length := by rw [h.perm.length_eq, List.length_zipIdx]

theorem Inv.find_none {p : List V} {s : VMS V} {ord : List Nat} (h : Inv near p s ord) (k : Nat) :
    find s.preserve k = none ↔ k ∉ ord := by
  rw [find_eq_none, (h.perm.map Prod.fst).mem_iff, List.zipIdx_map_fst]

/-- What an answer stands for. -/
def val (p : List V) (ord : List Nat) (app : List V) : Rel → Option V
  | (.pristine, i) => ord[i]?.bind (fun k => p[k]?)
  | (.appended, i) => app[i]?
  | _ => none

/-- An answer serves a request. -/
def Res (near : V → V → Bool) (g p : List V) (ord : List Nat) (app : List V) (r : Rel) (op : Op V) : Prop :=
  ∃ w, val p ord app r = some w ∧ Delivers near g w op ∧ (r.1 = .appended → ∃ v ty, op = .add v ty)

theorem val_mono {p : List V} {ord : List Nat} {app : List V} {r : Rel} {w : V} (o a)
    (h : val p ord app r = some w) : val p (ord ++ o) (app ++ a) r = some w := by
  obtain ⟨t, i⟩ := r
  cases t
  · simp only [val, Option.bind_eq_some_iff] at h ⊢
    obtain ⟨k, hk, hw⟩ := h
    exact ⟨k, by rw [List.getElem?_append_left (List.getElem?_eq_some_iff.1 hk).1]; exact hk, hw⟩
  · simp only [val] at h ⊢
    rw [List.getElem?_append_left (List.getElem?_eq_some_iff.1 h).1]; exact h
  · simp [val] at h
  · simp [val] at h

theorem Res.mono {g p : List V} {ord : List Nat} {app : List V} {r : Rel} {op : Op V} (o a)
    (h : Res near g p ord app r op) : Res near g p (ord ++ o) (app ++ a) r op := by
  obtain ⟨w, hw, h⟩ := h
  exact ⟨w, val_mono o a hw, h⟩

/-- Asking for a grid row. -/
theorem keep_spec {p : List V} {s : VMS V} {ord : List Nat} (h : Inv near p s ord) {k : Nat} (hk : k < p.length) :
    ∃ s' o i, s.keep k = (s', (.pristine, i)) ∧ Inv near p s' (ord ++ o) ∧ s'.appended = s.appended ∧
      s'.capacity = s.capacity ∧ (ord ++ o)[i]? = some k ∧ (∀ j ∈ o, j = k) := by
  unfold VMS.keep
  cases hf : find s.preserve k with
  | some i =>
    refine ⟨s, [], i, rfl, by simpa using h, rfl, rfl, ?_, by simp⟩
    rw [List.append_nil]; exact (h.find_iff k i).1 hf
  | none =>
    have hn := (h.find_none k).1 hf
    refine ⟨_, [k], s.preserve.length, rfl, ⟨h.pristine, ?_, ?_, ?_, h.sep⟩, rfl, rfl, ?_, by simp⟩
    · rw [List.nodup_append]
      refine ⟨h.nodup, by simp, ?_⟩
      intro a ha b hb
      rw [List.mem_singleton.1 hb]; rintro rfl; exact hn ha
    · intro j hj
      rcases List.mem_append.1 hj with hj | hj
      · exact h.bound j hj
      · rw [List.mem_singleton.1 hj]; exact hk
    · dsimp only
      refine (set_perm _ _ _ hf).trans ?_
      rw [List.zipIdx_append, h.length]
      refine (h.perm.cons _).trans ?_
      simp only [List.zipIdx_cons, List.zipIdx_nil, Nat.zero_add]
      exact (List.perm_append_singleton _ _).symm
    · rw [h.length]; simp

/-- Asking for a vertex off the grid. -/
theorem crafted_spec (he : IsEquiv near) {p : List V} {s : VMS V} {ord : List Nat} (h : Inv near p s ord) (v : V)
    (hcap : s.appended.length < s.capacity ∨ 0 < s.appended.length) :
    ∃ s' a i w, s.add near v .crafted = some (s', (.appended, i)) ∧ Inv near p s' ord ∧
      s'.appended = s.appended ++ a ∧ (∀ x ∈ a, x = v) ∧ a.length ≤ 1 ∧ s.capacity ≤ s'.capacity ∧
      s'.preserve = s.preserve ∧
      s'.appended[i]? = some w ∧ near w v = true ∧ (s'.appended.length ≤ s'.capacity ∨ a = []) := by
  unfold VMS.add
  simp only [ne_eq, not_true_eq_false, if_false]
  rcases uniqueMatch_spec he h.sep v with ⟨i, w, h1, h2, h3⟩ | ⟨h1, h2⟩
  · rw [h1]
    exact ⟨s, [], i, w, rfl, h, by simp, by simp, by simp, Nat.le_refl _, rfl, h2, h3, Or.inr rfl⟩
  · rw [h1]
    unfold VMS.insert
    dsimp only
    rw [if_pos (by split_ifs <;> omega)]
    refine ⟨_, [v], s.appended.length, v, rfl, ⟨h.pristine, h.nodup, h.bound, h.perm, ?_⟩, rfl, by simp, by simp, ?_,
      rfl, by simp, he.refl v, ?_⟩
    · exact separated_append_single h.sep h2
    · dsimp only; split_ifs <;> omega
    · left; dsimp only; rw [List.length_append, List.length_singleton]; split_ifs <;> omega

theorem perform_spec (he : IsEquiv near) {p : List V} (hp : Separated near p) {s : VMS V} {ord : List Nat}
    (h : Inv near p s ord) (hcap : 0 < s.capacity) (op : Op V) (hop : Admissible p op) :
    ∃ s' r o a, s.perform near op = some (s', r) ∧ Inv near p s' (ord ++ o) ∧ 0 < s'.capacity ∧
      s'.appended = s.appended ++ a ∧ Res near p p (ord ++ o) s'.appended r op ∧
      (∀ k ∈ o, ∃ w, p[k]? = some w ∧ Delivers near p w op) ∧
      (∀ x ∈ a, ∃ ty, op = .add x ty ∧ (ty = .crafted ∨ ∀ y ∈ p, near y x = false)) := by
  cases op with
  | keep k =>
    obtain ⟨s', o, i, h1, h2, h3, h4, h5, h6⟩ := keep_spec h (k := k) hop
    have hk : p[k]? = some p[k] := List.getElem?_eq_getElem hop
    refine ⟨s', _, o, [], by simp only [VMS.perform]; rw [h1], h2, by omega, by simpa using h3,
      ⟨p[k], ?_, hk, by simp⟩, ?_, by simp⟩
    · simp only [val, h5, Option.bind_some, hk]
    · intro j hj; rw [h6 j hj]; exact ⟨_, hk, hk⟩
  | add v ty =>
    simp only [VMS.perform]
    have hcr : ∀ i, uniqueMatch near s.pristine v = some i → (ty = .crafted ∨ i = none) →
        s.add near v ty = s.add near v .crafted := by
      intro i hi hty
      unfold VMS.add
      rcases hty with rfl | rfl
      · rfl
      · simp only [hi]
        by_cases hc : ty = .crafted <;> simp [hc]
    have main : (ty = .crafted ∨ ∀ y ∈ p, near y v = false) → s.add near v ty = s.add near v .crafted →
        ∃ s' r o a, s.add near v ty = some (s', r) ∧ Inv near p s' (ord ++ o) ∧ 0 < s'.capacity ∧
          s'.appended = s.appended ++ a ∧ Res near p p (ord ++ o) s'.appended r (.add v ty) ∧
          (∀ k ∈ o, ∃ w, p[k]? = some w ∧ Delivers near p w (.add v ty)) ∧
          (∀ x ∈ a, ∃ ty', Op.add v ty = .add x ty' ∧ (ty' = .crafted ∨ ∀ y ∈ p, near y x = false)) := by
      intro hty heq
      obtain ⟨s', a, i, w, h1, h2, h3, h4, h5, h6, h7, h8, h9, h10⟩ := crafted_spec he h v
        (by omega)
      exact ⟨s', _, [], a, by rw [heq, h1], by simpa using h2, by omega, h3,
        ⟨w, by simp only [val, h8], h9, fun _ => ⟨v, ty, rfl⟩⟩, by simp, fun x hx => by
          rw [h4 x hx]; exact ⟨ty, rfl, hty⟩⟩
    rcases uniqueMatch_spec he hp v with ⟨i, w, h1, h2, h3⟩ | ⟨h1, h2⟩
    · by_cases hty : ty = .crafted
      · exact main (Or.inl hty) (hcr _ (by rw [h.pristine]; exact h1) (Or.inl hty))
      · have hi : i < p.length := (List.getElem?_eq_some_iff.1 h2).1
        obtain ⟨s', o, j, g1, g2, g3, g4, g5, g6⟩ := keep_spec h (k := i) hi
        refine ⟨s', (.pristine, j), o, [], ?_, g2, by omega, by simpa using g3, ⟨w, ?_, h3, by simp⟩, ?_, by simp⟩
        · unfold VMS.add
          rw [h.pristine, h1, ← g1]
          simp [hty]
        · simp only [val, g5, Option.bind_some, h2]
        · intro k hk; rw [g6 k hk]; exact ⟨w, h2, h3⟩
    · exact main (Or.inr h2) (hcr _ (by rw [h.pristine]; exact h1) (Or.inr rfl))

theorem find_append_vim (m : VIM) (node : Nat) (r : Rel) (n : Nat) :
    find (append m node r) n = if n = node then some ((find m node).getD [] ++ [r]) else find m n := by
  unfold append
  cases hf : find m node <;> simp [find_set]

theorem sorted_append_vim {m : VIM} (h : Sorted m) (node : Nat) (r : Rel) : Sorted (append m node r) := by
  unfold append
  cases hf : find m node <;> exact h.set _ _

theorem requestsOf_append (t1 t2 : List (Nat × Op V)) (node : Nat) :
    requestsOf (t1 ++ t2) node = requestsOf t1 node ++ requestsOf t2 node := by
  simp [requestsOf]

theorem requestsOf_single (t : Nat × Op V) (node : Nat) :
    requestsOf [t] node = if node = t.1 then [t.2] else [] := by
  unfold requestsOf
  by_cases h : node = t.1
  · simp [h]
  · have : (t.1 == node) = false := by simpa using fun hh => h hh.symm
    simp [this, h]

/-- The set and the node map together serve the requests. -/
structure Good (near : V → V → Bool) (g p : List V) (s : VMS V) (m : VIM) (ord : List Nat)
    (tasks : List (Nat × Op V)) : Prop where
  inv : Inv near p s ord
  sorted : Sorted m
  keys : ∀ node, find m node = none ↔ requestsOf tasks node = []
  res : ∀ node l, find m node = some l → List.Forall₂ (Res near g p ord s.appended) l (requestsOf tasks node)
  usedP : ∀ k ∈ ord, ∃ t ∈ tasks, ∃ w, p[k]? = some w ∧ Delivers near g w t.2
  usedA : ∀ x ∈ s.appended, ∃ t ∈ tasks, ∃ ty, t.2 = .add x ty ∧ (ty = .crafted ∨ ∀ y ∈ g, near y x = false)

theorem record_spec (he : IsEquiv near) {p : List V} (hp : Separated near p) {s : VMS V} {m : VIM} {ord : List Nat}
    {tasks : List (Nat × Op V)} (h : Good near p p s m ord tasks) (hcap : 0 < s.capacity) (t : Nat × Op V)
    (ht : Admissible p t.2) :
    ∃ s' m' ord', record near (s, m) t = some (s', m') ∧ Good near p p s' m' ord' (tasks ++ [t]) ∧
      0 < s'.capacity := by
  obtain ⟨s', r, o, a, h1, h2, h3, h4, h5, h6, h7⟩ := perform_spec he hp h.inv hcap t.2 ht
  refine ⟨s', append m t.1 r, ord ++ o, by simp [record, h1], ⟨h2, sorted_append_vim h.sorted _ _, ?_, ?_, ?_, ?_⟩, h3⟩
  · intro node
    rw [find_append_vim, requestsOf_append, requestsOf_single]
    split_ifs with hn
    · simp
    · simpa using h.keys node
  · intro node l hl
    rw [find_append_vim] at hl
    rw [requestsOf_append, requestsOf_single]
    have mono : ∀ l', find m node = some l' →
        List.Forall₂ (Res near p p (ord ++ o) s'.appended) l' (requestsOf tasks node) := by
      intro l' hl'
      refine (h.res node l' hl').imp ?_
      intro x y hxy
      rw [h4]; exact hxy.mono o a
    split_ifs at hl with hn
    · subst hn
      simp only [Option.some.injEq] at hl
      subst hl
      rw [if_pos rfl]
      refine List.rel_append ?_ (List.Forall₂.cons h5 List.Forall₂.nil)
      cases hf : find m t.1 with
      | none => rw [(h.keys t.1).1 hf]; exact List.Forall₂.nil
      | some l' => exact mono l' hf
    · rw [if_neg hn, List.append_nil]; exact mono l hl
  · intro k hk
    rcases List.mem_append.1 hk with hk | hk
    · obtain ⟨t', ht', hh⟩ := h.usedP k hk
      exact ⟨t', List.mem_append_left _ ht', hh⟩
    · exact ⟨t, by simp, h6 k hk⟩
  · intro x hx
    rw [h4] at hx
    rcases List.mem_append.1 hx with hx | hx
    · obtain ⟨t', ht', hh⟩ := h.usedA x hx
      exact ⟨t', List.mem_append_left _ ht', hh⟩
    · exact ⟨t, by simp, h7 x hx⟩

theorem make_spec (near : V → V → Bool) {p : List V} (h2 : 2 ≤ p.length) :
    ∃ s, VMS.make p = some s ∧ Good near p p s [] [] [] ∧ 0 < s.capacity := by
  refine ⟨_, by unfold VMS.make; rw [if_neg (by omega)], ⟨⟨rfl, by simp, by simp, by simp, by simp [Separated]⟩, ?_, ?_, ?_, ?_, ?_⟩, ?_⟩
  · simp [Sorted]
  · simp [find, requestsOf]
  · simp [find]
  · simp
  · simp
  · show 0 < p.length / 2; omega

theorem work_spec (he : IsEquiv near) {p : List V} (hp : Separated near p) (h2 : 2 ≤ p.length)
    (tasks : List (Nat × Op V)) (ht : ∀ t ∈ tasks, Admissible p t.2) :
    ∃ s m ord, work near p tasks = some (s, m) ∧ Good near p p s m ord tasks ∧ 0 < s.capacity := by
  obtain ⟨s0, hs0, hg0, hc0⟩ := make_spec near h2
  have key : ∀ (tasks : List (Nat × Op V)), (∀ t ∈ tasks, Admissible p t.2) → ∀ (dn : List (Nat × Op V)) s m ord,
      Good near p p s m ord dn → 0 < s.capacity →
      ∃ s' m' ord', tasks.foldlM (record near) (s, m) = some (s', m') ∧ Good near p p s' m' ord' (dn ++ tasks) ∧
        0 < s'.capacity := by
    intro tasks
    induction tasks with
    | nil => intro _ dn s m ord hg hc; exact ⟨s, m, ord, rfl, by simpa using hg, hc⟩
    | cons t ts ih =>
      intro ht dn s m ord hg hc
      obtain ⟨s', m', ord', h1, h2, h3⟩ := record_spec he hp hg hc t (ht t (by simp))
      obtain ⟨s'', m'', ord'', g1, g2, g3⟩ := ih (fun t' ht' => ht t' (by simp [ht'])) _ s' m' ord' h2 h3
      refine ⟨s'', m'', ord'', ?_, by simpa using g2, g3⟩
      rw [List.foldlM_cons, h1]
      exact g1
  obtain ⟨s, m, ord, h1, h3, h4⟩ := key tasks ht [] s0 [] [] hg0 hc0
  exact ⟨s, m, ord, by unfold work; rw [hs0]; exact h1, by simpa using h3, h4⟩

/-- The order of preservation is recovered by sorting. -/
theorem keySorted_eq {p : List V} {s : VMS V} {ord : List Nat} (h : Inv near p s ord) :
    keySorted s.preserve = ord.zipIdx := by
  unfold keySorted
  refine List.Perm.eq_of_pairwise (le := fun a b => a.2 ≤ b.2) ?_ ?_ ?_ ((List.perm_insertionSort _ _).trans h.perm)
  · intro a b ha hb hab hba
    have hb' := h.perm.mem_iff.2 hb
    have ha' := (List.perm_insertionSort _ _).mem_iff.1 ha
    rw [← h.perm.mem_iff] at hb
    have e : a.2 = b.2 := Nat.le_antisymm hab hba
    have e1 := List.mem_zipIdx_iff_getElem?.1 (h.perm.mem_iff.1 ha')
    have e2 := List.mem_zipIdx_iff_getElem?.1 (h.perm.mem_iff.1 hb')
    rw [e, e2] at e1
    exact Prod.ext (Option.some.inj e1).symm e
  · have hT : IsTrans (Nat × Nat) (fun a b => a.2 ≤ b.2) := ⟨fun _ _ _ h1 h2 => Nat.le_trans h1 h2⟩
    have hO : Std.Total (fun a b : Nat × Nat => a.2 ≤ b.2) := ⟨fun a b => Nat.le_total a.2 b.2⟩
    exact List.pairwise_insertionSort _ _
  · rw [List.pairwise_iff_getElem]
    intro i j hi hj hij
    simp only [List.getElem_zipIdx]; omega

theorem mapM_getElem {p : List V} (ks : List Nat) (hk : ∀ k ∈ ks, k < p.length) (n : Nat) :
    ∃ ws, (ks.zipIdx n).mapM (fun q => p[q.1]?) = some ws ∧ List.Forall₂ (fun k w => p[k]? = some w) ks ws := by
  induction ks generalizing n with
  | nil => exact ⟨[], rfl, List.Forall₂.nil⟩
  | cons k ks ih =>
    obtain ⟨ws, h1, h2⟩ := ih (fun k' hk' => hk k' (by simp [hk'])) (n + 1)
    have hlt : k < p.length := hk k (by simp)
    have : p[k]? = some p[k] := List.getElem?_eq_getElem hlt
    refine ⟨p[k] :: ws, ?_, List.Forall₂.cons this h2⟩
    rw [List.zipIdx_cons, List.mapM_cons, h1]
    simp [this]

theorem forall₂_getElem? {α β : Type} {R : α → β → Prop} {l : List α} {l' : List β} (h : List.Forall₂ R l l')
    {i : Nat} {a : α} (ha : l[i]? = some a) : ∃ b, l'[i]? = some b ∧ R a b := by
  induction h generalizing i with
  | nil => simp at ha
  | cons h1 h2 ih =>
    cases i with
    | zero => simp only [List.getElem?_cons_zero, Option.some.injEq] at ha ⊢; subst ha; exact ⟨_, rfl, h1⟩
    | succ i => simp only [List.getElem?_cons_succ] at ha ⊢; exact ih ha

theorem forall₂_getElem?' {α β : Type} {R : α → β → Prop} {l : List α} {l' : List β} (h : List.Forall₂ R l l')
    {i : Nat} {b : β} (hb : l'[i]? = some b) : ∃ a, l[i]? = some a ∧ R a b := by
  induction h generalizing i with
  | nil => simp at hb
  | cons h1 h2 ih =>
    cases i with
    | zero => simp only [List.getElem?_cons_zero, Option.some.injEq] at hb ⊢; subst hb; exact ⟨_, rfl, h1⟩
    | succ i => simp only [List.getElem?_cons_succ] at hb ⊢; exact ih hb

/-- `consolidate` keeps the meaning of every answer. -/
theorem consolidate_spec {p : List V} {s : VMS V} {ord : List Nat} (h : Inv near p s ord)
    (hne : ord ≠ [] ∨ s.appended ≠ []) :
    ∃ c ks, s.consolidate = some c ∧ c.pristine = ks ++ s.appended ∧ c.appended = [] ∧
      c.preserve = identityMap c.pristine.length ∧
      c.capacity = c.pristine.length / 2 ∧ List.Forall₂ (fun k w => p[k]? = some w) ord ks := by
  obtain ⟨ks, h1, h2⟩ := mapM_getElem ord h.bound 0
  have hr : s.consolidatedRows = some (ks ++ s.appended) := by
    unfold VMS.consolidatedRows
    rw [keySorted_eq h, h.pristine, h1]; rfl
  have hl : (ks ++ s.appended).length ≠ 0 := by
    rw [List.length_append, ← h2.length_eq]
    rcases hne with hne | hne
    · have := List.length_pos_iff.2 hne; omega
    · have := List.length_pos_iff.2 hne; omega
  refine ⟨_, ks, by unfold VMS.consolidate VMS.make; rw [hr]; dsimp only; rw [if_neg hl]; rfl, rfl, rfl, rfl, rfl, h2⟩

theorem val_final {p : List V} {ord : List Nat} {app ks : List V} (hk : List.Forall₂ (fun k w => p[k]? = some w) ord ks)
    {r : Rel} {w : V} (h : val p ord app r = some w) : (ks ++ app)[finalIndex ord.length r]? = some w := by
  obtain ⟨t, i⟩ := r
  cases t
  · simp only [val, Option.bind_eq_some_iff] at h
    obtain ⟨k, h1, h2⟩ := h
    obtain ⟨b, hb, hb'⟩ := forall₂_getElem? hk h1
    rw [h2] at hb'
    simp only [finalIndex, if_true]
    rw [List.getElem?_append_left (List.getElem?_eq_some_iff.1 hb).1, hb, hb']
  · simp only [val] at h
    simp only [finalIndex, reduceCtorEq, if_false]
    rw [List.getElem?_append_right (by rw [hk.length_eq]; omega), hk.length_eq, Nat.add_sub_cancel_left, h]
  · simp [val] at h
  · simp [val] at h

theorem identityMap_eq (n : Nat) : identityMap n = (List.range n).zipIdx := by
  apply List.ext_getElem <;> simp [identityMap]

end Brille.VMap
