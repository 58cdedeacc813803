/-
C29: the vertex set hands out indices under which the requested vertices are found again.
C30: combining the vertex sets and index maps of several threads preserves this.
-/
import Verif.Proofs.VertexKnit

namespace Brille.Props

open Brille.VMap Brille.Spec

variable {V : Type} {near : V → V → Bool}

/-- C29.  From a fresh set over at least two pairwise different grid vertices, every sequence of admissible
requests succeeds; after `consolidate` the answer to each request, shifted as the trellis does it, is the
index of a row delivering what was requested (the exact grid row, or a row equal within tolerance to the
vertex); no row is there unasked; and if vertices declared crafted really are off the grid, the rows are
pairwise different. -/
theorem C29_requests (he : IsEquiv near) (grid : List V) (hgrid : Separated near grid) (h2 : 2 ≤ grid.length)
    (ops : List (Op V)) (hne : ops ≠ []) (hops : ∀ op ∈ ops, Admissible grid op) :
    ∃ fresh s answers final, VMS.make grid = some fresh ∧ fresh.run near ops = some (s, answers) ∧
      s.consolidate = some final ∧
      List.Forall₂ (fun r op => ∃ w, final.pristine[finalIndex s.preserve.length r]? = some w ∧
        Delivers near grid w op) answers ops ∧
      NothingElse near grid ops final.pristine ∧
      ((∀ op ∈ ops, HonestlyCrafted near grid op) → Separated near final.pristine) :=
  run_final he hgrid h2 ops hne hops

/-- C29.  Hence two vertices get the same final index exactly when they are equal within tolerance. -/
theorem C29_same_index_iff (he : IsEquiv near) (grid : List V) (hgrid : Separated near grid) (h2 : 2 ≤ grid.length)
    (ops : List (Op V)) (hops : ∀ op ∈ ops, Admissible grid op)
    (honest : ∀ op ∈ ops, HonestlyCrafted near grid op)
    (i j : Nat) (v v' : V) (ty ty' : AddType) (hi : ops[i]? = some (.add v ty)) (hj : ops[j]? = some (.add v' ty')) :
    ∃ fresh s answers r r', VMS.make grid = some fresh ∧ fresh.run near ops = some (s, answers) ∧
      answers[i]? = some r ∧ answers[j]? = some r' ∧
      (finalIndex s.preserve.length r = finalIndex s.preserve.length r' ↔ near v v' = true) := by
  have hne : ops ≠ [] := List.ne_nil_of_mem (List.mem_of_getElem? hi)
  obtain ⟨fresh, s, answers, final, e1, e2, e3, e4, e5, e6⟩ := C29_requests he grid hgrid h2 ops hne hops
  obtain ⟨r, hr, w, hw, hd⟩ := forall₂_getElem?' e4 hi
  obtain ⟨r', hr', w', hw', hd'⟩ := forall₂_getElem?' e4 hj
  refine ⟨fresh, s, answers, r, r', e1, e2, hr, hr', ?_⟩
  have hs := e6 honest
  constructor
  · intro h
    rw [h, hw'] at hw
    rw [Option.some.inj hw] at hd'
    exact he.trans _ _ _ (he.symm _ _ hd) hd'
  · intro h
    by_contra hc
    have hww : near w w' = true := he.trans _ _ _ (he.trans _ _ _ hd h) (he.symm _ _ hd')
    obtain ⟨l1, g1⟩ := List.getElem?_eq_some_iff.1 hw
    obtain ⟨l2, g2⟩ := List.getElem?_eq_some_iff.1 hw'
    have hp := List.pairwise_iff_getElem.1 hs
    rcases Nat.lt_or_gt_of_ne hc with hlt | hlt
    · have := hp _ _ l1 l2 hlt
      rw [g1, g2, hww] at this; simp at this
    · have := hp _ _ l2 l1 hlt
      rw [g1, g2, near_comm he, hww] at this; simp at this

/-- C29, for *any* reflexive comparison (such as the tolerance comparison of the code, which is not transitive)
and any grid: whenever the requests do not throw, consolidating succeeds or nothing was requested, and each
answer, also the early ones, is in the final list the index of a row delivering what was requested. -/
theorem C29_any_comparison (hr : ∀ a, near a a = true) (grid : List V) (ops : List (Op V)) (hne : ops ≠ [])
    (hops : ∀ op ∈ ops, Admissible grid op) (fresh s : VMS V) (answers : List Rel)
    (hf : VMS.make grid = some fresh) (hrun : fresh.run near ops = some (s, answers)) :
    ∃ final, s.consolidate = some final ∧
      List.Forall₂ (fun r op => ∃ w, final.pristine[finalIndex s.preserve.length r]? = some w ∧
        Delivers near grid w op) answers ops := by
  obtain ⟨o, a, h1, h2, h3⟩ := run_any hr ops (make_inv0 hf) hops hrun
  rw [List.nil_append] at h1 h3
  have hor : o ≠ [] ∨ s.appended ≠ [] := by
    obtain ⟨op, hop⟩ := List.exists_mem_of_ne_nil _ hne
    obtain ⟨i, hi⟩ := List.getElem?_of_mem hop
    obtain ⟨r, _, w, hw, _⟩ := forall₂_getElem?' h3 hi
    obtain ⟨ty, j⟩ := r
    cases ty
    · simp only [val, Option.bind_eq_some_iff] at hw
      obtain ⟨k, hk, _⟩ := hw
      exact Or.inl (List.ne_nil_of_mem (List.mem_of_getElem? hk))
    · simp only [val] at hw
      exact Or.inr (List.ne_nil_of_mem (List.mem_of_getElem? hw))
    · simp [val] at hw
    · simp [val] at hw
  obtain ⟨c, ks, c1, c2, -, -, -, c6⟩ := consolidate_spec h1 hor
  refine ⟨c, c1, h3.imp ?_⟩
  rintro r op ⟨w, hw, hw1, _⟩
  refine ⟨w, ?_, hw1⟩
  rw [c2, h1.length]; exact val_final c6 hw

/-- Equality is an equivalence; three different grid vertices; requests for a grid row, a new vertex, a
vertex that is on the grid, and the new vertex again. -/
example :
    (((VMS.make [10, 20, 30]).bind (fun s => s.run (fun a b : Nat => a == b) [.keep 2, .add 7 .crafted, .add 20 .unknown,
      .add 7 .unknown, .add 8 .crafted])).bind (fun x => x.1.consolidate.map (fun c => (c.pristine, x.2)))) =
    some ([30, 20, 7, 8], [(.pristine, 0), (.appended, 0), (.pristine, 1), (.appended, 0), (.appended, 1)]) := by
  decide +kernel

example : IsEquiv (fun a b : Nat => a == b) ∧ Separated (fun a b : Nat => a == b) [10, 20, 30] ∧
    (∀ op ∈ ([.keep 2, .add 7 .crafted, .add 20 .unknown] : List (Op Nat)), Admissible [10, 20, 30] op) ∧
    (∀ op ∈ ([.keep 2, .add 7 .crafted, .add 20 .unknown] : List (Op Nat)),
      HonestlyCrafted (fun a b : Nat => a == b) [10, 20, 30] op) := by
  refine ⟨⟨by simp, by simp, by simp⟩, by simp [Separated], by simp [Admissible], by simp [HonestlyCrafted]⟩

/-- C29, false as it stands for a tolerance: equality within tolerance is not transitive, and a vertex
between two vertices already added makes `add` throw. -/
theorem C29_tolerance_counterexample :
    ∃ fresh, VMS.make [100, 200] = some fresh ∧
      fresh.run (fun a b : Int => decide (a - b ≤ 1 ∧ b - a ≤ 1)) [.add 0 .crafted, .add 2 .crafted, .add 1 .crafted] = none :=
  ⟨_, rfl, by decide⟩

/-- C29: with a single grid vertex the first vertex to append is written out of bounds. -/
theorem C29_small_grid_counterexample (v w : V) (h : near v w = false) :
    ∃ fresh, VMS.make [v] = some fresh ∧ fresh.run near [.add w .unknown] = none := by
  refine ⟨_, rfl, ?_⟩
  simp [VMS.run, VMS.perform, VMS.add, uniqueMatch, h, VMS.insert]

/-- C29: a set that has just been consolidated does not report being consolidated, as soon as it has two
vertices (the test looks at the reserved storage). -/
theorem C29_is_consolidated_counterexample (s c : VMS V) (h : s.consolidate = some c) (h2 : 2 ≤ c.pristine.length) :
    c.isConsolidated = false := by
  unfold VMS.consolidate at h
  cases hr : s.consolidatedRows with
  | none => rw [hr] at h; simp at h
  | some rows =>
    rw [hr] at h
    dsimp only at h
    unfold VMS.make at h
    split_ifs at h with h0
    · simp at h
    · simp only [Option.map_some, Option.some.injEq] at h
      subst h
      unfold VMS.isConsolidated
      dsimp only at h2 ⊢
      rw [if_pos (by omega)]

/-- C30.  Any number of threads, each serving requests for its own nodes: all the work succeeds, combining the
results in pairs succeeds, and in the combined result every node's index list is, in order, that of rows of
the final vertex list delivering the node's requests; no row is there unasked, and the rows are pairwise
different if crafted vertices really are off the grid. -/
theorem C30_reduce (he : IsEquiv near) (grid : List V) (hgrid : Separated near grid) (h2 : 2 ≤ grid.length)
    (jobs : List (List (Nat × Op V))) (hsome : ∃ job ∈ jobs, job ≠ []) (hnodes : DifferentNodes jobs)
    (hops : ∀ job ∈ jobs, ∀ t ∈ job, Admissible grid t.2) :
    ∃ threads r final, jobs.mapM (work near grid) = some threads ∧ reduce near threads = some r ∧
      r.1.consolidate = some final ∧
      Serves near grid jobs.flatten final.pristine (decode r.2 r.1.preserve.length) ∧
      NothingElse near grid (jobs.flatten.map Prod.snd) final.pristine ∧
      ((∀ job ∈ jobs, ∀ t ∈ job, HonestlyCrafted near grid t.2) → Separated near final.pristine) := by
  have hfl : jobs.flatten ≠ [] := by
    obtain ⟨job, hj, hne⟩ := hsome
    obtain ⟨t, ht⟩ := List.exists_mem_of_ne_nil _ hne
    exact List.ne_nil_of_mem (List.mem_flatten.2 ⟨job, hj, ht⟩)
  obtain ⟨ws, r, c, e1, e2, e3, e4, e5, e6⟩ := reduce_spec he hgrid h2 jobs hfl (disjoint_of_nodes hnodes)
    (fun t ht => by obtain ⟨job, hj, ht⟩ := List.mem_flatten.1 ht; exact hops job hj t ht)
  exact ⟨ws, r, c, e1, e2, e3, e4, e5, fun hh => e6 (fun t ht => by
    obtain ⟨job, hj, ht⟩ := List.mem_flatten.1 ht; exact hh job hj t ht)⟩

/-- C30.  The distribution of the nodes over threads does not matter: two distributions of the same requests
give every node vertices that are, one by one, equal within tolerance. -/
theorem C30_thread_count (he : IsEquiv near) (grid : List V) (hgrid : Separated near grid) (h2 : 2 ≤ grid.length)
    (jobs jobs' : List (List (Nat × Op V))) (hsome : ∃ job ∈ jobs, job ≠ []) (hsome' : ∃ job ∈ jobs', job ≠ [])
    (hnodes : DifferentNodes jobs) (hnodes' : DifferentNodes jobs')
    (hops : ∀ job ∈ jobs, ∀ t ∈ job, Admissible grid t.2) (hops' : ∀ job ∈ jobs', ∀ t ∈ job, Admissible grid t.2)
    (hsame : ∀ node, requestsOf jobs.flatten node = requestsOf jobs'.flatten node) :
    ∃ threads threads' r r' final final', jobs.mapM (work near grid) = some threads ∧
      jobs'.mapM (work near grid) = some threads' ∧ reduce near threads = some r ∧ reduce near threads' = some r' ∧
      r.1.consolidate = some final ∧ r'.1.consolidate = some final' ∧
      ∀ node, requestsOf jobs.flatten node ≠ [] → ∃ idx idx', decode r.2 r.1.preserve.length node = some idx ∧
        decode r'.2 r'.1.preserve.length node = some idx' ∧
        List.Forall₂ (fun i i' => ∃ w w', final.pristine[i]? = some w ∧ final'.pristine[i']? = some w' ∧
          near w w' = true) idx idx' := by
  obtain ⟨ws, r, c, e1, e2, e3, e4, -, -⟩ := C30_reduce he grid hgrid h2 jobs hsome hnodes hops
  obtain ⟨ws', r', c', e1', e2', e3', e4', -, -⟩ := C30_reduce he grid hgrid h2 jobs' hsome' hnodes' hops'
  refine ⟨ws, ws', r, r', c, c', e1, e1', e2, e2', e3, e3', ?_⟩
  intro node hnode
  obtain ⟨idx, d1, d2⟩ := e4 node hnode
  obtain ⟨idx', d1', d2'⟩ := e4' node (by rw [← hsame]; exact hnode)
  refine ⟨idx, idx', d1, d1', ?_⟩
  rw [← hsame] at d2'
  clear d1 d1'
  generalize requestsOf jobs.flatten node = reqs at d2 d2'
  induction d2 generalizing idx' with
  | nil => cases d2'; exact List.Forall₂.nil
  | @cons i op _ _ h1 h2 ih =>
    rcases d2' with _ | ⟨h1', h2'⟩
    refine List.Forall₂.cons ?_ (ih _ h2')
    obtain ⟨w, hw, hd⟩ := h1
    obtain ⟨w', hw', hd'⟩ := h1'
    refine ⟨w, w', hw, hw', ?_⟩
    cases op with
    | keep k =>
      simp only [Delivers] at hd hd'
      rw [hd] at hd'
      rw [← Option.some.inj hd']; exact he.refl w
    | add v ty => exact he.trans _ _ _ hd (he.symm _ _ hd')

/-- Three threads, five nodes, shared grid rows preserved in different orders and a shared crafted vertex. -/
example :
    let jobs : List (List (Nat × Op Nat)) :=
      [[(0, .keep 2), (0, .add 7 .crafted)], [(3, .keep 1), (3, .keep 2), (4, .add 7 .crafted), (4, .add 8 .unknown)],
       [(5, .add 8 .crafted), (5, .keep 0), (9, .keep 1)]]
    ((jobs.mapM (work (fun a b => a == b) [10, 20, 30])).bind (reduce (fun a b => a == b))).map
      (fun r => (r.1.pristine, decode r.2 r.1.preserve.length 3, decode r.2 r.1.preserve.length 5)) =
    some ([30, 20, 10, 7, 8], some [1, 0], some [4, 2]) := by decide +kernel

end Brille.Props
