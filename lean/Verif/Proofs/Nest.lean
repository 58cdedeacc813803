import Verif.Model.Nest
import Verif.Proofs.Tetra
import Verif.Props.PermutationTable

namespace Brille.Nest

open Brille.Tetra Brille.Spec

/-- `t` is a leaf below the node and it, the node and all nodes between satisfy `acc` -/
inductive Chain (acc : Tet → Prop) : Node → Tet → Prop
  | leaf {b} : acc b → Chain acc (.mk b []) b
  | step {b br n t} : acc b → n ∈ br → Chain acc n t → Chain acc (.mk b br) t

theorem Chain.mono {acc acc' : Tet → Prop} (h : ∀ t, acc t → acc' t) {n : Node} {t : Tet}
    (hc : Chain acc n t) : Chain acc' n t := by
  induction hc with
  | leaf ha => exact .leaf (h _ ha)
  | step ha hm _ ih => exact .step (h _ ha) hm ih

theorem Chain.acc {acc : Tet → Prop} {n : Node} {t : Tet} (hc : Chain acc n t) : acc t := by
  induction hc with
  | leaf ha => exact ha
  | step _ _ _ ih => exact ih

theorem sizes_append (a b : List Node) : sizes (a ++ b) = sizes a + sizes b := by
  induction a with
  | nil => simp [sizes]
  | cons n ns ih => rw [List.cons_append, sizes, sizes, ih]; omega

theorem size_pos (n : Node) : 1 ≤ n.size := by
  cases n with
  | mk b br => rw [Node.size]; omega

theorem mem_search (accept : Tet → Bool) : ∀ (f : Nat) (q : List Node), sizes q ≤ f →
    ∀ t, t ∈ search accept f q ↔ ∃ n ∈ q, Chain (fun t => accept t = true) n t := by
  intro f
  induction f with
  | zero =>
    intro q hq t
    cases q with
    | nil => simp [search]
    | cons n ns =>
      rw [sizes] at hq
      have := size_pos n
      omega
  | succ f ih =>
    intro q hq t
    match q with
    | [] => simp [search]
    | .mk b br :: rest =>
      rw [sizes, Node.size] at hq
      rw [search]
      by_cases hb : accept b = true
      · rw [if_pos hb]
        cases br with
        | nil =>
          rw [if_pos (by simp), List.mem_cons, ih rest (by rw [sizes] at hq; omega)]
          constructor
          · rintro (rfl | ⟨n, hn, hc⟩)
            · exact ⟨_, List.mem_cons_self, .leaf hb⟩
            · exact ⟨n, List.mem_cons_of_mem _ hn, hc⟩
          · rintro ⟨n, hn, hc⟩
            rcases List.mem_cons.mp hn with rfl | hn
            · cases hc with
              | leaf _ => exact Or.inl rfl
              | step _ hm _ => simp at hm
            · exact Or.inr ⟨n, hn, hc⟩
        | cons c cs =>
          rw [if_neg (by simp), ih (rest ++ c :: cs) (by rw [sizes_append]; omega)]
          constructor
          · rintro ⟨n, hn, hc⟩
            rcases List.mem_append.mp hn with hn | hn
            · exact ⟨n, List.mem_cons_of_mem _ hn, hc⟩
            · exact ⟨_, List.mem_cons_self, .step hb hn hc⟩
          · rintro ⟨n, hn, hc⟩
            rcases List.mem_cons.mp hn with rfl | hn
            · cases hc with
              | step _ hm hc => exact ⟨_, List.mem_append_right _ hm, hc⟩
            · exact ⟨n, List.mem_append_left _ hn, hc⟩
      · rw [if_neg hb, ih rest (by omega)]
        constructor
        · rintro ⟨n, hn, hc⟩; exact ⟨n, List.mem_cons_of_mem _ hn, hc⟩
        · rintro ⟨n, hn, hc⟩
          rcases List.mem_cons.mp hn with rfl | hn
          · cases hc with
            | leaf h => exact absurd h hb
            | step h _ _ => exact absurd h hb
          · exact ⟨n, hn, hc⟩

theorem bestSolution_mem {positive : Tet → Bool} {l : List Tet} {t : Tet}
    (h : bestSolution positive l = some t) : t ∈ l := by
  cases l with
  | nil => simp [bestSolution] at h
  | cons a rest =>
    unfold bestSolution at h
    have h := Option.some.inj h
    have : ∀ (l : List Tet) (b : Tet), l.foldl (fun best t => if positive t then t else best) b = b ∨
        l.foldl (fun best t => if positive t then t else best) b ∈ l := by
      intro l
      induction l with
      | nil => intro b; exact Or.inl rfl
      | cons c l ih =>
        intro b
        rw [List.foldl_cons]
        rcases ih (if positive c then c else b) with h1 | h1
        · by_cases hc : positive c = true
          · rw [if_pos hc] at h1
            right; rw [if_pos hc, h1]; exact List.mem_cons_self
          · rw [if_neg hc] at h1
            left; rw [if_neg hc]; exact h1
        · exact Or.inr (List.mem_cons_of_mem _ h1)
    rcases this (a :: rest) a with h1 | h1
    · rw [h1] at h; rw [← h]; exact List.mem_cons_self
    · rw [h] at h1; exact h1

theorem bestSolution_none {positive : Tet → Bool} {l : List Tet} :
    bestSolution positive l = none ↔ l = [] := by
  cases l with
  | nil => simp [bestSolution]
  | cons a rest => simp [bestSolution]

/-! ### the weights -/

theorem noneNegative_iff (isZero : ℚ → Bool) (w : Fin 4 → ℚ) :
    noneNegative isZero w = true ↔ ∀ j, w j < 0 → isZero (w j) = true := by
  unfold noneNegative negative
  rw [List.all_eq_true]
  constructor
  · intro h j hj
    have := h j (List.mem_finRange j)
    simpa [hj] using this
  · intro h j _
    by_cases hj : w j < 0
    · simp [hj, h j hj]
    · simp [hj]

theorem accept_of_inTet {isZero : ℚ → Bool} {near : ℚ → ℚ → Bool} (hnear : ∀ a, near a a = true)
    {v : Nat → Pt} {t : Tet} (ht : Fits v t) {x : Pt} (hx : InTet (corners v t) x) :
    noneNegative isZero (leafWeights near v t x) = true := by
  unfold leafWeights
  rw [if_pos (inSphere_of_inTet hnear ht.sphere hx), noneNegative_iff]
  obtain ⟨w, hw, hp⟩ := hx
  rw [← baryW_unique v t x ht.vol ht.pos.ne' w hp]
  intro j hj
  exact absurd (hw j) (not_le.mpr hj)

section
variable {isZero : ℚ → Bool} {τ : ℚ} (hτ : 0 ≤ τ) (hsmall : τ < 1 / 16)
  (hz : ∀ z, isZero z = true ↔ |z| ≤ τ)
include hz

theorem isZero_false {z : ℚ} (h : τ < z) : isZero z = false := by
  by_contra hne
  have := (hz z).mp (by simpa using hne)
  exact absurd (abs_le.mp this).2 (not_le.mpr h)

omit hz in
theorem maxAt_fold (w : Fin 4 → ℚ) : ∀ (l : List (Fin 4)) (m : Fin 4),
    w m ≤ w (l.foldl (fun m j => if !isZero (w j) && decide (w m < w j) then j else m) m) ∧
    ∀ j ∈ l, isZero (w j) = false →
      w j ≤ w (l.foldl (fun m j => if !isZero (w j) && decide (w m < w j) then j else m) m) := by
  intro l
  induction l with
  | nil => intro m; simp
  | cons a l ih =>
    intro m
    rw [List.foldl_cons]
    obtain ⟨h1, h2⟩ := ih (if !isZero (w a) && decide (w m < w a) then a else m)
    by_cases hc : (!isZero (w a) && decide (w m < w a)) = true
    · rw [if_pos hc] at h1 h2 ⊢
      simp only [Bool.and_eq_true, decide_eq_true_eq] at hc
      refine ⟨hc.2.le.trans h1, ?_⟩
      intro j hj hzj
      rcases List.mem_cons.mp hj with rfl | hj
      · exact h1
      · exact h2 j hj hzj
    · rw [if_neg hc] at h1 h2 ⊢
      refine ⟨h1, ?_⟩
      intro j hj hzj
      rcases List.mem_cons.mp hj with rfl | hj
      · refine le_trans ?_ h1
        by_contra hlt
        exact hc (by simp [hzj, not_le.mp hlt])
      · exact h2 j hj hzj

include hτ hsmall

omit hτ in
/-- `maxAt` finds a weight that is not negligible and large -/
theorem maxAt_spec {w : Fin 4 → ℚ} (hsum : 1 - 4 * τ ≤ ∑ j, w j) :
    isZero (w (maxAt isZero w)) = false ∧ 1 / 8 ≤ w (maxAt isZero w) := by
  have hbig : ∃ j, 1 / 8 ≤ w j := by
    by_contra hno
    push Not at hno
    have h0 := hno 0
    have h1 := hno 1
    have h2 := hno 2
    have h3 := hno 3
    rw [Fin.sum_univ_four] at hsum
    linarith
  obtain ⟨j, hj⟩ := hbig
  have hjz : isZero (w j) = false := isZero_false hz (by linarith)
  have hle : w j ≤ w (maxAt isZero w) := (maxAt_fold w (List.finRange 4) 0).2 j (List.mem_finRange j) hjz
  exact ⟨isZero_false hz (by linarith), hj.trans hle⟩

/-- the state of the loop that merges negligible weights `w` into large ones, after the indices `done` -/
structure Merged (isZero : ℚ → Bool) (τ M : ℚ) (w : Fin 4 → ℚ) (g : Fin 4 → ℚ) (fx : ℚ)
    (done : List (Fin 4)) (w' : Fin 4 → ℚ) : Prop where
  small : ∀ j, isZero (w j) = true → w' j = w j
  large : ∀ j, isZero (w j) = false → τ < w' j
  sum : ∑ j, w' j = 1 + (done.map fun i => if isZero (w i) then w i else 0).sum
  err : |∑ j, w' j * g j - fx - (done.map fun i => if isZero (w i) then w i * g i else 0).sum| ≤
    done.length * (2 * τ * M)

omit hz hsmall in
theorem sum_small (hz' : ∀ z, isZero z = true → |z| ≤ τ) (w : Fin 4 → ℚ) : ∀ done : List (Fin 4),
    -(done.length * τ) ≤ (done.map fun i => if isZero (w i) then w i else 0).sum := by
  intro done
  induction done with
  | nil => simp
  | cons a l ih =>
    rw [List.map_cons, List.sum_cons, List.length_cons]
    have : -τ ≤ if isZero (w a) then w a else 0 := by
      by_cases h : isZero (w a) = true
      · rw [if_pos h]; exact (abs_le.mp (hz' _ h)).1
      · rw [if_neg h]; linarith
    push_cast
    linarith

omit hz hτ hsmall in
theorem sum_putW (w : Fin 4 → ℚ) (k : Fin 4) (y : ℚ) (g : Fin 4 → ℚ) :
    ∑ j, putW w k (w k + y) j * g j = ∑ j, w j * g j + y * g k := by
  have : ∀ j, putW w k (w k + y) j * g j = w j * g j + (if j = k then y * g k else 0) := by
    intro j
    unfold putW
    by_cases h : j = k
    · subst h; rw [if_pos rfl, if_pos rfl]; ring
    · rw [if_neg h, if_neg h, add_zero]
  rw [Finset.sum_congr rfl (fun j _ => this j), Finset.sum_add_distrib]
  simp

theorem Merged.step {M : ℚ} {w g : Fin 4 → ℚ} {fx : ℚ} {done : List (Fin 4)} {w' : Fin 4 → ℚ}
    (h : Merged isZero τ M w g fx done w') (hlen : done.length < 4) (hM : ∀ j, |g j| ≤ M) (i : Fin 4) :
    Merged isZero τ M w g fx (done ++ [i]) (mergeStep isZero w' i) := by
  have hM0 : 0 ≤ M := (abs_nonneg _).trans (hM 0)
  have hconst : ∀ j, isZero (w' j) = isZero (w j) := by
    intro j
    by_cases hj : isZero (w j) = true
    · rw [h.small j hj]
    · have hj : isZero (w j) = false := by simpa using hj
      rw [hj]; exact isZero_false hz (h.large j hj)
  unfold mergeStep
  by_cases hi : isZero (w' i) = true
  · rw [if_pos hi]
    have hi' : isZero (w i) = true := by rw [← hconst]; exact hi
    have hwi := h.small i hi'
    have hsum : 1 - 4 * τ ≤ ∑ j, w' j := by
      rw [h.sum]
      have := sum_small hτ (fun z hh => (hz z).mp hh) w done
      have hl : (done.length : ℚ) ≤ 4 := by exact_mod_cast hlen.le
      nlinarith
    obtain ⟨m1, m2⟩ := maxAt_spec hsmall hz (w := w') hsum
    have habs := abs_le.mp ((hz _).mp hi)
    refine ⟨?_, ?_, ?_, ?_⟩
    · intro j hj
      unfold putW
      rw [if_neg]
      · exact h.small j hj
      · rintro rfl
        rw [hconst, hj] at m1
        cases m1
    · intro j hj
      unfold putW
      by_cases hjm : j = maxAt isZero w'
      · rw [if_pos hjm]; linarith [habs.1]
      · rw [if_neg hjm]; exact h.large j hj
    · have := sum_putW w' (maxAt isZero w') (w' i) (fun _ => 1)
      simp only [mul_one] at this
      rw [this, h.sum, List.map_append, List.sum_append]
      simp only [List.map_cons, List.map_nil, List.sum_cons, List.sum_nil, hi', if_true, hwi]
      ring
    · rw [sum_putW, List.map_append, List.sum_append]
      simp only [List.map_cons, List.map_nil, List.sum_cons, List.sum_nil, hi', if_true, hwi,
        List.length_append, List.length_cons, List.length_nil]
      have e : ∑ j, w' j * g j + w i * g (maxAt isZero w') - fx -
          ((done.map fun i => if isZero (w i) then w i * g i else 0).sum + (w i * g i + 0)) =
          (∑ j, w' j * g j - fx - (done.map fun i => if isZero (w i) then w i * g i else 0).sum) +
            w i * (g (maxAt isZero w') - g i) := by ring
      rw [e]
      refine (abs_add_le _ _).trans ?_
      have h2 : |w i * (g (maxAt isZero w') - g i)| ≤ 2 * τ * M := by
        rw [abs_mul]
        have ha : |w i| ≤ τ := (hz _).mp hi'
        have hb : |g (maxAt isZero w') - g i| ≤ 2 * M := by
          refine (abs_sub _ _).trans ?_
          linarith [hM (maxAt isZero w'), hM i]
        calc |w i| * |g (maxAt isZero w') - g i| ≤ τ * (2 * M) :=
              mul_le_mul ha hb (abs_nonneg _) hτ
          _ = 2 * τ * M := by ring
      have := h.err
      push_cast
      linarith
  · rw [if_neg hi]
    have hi' : ¬ isZero (w i) = true := by rw [← hconst]; exact hi
    refine ⟨h.small, h.large, ?_, ?_⟩
    · rw [h.sum, List.map_append, List.sum_append]
      simp [hi']
    · rw [List.map_append, List.sum_append]
      simp only [List.map_cons, List.map_nil, List.sum_cons, List.sum_nil, if_neg hi', List.length_append,
        List.length_cons, List.length_nil, add_zero]
      have h0 : 0 ≤ 2 * τ * M := by positivity
      have := h.err
      push_cast
      linarith

theorem merge_spec {M : ℚ} {w g : Fin 4 → ℚ} {fx : ℚ} (hneg : ∀ j, w j < 0 → isZero (w j) = true)
    (hsum : ∑ j, w j = 1) (hfx : ∑ j, w j * g j = fx) (hM : ∀ j, |g j| ≤ M) :
    (∀ j, isZero (merge isZero w j) = isZero (w j)) ∧
    (∀ j, isZero (w j) = false → τ < merge isZero w j) ∧
    ∑ j, (if isZero (merge isZero w j) = true then 0 else merge isZero w j) = 1 ∧
    |∑ j, (if isZero (merge isZero w j) = true then 0 else merge isZero w j * g j) - fx| ≤ 8 * τ * M := by
  have h0 : Merged isZero τ M w g fx [] w := by
    refine ⟨fun _ _ => rfl, ?_, by simp [hsum], by simp [hfx]⟩
    intro j hj
    by_contra hle
    have hneg' : ¬ w j < 0 := fun hlt => by rw [hneg j hlt] at hj; cases hj
    have : |w j| ≤ τ := abs_le.mpr ⟨by linarith [not_lt.mp hneg'], not_lt.mp hle⟩
    rw [(hz _).mpr this] at hj
    cases hj
  have h4 := (((h0.step hτ hsmall hz (by simp) hM 0).step hτ hsmall hz (by simp) hM 1).step hτ hsmall hz
    (by simp) hM 2).step hτ hsmall hz (by simp) hM 3
  have hfr : List.finRange 4 = [0, 1, 2, 3] := by decide
  have hm : merge isZero w = mergeStep isZero (mergeStep isZero (mergeStep isZero (mergeStep isZero w 0) 1) 2) 3 := by
    unfold merge
    rw [hfr]
    rfl
  rw [← hm] at h4
  have hconst : ∀ j, isZero (merge isZero w j) = isZero (w j) := by
    intro j
    by_cases hj : isZero (w j) = true
    · rw [h4.small j hj]
    · have hj : isZero (w j) = false := by simpa using hj
      rw [hj]; exact isZero_false hz (h4.large j hj)
  have hsplit : ∀ (g : Fin 4 → ℚ), ∑ j, (if isZero (merge isZero w j) = true then 0 else merge isZero w j * g j) =
      ∑ j, merge isZero w j * g j - ∑ j, (if isZero (w j) = true then w j * g j else 0) := by
    intro g
    rw [← Finset.sum_sub_distrib]
    apply Finset.sum_congr rfl
    intro j _
    rw [hconst]
    by_cases hj : isZero (w j) = true
    · rw [if_pos hj, if_pos hj, h4.small j hj, sub_self]
    · rw [if_neg hj, if_neg hj, sub_zero]
  refine ⟨hconst, h4.large, ?_, ?_⟩
  · have := hsplit (fun _ => 1)
    simp only [mul_one] at this
    rw [this, h4.sum]
    simp only [List.nil_append, List.map_cons, List.cons_append, List.map_nil, List.sum_cons, List.sum_nil,
      Fin.sum_univ_four]
    ring
  · rw [hsplit]
    have herr := h4.err
    simp only [List.nil_append, List.map_cons, List.cons_append, List.map_nil, List.sum_cons, List.sum_nil,
      List.length_cons, List.length_nil] at herr
    have e : ∑ j, merge isZero w j * g j - ∑ j, (if isZero (w j) = true then w j * g j else 0) - fx =
        ∑ j, merge isZero w j * g j - fx - ((if isZero (w 0) = true then w 0 * g 0 else 0) +
          ((if isZero (w 1) = true then w 1 * g 1 else 0) + ((if isZero (w 2) = true then w 2 * g 2 else 0) +
          ((if isZero (w 3) = true then w 3 * g 3 else 0) + 0)))) := by
      rw [Fin.sum_univ_four (f := fun j => if isZero (w j) = true then w j * g j else 0)]
      ring
    rw [e]
    refine herr.trans (le_of_eq ?_)
    push_cast
    ring

end

/-! ### leaves and keys -/

mutual
/-- the leaves of a tree -/
def leaves : Node → List Tet
  | .mk b [] => [b]
  | .mk _ (c :: cs) => allLeaves (c :: cs)

def allLeaves : List Node → List Tet
  | [] => []
  | n :: ns => leaves n ++ allLeaves ns
end

theorem mem_allLeaves {t : Tet} : ∀ {l : List Node}, t ∈ allLeaves l ↔ ∃ n ∈ l, t ∈ leaves n := by
  intro l
  induction l with
  | nil => simp [allLeaves]
  | cons n ns ih => simp [allLeaves, ih]

theorem chain_leaf {acc : Tet → Prop} {n : Node} {t : Tet} (h : Chain acc n t) : t ∈ leaves n := by
  induction h with
  | leaf _ => simp [leaves]
  | @step b br n t _ hm _ ih =>
    cases br with
    | nil => simp at hm
    | cons c cs => rw [leaves, mem_allLeaves]; exact ⟨n, hm, ih⟩

mutual
theorem mem_tetrahedra (n : Node) (f : Fin 4 → Nat) : f ∈ n.tetrahedra ↔ ∃ t ∈ leaves n, t.vi = f := by
  match n with
  | .mk b [] => simp [Node.tetrahedra, leaves, eq_comm]
  | .mk b (c :: cs) =>
    rw [Node.tetrahedra, leaves]
    exact mem_allTetrahedra (c :: cs) f

theorem mem_allTetrahedra (l : List Node) (f : Fin 4 → Nat) :
    f ∈ allTetrahedra l ↔ ∃ t ∈ allLeaves l, t.vi = f := by
  match l with
  | [] => simp [allTetrahedra, allLeaves]
  | n :: ns =>
    rw [allTetrahedra, allLeaves, List.mem_append, mem_tetrahedra n f, mem_allTetrahedra ns f]
    constructor
    · rintro (⟨t, h1, h2⟩ | ⟨t, h1, h2⟩)
      · exact ⟨t, List.mem_append_left _ h1, h2⟩
      · exact ⟨t, List.mem_append_right _ h1, h2⟩
    · rintro ⟨t, h1, h2⟩
      rcases List.mem_append.mp h1 with h1 | h1
      · exact Or.inl ⟨t, h1, h2⟩
      · exact Or.inr ⟨t, h1, h2⟩
end

mutual
theorem mem_collectKeys (nv : Nat) (n : Node) (k : Nat) : k ∈ n.collectKeys nv ↔
    ∃ t ∈ leaves n, ∃ a b : Fin 4, t.vi a ≠ t.vi b ∧ k = t.vi a * nv + t.vi b := by
  match n with
  | .mk b [] =>
    rw [Node.collectKeys, Brille.Props.C07_keys_from_indices]
    simp [leaves]
  | .mk b (c :: cs) =>
    rw [Node.collectKeys, leaves]
    exact mem_collectAll nv (c :: cs) k

theorem mem_collectAll (nv : Nat) (l : List Node) (k : Nat) : k ∈ collectAll nv l ↔
    ∃ t ∈ allLeaves l, ∃ a b : Fin 4, t.vi a ≠ t.vi b ∧ k = t.vi a * nv + t.vi b := by
  match l with
  | [] => simp [collectAll, allLeaves]
  | n :: ns =>
    rw [collectAll, allLeaves, List.mem_append, mem_collectKeys nv n k, mem_collectAll nv ns k]
    constructor
    · rintro (⟨t, h1, h2⟩ | ⟨t, h1, h2⟩)
      · exact ⟨t, List.mem_append_left _ h1, h2⟩
      · exact ⟨t, List.mem_append_right _ h1, h2⟩
    · rintro ⟨t, h1, h2⟩
      rcases List.mem_append.mp h1 with h1 | h1
      · exact Or.inl ⟨t, h1, h2⟩
      · exact Or.inr ⟨t, h1, h2⟩
end

end Brille.Nest
