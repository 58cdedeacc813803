import Verif.Proofs.Subscript

/-! C01–C04: subscript iteration, broadcasting and linear indices. -/
namespace Brille.Props
open Brille.Subscript Brille.Spec

/-- **C01.** Looping over all subscripts of an array of rank ≥ 1 whose extents after the first are
positive stops, and the list of visited subscripts is in row-major order without repetition and
contains exactly the valid subscripts. -/
theorem C01_subscripts_visited_once_in_order (shape : List Nat) (hr : shape ≠ [])
    (hpos : ∀ s ∈ shape.tail, 0 < s) :
    ∃ out F, (∀ fuel, F ≤ fuel → (mkShape shape).visits fuel = some out) ∧
      RowMajorOrder out ∧ ∀ x, x ∈ out ↔ InRange shape x := by
  cases shape with
  | nil => exact absurd rfl hr
  | cons a t =>
    rcases Nat.eq_zero_or_pos a with rfl | ha
    · refine ⟨[], 0, ?_, List.Pairwise.nil, ?_⟩
      · intro fuel _
        cases fuel <;>
          simp [SubIt.visits, SubIt.begin, SubIt.end, mkShape, findFirst, setEnd, loopFrom,
            SubIt.eq, SubIt.deref]
      · intro x
        cases x <;> simp [InRange]
    · have hall : ∀ s ∈ a :: t, 0 < s := by
        intro s hs
        rcases List.mem_cons.1 hs with rfl | hs
        · exact ha
        · exact hpos s hs
      refine ⟨(List.range (size (mkShape (a :: t)).axes)).map (sub (mkShape (a :: t)).axes),
        size (mkShape (a :: t)).axes, ?_, rangeMap_pairwise _, ?_⟩
      · intro fuel hf
        obtain ⟨e, rfl⟩ := Nat.exists_eq_add_of_le hf
        exact visits_eq (mkShape (a :: t)) (wf_mkShape _) (findFirst_mkShape a t)
          (size_mkShape_pos _ hall) e
      · intro x
        rw [mem_rangeMap, ok_mkShape]

-- non-vacuity: a 2×3 array
example : (mkShape [2, 3]).visits 6 = some [[0,0],[0,1],[0,2],[1,0],[1,1],[1,2]] := by decide
example : ([2, 3] : List Nat) ≠ [] ∧ ∀ s ∈ ([2, 3] : List Nat).tail, 0 < s := by decide

/-- **C01 (limits).** The hypothesis on the later extents is needed: for the empty array of shape
(3,0) the loop does not stop at once but visits (0,0), which is not a subscript of the array. -/
theorem C01_zero_extent_counterexample :
    ¬ InRange [3, 0] [0, 0] ∧
      ∃ b e, (mkShape [3, 0]).begin = some b ∧ (mkShape [3, 0]).end = some e ∧
        b.eq e = false ∧ b.deref = [0, 0] := by
  refine ⟨by simp [InRange], ?_⟩
  exact ⟨_, _, rfl, rfl, by decide, by decide⟩

/-- **C02.** With some axes fixed (a request that is a valid position fixes its axis), all extents
positive and at least one axis free, the loop visits exactly the subscripts which agree with the
request, once each, in row-major order. -/
theorem C02_fixed_axes_visit_slice (shape request : List Nat) (hl : shape.length = request.length)
    (hpos : ∀ s ∈ shape, 0 < s) (hfree : ∃ p ∈ shape.zip request, p.1 ≤ p.2) :
    ∃ it out F, mkFixed shape request = some it ∧
      (∀ fuel, F ≤ fuel → it.visits fuel = some out) ∧
      RowMajorOrder out ∧ ∀ x, x ∈ out ↔ Agrees shape request x := by
  have hff : ∃ f, findFirst (fixedAxes shape request) = some f := by
    clear hl hpos
    induction shape generalizing request with
    | nil => simp at hfree
    | cons a t ih =>
      cases request with
      | nil => simp at hfree
      | cons r rs =>
        simp only [fixedAxes, List.zipWith_cons_cons, findFirst, isFixed]
        by_cases h : r < a
        · simp only [h, decide_true, if_true]
          obtain ⟨p, hp, hle⟩ := hfree
          rw [List.zip_cons_cons, List.mem_cons] at hp
          rcases hp with rfl | hp
          · simp only at hle; omega
          · obtain ⟨f, hf⟩ := ih rs ⟨p, hp, hle⟩
            refine ⟨f + 1, ?_⟩
            simp only [fixedAxes, isFixed] at hf
            simp only [hf, Option.map_some]
        · simp [h]
  obtain ⟨f, hf⟩ := hff
  refine ⟨⟨fixedAxes shape request, f⟩,
    (List.range (size (fixedAxes shape request))).map (sub (fixedAxes shape request)), size (fixedAxes shape request), by simp [mkFixed, hf],
    ?_, rangeMap_pairwise _, ?_⟩
  · intro fuel hfu
    obtain ⟨e, rfl⟩ := Nat.exists_eq_add_of_le hfu
    exact visits_eq ⟨fixedAxes shape request, f⟩ (wf_fixedAxes _ _) hf
      (size_fixedAxes_pos _ _ hpos) e
  · intro x
    rw [mem_rangeMap, ok_fixedAxes _ _ _ hl]

example : ∃ it, mkFixed [2, 3, 2] [2, 1, 2] = some it ∧
    it.visits 4 = some [[0,1,0],[0,1,1],[1,1,0],[1,1,1]] := ⟨_, rfl, by decide⟩
example : ∃ p ∈ ([2, 3, 2] : List Nat).zip [2, 1, 2], p.1 ≤ p.2 := by decide

/-- **C02 (errors).** When every axis is fixed the constructor throws. -/
theorem C02_all_fixed_throws (shape request : List Nat)
    (h : ∀ p ∈ shape.zip request, p.2 < p.1) : mkFixed shape request = none := by
  have : findFirst (fixedAxes shape request) = none := by
    induction shape generalizing request with
    | nil => rfl
    | cons a t ih =>
      cases request with
      | nil => rfl
      | cons r rs =>
        have h1 : r < a := h (a, r) (by simp)
        have := ih rs (fun p hp => h p (by rw [List.zip_cons_cons]; exact List.mem_cons_of_mem _ hp))
        simp only [fixedAxes, isFixed] at this
        simp only [fixedAxes, List.zipWith_cons_cons, findFirst, isFixed, h1, decide_true, if_true,
          this, Option.map_none]
  simp [mkFixed, this]

example : ∀ p ∈ ([2, 3] : List Nat).zip [1, 2], p.2 < p.1 := by decide

/-- **C04.** For two shapes of positive extents and rank ≥ 1: broadcasting succeeds exactly when the
shapes are compatible; it then stops after pairing every subscript `o` of the element-wise larger
shape, in row-major order, with the operand subscripts obtained by pinning singleton axes to 0. -/
theorem C04_broadcast_pairs (sa sb : List Nat) (hr : sa ≠ []) (hpa : ∀ s ∈ sa, 0 < s)
    (hpb : ∀ s ∈ sb, 0 < s) (hc : Compatible sa sb) :
    ∃ out F, (∀ fuel, F ≤ fuel →
        bvisits sa sb fuel = some (out.map fun o => (o, pin sa o, pin sb o))) ∧
      RowMajorOrder out ∧ (∀ o, o ∈ out ↔ InRange (List.zipWith max sa sb) o) ∧
      ∀ o ∈ out, InRange sa (pin sa o) ∧ InRange sb (pin sb o) := by
  obtain ⟨l, hl⟩ := Option.isSome_iff_exists.1 ((mkBroadcast_isSome sa sb).2 hc)
  obtain ⟨h0, h1, hO, hb, hz⟩ := mkBroadcast_spec sa sb l hl
  -- the outer shape
  have hlen : sa.length = sb.length := hc.length_eq
  have hOne : List.zipWith max sa sb ≠ [] := by
    cases sa with
    | nil => exact absurd rfl hr
    | cons a as => cases sb with
      | nil => simp at hlen
      | cons b bs => simp
  have hOpos : ∀ s ∈ List.zipWith max sa sb, 0 < s := by
    intro s hs
    obtain ⟨i, hi, rfl⟩ := List.getElem_of_mem hs
    rw [List.getElem_zipWith]
    exact lt_of_lt_of_le (hpa _ (List.getElem_mem _)) (le_max_left _ _)
  have hax : l.map toAxis = (mkShape (List.zipWith max sa sb)).axes := by
    rw [← hO]
    simp only [mkShape, List.map_map]
    apply List.map_congr_left
    intro b hb
    simp [toAxis, (hz b hb).2.2]
  obtain ⟨a, t, hat⟩ := List.exists_cons_of_ne_nil hOne
  -- end
  have hlne : l ≠ [] := by
    intro h; rw [h] at hO; exact hOne hO.symm
  obtain ⟨x, xs, hx⟩ := List.exists_cons_of_ne_nil hlne
  obtain ⟨e, he, hee⟩ : ∃ e, bend l = some e ∧
      (mkShape (List.zipWith max sa sb)).end = some ⟨e.map toAxis, 0⟩ := by
    subst hx
    refine ⟨_, by rw [bend, hb], ?_⟩
    simp only [SubIt.end, mkShape]
    rw [← hO]
    simp only [List.map_cons, setEnd, List.map_map]
    have hxs : ∀ b ∈ xs, toAxis b = ⟨b.sO, 0, 0, false⟩ := by
      intro b hb; simp [toAxis, (hz b (List.mem_cons_of_mem _ hb)).2.2]
    rw [List.map_congr_left hxs]
    simp [findFirst, toAxis, Function.comp_def]
  have hinv : ∀ b ∈ l, BInv b := by
    intro b hb
    obtain ⟨z0, z1, zO⟩ := hz b hb
    simp [BInv, z0, z1, zO]
  refine ⟨(List.range (size (mkShape (List.zipWith max sa sb)).axes)).map
      (sub (mkShape (List.zipWith max sa sb)).axes),
    size (mkShape (List.zipWith max sa sb)).axes, ?_, rangeMap_pairwise _, ?_, ?_⟩
  · intro fuel hfu
    obtain ⟨ex, rfl⟩ := Nat.exists_eq_add_of_le hfu
    have hv := visits_eq (mkShape (List.zipWith max sa sb)) (wf_mkShape _)
      (by rw [hat]; exact findFirst_mkShape a t) (size_mkShape_pos _ hOpos) ex
    have hbeg : (mkShape (List.zipWith max sa sb)).begin = some ⟨l.map toAxis, 0⟩ := by
      have h1 := begin_dig _ (wf_mkShape (List.zipWith max sa sb))
      have h2 : (mkShape (List.zipWith max sa sb)).axes.map
          (fun a => { a with sub := if a.fixed then a.inpt else 0 }) = l.map toAxis := by
        rw [hax]
        simp [mkShape]
      simp only [SubIt.begin, h2]
      rw [hax, hat, findFirst_mkShape]; rfl
    simp only [SubIt.visits, hbeg, hee] at hv
    simp only [bvisits, hl, he, hb]
    rw [bloop_eq e sa sb 0 _ l hinv h0 h1 hpa hpb, hv]
    simp
  · intro o; rw [mem_rangeMap, ok_mkShape]
  · intro o ho
    rw [mem_rangeMap, ok_mkShape] at ho
    clear hl h0 h1 hO hb hz hOne hOpos hax hat he hee hinv hx hlne hr hlen
    simp only [InRange, pin] at ho ⊢
    induction sa generalizing sb o with
    | nil => cases hc; simp
    | cons a as ih =>
      cases hc with
      | @cons _ b _ bs hab hrest =>
      cases o with
      | nil => cases ho
      | cons y ys =>
        simp only [List.zipWith_cons_cons, List.forall₂_cons] at ho ⊢
        have := ih bs (fun s hs => hpa s (List.mem_cons_of_mem _ hs))
          (fun s hs => hpb s (List.mem_cons_of_mem _ hs)) hrest ys ho.2
        have pa := hpa a List.mem_cons_self
        have pb := hpb b List.mem_cons_self
        have hy := ho.1
        refine ⟨⟨?_, this.1⟩, ⟨?_, this.2⟩⟩
        · split
          · exact pa
          · rcases hab with h | h | h
            · subst h; simpa using hy
            · exact absurd h (by assumption)
            · subst h; rwa [max_eq_left (by omega)] at hy
        · split
          · exact pb
          · rcases hab with h | h | h
            · subst h; simpa using hy
            · subst h; rwa [max_eq_right (by omega)] at hy
            · exact absurd h (by assumption)

example : Compatible [1, 3] [2, 1] ∧ bvisits [1, 2] [2, 1] 4 =
    some [([0,0],[0,0],[0,0]), ([0,1],[0,1],[0,0]), ([1,0],[0,0],[1,0]), ([1,1],[0,1],[1,0])] := by
  refine ⟨by simp [Compatible], by decide⟩

/-- **C04 (rejection).** Incompatible shapes are always rejected with an exception, compatible ones
never are (no condition on the extents). -/
theorem C04_broadcast_rejects (sa sb : List Nat) :
    mkBroadcast sa sb = none ↔ ¬ Compatible sa sb := by
  rw [← mkBroadcast_isSome]
  cases mkBroadcast sa sb <;> simp

example : ¬ Compatible [2, 3] [3, 2] := by simp [Compatible]

/-- **C04 (limits).** Positivity is needed: broadcasting an empty array (extent 0) with a singleton
visits element 0 of the empty operand. -/
theorem C04_zero_extent_counterexample :
    bvisits [0] [1] 1 = some [([0], [0], [0])] ∧ ¬ InRange [0] [0] := by
  exact ⟨by decide, by simp [InRange]⟩

/-- **C03.** For every shape of positive extents and every linear index below the number of elements,
`lin2sub` with the row-ordered strides gives a valid subscript and `sub2lin` takes it back. -/
theorem C03_lin2sub_sub2lin (shape : List Nat) (hpos : ∀ s ∈ shape, 0 < s) (l : Nat)
    (hl : l < shape.prod) :
    InRange shape (lin2sub l (rowStride shape)) ∧
      sub2lin (lin2sub l (rowStride shape)) (rowStride shape) = some l := by
  have hl' : l < size (mkShape shape).axes := by
    rw [← foldr_eq_size]; simpa [List.prod] using hl
  rw [lin2sub_row shape hpos l hl']
  refine ⟨?_, sub2lin_sub shape l hl'⟩
  rw [← ok_mkShape]
  exact sub_ok _ _ hl'

example : lin2sub 7 (rowStride [2, 3, 4]) = [0, 1, 3] ∧ 7 < ([2, 3, 4] : List Nat).prod := by decide

/-- **C03.** For every valid subscript of a row-ordered array the linear index is below the number of
elements, and `lin2sub` takes it back. -/
theorem C03_sub2lin_lin2sub (shape x : List Nat) (hx : InRange shape x) :
    ∃ l, sub2lin x (rowStride shape) = some l ∧ l < shape.prod ∧
      lin2sub l (rowStride shape) = x := by
  obtain ⟨k, hk, rfl⟩ := ok_sub _ _ ((ok_mkShape shape x).2 hx)
  have hpos : ∀ s ∈ shape, 0 < s := by
    clear hk
    generalize sub (mkShape shape).axes k = y at hx
    simp only [InRange] at hx
    induction hx with
    | nil => simp
    | cons h _ ih =>
      intro s hs
      rcases List.mem_cons.1 hs with rfl | hs
      · omega
      · exact ih s hs
  refine ⟨k, sub2lin_sub shape k hk, ?_, lin2sub_row shape hpos k hk⟩
  rw [← foldr_eq_size] at hk
  simpa [List.prod] using hk

example : InRange [2, 3, 4] [1, 2, 3] := by simp [InRange]

/-- **C03.** Distinct subscripts of a row-ordered array never share a memory position. -/
theorem C03_no_collision (shape x y : List Nat) (hx : InRange shape x) (hy : InRange shape y)
    (h : sub2lin x (rowStride shape) = sub2lin y (rowStride shape)) : x = y := by
  obtain ⟨l, h1, _, h2⟩ := C03_sub2lin_lin2sub shape x hx
  obtain ⟨m, h3, _, h4⟩ := C03_sub2lin_lin2sub shape y hy
  rw [h1, h3] at h
  rw [← h2, ← h4, Option.some.inj h]

/-- **C01/C03.** Iterating over a row-ordered array visits memory positions 0, 1, 2, … in order. -/
theorem C03_iteration_follows_memory (shape : List Nat) (hr : shape ≠ []) (hpos : ∀ s ∈ shape, 0 < s) :
    ∃ out F, (∀ fuel, F ≤ fuel → (mkShape shape).visits fuel = some out) ∧
      out.map (sub2lin · (rowStride shape)) = (List.range shape.prod).map some := by
  obtain ⟨a, t, rfl⟩ := List.exists_cons_of_ne_nil hr
  refine ⟨(List.range (size (mkShape (a :: t)).axes)).map (sub (mkShape (a :: t)).axes),
    size (mkShape (a :: t)).axes, ?_, ?_⟩
  · intro fuel hf
    obtain ⟨e, rfl⟩ := Nat.exists_eq_add_of_le hf
    exact visits_eq (mkShape (a :: t)) (wf_mkShape _) (findFirst_mkShape a t)
      (size_mkShape_pos _ hpos) e
  · have hsz : size (mkShape (a :: t)).axes = (a :: t).prod := by
      rw [← foldr_eq_size]; rfl
    rw [hsz, List.map_map]
    apply List.map_congr_left
    intro k hk
    rw [List.mem_range, ← hsz] at hk
    exact sub2lin_sub _ k hk

/-- **C03 (two dimensions).** The two-dimensional overload is right for row-ordered strides `(n₁,1)`. -/
theorem C03_lin2sub2_row (n0 n1 i j : Nat) (hi : i < n0) (hj : j < n1) :
    sub2lin2 (i, j) (n1, 1) < n0 * n1 ∧ lin2sub2 (sub2lin2 (i, j) (n1, 1)) (n1, 1) = (i, j) := by
  have h1 : 0 < n1 := by omega
  constructor
  · simp only [sub2lin2]
    have : (i + 1) * n1 ≤ n0 * n1 := Nat.mul_le_mul_right _ hi
    have h2 : (i + 1) * n1 = i * n1 + n1 := by ring
    omega
  · simp only [lin2sub2, sub2lin2, mul_one]
    rw [if_neg (by omega)]
    have h2 : (i * n1 + j) / n1 = i := by
      rw [mul_comm, Nat.mul_add_div h1, Nat.div_eq_of_lt hj]; rfl
    simp only [h2, Nat.div_one, Prod.mk.injEq, true_and]
    omega

example : lin2sub2 (sub2lin2 (1, 2) (3, 1)) (3, 1) = (1, 2) := by decide

/-- **C03 (two dimensions).** … and for column-ordered strides `(1,n₀)` when `n₀ ≥ 2`. -/
theorem C03_lin2sub2_column_partial (n0 i j : Nat) (hi : i < n0) (h2 : 2 ≤ n0) :
    lin2sub2 (sub2lin2 (i, j) (1, n0)) (1, n0) = (i, j) := by
  have h0 : 0 < n0 := by omega
  simp only [lin2sub2, sub2lin2, mul_one]
  rw [if_pos (by omega)]
  have h3 : (i + j * n0) / n0 = j := by
    rw [add_comm, mul_comm, Nat.mul_add_div h0, Nat.div_eq_of_lt hi]; rfl
  simp only [h3, Nat.div_one, Prod.mk.injEq, and_true]
  omega

/-- **C03 (limits).** Column order with a single row: `(0,1)` of a 1×2 column-ordered array is stored
at linear index 1, but `lin2sub` returns `(1,0)`, which is out of range. -/
theorem C03_lin2sub2_column_counterexample :
    sub2lin2 (0, 1) (1, 1) = 1 ∧ lin2sub2 1 (1, 1) = (1, 0) := by decide

/-- **C03 (limits).** The general overload is wrong in column order: in a 2×2 column-ordered array
(strides 1,2) the linear index 2 belongs to `(0,1)`, `lin2sub` returns `(2,0)`. -/
theorem C03_lin2sub_column_counterexample :
    sub2lin [0, 1] [1, 2] = some 2 ∧ lin2sub 2 [1, 2] = [2, 0] ∧ ¬ InRange [2, 2] [2, 0] := by
  refine ⟨by decide, by decide, by simp [InRange]⟩

end Brille.Props
