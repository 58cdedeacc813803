import Verif.Proofs.ArrayApi
import Verif.Proofs.ArrayLeak
/-
Arrays over shared memory.

C55: views show exactly the selected elements and share their memory.
C05: decoupled arrays are independent copies.
C06: resizing and appending.
C54: memory safety of every history of array calls.
-/
namespace Brille.Props
open Brille.Arr Brille.Spec Brille.Subscript
variable {T : Type} [Inhabited T]

/-! ### C55: views -/

/-- `view()` of any array of positive extents is a window on all of it. -/
theorem C55_view (k : Kind) {s : Store T} (hr : PlainReachable k s) {i : Nat} {shape : List Nat}
    (hi : shapeOf s i = some shape) (hne : shape ≠ []) (hpos : ∀ n ∈ shape, 0 < n) :
    ∃ s', step k s (.view i) = .ok s' ∧ Window k s s' i s.nArr shape id := by
  obtain ⟨hinv, hchk, hfit⟩ := plain_facts hr
  obtain ⟨h, e, rfl⟩ := shapeOf_some hi
  have hc := hchk i h e
  simp only [initCheck, Bool.and_eq_true, beq_iff_eq, decide_eq_true_eq] at hc
  simp only [step, e]
  exact window_mk hinv e (arr_lt hinv e) h.shift h.shape id hne
    (fun n hn => hpos n (List.mem_of_mem_tail hn)) hc.1 hne (hfit i h e) (fun x hx => hx)
    (fun x y _ _ hxy => hxy) (fun x _ => rfl) (by omega)

/-- `view(a)` shows row `a`; asking for a row that does not exist throws and changes nothing. -/
theorem C55_row (k : Kind) {s : Store T} (hr : PlainReachable k s) {i n : Nat} {ns : List Nat}
    (hi : shapeOf s i = some (n :: ns)) (hpos : ∀ m ∈ ns, 0 < m) (a : Nat) :
    (a < n → ∃ s', step k s (.viewAt i a) = .ok s' ∧
      Window k s s' i s.nArr (1 :: ns) (fun x => a :: x.tail)) ∧
    (n ≤ a → step k s (.viewAt i a) = .threw s) := by
  obtain ⟨hinv, hchk, hfit⟩ := plain_facts hr
  obtain ⟨h, e, hsh⟩ := shapeOf_some hi
  have hc := hchk i h e
  simp only [initCheck, Bool.and_eq_true, beq_iff_eq, decide_eq_true_eq] at hc
  have hfi := hfit i h e
  rw [hsh] at hc
  obtain ⟨t, ts, hst⟩ : ∃ t ts, h.stride = t :: ts := by
    cases hq : h.stride with
    | nil => rw [hq] at hc; simp at hc
    | cons t ts => exact ⟨t, ts, rfl⟩
  simp only [step, e, hsh, hst]
  refine ⟨fun ha => ?_, fun ha => if_neg (by omega)⟩
  rw [if_pos ha]
  have hadd : ∀ x, InRange (1 :: ns) x →
      (sub2lin x h.stride).map (· + (h.shift + a * t)) = h.addr (a :: x.tail) := by
    intro x hx
    obtain ⟨y, ys, rfl, hy, hys⟩ := inRange_cons hx
    have hy0 : y = 0 := by omega
    subst hy0
    simp only [hst, Handle.addr, sub2lin, List.tail_cons, Option.map_map]
    congr 1
    funext b
    simp
    omega
  have htr : ∀ x, InRange (1 :: ns) x → InRange h.shape (a :: x.tail) := by
    intro x hx
    obtain ⟨y, ys, rfl, hy, hys⟩ := inRange_cons hx
    rw [hsh]
    exact List.Forall₂.cons ha hys
  have hhne : h.shape ≠ [] := by rw [hsh]; simp
  refine window_mk hinv e (arr_lt hinv e) _ (1 :: ns) (fun x => a :: x.tail) (by simp) hpos
    (by rw [hst] at hc ⊢; simpa using hc.1) hhne hfi htr ?_ hadd
    (shift_le hhne hfi (by simpa using hpos) htr hadd)
  intro x y hx hy hxy
  obtain ⟨y1, ys1, rfl, hy1, -⟩ := inRange_cons hx
  obtain ⟨y2, ys2, rfl, hy2, -⟩ := inRange_cons hy
  simp only [List.tail_cons, List.cons.injEq, true_and] at hxy
  rw [hxy, show y1 = y2 by omega]

/-- `view(a, b)` shows rows `a`, …, `b-1`. -/
theorem C55_rows (k : Kind) {s : Store T} (hr : PlainReachable k s) {i n : Nat} {ns : List Nat}
    (hi : shapeOf s i = some (n :: ns)) (hpos : ∀ m ∈ ns, 0 < m) {a b : Nat} (hab : a < b)
    (hb : b ≤ n) : ∃ s', step k s (.viewRange i a b) = .ok s' ∧
      Window k s s' i s.nArr ((b - a) :: ns) (fun x => (a + x.headD 0) :: x.tail) := by
  obtain ⟨hinv, hchk, hfit⟩ := plain_facts hr
  obtain ⟨h, e, hsh⟩ := shapeOf_some hi
  have hc := hchk i h e
  simp only [initCheck, Bool.and_eq_true, beq_iff_eq, decide_eq_true_eq] at hc
  have hfi := hfit i h e
  rw [hsh] at hc
  obtain ⟨t, ts, hst⟩ : ∃ t ts, h.stride = t :: ts := by
    cases hq : h.stride with
    | nil => rw [hq] at hc; simp at hc
    | cons t ts => exact ⟨t, ts, rfl⟩
  simp only [step, e, hsh, hst]
  rw [if_pos ⟨hab, by omega, hb⟩]
  have hadd : ∀ x, InRange ((b - a) :: ns) x →
      (sub2lin x h.stride).map (· + (h.shift + a * t)) = h.addr ((a + x.headD 0) :: x.tail) := by
    intro x hx
    obtain ⟨y, ys, rfl, hy, hys⟩ := inRange_cons hx
    simp only [hst, Handle.addr, sub2lin, List.tail_cons, List.headD_cons, Option.map_map]
    congr 1
    funext b
    simp only [Function.comp, Nat.add_mul]
    omega
  have htr : ∀ x, InRange ((b - a) :: ns) x → InRange h.shape ((a + x.headD 0) :: x.tail) := by
    intro x hx
    obtain ⟨y, ys, rfl, hy, hys⟩ := inRange_cons hx
    rw [hsh]
    exact List.Forall₂.cons (by simp; omega) hys
  have hhne : h.shape ≠ [] := by rw [hsh]; simp
  refine window_mk hinv e (arr_lt hinv e) _ ((b - a) :: ns) _ (by simp) hpos
    (by rw [hst] at hc ⊢; simpa using hc.1) hhne hfi htr ?_ hadd
    (shift_le hhne hfi (by
      intro m hm
      rcases List.mem_cons.1 hm with rfl | hm
      · omega
      · exact hpos m hm) htr hadd)
  intro x y hx hy hxy
  obtain ⟨y1, ys1, rfl, hy1, -⟩ := inRange_cons hx
  obtain ⟨y2, ys2, rfl, hy2, -⟩ := inRange_cons hy
  simpa using hxy

/-- `view(corner)` shows the elements from the corner on; along an axis where the corner lies outside
the array it is ignored. -/
theorem C55_corner (k : Kind) {s : Store T} (hr : PlainReachable k s) {i : Nat} {shape : List Nat}
    (hi : shapeOf s i = some shape) (hne : shape ≠ []) (hpos : ∀ n ∈ shape, 0 < n) (v : List Nat)
    (hv : v.length = shape.length) :
    ∃ s', step k s (.viewFrom i v) = .ok s' ∧
      Window k s s' i s.nArr (List.zipWith (fun n v => if v < n then n - v else n) shape v)
        (fun x => List.zipWith (· + ·) x (List.zipWith (fun n v => if v < n then v else 0) shape v)) := by
  obtain ⟨hinv, hchk, hfit⟩ := plain_facts hr
  obtain ⟨h, e, rfl⟩ := shapeOf_some hi
  have hc := hchk i h e
  simp only [initCheck, Bool.and_eq_true, beq_iff_eq, decide_eq_true_eq] at hc
  obtain ⟨sh, o, h1, h2, h3, h4, h5⟩ := offsetView_spec h.shape v h.stride hv hc.1.symm
  simp only [step, e, h1]
  subst h3
  have hl : ∀ x, InRange (List.zipWith (fun n v => if v < n then n - v else n) h.shape v) x →
      x.length = h.shape.length := fun x hx => by rw [← h2]; exact List.Forall₂.length_eq hx
  have hadd : ∀ x, InRange (List.zipWith (fun n v => if v < n then n - v else n) h.shape v) x →
      (sub2lin x h.stride).map (· + (h.shift + o)) = h.addr (List.zipWith (· + ·) x
        (List.zipWith (fun n v => if v < n then v else 0) h.shape v)) := by
    intro x hx
    rw [Handle.addr, ← h4 x (hl x hx), Option.map_map]
    congr 1
    funext b
    simp only [Function.comp]
    omega
  have hpos' : ∀ n ∈ List.zipWith (fun n v => if v < n then n - v else n) h.shape v, 0 < n := by
    intro n hn
    obtain ⟨j, hj, rfl⟩ := List.mem_iff_getElem.1 hn
    rw [List.getElem_zipWith]
    split
    · omega
    · exact hpos _ (List.getElem_mem _)
  refine window_mk hinv e (arr_lt hinv e) _ _ _ ?_ (fun n hn => hpos' n (List.mem_of_mem_tail hn))
    (by rw [h2, hc.1]) hne (hfit i h e) h5 ?_ hadd (shift_le hne (hfit i h e) hpos' h5 hadd)
  · intro h0
    rw [h0] at h2
    exact hne (List.length_eq_zero_iff.1 h2.symm)
  · intro x y hx hy hxy
    refine zipAdd_inj _ _ _ ?_ ?_ hxy
    · rw [hl x hx]; simp [hv]
    · rw [hl y hy]; simp [hv]

/-- Every subscript allowed by the shape can be read and assigned, in every state of every program;
the assignment changes that element and no other element of the array. -/
theorem C55_access (k : Kind) {s : Store T} (hr : PlainReachable k s) {i : Nat} {shape : List Nat}
    (hi : shapeOf s i = some shape) (hne : shape ≠ []) {x : List Nat} (hx : InRange shape x) (v : T) :
    (∃ u, elem s i x = some u) ∧ ∃ s', step k s (.write i x v) = .ok s' ∧ elem s' i x = some v ∧
      ∀ y, InRange shape y → y ≠ x → elem s' i y = elem s i y := by
  obtain ⟨hinv, hchk, hfit⟩ := plain_facts hr
  obtain ⟨h, e, rfl⟩ := shapeOf_some hi
  have hf := hfit i h e hne
  obtain ⟨u, hu⟩ := readable_of_fits hinv e hne (hfit i h e) x hx
  refine ⟨⟨u, hu⟩, ?_⟩
  obtain ⟨g, p, b, a, h1, h2, h3, h4, h5⟩ := elem_some hu
  rw [e] at h1; cases h1
  have hlt := (List.getElem?_eq_some_iff.1 h5).1
  refine ⟨{ s with block := Function.update s.block p (some (b.set a v)) }, ?_, ?_, ?_⟩
  · simp only [step, e, h2, h4, h3, if_pos hlt]
  · simp [elem, e, h2, h4, hlt]
  · intro y hy hyx
    obtain ⟨ay, hay, -⟩ := hf.1 y hy
    have hya : h.addr y = some (ay + h.shift) := by simp [Handle.addr, hay]
    have hne' : ay + h.shift ≠ a := by
      intro hh
      obtain ⟨ax, hax, -⟩ := hf.1 x hx
      have : h.addr x = some (ax + h.shift) := by simp [Handle.addr, hax]
      rw [h4] at this
      have := Option.some.inj this
      exact hyx (hf.2 y x hy hx (by rw [hay, hax]; congr 1; omega))
    simp [elem, e, h2, hya, h3, List.getElem?_set_ne (Ne.symm hne')]

/-- The elements seen by a program, for the examples. -/
def seen (k : Kind) (l : List (Op Nat)) (q : List (Nat × List Nat)) : List (Option Nat) :=
  match run k l (Store.empty Nat) with
  | .ok s => q.map fun p => elem s p.1 p.2
  | _ => []

/-- What became of a program. -/
def outcome (k : Kind) (l : List (Op Nat)) : Option (Option Err) :=
  match run k l (Store.empty Nat) with
  | .ok _ => some none
  | .ub e => some (some e)
  | .threw _ => none

theorem plain_nil (k : Kind) (l : List (Op Nat)) (hp : ∀ o ∈ l, PlainOp o)
    (h : outcome k l = some none) : ∃ s, PlainReachable k s ∧ run k l (Store.empty Nat) = .ok s := by
  simp only [outcome] at h
  split at h
  · rename_i s e; exact ⟨s, ⟨l, hp, e⟩, e⟩
  · cases h
  · cases h

/-- Non-vacuity: a row of a 3×2 array, of either class; an assignment through the view is seen in the
array and the other way round. -/
example (k : Kind) : seen k [.new [3, 2] 0, .write 0 [1, 1] 5, .viewAt 0 1, .write 1 [0, 0] 7,
    .write 0 [1, 1] 9] [(1, [0, 0]), (1, [0, 1]), (0, [1, 0]), (0, [0, 0])] =
    [some 7, some 9, some 7, some 0] := by cases k <;> decide +kernel

example (k : Kind) : ∃ s : Store Nat, PlainReachable k s ∧ shapeOf s 0 = some [3, 2] := by
  obtain ⟨s, h, e⟩ := plain_nil k [.new [3, 2] 0] (by simp [PlainOp]) (by cases k <;> decide +kernel)
  exact ⟨s, h, by cases e; rfl⟩

/-! ### C05: decoupling -/

theorem decouple_plain {k : Kind} {s : Store T} (hr : PlainReachable k s) {i : Nat} {h : Handle}
    (e : s.arr i = some h) (hb : Borrowed s i) (hne : h.shape ≠ []) (hpos : ∀ n ∈ h.shape.tail, 0 < n)
    (hnd : k = .nd → Arr.sizeOf h.shape ≠ h.num →
      ∀ x, InRange h.shape x → ∃ a, sub2lin x h.stride = some a ∧ a < Arr.sizeOf h.shape) :
    ∃ s', step k s (.decouple i) = .ok s' ∧ FreshCopy k s s' i s.nArr h.shape id := by
  obtain ⟨hinv, hchk, hfit⟩ := plain_facts hr
  have hc := hchk i h e
  simp only [initCheck, Bool.and_eq_true, beq_iff_eq, decide_eq_true_eq] at hc
  obtain ⟨g, eg, hg⟩ := hb
  rw [e] at eg; cases eg
  obtain ⟨s', h1, h2, h3, h4, h5⟩ := decouple_spec hinv e hne hpos hc.1 hc.2
    (readable_of_fits hinv e hne (hfit i h e)) hnd (by
      rcases hg with hg | hg | ⟨j, g, r, hji, ej, hr1, hr2⟩
      · exact .inl hg
      · exact .inr (.inl hg)
      · exact .inr (.inr (useCount_gt hinv hji e ej hr1 hr2)))
  exact ⟨s', h1, h2, h3, h4, h5⟩

/-- `Array2`: decoupling an array that does not have its memory to itself gives a fresh copy with the
same shape and the same element at every subscript; it never fails and never leaves its memory. -/
theorem C05_array2_decouple {s : Store T} (hr : PlainReachable .two s) {i : Nat} {shape : List Nat}
    (hi : shapeOf s i = some shape) (hne : shape ≠ []) (hpos : ∀ n ∈ shape.tail, 0 < n)
    (hb : Borrowed s i) :
    ∃ s', step .two s (.decouple i) = .ok s' ∧ FreshCopy .two s s' i s.nArr shape id := by
  obtain ⟨h, e, rfl⟩ := shapeOf_some hi
  exact decouple_plain hr e hb hne hpos (fun h => absurd h (by simp))

/-- A sole mutable owner is not copied: the result is the same memory. -/
theorem C05_sole_owner (k : Kind) {s : Store T} (hr : PlainReachable k s) {i : Nat} {shape : List Nat}
    (hi : shapeOf s i = some shape) (hb : ¬ Borrowed s i) :
    ∃ s', step k s (.decouple i) = .ok s' ∧ shapeOf s' s.nArr = some shape ∧
      (∀ x, elem s' s.nArr x = elem s i x) ∧
      ∀ x v, step k s' (.write s.nArr x v) = step k s' (.write i x v) := by
  obtain ⟨hinv, -, -⟩ := plain_facts hr
  obtain ⟨h, e, rfl⟩ := shapeOf_some hi
  have hlt := arr_lt hinv e
  have hno : ¬ (h.own = false ∨ h.mutable = false ∨ useCount s h.ref > 1) := by
    rintro (hq | hq | hq)
    · exact hb ⟨h, e, .inl hq⟩
    · exact hb ⟨h, e, .inr (.inl hq)⟩
    · simp only [useCount] at hq
      split at hq
      · omega
      · rename_i hrn
        obtain ⟨r, hrr⟩ := Option.ne_none_iff_exists'.1 hrn
        obtain ⟨a, b, ha, hb', hab⟩ := Finset.one_lt_card_iff.1 hq
        have mem : ∀ a, a ∈ (Finset.range s.nArr).filter
            (fun i => (s.arr i).any fun g => g.ref == h.ref) → a ≠ i →
            False := by
          intro a ha hai
          obtain ⟨-, ha2⟩ := Finset.mem_filter.1 ha
          cases hg : s.arr a with
          | none => rw [hg] at ha2; simp at ha2
          | some g =>
            rw [hg] at ha2
            simp only [Option.any_some, beq_iff_eq] at ha2
            exact hb ⟨h, e, .inr (.inr ⟨a, g, r, hai, hg, by rw [ha2, hrr], hrr⟩)⟩
        by_cases hai : a = i
        · exact mem b hb' (fun h => hab (hai.trans h.symm))
        · exact mem a ha hai
  refine ⟨s.push h, ?_, ?_, ?_, ?_⟩
  · simp only [step, e, if_neg hno]
  · simp [shapeOf, Store.push]
  · intro x
    simp [elem, Store.push, e]
  · intro x v
    have e1 : (s.push h).arr i = some h := by
      simp only [Store.push]; rw [Function.update_of_ne (by omega)]; exact e
    exact write_congr k e1 (by simp [Store.push]) rfl rfl v

/-- So the copy is not independent in general: an assignment to the decoupled array of a sole owner
changes the original. -/
theorem C05_shared_counterexample (k : Kind) :
    seen k [.new [2, 2] 0, .decouple 0, .write 1 [0, 0] 5] [(0, [0, 0])] = [some 5] := by
  cases k <;> decide +kernel

/-- `Array2`: `extract(a)` (a view of row `a`, decoupled, the view destroyed) is an independent copy of
the row, for all arrays, whoever owns their memory. -/
theorem C05_array2_extract {s : Store T} (hr : PlainReachable .two s) {i n : Nat} {ns : List Nat}
    (hi : shapeOf s i = some (n :: ns)) (hpos : ∀ m ∈ ns, 0 < m) {a : Nat} (ha : a < n) :
    ∃ s1 s2, step .two s (.viewAt i a) = .ok s1 ∧ step .two s1 (.decouple s.nArr) = .ok s2 ∧
      shapeOf s2 s1.nArr = some (1 :: ns) ∧
      (∀ x, InRange (1 :: ns) x → elem s2 s1.nArr x = elem s i (a :: x.tail)) ∧
      ∀ j, j ≠ s1.nArr → Apart .two s2 s1.nArr j := by
  obtain ⟨s1, h1, hw⟩ := (C55_row .two hr hi hpos a).1 ha
  have hr1 := plain_step hr (o := .viewAt i a) trivial h1
  have hb : Borrowed s1 s.nArr := by
    obtain ⟨h, e, hsh⟩ := shapeOf_some hi
    simp only [step, e] at h1
    split at h1
    · split at h1
      · simp only [mkView] at h1
        split at h1
        · cases h1
          exact ⟨_, by simp only [Store.push, Function.update_self]; rfl, .inr (.inl rfl)⟩
        · cases h1
      · cases h1
    · cases h1
  obtain ⟨s2, h2, hc⟩ := C05_array2_decouple hr1 hw.shape_eq (by simp) hpos hb
  refine ⟨s1, s2, h1, h2, hc.shape_eq, ?_, hc.apart⟩
  intro x hx
  rw [hc.read x hx]
  exact hw.read x hx

/-- `Array`: the same for decoupling as long as the array uses all of its memory, or its strides fit
into the memory of the copy. Missing from the full property: all other strided views, for which it is
false (next theorem). -/
theorem C05_array_decouple_partial {s : Store T} (hr : PlainReachable .nd s) {i : Nat} {h : Handle}
    (e : s.arr i = some h) (hne : h.shape ≠ []) (hpos : ∀ n ∈ h.shape.tail, 0 < n)
    (hb : Borrowed s i)
    (hfit : Arr.sizeOf h.shape = h.num ∨ GoodStrides h.shape h.stride (Arr.sizeOf h.shape)) :
    ∃ s', step .nd s (.decouple i) = .ok s' ∧ FreshCopy .nd s s' i s.nArr h.shape id := by
  refine decouple_plain hr e hb hne hpos ?_
  intro _ hnum
  rcases hfit with hf | hf
  · exact absurd hf hnum
  · exact hf.1

/-- `Array`: whenever the strides do not fit, decoupling writes outside the memory of the copy. -/
theorem C05_array_overflow {s : Store T} (hr : PlainReachable .nd s) {i : Nat} {h : Handle}
    (e : s.arr i = some h) (hne : h.shape ≠ []) (hpos : ∀ n ∈ h.shape.tail, 0 < n)
    (hb : Borrowed s i) (hnum : Arr.sizeOf h.shape ≠ h.num)
    (hfit : ¬ GoodStrides h.shape h.stride (Arr.sizeOf h.shape)) :
    step .nd s (.decouple i) = .ub .oob := by
  obtain ⟨hinv, hchk, hf⟩ := plain_facts hr
  obtain ⟨g, eg, hg⟩ := hb
  rw [e] at eg; cases eg
  have hcopy : h.own = false ∨ h.mutable = false ∨ useCount s h.ref > 1 := by
    rcases hg with hg | hg | ⟨j, g, r, hji, ej, hr1, hr2⟩
    · exact .inl hg
    · exact .inr (.inl hg)
    · exact .inr (.inr (useCount_gt hinv hji e ej hr1 hr2))
  have hcont : ∃ old, contents s h = some old := by
    cases hd : h.data with
    | none => exact ⟨[], by simp [contents, hd]⟩
    | some p =>
      obtain ⟨b, hb, -⟩ := hinv.ptr i h p e hd
      exact ⟨b, by simp [contents, hd, hb]⟩
  obtain ⟨old, hold⟩ := hcont
  have hnone : decoupleBuf .nd h old = none := by
    rw [Option.eq_none_iff_forall_ne_some]
    rintro ⟨nd, st⟩ hd
    simp only [decoupleBuf, if_neg hnum, Option.bind_eq_some_iff, Option.map_eq_some_iff] at hd
    obtain ⟨l, hl, nd', hcl, -⟩ := hd
    obtain ⟨l', hl', -, hmem⟩ := subs_spec h.shape hne hpos
    rw [hl] at hl'
    cases hl'
    refine hfit ⟨fun x hx => ?_, (hf i h e hne).2⟩
    have := copyLoop_bound _ _ _ _ _ _ _ hcl x ((hmem x).2 hx)
    simpa using this
  simp only [step, e, if_pos hcopy, hold, hnone]

/-- `Array`: decoupling a view of the last column of a 2×2 array, and extracting a row of a
column-ordered 2×3 array, write outside the new memory; `Array2` copies correctly. -/
theorem C05_array_counterexample :
    outcome .nd [.new [2, 2] 0, .viewFrom 0 [0, 1], .decouple 1] = some (some .oob) ∧
    outcome .nd [.newStrided [2, 3] [1, 2] 0, .viewAt 0 1, .decouple 1] = some (some .oob) ∧
    outcome .two [.new [2, 2] 0, .viewFrom 0 [0, 1], .decouple 1] = some none ∧
    outcome .two [.newStrided [2, 3] [1, 2] 0, .viewAt 0 1, .decouple 1] = some none := by
  decide +kernel

/-- Non-vacuity: decoupled views of a column, and of a row of external memory. -/
example : seen .two [.wrap [1, 2, 3, 4, 5, 6] [2, 3] [3, 1] true, .viewFrom 0 [0, 2], .decouple 1,
    .write 2 [1, 0] 8, .write 0 [0, 2] 9] [(2, [0, 0]), (2, [1, 0]), (1, [0, 0]), (1, [1, 0])] =
    [some 3, some 8, some 9, some 6] := by decide +kernel

example (k : Kind) : ∃ s : Store Nat, PlainReachable k s ∧ Borrowed s 1 ∧ shapeOf s 1 = some [2, 2] := by
  obtain ⟨s, h, e⟩ := plain_nil k [.new [2, 2] 0, .view 0] (by simp [PlainOp])
    (by cases k <;> decide +kernel)
  refine ⟨s, h, ?_, ?_⟩ <;> cases e
  · exact ⟨_, rfl, .inr (.inl rfl)⟩
  · rfl

/-! ### C06: resizing and appending -/

/-- `resize` keeps every element inside both shapes, gives every new element the fill value, and does
not disturb other arrays, for arrays whose origin is not shifted, when all extents shrink or all grow and
no extent but the first is zero. -/
theorem C06_resize_partial (k : Kind) {s : Store T} (hr : PlainReachable k s) {i : Nat} {h : Handle}
    (e : s.arr i = some h) (hsh : h.shift = 0) {ns : List Nat} (hns : ns ≠ [])
    (hlen : ns.length = h.shape.length)
    (hgs : (List.Forall₂ (· ≤ ·) ns h.shape ∧ ∀ n ∈ ns.tail, 0 < n) ∨
      (List.Forall₂ (· ≤ ·) h.shape ns ∧ ∀ n ∈ h.shape.tail, 0 < n)) (v : T) :
    ∃ s', step k s (.resize i ns v) = .ok s' ∧ shapeOf s' i = some ns ∧
      (∀ x, InRange ns x → InRange h.shape x → elem s' i x = elem s i x) ∧
      (∀ x, InRange ns x → ¬ InRange h.shape x → elem s' i x = some v) ∧
      (∀ j, j ≠ i → s'.arr j = s.arr j ∧ ∀ x, elem s' j x = elem s j x) ∧
      ∀ j, j ≠ i → Apart k s' i j := by
  obtain ⟨hinv, hchk, hfit⟩ := plain_facts hr
  have hc := hchk i h e
  simp only [initCheck, Bool.and_eq_true, beq_iff_eq, decide_eq_true_eq] at hc
  have hhne : h.shape ≠ [] := by
    intro h0
    rw [h0] at hlen
    exact hns (List.length_eq_zero_iff.1 hlen)
  obtain ⟨s', nd, nt, h1, h2, h3, h4, h5, h6, h7, h8⟩ :=
    resize_spec hinv e hns hlen hc.1 hsh (readable_of_fits hinv e hhne (hfit i h e)) v hgs
  have hel : ∀ x, elem s' i x = (sub2lin x nt).bind fun a => nd[a]? := by
    intro x
    simp only [elem, h5, Function.update_self, Option.bind_some, h4, Handle.addr, hsh, Nat.add_zero]
    cases sub2lin x nt <;> rfl
  have hoth : ∀ j, j ≠ i → s'.arr j = s.arr j := fun j hj => by
    rw [h5, Function.update_of_ne hj]
  refine ⟨s', by simp only [step, e, h1], ?_, ?_, ?_, ?_, ?_⟩
  · simp [shapeOf, h5]
  · intro x hx hx'; rw [hel]; exact h7 x hx hx'
  · intro x hx hx'; rw [hel]; exact h8 x hx hx'
  · intro j hj
    exact ⟨hoth j hj, fun x => elem_congr (hoth j hj) (fun g p eg hp => h6 j g p hj eg hp) x⟩
  · intro j hj
    refine apart_of k ?_
    intro g g' p eg eg' hg hg'
    rw [h5, Function.update_self] at eg
    cases eg
    cases hg
    rw [hoth j hj] at eg'
    have := ptr_lt hinv eg' hg'
    omega

/-- `resize` to a shape that is larger in one direction and smaller in another throws and changes
nothing. -/
theorem C06_mixed (k : Kind) {s : Store T} (hr : Reachable k s) {i : Nat} {shape : List Nat}
    (hi : shapeOf s i = some shape) {ns : List Nat} (hlen : ns.length = shape.length)
    (h1 : ¬ List.Forall₂ (· ≤ ·) ns shape) (h2 : ¬ List.Forall₂ (· ≤ ·) shape ns) (v : T) :
    step k s (.resize i ns v) = .threw s := by
  have hinv := reachable_inv hr
  obtain ⟨h, e, rfl⟩ := shapeOf_some hi
  have key : ∀ a b : List Nat, a.length = b.length → ¬ List.Forall₂ (· ≤ ·) a b →
      (List.zipWith (fun a b => decide (a ≤ b)) a b).all id = false := by
    intro a
    induction a with
    | nil => intro b hb hn; rw [List.length_eq_zero_iff.1 hb.symm] at hn; exact absurd .nil hn
    | cons x a ih =>
      intro b hb hn
      cases b with
      | nil => simp at hb
      | cons y b =>
        simp only [List.zipWith_cons_cons, List.all_cons, id]
        by_cases hxy : x ≤ y
        · rw [ih b (by simpa using hb) (fun h => hn (.cons hxy h)), Bool.and_false]
        · simp [hxy]
  have hs : (List.zipWith (fun a b => decide (a ≤ b)) ns h.shape).all id = false := key _ _ hlen h1
  have hg : (List.zipWith (fun a b => decide (b ≤ a)) ns h.shape).all id = false := by
    have := key _ _ hlen.symm h2
    rwa [List.zipWith_comm] at this
  have hb : ∀ old : Option (List T), resizeBuf h ns v old = .refuse := by
    intro old; simp only [resizeBuf, hs, hg]; rfl
  simp only [step, e, resize, hlen, ne_eq, not_true, if_false]
  cases hd : h.data with
  | none => simp only [Option.bind_none, hb]
  | some p =>
    obtain ⟨b, hblk, -⟩ := hinv.ptr i h p e hd
    simp only [Option.bind_some, hblk, hb]

/-- `resize` of an array whose origin is shifted never succeeds: it throws, and every array keeps its
elements. -/
theorem C06_shifted (k : Kind) {s : Store T} (hr : Reachable k s) {i : Nat} {h : Handle}
    (e : s.arr i = some h) (hsh : 0 < h.shift) {ns : List Nat} (hlen : ns.length = h.shape.length)
    (hne : ns ≠ []) (v : T) :
    ∃ s', step k s (.resize i ns v) = .threw s' ∧ ∀ j, s'.arr j = s.arr j ∧
      ∀ x, elem s' j x = elem s j x := by
  have hinv := reachable_inv hr
  have hl := (reachable_chk hr e).1
  have hcs : ∃ nt, calcStride h.stride ns = some nt := by
    have : h.stride ≠ [] := by
      intro h0
      rw [h0] at hl
      rw [hl] at hlen
      exact hne (List.length_eq_zero_iff.1 hlen)
    obtain ⟨t, ts, ht⟩ := List.exists_cons_of_ne_nil this
    rw [ht, calcStride]
    simp only [List.head?_cons]
    cases hq : (t :: ts).getLast? with
    | none => simp at hq
    | some b => exact ⟨_, rfl⟩
  obtain ⟨nt, hnt⟩ := hcs
  have hb : ∀ old : Option (List T), resizeBuf h ns v old = .refuse ∨
      ∃ nd, resizeBuf h ns v old = .shifted nd := by
    intro old
    simp only [resizeBuf, hnt, if_pos hsh]
    split
    · exact .inl rfl
    · exact .inr ⟨_, rfl⟩
  have hres : resize s i h ns v = .threw s ∨ ∃ nd, resize s i h ns v = .threw (s.alloc nd) := by
    simp only [resize, hlen, ne_eq, not_true, if_false]
    cases hd : h.data with
    | none =>
      simp only [Option.bind_none]
      rcases hb none with h | ⟨nd, h⟩
      · left; simp only [h]
      · right; exact ⟨nd, by simp only [h]⟩
    | some p =>
      obtain ⟨b, hblk, -⟩ := hinv.ptr i h p e hd
      simp only [Option.bind_some, hblk]
      rcases hb (some b) with h | ⟨nd, h⟩
      · left; simp only [h]
      · right; exact ⟨nd, by simp only [h]⟩
  rcases hres with h | ⟨nd, h⟩
  · exact ⟨s, by simp only [step, e, h], fun j => ⟨rfl, fun _ => rfl⟩⟩
  · refine ⟨s.alloc nd, by simp only [step, e, h], fun j => ⟨rfl, fun x =>
      elem_congr (s := s) (s' := s.alloc nd) rfl ?_ x⟩⟩
    intro g p eg hp
    have := ptr_lt hinv eg hp
    simp only [Store.alloc]
    rw [Function.update_of_ne (by omega)]

/-- `append(dim, extra)` puts the elements of `extra` behind those of the array along `dim`; both parts
are unchanged, and so are all other arrays. Restricted to arrays whose origin is not shifted and without
zero extents after the first dimension. -/
theorem C06_append_partial (k : Kind) {s : Store T} (hr : PlainReachable k s) {i j dim m : Nat}
    {h : Handle} (ei : s.arr i = some h) (hsh : h.shift = 0) (hij : i ≠ j) (hdim : dim < h.shape.length)
    (hx : shapeOf s j = some (h.shape.set dim m)) (hpos : ∀ n ∈ h.shape.tail, 0 < n)
    (hposx : ∀ n ∈ (h.shape.set dim m).tail, 0 < n) :
    ∃ s', step k s (.append i dim j) = .ok s' ∧
      shapeOf s' i = some (h.shape.set dim (h.shape[dim] + m)) ∧
      (∀ z, InRange (h.shape.set dim (h.shape[dim] + m)) z →
        (z.getD dim 0 < h.shape[dim] → elem s' i z = elem s i z) ∧
        (h.shape[dim] ≤ z.getD dim 0 →
          elem s' i z = elem s j (z.set dim (z.getD dim 0 - h.shape[dim])))) ∧
      (∀ j', j' ≠ i → s'.arr j' = s.arr j' ∧ ∀ z, elem s' j' z = elem s j' z) ∧
      ∀ j', j' ≠ i → Apart k s' i j' := by
  obtain ⟨hinv, hchk, hfit⟩ := plain_facts hr
  obtain ⟨x, ej, hxs⟩ := shapeOf_some hx
  have hc := hchk i h ei
  simp only [initCheck, Bool.and_eq_true, beq_iff_eq, decide_eq_true_eq] at hc
  have hhne : h.shape ≠ [] := by intro h0; rw [h0] at hdim; simp at hdim
  have hxne : x.shape ≠ [] := by rw [hxs]; simpa using hhne
  exact append_spec hinv ei ej hij hdim hxs hc.1 hsh (readable_of_fits hinv ei hhne (hfit i h ei))
    (readable_of_fits hinv ej hxne (hfit j x ej)) hpos (by rw [hxs]; exact hposx)

/-- `append` of an array whose extent differs in another dimension throws and changes nothing. -/
theorem C06_append_mismatch (k : Kind) (s : Store T) {i j dim : Nat} {a b : List Nat} (hij : i ≠ j)
    (hi : shapeOf s i = some a) (hj : shapeOf s j = some b) (hlen : b.length = a.length)
    (hdim : dim < a.length) (hne : ∃ d, d ≠ dim ∧ a[d]? ≠ b[d]?) :
    step k s (.append i dim j) = .threw s := by
  obtain ⟨h, ei, rfl⟩ := shapeOf_some hi
  obtain ⟨x, ej, rfl⟩ := shapeOf_some hj
  have : x.shape.eraseIdx dim ≠ h.shape.eraseIdx dim := by
    intro heq
    obtain ⟨d, hd, hne⟩ := hne
    rcases Nat.lt_or_gt_of_ne hd with hlt | hgt
    · have := congrArg (·[d]?) heq
      simp only [List.getElem?_eraseIdx, if_pos hlt] at this
      exact hne this.symm
    · have := congrArg (·[d - 1]?) heq
      simp only [List.getElem?_eraseIdx, if_neg (show ¬ d - 1 < dim by omega),
        show d - 1 + 1 = d by omega] at this
      exact hne this.symm
  simp only [step, ei, ej]
  rw [if_neg (by rintro (h | h | h); exacts [hij h, h hlen, by omega]), if_pos this]

/-- A zero extent after the first dimension breaks `resize` and `append` although there is nothing to
copy: the subscript iteration runs out of the memory. -/
theorem C06_zero_extent_counterexample (k : Kind) :
    outcome k [.new [2, 2] 0, .resize 0 [2, 0] 0] = some (some .oob) ∧
    outcome k [.new [2, 2] 0, .new [2, 0] 0, .append 0 1 1] = some (some .oob) := by
  cases k <;> decide +kernel

/-- Non-vacuity: growing, shrinking and appending. -/
example (k : Kind) : seen k [.new [2, 2] 1, .resize 0 [3, 2] 7, .resize 0 [3, 1] 0, .new [3, 1] 4,
    .append 0 1 1] [(0, [0, 0]), (0, [2, 0]), (0, [1, 1])] = [some 1, some 7, some 4] := by
  cases k <;> decide +kernel

example (k : Kind) : ∃ (s : Store Nat) (h : Handle), PlainReachable k s ∧ s.arr 0 = some h ∧
    h.shift = 0 ∧ h.shape = [2, 2] ∧ shapeOf s 1 = some ([2, 2].set 1 3) := by
  obtain ⟨s, h, e⟩ := plain_nil k [.new [2, 2] 0, .new [2, 3] 0] (by simp [PlainOp])
    (by cases k <;> decide +kernel)
  cases e
  exact ⟨_, _, h, rfl, rfl, rfl, rfl⟩

/-! ### C54: memory safety -/

/-- No program of array calls, with exceptions caught, ever reads, writes or deletes memory that has been
deleted. -/
theorem C54_memory_safe (k : Kind) (l : List (Op T)) :
    run k l (Store.empty T) ≠ .ub .freed ∧ run k l (Store.empty T) ≠ .ub .doubleFree := by
  have := run_safe k l (inv_empty (T := T))
  constructor <;>
  · intro h
    rw [h] at this
    simp [Safe] at this

/-- In every state a program reaches: an array object with a pointer points to live memory of exactly
the recorded length; memory handed in by the caller is still there; and array objects that share memory
share the reference counter. -/
theorem C54_live (k : Kind) {s : Store T} (hr : Reachable k s) :
    (∀ i h p, s.arr i = some h → h.data = some p → ∃ b, s.block p = some b ∧ b.length = h.num) ∧
    (∀ p, s.ext p = true → ∃ b, s.block p = some b) ∧
    (∀ i j g h p, s.arr i = some g → s.arr j = some h → g.data = some p → h.data = some p →
      g.ref = h.ref ∧ g.own = h.own) := by
  have hinv := reachable_inv hr
  refine ⟨hinv.ptr, hinv.kept, fun i j g h p eg eh hg hh => ⟨hinv.pair i j g h p eg eh hg hh, ?_⟩⟩
  have h1 := (hinv.own i g p eg hg).1
  have h2 := (hinv.own j h p eh hh).1
  rw [h1] at h2
  simpa using h2

/-- In a program without the leaking calls, all memory the library allocated is in use by some array
object; in particular nothing is left when the last array object is destroyed. Missing from the full
property: the leaking calls (next theorem). -/
theorem C54_no_leak_partial (k : Kind) (l : List (Op T)) (hl : Thrifty k l (Store.empty T))
    {s : Store T} (hr : run k l (Store.empty T) = .ok s) :
    (∀ p b, s.block p = some b → s.ext p = false → ∃ i h, s.arr i = some h ∧ h.data = some p) ∧
    ((∀ i, s.arr i = none) → ∀ p, s.ext p = false → s.block p = none) := by
  have key : ∀ (l : List (Op T)) (s0 : Store T), Inv s0 → NoLeak s0 → Thrifty k l s0 →
      run k l s0 = .ok s → NoLeak s := by
    intro l
    induction l with
    | nil => intro s0 _ h _ hr; cases hr; exact h
    | cons o l ih =>
      intro s0 hi hn ht hr
      obtain ⟨hc, ht⟩ := ht
      have hc' : Clean s0 o := by cases o <;> exact hc
      have hsafe := step_safe k hi o
      simp only [run] at hr
      split at hr
      · rename_i s1 e1
        rw [e1] at ht hsafe
        exact ih s1 hsafe (step_noLeak k hi hn o hc' (.inl e1)) ht hr
      · rename_i s1 e1
        rw [e1] at ht hsafe
        exact ih s1 hsafe (step_noLeak k hi hn o hc' (.inr e1)) ht hr
      · cases hr
  have hn := key l _ inv_empty noLeak_empty hl hr
  refine ⟨hn.held, fun h0 p hp => ?_⟩
  cases hb : s.block p with
  | none => rfl
  | some b =>
    obtain ⟨i, h, e, -⟩ := hn.held p b hb hp
    rw [h0 i] at e
    cases e

/-- How many blocks of library memory are left over after a program. -/
def leftOver (k : Kind) (l : List (Op Nat)) : Option Nat :=
  match run k l (Store.empty Nat) with
  | .ok s => some (((List.range s.nBlock).filter fun p => (s.block p).isSome && !s.ext p).length)
  | _ => none

/-- Memory is lost by assigning from an array of another element type, by resizing a shifted view and by
constructing with the wrong number of strides, although every array object is destroyed. -/
theorem C54_leak_counterexample (k : Kind) :
    leftOver k [.new [2] 0, .new [3] 0, .convertAssign 0 1, .destroy 0, .destroy 1] = some 1 ∧
    leftOver k [.new [2, 2] 0, .viewAt 0 1, .resize 1 [2, 2] 0, .destroy 1, .destroy 0] = some 1 ∧
    leftOver k [.newStrided [2, 2] [1] 0] = some 1 := by
  cases k <;> decide +kernel

/-- Non-vacuity: a program with sharing, decoupling and growing leaves nothing behind. -/
example (k : Kind) : leftOver k [.new [2, 2] 0, .view 0, .copy 1, .decouple 0, .assign 1 3, .destroy 0,
    .resize 2 [3, 2] 1, .destroy 1, .destroy 2, .destroy 3] = some 0 := by
  cases k <;> decide +kernel

example (k : Kind) : Thrifty k [.new [2, 2] 0, .view 0, .resize 1 [3, 2] 1, .destroy 0, .destroy 1]
    (Store.empty Nat) := by
  cases k <;> exact ⟨trivial, trivial, fun h e => by cases e; rfl, trivial, trivial, trivial⟩

end Brille.Props
