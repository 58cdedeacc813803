import Verif.Proofs.ArrayChk
/-! Arrays made with the library's own strides address their own memory, one element per subscript. -/
namespace Brille.Arr
open Brille.Subscript Brille.Spec
variable {T : Type}

/-- Every subscript addresses its own element of the array's memory. -/
def FitsH (h : Handle) : Prop := h.shape ≠ [] → Packed h.shape h.stride (h.num - h.shift)

def Fits (s : Store T) : Prop := ∀ i h, s.arr i = some h → FitsH h

theorem fits_set {s : Store T} (hs : Fits s) {h : Handle} (hh : FitsH h) (i : Nat)
    {s' : Store T} (e : s'.arr = Function.update s.arr i (some h)) : Fits s' := by
  intro j g ej
  rw [e] at ej
  rcases update_some ej with ⟨-, rfl⟩ | ⟨-, ej'⟩
  · exact hh
  · exact hs j g ej'

theorem fits_same {s s' : Store T} (hs : Fits s) (e : s'.arr = s.arr) : Fits s' := by
  intro j g ej
  rw [e] at ej
  exact hs j g ej

theorem packed_zero {shape st : List Nat} {n : Nat} (h : 0 ∈ shape) : Packed shape st n := by
  have : ∀ x, ¬ InRange shape x := by
    intro x hx
    obtain ⟨a, h1, h2⟩ := List.mem_iff_getElem.1 h
    have := List.forall₂_iff_get.1 hx
    have h3 := this.2 a (by omega) h1
    simp [h2] at h3
  exact ⟨fun x hx => absurd hx (this x), fun x _ hx => absurd hx (this x)⟩

theorem packed_mono {shape st : List Nat} {n m : Nat} (h : Packed shape st n) (hm : n ≤ m) :
    Packed shape st m :=
  ⟨fun x hx => by obtain ⟨a, h1, h2⟩ := h.1 x hx; exact ⟨a, h1, by omega⟩, h.2⟩

variable [Inhabited T]

theorem fits_construct (s : Store T) (a b : List Nat) (f : List T) (o : Option Nat)
    (h : Packed a b (sizeOf a)) : FitsH (construct s a b f o).2 := by
  intro _
  simp only [construct]
  split <;> exact h

theorem packed_row' {a : List Nat} (h : a ≠ []) : Packed a (rowStride a) (sizeOf a) := by
  rw [sizeOf_eq h]; exact packed_row a

theorem fits_construct_row (s : Store T) (a : List Nat) (f : List T) (o : Option Nat) :
    FitsH (construct s a (rowStride a) f o).2 := by
  intro h
  refine fits_construct s a _ f o ?_ h
  refine packed_row' ?_
  simp only [construct] at h
  split at h <;> exact h

theorem fits_ctor {s s' : Store T} (hs : Fits s) (shape stride : List Nat) (fill : List T)
    (hp : FitsH (construct s shape stride fill none).2)
    (hr : (let c := construct s shape stride fill none
      if initCheck c.2 then Res.ok (c.1.push c.2) else .threw c.1) = .ok s' ∨
      (let c := construct s shape stride fill none
      if initCheck c.2 then Res.ok (c.1.push c.2) else .threw c.1) = .threw s') : Fits s' := by
  have hc := construct_arr s shape stride fill none
  dsimp only at hr
  split at hr
  · rename_i h
    rcases hr with hr | hr <;> cases hr
    exact fits_set hs hp s.nArr (by simp only [Store.push, hc.1, hc.2])
  · rcases hr with hr | hr <;> cases hr
    exact fits_same hs hc.1

omit [Inhabited T] in
theorem fits_view {s s' : Store T} (hs : Fits s) {h : Handle} {shift : Nat} {shape : List Nat}
    (hp : FitsH { h with shift := shift, shape := shape, mutable := false })
    (hr : mkView s h shift shape = .ok s' ∨ mkView s h shift shape = .threw s') : Fits s' := by
  simp only [mkView] at hr
  split at hr
  · rename_i hc
    rcases hr with hr | hr <;> cases hr
    exact fits_set hs hp s.nArr rfl
  · rcases hr with hr | hr <;> cases hr
    exact hs

/-- Moving the origin along the first axis. -/
theorem packed_row_shift {n t a c N S : Nat} {ns ts : List Nat} (h : Packed (n :: ns) (t :: ts) (N - S))
    (hac : a + c ≤ n) : Packed (c :: ns) (t :: ts) (N - (S + a * t)) := by
  have key : ∀ y ys, y < c → InRange ns ys → ∃ b, sub2lin ys ts = some b ∧
      sub2lin (y :: ys) (t :: ts) = some (y * t + b) ∧
      sub2lin ((a + y) :: ys) (t :: ts) = some ((a + y) * t + b) ∧ (a + y) * t + b < N - S := by
    intro y ys hy hys
    obtain ⟨b, hb, hlt⟩ := h.1 ((a + y) :: ys) (List.Forall₂.cons (by omega) hys)
    simp only [sub2lin] at hb ⊢
    cases hq : sub2lin ys ts with
    | none => rw [hq] at hb; simp at hb
    | some b' =>
      rw [hq] at hb
      simp at hb
      exact ⟨b', rfl, by simp, by simp, by rw [hb]; exact hlt⟩
  refine ⟨?_, ?_⟩
  · intro x hx
    obtain ⟨y, ys, rfl, hy, hys⟩ := inRange_cons hx
    obtain ⟨b, -, h2, -, h4⟩ := key y ys hy hys
    refine ⟨_, h2, ?_⟩
    have : (a + y) * t = a * t + y * t := Nat.add_mul _ _ _
    omega
  · intro x x' hx hx' he
    obtain ⟨y, ys, rfl, hy, hys⟩ := inRange_cons hx
    obtain ⟨y', ys', rfl, hy', hys'⟩ := inRange_cons hx'
    obtain ⟨b, -, h2, h3, -⟩ := key y ys hy hys
    obtain ⟨b', -, h2', h3', -⟩ := key y' ys' hy' hys'
    have hq : sub2lin ((a + y) :: ys) (t :: ts) = sub2lin ((a + y') :: ys') (t :: ts) := by
      rw [h3, h3']
      rw [h2, h2'] at he
      have := Option.some.inj he
      rw [Nat.add_mul, Nat.add_mul]
      congr 1
      omega
    have := h.2 _ _ (List.Forall₂.cons (by omega) hys) (List.Forall₂.cons (by omega) hys') hq
    simp only [List.cons.injEq, Nat.add_left_cancel_iff] at this
    rw [this.1, this.2]

theorem zipAdd_inj : ∀ (x y z : List Nat), x.length = z.length → y.length = z.length →
    List.zipWith (· + ·) x z = List.zipWith (· + ·) y z → x = y
  | [], [], _, _, _, _ => rfl
  | a :: x, b :: y, c :: z, h1, h2, h => by
    simp only [List.zipWith_cons_cons, List.cons.injEq] at h
    simp only [List.length_cons, Nat.add_right_cancel_iff] at h1 h2
    rw [zipAdd_inj x y z h1 h2 h.2]
    congr 1
    omega
  | a :: x, _, [], h1, _, _ => by simp at h1
  | [], b :: y, [], _, h2, _ => by simp at h2
  | a :: x, [], c :: z, _, h2, _ => by simp at h2
  | [], b :: y, c :: z, h1, _, _ => by simp at h1

theorem offsetView_length : ∀ (shape v stride : List Nat) {sh o}, offsetView shape v stride = some (sh, o) →
    shape.length ≤ v.length ∧ shape.length ≤ stride.length ∧
      offsetView shape (v.take shape.length) (stride.take shape.length) = some (sh, o)
  | [], _, _, _, _, h => by simpa [offsetView] using h
  | n :: ns, v :: vs, t :: ts, sh, o, h => by
    simp only [offsetView, Option.map_eq_some_iff] at h
    obtain ⟨⟨sh', o'⟩, h1, h2⟩ := h
    obtain ⟨k1, k2, k3⟩ := offsetView_length ns vs ts h1
    refine ⟨by simpa using k1, by simpa using k2, ?_⟩
    simp only [List.length_cons, List.take_succ_cons, offsetView, k3, Option.map_some, h2]
  | _ :: _, [], _, _, _, h => by simp [offsetView] at h
  | _ :: _, _ :: _, [], _, _, h => by simp [offsetView] at h

/-- Moving the origin to a corner. -/
theorem packed_offset {shape v stride sh : List Nat} {o N S : Nat} (h : Packed shape stride (N - S))
    (hl : shape.length = stride.length) (ho : offsetView shape v stride = some (sh, o)) :
    Packed sh stride (N - (S + o)) := by
  obtain ⟨k1, k2, k3⟩ := offsetView_length _ _ _ ho
  have hts : stride.take shape.length = stride := by rw [hl, List.take_length]
  rw [hts] at k3
  obtain ⟨sh', o', e1, e2, -, e3, e4⟩ := offsetView_spec shape (v.take shape.length) stride
    (by simpa using k1) hl.symm
  rw [k3] at e1
  cases e1
  have hlen : ∀ x, InRange sh x → x.length = shape.length := fun x hx => by
    rw [← e2]; exact List.Forall₂.length_eq hx
  have hzl : (List.zipWith (fun n v => if v < n then v else 0) shape (v.take shape.length)).length
      = shape.length := by simp [k1]
  refine ⟨?_, ?_⟩
  · intro x hx
    obtain ⟨a, h1, h2⟩ := h.1 _ (e4 x hx)
    have := e3 x (hlen x hx)
    rw [h1, Option.map_eq_some_iff] at this
    obtain ⟨b, h3, h4⟩ := this
    exact ⟨b, h3, by omega⟩
  · intro x y hx hy hxy
    have h1 := e3 x (hlen x hx)
    have h2 := e3 y (hlen y hy)
    rw [hxy, h2] at h1
    have := h.2 _ _ (e4 x hx) (e4 y hy) h1.symm
    exact zipAdd_inj _ _ _ ((hlen x hx).trans hzl.symm) ((hlen y hy).trans hzl.symm) this

theorem fits_decouple {k : Kind} {h : Handle} {old nd : List T} {st : List Nat} (hh : FitsH h)
    (hc : initCheck h = true) (hd : decoupleBuf k h old = some (nd, st)) {p r : Option Nat} :
    FitsH ⟨p, sizeOf h.shape, 0, true, r, true, h.shape, st⟩ := by
  intro hne
  dsimp only at hne ⊢
  rw [Nat.sub_zero]
  have hk := hh hne
  simp only [initCheck, Bool.and_eq_true, beq_iff_eq, decide_eq_true_eq] at hc
  by_cases h0 : 0 ∈ h.shape
  · exact packed_zero h0
  have hpos : ∀ s ∈ h.shape.tail, 0 < s := fun s hs =>
    Nat.pos_of_ne_zero (fun e => h0 (e ▸ List.mem_of_mem_tail hs))
  cases k with
  | nd =>
    simp only [decoupleBuf] at hd
    split at hd
    · rename_i he
      split at hd
      · cases hd
        rwa [he, show h.num = h.num - h.shift from by omega]
      · cases hd
    · simp only [Option.bind_eq_some_iff, Option.map_eq_some_iff] at hd
      obtain ⟨l, hl, nd', hcl, he⟩ := hd
      cases he
      obtain ⟨l', hl', -, hmem⟩ := subs_spec h.shape hne hpos
      rw [hl] at hl'
      cases hl'
      refine ⟨fun x hx => ?_, hk.2⟩
      have := copyLoop_bound _ _ _ _ _ _ _ hcl x ((hmem x).2 hx)
      simpa using this
  | two =>
    simp only [decoupleBuf] at hd
    split at hd
    · rename_i he
      split at hd
      · cases hd
        rwa [he.2, show h.num = h.num - h.shift from by omega]
      · cases hd
    · simp only [Option.bind_eq_some_iff, Option.map_eq_some_iff] at hd
      obtain ⟨st', hst, l, hl, nd', hcl, he⟩ := hd
      cases he
      rw [sizeOf_eq hne]
      exact packed_calc hst

theorem fits_resize {s s' : Store T} (hs : Fits s) {i : Nat} {h : Handle} {ns : List Nat} {v : T}
    (hr : resize s i h ns v = .ok s' ∨ resize s i h ns v = .threw s') : Fits s' := by
  rcases hr with hr | hr
  · obtain ⟨-, nd, nt, hb, s2, hd, rfl⟩ := resize_ok_cases hr
    obtain ⟨hst, hsh⟩ := resizeBuf_stride hb
    have h2 : s2.arr = s.arr := by
      split at hd
      · rw [delete_arr hd]; rfl
      · cases hd; rfl
    refine fits_set hs (h := ⟨some s.nBlock, sizeOf ns, h.shift, true, some s2.nRef, true, ns, nt⟩) ?_ i ?_
    · intro hne
      dsimp only at hne ⊢
      rw [hsh, Nat.sub_zero, sizeOf_eq hne]
      exact packed_calc hst
    · simp only [Store.put, Store.newRef, h2]
  · simp only [resize] at hr
    split at hr
    · cases hr
    · split at hr
      · cases hr
      · split at hr
        · cases hr; exact hs
        · cases hr; exact fits_same hs rfl
        · cases hr
        · split at hr <;> cases hr

theorem step_fits (k : Kind) {s s' : Store T} (hk : Chk s) (hs : Fits s) (o : Op T) (hp : PlainOp o)
    (hr : step k s o = .ok s' ∨ step k s o = .threw s') : Fits s' := by
  cases o with
  | new shape v => exact fits_ctor hs _ _ _ (fits_construct_row _ _ _ _) hr
  | newStrided shape stride v => exact fits_ctor hs _ _ _ (fits_construct _ _ _ _ _ hp) hr
  | fromStd d =>
    rcases hr with hr | hr <;> cases hr
    refine fits_set hs (h := ⟨some s.nBlock, d.length, 0, true, some s.nRef, true, [d.length], [1]⟩)
      (fun h => ?_) s.nArr rfl
    have := packed_row' h
    simpa [sizeOf, rowStride] using this
  | wrap b shape stride m =>
    simp only [step] at hr
    split at hr
    · rename_i h
      rcases hr with hr | hr <;> cases hr
      exact fits_set hs (h := ⟨some s.nBlock, b.length, 0, false, some s.nRef, m, shape, stride⟩)
        (fun _ => hp) s.nArr rfl
    · rcases hr with hr | hr <;> cases hr
      exact fits_same hs rfl
  | copy i =>
    simp only [step] at hr
    split at hr
    · rename_i h e
      rcases hr with hr | hr <;> cases hr
      exact fits_set hs (hs i h e) s.nArr rfl
    · rcases hr with hr | hr <;> cases hr
  | assign i j =>
    simp only [step] at hr
    split at hr
    · rename_i h o ei ej
      split at hr
      · rcases hr with hr | hr <;> cases hr
        exact hs
      · have hput : Fits (s.put i { o with own := o.own }) := fits_set hs (hs j o ej) i rfl
        split at hr
        · split at hr
          · rename_i s2 hd
            rcases hr with hr | hr <;> cases hr
            exact fits_same hput (delete_arr hd)
          · rcases hr with hr | hr <;> cases hr
        · rcases hr with hr | hr <;> cases hr
          exact hput
    · rcases hr with hr | hr <;> cases hr
  | destroy i =>
    simp only [step] at hr
    split at hr
    · rename_i h e
      split at hr
      · rename_i s1 hd
        rcases hr with hr | hr <;> cases hr
        have h1 : s1.arr = s.arr := by
          split at hd
          · exact delete_arr hd
          · cases hd; rfl
        intro j g ej
        dsimp only at ej
        rw [h1] at ej
        by_cases hj : j = i
        · subst hj; rw [Function.update_self] at ej; cases ej
        · rw [Function.update_of_ne hj] at ej; exact hs j g ej
      · rcases hr with hr | hr <;> cases hr
    · rcases hr with hr | hr <;> cases hr
  | view i =>
    simp only [step] at hr
    split at hr
    · rename_i h e
      exact fits_view hs (fun hn => hs i h e hn) hr
    · rcases hr with hr | hr <;> cases hr
  | viewAt i a =>
    simp only [step] at hr
    split at hr
    · rename_i h e
      split at hr
      · rename_i n ns t ts e1 e2
        split at hr
        · rename_i han
          have hh := hs i h e (by rw [e1]; simp)
          rw [e1, e2] at hh
          refine fits_view hs (fun _ => ?_) hr
          dsimp only
          rw [e2]
          exact packed_row_shift hh (by omega)
        · rcases hr with hr | hr <;> cases hr
          exact hs
      · rcases hr with hr | hr <;> cases hr
    · rcases hr with hr | hr <;> cases hr
  | viewRange i a b =>
    simp only [step] at hr
    split at hr
    · rename_i h e
      split at hr
      · rename_i n ns t ts e1 e2
        split at hr
        · rename_i han
          have hh := hs i h e (by rw [e1]; simp)
          rw [e1, e2] at hh
          refine fits_view hs (fun _ => ?_) hr
          dsimp only
          rw [e2]
          exact packed_row_shift hh (by omega)
        · split at hr
          · exact fits_ctor hs _ _ _ (fits_construct_row _ _ _ _) hr
          · rcases hr with hr | hr <;> cases hr
            exact hs
      · rcases hr with hr | hr <;> cases hr
    · rcases hr with hr | hr <;> cases hr
  | viewFrom i v =>
    simp only [step] at hr
    split at hr
    · rename_i h e
      split at hr
      · rename_i sh o eo
        have hc := hk i h e
        simp only [initCheck, Bool.and_eq_true, beq_iff_eq, decide_eq_true_eq] at hc
        refine fits_view hs (fun hn => ?_) hr
        dsimp only at hn ⊢
        have hne : h.shape ≠ [] := by
          intro h0
          rw [h0] at eo
          simp only [offsetView, Option.some.injEq, Prod.mk.injEq] at eo
          exact hn eo.1.symm
        exact packed_offset (hs i h e hne) hc.1 eo
      · rcases hr with hr | hr <;> cases hr
    · rcases hr with hr | hr <;> cases hr
  | decouple i =>
    simp only [step] at hr
    split at hr
    · rename_i h e
      split at hr
      · split at hr
        · rcases hr with hr | hr <;> cases hr
        · split at hr
          · rcases hr with hr | hr <;> cases hr
          · split at hr
            · rename_i hd hc
              rcases hr with hr | hr <;> cases hr
              exact fits_set hs (fits_decouple (hs i h e) (hk i h e) hd) s.nArr rfl
            · rcases hr with hr | hr <;> cases hr
              exact fits_same hs rfl
      · rcases hr with hr | hr <;> cases hr
        exact fits_set hs (hs i h e) s.nArr rfl
    · rcases hr with hr | hr <;> cases hr
  | resize i ns v =>
    simp only [step] at hr
    split at hr
    · exact fits_resize hs hr
    · rcases hr with hr | hr <;> cases hr
  | append i dim j =>
    simp only [step] at hr
    split at hr
    · rename_i h x ei ej
      split at hr
      · rcases hr with hr | hr <;> cases hr
      · split at hr
        · rcases hr with hr | hr <;> cases hr
          exact hs
        · split at hr
          · rename_i s1 h1
            have h2 := fits_resize hs (.inl h1)
            split at hr
            · rcases hr with hr | hr <;> cases hr
            · split at hr
              · rename_i s2 h3
                rcases hr with hr | hr <;> cases hr
                exact fits_same h2 (appendLoop_arr _ _ _ _ _ h3)
              · rcases hr with hr | hr <;> cases hr
          · exact fits_resize hs hr
    · rcases hr with hr | hr <;> cases hr
  | write i x v =>
    rcases hr with hr | hr
    · obtain ⟨-, -, -, -, ha, -⟩ := write_ok hr
      exact fits_same hs ha
    · simp only [step] at hr
      split at hr
      · split at hr
        · split at hr
          · split at hr <;> cases hr
          · cases hr
        · cases hr
      · cases hr
  | setMutable i b =>
    simp only [step] at hr
    split at hr
    · rename_i h e
      rcases hr with hr | hr <;> cases hr
      exact fits_set hs (h := { h with mutable := b }) (hs i h e) i rfl
    · rcases hr with hr | hr <;> cases hr
  | convert j =>
    simp only [step] at hr
    split at hr
    · split at hr
      · rcases hr with hr | hr <;> cases hr
      · split at hr
        · rcases hr with hr | hr <;> cases hr
        · rename_i o _ _ _ _ _ nd _
          rcases hr with hr | hr <;> cases hr
          have hc := construct_arr s o.shape (rowStride o.shape) nd none
          exact fits_set hs (fits_construct_row s o.shape nd none) s.nArr
            (by simp only [Store.push, hc.1, hc.2])
    · rcases hr with hr | hr <;> cases hr
  | convertAssign i j =>
    simp only [step] at hr
    split at hr
    · rename_i h o ei ej
      split at hr
      · rcases hr with hr | hr <;> cases hr
      · split at hr
        · rcases hr with hr | hr <;> cases hr
        · rename_i nd _
          rcases hr with hr | hr <;> cases hr
          have hc := construct_arr s o.shape (rowStride o.shape) nd h.ref
          exact fits_set hs (fits_construct_row s o.shape nd h.ref) i
            (by simp only [Store.put, hc.1])
    · rcases hr with hr | hr <;> cases hr

theorem run_fits (k : Kind) (l : List (Op T)) {s s' : Store T} (hk : Chk s) (hs : Fits s)
    (hp : ∀ o ∈ l, PlainOp o) (h : run k l s = .ok s') : Fits s' := by
  induction l generalizing s with
  | nil => cases h; exact hs
  | cons o l ih =>
    have hl : ∀ o ∈ l, PlainOp o := fun a ha => hp a (List.mem_cons_of_mem _ ha)
    have ho : PlainOp o := hp o List.mem_cons_self
    simp only [run] at h
    split at h
    · rename_i s1 e
      exact ih (step_chk k hk o (.inl e)) (step_fits k hk hs o ho (.inl e)) hl h
    · rename_i s1 e
      exact ih (step_chk k hk o (.inr e)) (step_fits k hk hs o ho (.inr e)) hl h
    · cases h

omit [Inhabited T] in
/-- Addresses inside the memory are readable. -/
theorem readable_of_fits {s : Store T} (hs : Inv s) {i : Nat} {h : Handle} (e : s.arr i = some h)
    (hne : h.shape ≠ []) (hf : FitsH h) : AllReadable s i h.shape := by
  intro x hx
  obtain ⟨a, h1, h2⟩ := (hf hne).1 x hx
  cases hd : h.data with
  | none => have := hs.null i h e hd; omega
  | some p =>
    obtain ⟨b, hb, hlen⟩ := hs.ptr i h p e hd
    refine ⟨b[a + h.shift]'(by omega), ?_⟩
    simp [elem, e, hd, hb, Handle.addr, h1]

end Brille.Arr
