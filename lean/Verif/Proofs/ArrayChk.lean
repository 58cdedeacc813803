import Verif.Proofs.ArrayView
/-! Every array object of a running program passes `init_check`. -/
namespace Brille.Arr
open Brille.Subscript Brille.Spec
variable {T : Type}

def Chk (s : Store T) : Prop := ∀ i h, s.arr i = some h → initCheck h = true

theorem chk_set {s : Store T} (hs : Chk s) {h : Handle} (hh : initCheck h = true) (i : Nat)
    {s' : Store T} (e : s'.arr = Function.update s.arr i (some h)) : Chk s' := by
  intro j g ej
  rw [e] at ej
  rcases update_some ej with ⟨-, rfl⟩ | ⟨-, ej'⟩
  · exact hh
  · exact hs j g ej'

theorem chk_same {s s' : Store T} (hs : Chk s) (e : s'.arr = s.arr) : Chk s' := by
  intro j g ej
  rw [e] at ej
  exact hs j g ej

theorem delete_arr {s s' : Store T} {p : Option Nat} (h : s.delete p = some s') : s'.arr = s.arr := by
  cases p with
  | none => cases h; rfl
  | some p =>
    simp only [Store.delete] at h
    split at h
    · cases h
    · cases h; rfl

variable [Inhabited T]

theorem construct_arr (s : Store T) (a b : List Nat) (f : List T) (o : Option Nat) :
    (construct s a b f o).1.arr = s.arr ∧ (construct s a b f o).1.nArr = s.nArr := by
  simp only [construct]; split <;> exact ⟨rfl, rfl⟩

theorem construct_chk (s : Store T) (a : List Nat) (f : List T) (o : Option Nat) :
    initCheck (construct s a (rowStride a) f o).2 = true := by
  simp only [construct]
  split <;> simp [initCheck, length_rowStride]

theorem chk_ctor {s s' : Store T} (hs : Chk s) (shape stride : List Nat) (fill : List T)
    (hr : (let c := construct s shape stride fill none
      if initCheck c.2 then Res.ok (c.1.push c.2) else .threw c.1) = .ok s' ∨
      (let c := construct s shape stride fill none
      if initCheck c.2 then Res.ok (c.1.push c.2) else .threw c.1) = .threw s') : Chk s' := by
  have hc := construct_arr s shape stride fill none
  dsimp only at hr
  split at hr
  · rename_i h
    rcases hr with hr | hr <;> cases hr
    exact chk_set hs h s.nArr (by simp only [Store.push, hc.1, hc.2])
  · rcases hr with hr | hr <;> cases hr
    exact chk_same hs hc.1

omit [Inhabited T] in
theorem chk_view {s s' : Store T} (hs : Chk s) {h : Handle} {shift : Nat} {shape : List Nat}
    (hr : mkView s h shift shape = .ok s' ∨ mkView s h shift shape = .threw s') : Chk s' := by
  simp only [mkView] at hr
  split at hr
  · rename_i hc
    rcases hr with hr | hr <;> cases hr
    exact chk_set hs hc s.nArr rfl
  · rcases hr with hr | hr <;> cases hr
    exact hs

theorem chk_resize {s s' : Store T} (hs : Chk s) {i : Nat} {h : Handle} {ns : List Nat} {v : T}
    (hr : resize s i h ns v = .ok s' ∨ resize s i h ns v = .threw s') : Chk s' := by
  rcases hr with hr | hr
  · obtain ⟨-, nd, nt, hb, s2, hd, rfl⟩ := resize_ok_cases hr
    obtain ⟨hst, hsh⟩ := resizeBuf_stride hb
    have h2 : s2.arr = s.arr := by
      split at hd
      · rw [delete_arr hd]; rfl
      · cases hd; rfl
    refine chk_set hs (h := ⟨some s.nBlock, sizeOf ns, h.shift, true, some s2.nRef, true, ns, nt⟩) ?_ i ?_
    · simp [initCheck, length_calc hst, hsh]
    · simp only [Store.put, Store.newRef, h2]
  · simp only [resize] at hr
    split at hr
    · cases hr
    · split at hr
      · cases hr
      · split at hr
        · cases hr; exact hs
        · cases hr; exact chk_same hs rfl
        · cases hr
        · split at hr <;> cases hr

omit [Inhabited T] in
theorem appendLoop_arr (i j dim n : Nat) (l : List (List Nat)) {s s' : Store T}
    (h : appendLoop i j dim n l s = .ok s') : s'.arr = s.arr := by
  induction l generalizing s with
  | nil => cases h; rfl
  | cons x l ih =>
    simp only [appendLoop] at h
    split at h
    · rename_i s1 h1
      rw [ih h]
      simp only [assignElt] at h1
      split at h1
      · split at h1
        · split at h1
          · split at h1
            · split at h1
              · cases h1; rfl
              · cases h1
            · cases h1
          · cases h1
        · cases h1
      · cases h1
    · cases h

theorem step_chk (k : Kind) {s s' : Store T} (hs : Chk s) (o : Op T)
    (hr : step k s o = .ok s' ∨ step k s o = .threw s') : Chk s' := by
  cases o with
  | new shape v => exact chk_ctor hs _ _ _ hr
  | newStrided shape stride v => exact chk_ctor hs _ _ _ hr
  | fromStd d =>
    rcases hr with hr | hr <;> cases hr
    exact chk_set hs (by simp [initCheck, sizeOf]) s.nArr rfl
  | wrap b shape stride m =>
    simp only [step] at hr
    split at hr
    · rename_i h
      rcases hr with hr | hr <;> cases hr
      exact chk_set hs h s.nArr rfl
    · rcases hr with hr | hr <;> cases hr
      exact chk_same hs rfl
  | copy i =>
    simp only [step] at hr
    split at hr
    · rename_i h e
      rcases hr with hr | hr <;> cases hr
      exact chk_set hs (hs i h e) s.nArr rfl
    · rcases hr with hr | hr <;> cases hr
  | assign i j =>
    simp only [step] at hr
    split at hr
    · rename_i h o ei ej
      split at hr
      · rcases hr with hr | hr <;> cases hr
        exact hs
      · have hput : Chk (s.put i { o with own := o.own }) := chk_set hs (hs j o ej) i rfl
        split at hr
        · split at hr
          · rename_i s2 hd
            rcases hr with hr | hr <;> cases hr
            exact chk_same hput (delete_arr hd)
          · rcases hr with hr | hr <;> cases hr
        · rcases hr with hr | hr <;> cases hr
          exact hput
    · rcases hr with hr | hr <;> cases hr
  | destroy i =>
    simp only [step] at hr
    split at hr
    · rename_i h e
      split at hr
      · rename_i s1 hd
        rcases hr with hr | hr <;> cases hr
        have h1 : s1.arr = s.arr := by
          split at hd
          · exact delete_arr hd
          · cases hd; rfl
        intro j g ej
        dsimp only at ej
        rw [h1] at ej
        by_cases hj : j = i
        · subst hj; rw [Function.update_self] at ej; cases ej
        · rw [Function.update_of_ne hj] at ej; exact hs j g ej
      · rcases hr with hr | hr <;> cases hr
    · rcases hr with hr | hr <;> cases hr
  | view i =>
    simp only [step] at hr
    split at hr
    · exact chk_view hs hr
    · rcases hr with hr | hr <;> cases hr
  | viewAt i a =>
    simp only [step] at hr
    split at hr
    · split at hr
      · split at hr
        · exact chk_view hs hr
        · rcases hr with hr | hr <;> cases hr
          exact hs
      · rcases hr with hr | hr <;> cases hr
    · rcases hr with hr | hr <;> cases hr
  | viewRange i a b =>
    simp only [step] at hr
    split at hr
    · split at hr
      · split at hr
        · exact chk_view hs hr
        · split at hr
          · exact chk_ctor hs _ _ _ hr
          · rcases hr with hr | hr <;> cases hr
            exact hs
      · rcases hr with hr | hr <;> cases hr
    · rcases hr with hr | hr <;> cases hr
  | viewFrom i v =>
    simp only [step] at hr
    split at hr
    · split at hr
      · exact chk_view hs hr
      · rcases hr with hr | hr <;> cases hr
    · rcases hr with hr | hr <;> cases hr
  | decouple i =>
    simp only [step] at hr
    split at hr
    · rename_i h e
      split at hr
      · split at hr
        · rcases hr with hr | hr <;> cases hr
        · split at hr
          · rcases hr with hr | hr <;> cases hr
          · split at hr
            · rename_i hc
              rcases hr with hr | hr <;> cases hr
              exact chk_set hs hc s.nArr rfl
            · rcases hr with hr | hr <;> cases hr
              exact chk_same hs rfl
      · rcases hr with hr | hr <;> cases hr
        exact chk_set hs (hs i h e) s.nArr rfl
    · rcases hr with hr | hr <;> cases hr
  | resize i ns v =>
    simp only [step] at hr
    split at hr
    · exact chk_resize hs hr
    · rcases hr with hr | hr <;> cases hr
  | append i dim j =>
    simp only [step] at hr
    split at hr
    · rename_i h x ei ej
      split at hr
      · rcases hr with hr | hr <;> cases hr
      · split at hr
        · rcases hr with hr | hr <;> cases hr
          exact hs
        · split at hr
          · rename_i s1 h1
            have h2 := chk_resize hs (.inl h1)
            split at hr
            · rcases hr with hr | hr <;> cases hr
            · split at hr
              · rename_i s2 h3
                rcases hr with hr | hr <;> cases hr
                exact chk_same h2 (appendLoop_arr _ _ _ _ _ h3)
              · rcases hr with hr | hr <;> cases hr
          · exact chk_resize hs hr
    · rcases hr with hr | hr <;> cases hr
  | write i x v =>
    rcases hr with hr | hr
    · obtain ⟨-, -, -, -, ha, -⟩ := write_ok hr
      exact chk_same hs ha
    · simp only [step] at hr
      split at hr
      · split at hr
        · split at hr
          · split at hr <;> cases hr
          · cases hr
        · cases hr
      · cases hr
  | setMutable i b =>
    simp only [step] at hr
    split at hr
    · rename_i h e
      rcases hr with hr | hr <;> cases hr
      exact chk_set hs (h := { h with mutable := b }) (hs i h e) i rfl
    · rcases hr with hr | hr <;> cases hr
  | convert j =>
    simp only [step] at hr
    split at hr
    · split at hr
      · rcases hr with hr | hr <;> cases hr
      · split at hr
        · rcases hr with hr | hr <;> cases hr
        · rename_i o _ _ _ _ _ nd _
          rcases hr with hr | hr <;> cases hr
          have hc := construct_arr s o.shape (rowStride o.shape) nd none
          exact chk_set hs (construct_chk s o.shape nd none) s.nArr
            (by simp only [Store.push, hc.1, hc.2])
    · rcases hr with hr | hr <;> cases hr
  | convertAssign i j =>
    simp only [step] at hr
    split at hr
    · rename_i h o ei ej
      split at hr
      · rcases hr with hr | hr <;> cases hr
      · split at hr
        · rcases hr with hr | hr <;> cases hr
        · rename_i nd _
          rcases hr with hr | hr <;> cases hr
          have hc := construct_arr s o.shape (rowStride o.shape) nd h.ref
          exact chk_set hs (construct_chk s o.shape nd h.ref) i
            (by simp only [Store.put, hc.1])
    · rcases hr with hr | hr <;> cases hr

theorem run_chk (k : Kind) (l : List (Op T)) {s s' : Store T} (hs : Chk s)
    (h : run k l s = .ok s') : Chk s' := by
  induction l generalizing s with
  | nil => cases h; exact hs
  | cons o l ih =>
    simp only [run] at h
    split at h
    · rename_i s1 e; exact ih (step_chk k hs o (.inl e)) h
    · rename_i s1 e; exact ih (step_chk k hs o (.inr e)) h
    · cases h

theorem reachable_inv {k : Kind} {s : Store T} (h : Reachable k s) : Inv s := by
  obtain ⟨l, hl⟩ := h
  have := run_safe k l (inv_empty (T := T))
  rw [hl] at this
  exact this

theorem reachable_chk {k : Kind} {s : Store T} (h : Reachable k s) {i : Nat} {g : Handle}
    (e : s.arr i = some g) : g.shape.length = g.stride.length ∧ g.shift + sizeOf g.shape ≤ g.num := by
  obtain ⟨l, hl⟩ := h
  have := run_chk k l (s := Store.empty T) (fun i h e => by simp [Store.empty] at e) hl i g e
  simpa [initCheck] using this

end Brille.Arr
