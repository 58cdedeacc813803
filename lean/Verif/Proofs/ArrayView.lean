import Verif.Proofs.ArrayAppend
/-! Elements seen through views. -/
namespace Brille.Arr
open Brille.Subscript Brille.Spec
variable {T : Type}

/-- The number of subscripts visited is the size of the array. -/
theorem subs_length (shape : List Nat) (hr : shape ≠ []) (hpos : ∀ s ∈ shape, 0 < s) :
    ∃ l, subs shape = some l ∧ l.length = sizeOf shape := by
  obtain ⟨a, t, rfl⟩ := List.exists_cons_of_ne_nil hr
  refine ⟨(List.range (size (mkShape (a :: t)).axes)).map (sub (mkShape (a :: t)).axes), ?_, ?_⟩
  · have := visits_eq (mkShape (a :: t)) (wf_mkShape _) (findFirst_mkShape a t)
      (size_mkShape_pos _ hpos) 0
    rw [← this, subs, foldr_eq_size, Nat.add_zero]
  · rw [List.length_map, List.length_range, sizeOf_eq hr, ← foldr_eq_size]

/-- Distinct addresses for `size` subscripts between `lo` and `n` need `lo + size ≤ n`. -/
theorem room (shape : List Nat) (hr : shape ≠ []) (hpos : ∀ s ∈ shape.tail, 0 < s) (lo n : Nat)
    (f : List Nat → Option Nat)
    (hf : ∀ x, InRange shape x → ∃ a, f x = some a ∧ lo ≤ a ∧ a < n)
    (hinj : ∀ x y, InRange shape x → InRange shape y → f x = f y → x = y) (hlo : lo ≤ n) :
    lo + sizeOf shape ≤ n := by
  by_cases h0 : ∀ s ∈ shape, 0 < s
  · obtain ⟨l, hl, hlen⟩ := subs_length shape hr h0
    obtain ⟨l', hl', hnd, hmem⟩ := subs_spec shape hr hpos
    rw [hl] at hl'
    cases hl'
    let g : List Nat → Nat := fun x => (f x).getD 0 - lo
    have hg : (l.map g).Nodup := by
      refine List.Nodup.map_on ?_ hnd
      intro x hx y hy hxy
      obtain ⟨a, ha, h1, h2⟩ := hf x ((hmem x).1 hx)
      obtain ⟨b, hb, h3, h4⟩ := hf y ((hmem y).1 hy)
      simp only [g, ha, hb, Option.getD_some] at hxy
      have : a = b := by omega
      subst this
      exact hinj x y ((hmem x).1 hx) ((hmem y).1 hy) (ha.trans hb.symm)
    have hsub : l.map g ⊆ List.range (n - lo) := by
      intro c hc
      obtain ⟨x, hx, rfl⟩ := List.mem_map.1 hc
      obtain ⟨a, ha, h1, h2⟩ := hf x ((hmem x).1 hx)
      simp only [g, ha, Option.getD_some, List.mem_range]
      omega
    have := (hg.subperm hsub).length_le
    rw [List.length_map, List.length_range, hlen] at this
    omega
  · push Not at h0
    obtain ⟨z, hz, hz0⟩ := h0
    have : prodOf shape = 0 := by
      have hz0 : z = 0 := by omega
      subst hz0
      clear hr hpos hf hinj
      induction shape with
      | nil => simp at hz
      | cons a t ih =>
        rcases List.mem_cons.1 hz with h | h
        · rw [← h]; simp [prodOf]
        · have := ih h
          simp only [prodOf, List.foldr_cons] at this ⊢
          rw [this, Nat.mul_zero]
    rw [sizeOf_eq hr, this]; omega

theorem offsetView_spec (shape v stride : List Nat) (h1 : v.length = shape.length)
    (h2 : stride.length = shape.length) :
    ∃ sh o, offsetView shape v stride = some (sh, o) ∧ sh.length = shape.length ∧
      sh = List.zipWith (fun n v => if v < n then n - v else n) shape v ∧
      (∀ x, x.length = shape.length → (sub2lin x stride).map (· + o) =
        sub2lin (List.zipWith (· + ·) x
          (List.zipWith (fun n v => if v < n then v else 0) shape v)) stride) ∧
      ∀ x, InRange sh x → InRange shape (List.zipWith (· + ·) x
          (List.zipWith (fun n v => if v < n then v else 0) shape v)) := by
  induction shape generalizing v stride with
  | nil =>
    have hv : v = [] := List.length_eq_zero_iff.1 h1
    have hs : stride = [] := List.length_eq_zero_iff.1 h2
    subst hv; subst hs
    refine ⟨[], 0, rfl, rfl, rfl, ?_, ?_⟩
    · intro x hx
      have : x = [] := List.length_eq_zero_iff.1 hx
      subst this; simp [sub2lin]
    · intro x hx; rw [inRange_nil hx]; exact List.Forall₂.nil
  | cons n ns ih =>
    cases v with
    | nil => simp at h1
    | cons v vs =>
      cases stride with
      | nil => simp at h2
      | cons t ts =>
        obtain ⟨sh, o, e, hl, hsh, hadd, hin⟩ := ih vs ts (by simpa using h1) (by simpa using h2)
        by_cases hvn : v < n
        · refine ⟨(n - v) :: sh, v * t + o, by simp [offsetView, e, hvn], by simp [hl],
            by simp [hvn, hsh], ?_, ?_⟩
          · intro x hx
            cases x with
            | nil => simp at hx
            | cons y ys =>
              have := hadd ys (by simpa using hx)
              simp only [List.zipWith_cons_cons, sub2lin, if_pos hvn, ← this]
              cases sub2lin ys ts with
              | none => rfl
              | some r => simp only [Option.map_some]; congr 1; ring
          · intro x hx
            obtain ⟨y, ys, rfl, hy, hys⟩ := inRange_cons hx
            simp only [List.zipWith_cons_cons, if_pos hvn]
            exact List.Forall₂.cons (by omega) (hin ys hys)
        · refine ⟨n :: sh, o, by simp [offsetView, e, hvn], by simp [hl],
            by simp [hvn, hsh], ?_, ?_⟩
          · intro x hx
            cases x with
            | nil => simp at hx
            | cons y ys =>
              have := hadd ys (by simpa using hx)
              simp only [List.zipWith_cons_cons, sub2lin, if_neg hvn, ← this]
              cases sub2lin ys ts with
              | none => rfl
              | some r => simp only [Option.map_some]; congr 1; ring
          · intro x hx
            obtain ⟨y, ys, rfl, hy, hys⟩ := inRange_cons hx
            simp only [List.zipWith_cons_cons, if_neg hvn, Nat.add_zero]
            exact List.Forall₂.cons hy (hin ys hys)

/-- Any view: subscripts of the view are subscripts of the array, translated by `tr`. -/
theorem mkView_spec {s : Store T} (hs : Inv s) {i : Nat} {h : Handle} (e : s.arr i = some h)
    (shift : Nat) (shape : List Nat) (tr : List Nat → List Nat) (hne : shape ≠ [])
    (hpos : ∀ n ∈ shape.tail, 0 < n) (hlen : shape.length = h.stride.length)
    (hread : AllReadable s i h.shape)
    (hinj : ∀ x y, InRange h.shape x → InRange h.shape y → h.addr x = h.addr y → x = y)
    (htr : ∀ x, InRange shape x → InRange h.shape (tr x))
    (hti : ∀ x y, InRange shape x → InRange shape y → tr x = tr y → x = y)
    (hadd : ∀ x, InRange shape x → (sub2lin x h.stride).map (· + shift) = h.addr (tr x))
    (hsh : shift ≤ h.num) :
    ∃ s', mkView s h shift shape = .ok s' ∧ shapeOf s' s.nArr = some shape ∧
      (∀ x, InRange shape x → elem s' s.nArr x = elem s i (tr x)) ∧
      (∀ j, j ≠ s.nArr → s'.arr j = s.arr j ∧ ∀ x, elem s' j x = elem s j x) := by
  have hchk : shift + sizeOf shape ≤ h.num := by
    refine room shape hne hpos shift h.num (fun x => h.addr (tr x)) ?_ ?_ hsh
    · intro x hx
      obtain ⟨u, hu⟩ := hread _ (htr x hx)
      obtain ⟨g, p, b, a, h1, h2, h3, h4, h5⟩ := elem_some hu
      rw [e] at h1; cases h1
      obtain ⟨b', hb', hl'⟩ := hs.ptr i h p e h2
      rw [h3] at hb'; cases hb'
      refine ⟨a, h4, ?_, hl' ▸ (List.getElem?_eq_some_iff.1 h5).1⟩
      rw [← hadd x hx] at h4
      obtain ⟨c, -, rfl⟩ := Option.map_eq_some_iff.1 h4
      omega
    · intro x y hx hy hxy
      exact hti x y hx hy (hinj _ _ (htr x hx) (htr y hy) hxy)
  have hok : initCheck { h with shift := shift, shape := shape, mutable := false } = true := by
    simp [initCheck, hlen, hchk]
  refine ⟨s.push { h with shift := shift, shape := shape, mutable := false }, ?_, ?_, ?_, ?_⟩
  · simp only [mkView]; rw [if_pos hok]
  · simp [shapeOf, Store.push]
  · intro x hx
    have := hadd x hx
    simp only [elem, Store.push, Function.update_self, Option.bind_some, e]
    simp only [Handle.addr] at this ⊢
    rw [this]
  · intro j hj
    have h1 : (s.push { h with shift := shift, shape := shape, mutable := false }).arr j = s.arr j := by
      simp only [Store.push]; rw [Function.update_of_ne hj]
    exact ⟨h1, fun x => elem_congr h1 (fun _ _ _ _ => rfl) x⟩

end Brille.Arr
