import Verif.Proofs.ArrayFits
import Verif.Proofs.ArrayAppend
/-! Array lemmas in the form used by the property theorems. -/
namespace Brille.Arr
open Brille.Subscript Brille.Spec
variable {T : Type} [Inhabited T]

theorem plain_facts {k : Kind} {s : Store T} (h : PlainReachable k s) : Inv s ∧ Chk s ∧ Fits s := by
  obtain ⟨l, hp, hl⟩ := h
  refine ⟨reachable_inv ⟨l, hl⟩, run_chk k l ?_ hl, run_fits k l ?_ ?_ hp hl⟩ <;>
  · intro i h e
    simp [Store.empty] at e

theorem run_append (k : Kind) (l m : List (Op T)) (s : Store T) :
    run k (l ++ m) s = match run k l s with
      | .ok s' => run k m s'
      | .threw s' => .threw s'
      | .ub e => .ub e := by
  induction l generalizing s with
  | nil => rfl
  | cons o l ih =>
    simp only [List.cons_append, run]
    split <;> simp_all

theorem plain_step {k : Kind} {s s' : Store T} {o : Op T} (h : PlainReachable k s) (ho : PlainOp o)
    (e : step k s o = .ok s') : PlainReachable k s' := by
  obtain ⟨l, hp, hl⟩ := h
  refine ⟨l ++ [o], ?_, ?_⟩
  · intro a ha
    rcases List.mem_append.1 ha with h | h
    · exact hp a h
    · rw [List.mem_singleton.1 h]; exact ho
  · rw [run_append, hl]
    simp only [run, e]

omit [Inhabited T] in
theorem shapeOf_some {s : Store T} {i : Nat} {sh : List Nat} (h : shapeOf s i = some sh) :
    ∃ g, s.arr i = some g ∧ g.shape = sh := by
  simpa [shapeOf] using h

omit [Inhabited T] in
theorem useCount_gt {s : Store T} (hs : Inv s) {i j r : Nat} {h g : Handle} (hji : j ≠ i)
    (e : s.arr i = some h) (e' : s.arr j = some g) (hr : g.ref = some r) (hr' : h.ref = some r) :
    useCount s h.ref > 1 := by
  rw [hr']
  by_contra hc
  have : useCount s (some r) = 0 ∨ useCount s (some r) = 1 := by omega
  rcases this with h0 | h1
  · exact useCount_zero hs h0 e hr'
  · exact hji (useCount_one hs h1 e hr' e' hr)

theorem write_congr (k : Kind) {s : Store T} {i n : Nat} {h g : Handle} (ei : s.arr i = some h)
    (en : s.arr n = some g) (hd : g.data = h.data) {x y : List Nat} (ha : g.addr x = h.addr y) (v : T) :
    step k s (.write n x v) = step k s (.write i y v) := by
  simp only [step, ei, en, hd, ha]

theorem window_mk {k : Kind} {s : Store T} (hs : Inv s) {i : Nat} {h : Handle} (e : s.arr i = some h)
    (hi : i < s.nArr)
    (shift : Nat) (shape : List Nat) (tr : List Nat → List Nat) (hne : shape ≠ [])
    (hpos : ∀ n ∈ shape.tail, 0 < n) (hlen : shape.length = h.stride.length)
    (hhne : h.shape ≠ []) (hf : FitsH h)
    (htr : ∀ x, InRange shape x → InRange h.shape (tr x))
    (hti : ∀ x y, InRange shape x → InRange shape y → tr x = tr y → x = y)
    (hadd : ∀ x, InRange shape x → (sub2lin x h.stride).map (· + shift) = h.addr (tr x))
    (hsh : shift ≤ h.num) :
    ∃ s', mkView s h shift shape = .ok s' ∧ Window k s s' i s.nArr shape tr := by
  obtain ⟨s', h1, h2, h3, h4⟩ := mkView_spec hs e shift shape tr hne hpos hlen
    (readable_of_fits hs e hhne hf)
    (by
      intro x y hx hy hxy
      refine (hf hhne).2 x y hx hy ?_
      obtain ⟨a, ha, -⟩ := (hf hhne).1 x hx
      obtain ⟨b, hb, -⟩ := (hf hhne).1 y hy
      simp only [Handle.addr, ha, hb, Option.map_some, Option.some.injEq, Nat.add_right_cancel_iff] at hxy
      rw [ha, hb, hxy]) htr hti hadd hsh
  refine ⟨s', h1, h2, fun x hx => ⟨h.shape, by simp [shapeOf, e], htr x hx⟩, h3, ?_, h4⟩
  intro x v hx
  have e' : s'.arr i = some h := by rw [(h4 i (by omega)).1, e]
  have en : s'.arr s.nArr = some { h with shift := shift, shape := shape, mutable := false } := by
    simp only [mkView] at h1
    split at h1
    · cases h1; simp [Store.push]
    · cases h1
  exact write_congr k e' en rfl (hadd x hx) v

omit [Inhabited T] in
theorem arr_lt {s : Store T} (hs : Inv s) {i : Nat} {h : Handle} (e : s.arr i = some h) : i < s.nArr := by
  by_contra hc
  rw [hs.fa i (by omega)] at e
  cases e

/-- A shift between the origin and an addressable element is inside the memory. -/
theorem shift_le {h : Handle} {shape : List Nat} {shift : Nat} {tr : List Nat → List Nat}
    (hhne : h.shape ≠ []) (hf : FitsH h) (hpos : ∀ n ∈ shape, 0 < n)
    (htr : ∀ x, InRange shape x → InRange h.shape (tr x))
    (hadd : ∀ x, InRange shape x → (sub2lin x h.stride).map (· + shift) = h.addr (tr x)) :
    shift ≤ h.num := by
  have hx : InRange shape (shape.map fun _ => 0) := by
    rw [InRange, List.forall₂_map_left_iff]
    exact List.forall₂_same.2 hpos
  obtain ⟨a, ha, hlt⟩ := (hf hhne).1 _ (htr _ hx)
  have := hadd _ hx
  rw [Handle.addr, ha] at this
  obtain ⟨c, -, hc⟩ := Option.map_eq_some_iff.1 this
  dsimp only at hc
  omega

end Brille.Arr
