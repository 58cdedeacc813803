import Verif.Spec.Numpy
import Verif.Props.ArrayFun
import Verif.Props.Subscript
import Verif.Proofs.ArrayElem
/-
C80: numpy arrays, `Array` and `Array2` objects made from each other have the same elements.
-/
namespace Brille.Props
open Brille.Subscript Brille.Arr Brille.Spec Brille.ArrFun Brille.Numpy

variable {T : Type}

theorem u32_id {n : Nat} (h : n < 2 ^ 32) : u32 n = n := Nat.mod_eq_of_lt h

theorem offset_le_reach : ∀ {shape x t : List Nat}, InRange shape x → t.length = shape.length →
    (List.zipWith (· * ·) x t).sum ≤ reach shape t
  | [], x, t, h, _ => by cases h; simp
  | n :: ns, x, [], h, hl => by simp at hl
  | n :: ns, x, t :: ts, h, hl => by
    cases h with
    | cons h1 h2 =>
      have ih := offset_le_reach h2 (by simpa using hl : ts.length = ns.length)
      simp only [List.zipWith_cons_cons, List.sum_cons, reach]
      exact Nat.add_le_add (Nat.mul_le_mul_right _ (by omega)) ih

theorem allocated_ge (shape stride : List Nat) (num : Nat) : num ≤ allocated num shape stride := by
  unfold allocated
  generalize shape.zip stride = l
  induction l generalizing num with
  | nil => exact le_rfl
  | cons p l ih =>
    rw [List.foldl_cons]
    split
    · exact (by omega : num ≤ _).trans (ih _)
    · exact ih _

theorem sum_scaled (item : Nat) : ∀ (x t : List Nat),
    (List.zipWith (fun (i : Nat) (s : Int) => (i : Int) * s) x (t.map fun s => ((item * s : Nat) : Int))).sum =
      (item : Int) * ((List.zipWith (· * ·) x t).sum : Nat)
  | [], _ => by simp
  | _ :: _, [] => by simp
  | i :: x, s :: t => by
    have := sum_scaled item x t
    simp only [List.map_cons, List.zipWith_cons_cons, List.sum_cons, this]
    push_cast
    ring

/-- **C80.** A numpy array whose strides are multiples `t` of the size of an element, none negative, and
whose first and last element are less than 2³² elements apart, is taken over without copying: the array
has the same extents, and the element with any subscript is the same place in memory.  It can be
changed if the numpy array can. -/
theorem C80_import (p : Py) (t : List Nat) (hi : 0 < p.item)
    (ht : p.strides = t.map fun s => ((p.item * s : Nat) : Int)) (hl : t.length = p.shape.length)
    (hs : ∀ s ∈ t, s < 2 ^ 32 ∧ p.item * s < 2 ^ 63) (hn : ∀ n ∈ p.shape, n < 2 ^ 32)
    (hp : p.shape.prod < 2 ^ 32) (hr : reach p.shape t < 2 ^ 32) :
    ∃ b, py2a p = .ok b ∧ b.shape = p.shape ∧ b.free = !p.readonly ∧
      (∀ x, InRange p.shape x → b.addr x = numpyAddress p x) ∧
      (py2a2 p = if p.shape.length = 2 then .ok b else .error .threw) := by
  have e1 : p.shape.map u32 = p.shape := by
    conv_rhs => rw [← List.map_id p.shape]
    exact List.map_congr_left fun n h => u32_id (hn n h)
  have e2 : p.strides.map (elementStride p.item) = t := by
    rw [ht, List.map_map]
    conv_rhs => rw [← List.map_id t]
    refine List.map_congr_left fun s h => ?_
    have e : u64 ((p.item * s : Nat) : Int) = p.item * s := by
      rw [u64, Int.emod_eq_of_lt (by positivity) (by have := (hs s h).2; omega)]
      exact Int.toNat_natCast _
    show u32 (u64 ((p.item * s : Nat) : Int) / p.item) = s
    rw [e, Nat.mul_div_cancel_left _ hi, u32_id (hs s h).1]
  have hb : py2a p = .ok ⟨p.item, p.ptr, allocated p.shape.prod p.shape t, 0, p.shape, t, !p.readonly⟩ := by
    rw [py2a, e1, e2, u32_id hp]
    simp only [Bn.check]
    rw [if_neg (by simpa using hl.symm), if_neg]
    have := allocated_ge p.shape t p.shape.prod
    rw [Nat.zero_add, sizeFromShape]
    split
    · simp [u32]
    · rw [u32_id hp, u32_id hp]; omega
  refine ⟨_, hb, rfl, rfl, ?_, ?_⟩
  · intro x hx
    have := offset_le_reach hx hl
    rw [Bn.addr, numpyAddress, ht, sum_scaled]
    simp only [Nat.add_zero]
    rw [u32_id (by omega)]
  · rw [py2a2]
    by_cases h2 : p.shape.length = 2
    · rw [if_neg (by simpa using h2), if_pos h2, hb]
    · rw [if_pos h2, if_neg h2]

/-- **C80.** An array that starts at the beginning of its memory is handed to numpy without copying: numpy
sees the same extents and the same places.  The same holds for the buffer protocol. -/
theorem C80_export (b : Bn) (hnum : b.num ≠ 0) (hshift : b.shift = 0)
    (hl : b.stride.length = b.shape.length) (hs : ∀ s ∈ b.stride, s * b.item < 2 ^ 32)
    (hr : reach b.shape b.stride < 2 ^ 32) :
    ∃ p, a2py b = some p ∧ p.shape = b.shape ∧ (buffer b).shape = b.shape ∧
      ∀ x, InRange b.shape x → numpyAddress p x = b.addr x ∧ numpyAddress (buffer b) x = b.addr x := by
  have e : b.cstride = b.stride.map fun s => ((b.item * s : Nat) : Int) := by
    rw [Bn.cstride]
    refine List.map_congr_left fun s h => ?_
    rw [u32_id (hs s h), Nat.mul_comm]
  have key : ∀ x, InRange b.shape x →
      b.base + (List.zipWith (fun (i : Nat) (s : Int) => (i : Int) * s) x b.cstride).sum = b.addr x := by
    intro x hx
    have := offset_le_reach hx hl
    rw [e, sum_scaled, Bn.addr, hshift, Nat.add_zero, u32_id (by omega)]
  exact ⟨⟨b.item, b.base, b.shape, b.cstride, false⟩, by rw [a2py, if_neg hnum], rfl, rfl,
    fun x hx => ⟨key x hx, key x hx⟩⟩

/-- **C80.** Handing an array to numpy and back gives the same places again. -/
theorem C80_round_trip (b : Bn) (hnum : b.num ≠ 0) (hshift : b.shift = 0) (hi : 0 < b.item)
    (hl : b.stride.length = b.shape.length) (hs : ∀ s ∈ b.stride, s * b.item < 2 ^ 32)
    (hn : ∀ n ∈ b.shape, n < 2 ^ 32) (hp : b.shape.prod < 2 ^ 32) (hr : reach b.shape b.stride < 2 ^ 32) :
    ∃ p c, a2py b = some p ∧ py2a p = .ok c ∧ c.shape = b.shape ∧
      ∀ x, InRange b.shape x → c.addr x = b.addr x := by
  obtain ⟨p, e, hsh, -, ha⟩ := C80_export b hnum hshift hl hs hr
  have hpe : p = ⟨b.item, b.base, b.shape, b.cstride, false⟩ := by
    rw [a2py, if_neg hnum] at e
    exact (Option.some.inj e).symm
  subst hpe
  obtain ⟨c, ec, hc, -, hca, -⟩ := C80_import ⟨b.item, b.base, b.shape, b.cstride, false⟩ b.stride hi
    (by
      show b.cstride = _
      rw [Bn.cstride]
      refine List.map_congr_left fun s h => ?_
      rw [u32_id (hs s h), Nat.mul_comm]) hl
    (by
      intro s h
      have := hs s h
      have h1 : s ≤ s * b.item := Nat.le_mul_of_pos_right _ hi
      have h2 : b.item * s = s * b.item := Nat.mul_comm _ _
      constructor
      · omega
      · show b.item * s < _
        omega) hn hp hr
  refine ⟨_, c, e, ec, hc, ?_⟩
  intro x hx
  rw [hca x hx, (ha x hx).1]

/-- A transposed slice of every second column of a 10×6 array of doubles is such an array. -/
example : ∃ b, py2a2 ⟨8, 4096, [3, 10], [16, 48], false⟩ = .ok b ∧
    ∀ x, InRange [3, 10] x → b.addr x = numpyAddress ⟨8, 4096, [3, 10], [16, 48], false⟩ x := by
  obtain ⟨b, h1, h2, h3, h4, h5⟩ := C80_import ⟨8, 4096, [3, 10], [16, 48], false⟩ [2, 6] (by decide)
    (by decide) rfl (by decide) (by decide) (by decide) (by decide)
  exact ⟨b, h5, h4⟩

/-- **C80 (counterexample).** A numpy array with a negative stride, such as `q[::-1]`, is accepted, and its
elements are looked up far outside of its memory. -/
theorem C80_reversed_counterexample :
    ∃ b, py2a2 ⟨8, 4096, [3, 2], [-16, 8], false⟩ = .ok b ∧
      numpyAddress ⟨8, 4096, [3, 2], [-16, 8], false⟩ [1, 0] = 4080 ∧
      b.addr [1, 0] = 4096 + 8 * (2 ^ 32 - 2) :=
  ⟨_, rfl, by decide, by decide⟩

/-- **C80 (counterexample).** A stride that is no multiple of the size of an element, as that of a field of a
structured array, is accepted and rounded down. -/
theorem C80_field_counterexample :
    ∃ b, py2a2 ⟨8, 4096, [3, 1], [12, 8], false⟩ = .ok b ∧
      numpyAddress ⟨8, 4096, [3, 1], [12, 8], false⟩ [1, 0] = 4108 ∧ b.addr [1, 0] = 4104 :=
  ⟨_, rfl, by decide, by decide⟩

/-- **C80 (counterexample).** A view that does not start at the beginning of its memory is shown to numpy as
if it did. -/
theorem C80_view_counterexample :
    ∃ p, a2py ⟨8, 4096, 6, 3, [1, 3], [3, 1], true⟩ = some p ∧
      (Bn.mk 8 4096 6 3 [1, 3] [3, 1] true).addr [0, 0] = 4120 ∧ numpyAddress p [0, 0] = 4096 :=
  ⟨_, rfl, by decide, by decide⟩

/-- **C80 (counterexample).** The strides in bytes are 32-bit numbers: all rows of an array with 2²⁹ doubles
per row are shown to numpy as the first one. -/
theorem C80_large_counterexample :
    ∃ p, a2py ⟨8, 4096, 2 ^ 30, 0, [2, 2 ^ 29], [2 ^ 29, 1], true⟩ = some p ∧
      (Bn.mk 8 4096 (2 ^ 30) 0 [2, 2 ^ 29] [2 ^ 29, 1] true).addr [1, 0] = 4096 + 2 ^ 32 ∧
      numpyAddress p [1, 0] = 4096 :=
  ⟨_, rfl, by decide, by decide⟩

/-- **C80 (counterexample).** Through the buffer protocol arrays which may be changed are read-only and
arrays which may not be changed are writable. -/
theorem C80_readonly_counterexample (b : Bn) : (buffer b).readonly ≠ !b.free := by
  simp [buffer]

/-! ### Between `Array` and `Array2` -/

theorem rowIndex_eq : ∀ {shape x : List Nat}, InRange shape x →
    sub2lin x (rowStride shape) = some (rowIndex shape x)
  | [], x, h => by cases h; rfl
  | n :: ns, x, h => by
    cases h with
    | cons h1 h2 =>
      rw [rowStride, sub2lin, rowIndex_eq h2, rowIndex]
      simp [List.prod]

theorem rowIndex_lt {shape x : List Nat} (h : InRange shape x) : rowIndex shape x < shape.prod := by
  obtain ⟨l, e, hl, -⟩ := C03_sub2lin_lin2sub shape x h
  rw [rowIndex_eq h] at e
  cases e
  exact hl

/-- **C80.** An `Array` made from an `Array2` with a shape for as many elements has the same elements in row
order, unless the `Array2` is stored by columns. -/
theorem C80_to_array [Inhabited T] {a : A2 T} {n m : Nat} {f : Nat → Nat → T} (h : Shows a n m f)
    (hs : Separate a) (hn : 0 < n) (hm : 0 < m) (ho : a.t1 ≤ a.t0) (shape : List Nat)
    (hp : shape.prod = n * m) :
    ∃ b, ofA2 a shape = .ok b ∧ b.shape = shape ∧ ∀ x, InRange shape x →
      b.read x = .ok (f (rowIndex shape x / m) (rowIndex shape x % m)) := by
  obtain ⟨c, e, s, -, hc⟩ := (C78_copies h hs hm).2
  have hc := hc ho
  have hb := s.bound (n - 1) (m - 1) (by rw [s.rows]; omega) (by rw [s.cols]; omega)
  rw [hc _ _ (by rw [s.rows]; omega) (by rw [s.cols]; omega), s.cols] at hb
  have hle : c.shift + n * m ≤ c.data.length := by
    have : (n - 1) * m + (m - 1) + 1 = n * m := by
      obtain ⟨k, rfl⟩ := Nat.exists_eq_add_of_lt hn
      obtain ⟨q, rfl⟩ := Nat.exists_eq_add_of_lt hm
      simp only [Nat.zero_add, Nat.add_sub_cancel]
      ring
    omega
  refine ⟨⟨shape, rowStride shape, c.shift, c.data⟩, ?_, rfl, ?_⟩
  · rw [ofA2, e]
    show (if _ then _ else _) = _
    rw [if_neg]
    split
    · omega
    · omega
  · intro x hx
    have hk : rowIndex shape x < n * m := hp ▸ rowIndex_lt hx
    have := lin_of_row s hc hk
    rw [A2.lin] at this
    rw [Nd.read]
    simp only [rowIndex_eq hx]
    exact this

/-- **C80 (counterexample).** From an `Array2` stored by columns the elements come in the wrong order. -/
theorem C80_to_array_counterexample :
    ∃ b, ofA2 byColumns [6] = .ok b ∧ flat 3 2 (fun i j => (2 * i + j + 1 : Int)) = [1, 2, 3, 4, 5, 6] ∧
      (List.range 6).map (fun k => b.read [k]) = [1, 3, 5, 2, 4, 6].map .ok :=
  ⟨_, rfl, by decide, by decide⟩

/-- **C80 (counterexample).** A shape for more elements is accepted if the memory behind the array is large
enough; then elements which do not belong to the array appear. -/
theorem C80_shape_counterexample :
    ∃ b, ofA2 (⟨1, 2, 2, 1, 0, [1, 2, 3, 4]⟩ : A2 Int) [4] = .ok b ∧ b.read [3] = .ok 4 :=
  ⟨_, rfl, by decide⟩

/-- **C80.** An `Array2` made from an `Array` with at least one dimension has the same elements: the first
subscript stays, the others are joined in row order.  This holds for all strides. -/
theorem C80_to_array2 [Inhabited T] (b : Nd T) (n : Nat) (ns : List Nat) (hsh : b.shape = n :: ns)
    (hpos : ∀ s ∈ ns, 0 < s) (h : List Nat → T) (hb : ∀ x, InRange (n :: ns) x → b.read x = .ok (h x)) :
    ∃ a, toA2 b = .ok a ∧ a.n0 = n ∧ a.n1 = ns.prod ∧ RowPacked a ∧
      ∀ i xs, i < n → InRange ns xs → a.read [i, rowIndex ns xs] = .ok (h (i :: xs)) := by
  have hval : ∀ x, InRange (n :: ns) x → ∃ k, sub2lin x b.stride = some k ∧ b.data[k + b.shift]? = some (h x) := by
    intro x hx
    have := hb x hx
    rw [Nd.read] at this
    cases hk : sub2lin x b.stride with
    | none => rw [hk] at this; cases this
    | some k =>
      rw [hk] at this
      refine ⟨k, rfl, ?_⟩
      have this : orUb b.data[k + b.shift]? = .ok (h x) := this
      rwa [orUb_ok] at this
  have hcopy : ∃ c, b.rowOrderedCopy = .ok c ∧ ∀ x, InRange (n :: ns) x →
      c.data[rowIndex (n :: ns) x + c.shift]? = some (h x) := by
    by_cases hc : rowOrdered b.stride = true ∧ b.stride = rowStride b.shape
    · refine ⟨b, by rw [Nd.rowOrderedCopy, if_pos hc], ?_⟩
      intro x hx
      obtain ⟨k, e, hv⟩ := hval x hx
      rw [hc.2, hsh, rowIndex_eq hx] at e
      cases e
      exact hv
    · obtain ⟨l, hl, -, hmem⟩ := subs_spec (n :: ns) (by simp) (by simpa using hpos)
      obtain ⟨d, e1, -, e3, -⟩ := copyLoop_spec' (rowStride (n :: ns)) b.stride b.shift b.data l
        (List.replicate (n :: ns).prod default)
        (by
          intro x hx
          have hx := (hmem x).1 hx
          exact ⟨_, rowIndex_eq hx, by rw [List.length_replicate]; exact rowIndex_lt hx⟩)
        (by
          intro x hx
          obtain ⟨k, e, hv⟩ := hval x ((hmem x).1 hx)
          exact ⟨k, e, (List.getElem?_eq_some_iff.1 hv).1⟩)
        (by
          intro x hx y hy e b' c' hb' hc'
          have := C03_no_collision (n :: ns) x y ((hmem x).1 hx) ((hmem y).1 hy) e
          subst this
          rw [hb'] at hc'
          cases hc'
          rfl)
      refine ⟨⟨b.shape, rowStride b.shape, 0, d⟩, ?_, ?_⟩
      · rw [Nd.rowOrderedCopy, if_neg hc, hsh, hl]
        show (orUb (copyLoop _ _ _ _ l _)).bind _ = _
        rw [e1]
        rfl
      · intro x hx
        obtain ⟨k, e, hv⟩ := hval x hx
        rw [Nat.add_zero, e3 x ((hmem x).2 hx) _ k (rowIndex_eq hx) e, hv]
  obtain ⟨c, e, hc⟩ := hcopy
  refine ⟨⟨n, ns.prod, if ns = [] then 1 else ns.prod, 1, c.shift, c.data⟩, ?_, rfl, rfl, ?_, ?_⟩
  · rw [toA2]
    simp only [hsh]
    rw [e]
    rfl
  · intro i j _ _
    simp only
    split
    · rename_i e; subst e; simp
    · simp
  · intro i xs hi hxs
    rw [read_pair, orUb_ok, ← hc (i :: xs) (.cons hi hxs)]
    simp only [rowIndex]
    congr 2
    split
    · rename_i e; subst e; simp
    · simp

/-- A 2×2×2 array stored by columns. -/
example : ∃ a, toA2 (⟨[2, 2, 2], [1, 2, 4], 0, [0, 1, 2, 3, 4, 5, 6, 7]⟩ : Nd Int) = .ok a ∧
    a.data = [0, 4, 2, 6, 1, 5, 3, 7] := ⟨_, rfl, by decide⟩

end Brille.Props
