import Verif.Proofs.ArraySafe
import Verif.Spec.ArrayMem
/-! Elements seen through array objects after decouple, resize and append. -/
namespace Brille.Arr
open Brille.Subscript Brille.Spec
variable {T : Type}

theorem elem_eq {s : Store T} {i : Nat} {h : Handle} {p : Nat} {b : List T} (e : s.arr i = some h)
    (hp : h.data = some p) (hb : s.block p = some b) (x : List Nat) :
    elem s i x = (h.addr x).bind fun a => b[a]? := by
  simp [elem, e, hp, hb]

theorem elem_congr {s s' : Store T} {i j : Nat} (ha : s'.arr j = s.arr i)
    (hb : ∀ h p, s.arr i = some h → h.data = some p → s'.block p = s.block p) (x : List Nat) :
    elem s' j x = elem s i x := by
  simp only [elem, ha]
  cases e : s.arr i with
  | none => rfl
  | some h =>
    cases hp : h.data with
    | none => simp [hp]
    | some p => simp [hp, hb h p e hp]

theorem elem_some {s : Store T} {i : Nat} {x : List Nat} {v : T} (h : elem s i x = some v) :
    ∃ g p b a, s.arr i = some g ∧ g.data = some p ∧ s.block p = some b ∧ g.addr x = some a ∧
      b[a]? = some v := by
  simp only [elem, Option.bind_eq_some_iff] at h
  obtain ⟨g, h1, p, h2, b, h3, a, h4, h5⟩ := h
  exact ⟨g, p, b, a, h1, h2, h3, h4, h5⟩

/-- Writing through an object changes only its block. -/
theorem write_ok [Inhabited T] {k : Kind} {s s' : Store T} {i : Nat} {x : List Nat} {v : T}
    (h : step k s (.write i x v) = .ok s') :
    ∃ g p, s.arr i = some g ∧ g.data = some p ∧ s'.arr = s.arr ∧
      ∀ q, q ≠ p → s'.block q = s.block q := by
  simp only [step] at h
  split at h
  · rename_i g e
    split at h
    · rename_i p a hp ha
      split at h
      · split at h
        · cases h
          exact ⟨g, p, e, hp, rfl, fun q hq => by dsimp only; rw [Function.update_of_ne hq]⟩
        · cases h
      · cases h
    · cases h
  · cases h

theorem apart_of [Inhabited T] (k : Kind) {s : Store T} {i j : Nat}
    (h : ∀ g g' p, s.arr i = some g → s.arr j = some g' → g.data = some p → g'.data ≠ some p) :
    Apart k s i j := by
  constructor
  · intro x v s' hw y
    obtain ⟨g, p, e, hp, ha, hb⟩ := write_ok hw
    refine elem_congr (by rw [ha]) (fun g' q e' hq => hb q ?_) y
    rintro rfl
    exact h g g' q e e' hp hq
  · intro x v s' hw y
    obtain ⟨g, p, e, hp, ha, hb⟩ := write_ok hw
    refine elem_congr (by rw [ha]) (fun g' q e' hq => hb q ?_) y
    rintro rfl
    exact h g' g q e' e hq hp

/-- The copying loop when equal target addresses mean equal source values. -/
theorem copyLoop_spec' (nst ost : List Nat) (shift : Nat) (old : List T)
    (l : List (List Nat)) (new : List T)
    (hn : ∀ x ∈ l, ∃ a, sub2lin x nst = some a ∧ a < new.length)
    (ho : ∀ x ∈ l, ∃ b, sub2lin x ost = some b ∧ b + shift < old.length)
    (hinj : ∀ x ∈ l, ∀ y ∈ l, sub2lin x nst = sub2lin y nst → ∀ b c, sub2lin x ost = some b →
      sub2lin y ost = some c → old[b + shift]? = old[c + shift]?) :
    ∃ new', copyLoop nst ost shift old l new = some new' ∧ new'.length = new.length ∧
      (∀ x ∈ l, ∀ a b, sub2lin x nst = some a → sub2lin x ost = some b →
        new'[a]? = old[b + shift]?) ∧
      ∀ a, (∀ x ∈ l, sub2lin x nst ≠ some a) → new'[a]? = new[a]? := by
  induction l generalizing new with
  | nil => exact ⟨new, rfl, rfl, by simp, fun _ _ => rfl⟩
  | cons x l ih =>
    obtain ⟨a, ha, hal⟩ := hn x List.mem_cons_self
    obtain ⟨b, hb, hbl⟩ := ho x List.mem_cons_self
    obtain ⟨new', e, hlen, hin, hout⟩ := ih (new.set a old[b + shift])
      (fun y hy => by
        obtain ⟨c, h1, h2⟩ := hn y (List.mem_cons_of_mem _ hy)
        exact ⟨c, h1, by rw [List.length_set]; exact h2⟩)
      (fun y hy => ho y (List.mem_cons_of_mem _ hy))
      (fun y hy z hz => hinj y (List.mem_cons_of_mem _ hy) z (List.mem_cons_of_mem _ hz))
    refine ⟨new', ?_, by rw [hlen, List.length_set], ?_, ?_⟩
    · simp only [copyLoop, ha, hb, List.getElem?_eq_getElem hbl, if_pos hal]
      exact e
    · intro y hy a' b' h1 h2
      rcases List.mem_cons.1 hy with rfl | hy
      · rw [ha] at h1; rw [hb] at h2
        obtain rfl := Option.some.inj h1
        obtain rfl := Option.some.inj h2
        by_cases hex : ∃ z ∈ l, sub2lin z nst = some a
        · obtain ⟨z, hz, hza⟩ := hex
          obtain ⟨c, hc, -⟩ := ho z (List.mem_cons_of_mem _ hz)
          rw [hin z hz a c hza hc]
          exact hinj z (List.mem_cons_of_mem _ hz) y List.mem_cons_self (hza.trans ha.symm) c b hc hb
        · push Not at hex
          rw [hout a hex, List.getElem?_set_self hal, List.getElem?_eq_getElem hbl]
      · exact hin y hy a' b' h1 h2
    · intro c hc
      rw [hout c (fun y hy => hc y (List.mem_cons_of_mem _ hy)), List.getElem?_set_ne]
      intro h
      exact hc x List.mem_cons_self (h ▸ ha)

theorem copyLoop_bound (nst ost : List Nat) (shift : Nat) (old : List T)
    (l : List (List Nat)) (new new' : List T) (h : copyLoop nst ost shift old l new = some new') :
    ∀ x ∈ l, ∃ a, sub2lin x nst = some a ∧ a < new.length := by
  induction l generalizing new with
  | nil => simp
  | cons x l ih =>
    simp only [copyLoop] at h
    split at h
    · rename_i a b ha hb
      split at h
      · split at h
        · rename_i v hv hlt
          intro y hy
          rcases List.mem_cons.1 hy with rfl | hy
          · exact ⟨a, ha, hlt⟩
          · have := ih _ h y hy
            rwa [List.length_set] at this
        · cases h
      · cases h
    · cases h

variable [Inhabited T]

/-- The copy made by `decouple`, for both classes. -/
theorem decoupleBuf_spec {k : Kind} {s : Store T} (hs : Inv s) {i : Nat} {h : Handle}
    (e : s.arr i = some h) (hshape : h.shape ≠ []) (hpos : ∀ n ∈ h.shape.tail, 0 < n)
    (hlen : h.shape.length = h.stride.length) (hchk : h.shift + sizeOf h.shape ≤ h.num)
    (hread : AllReadable s i h.shape)
    (hnd : k = .nd → sizeOf h.shape ≠ h.num →
      ∀ x, InRange h.shape x → ∃ a, sub2lin x h.stride = some a ∧ a < sizeOf h.shape) :
    ∃ old nd st, contents s h = some old ∧ decoupleBuf k h old = some (nd, st) ∧
      st.length = h.shape.length ∧
      ∀ x, InRange h.shape x → ((sub2lin x st).bind fun a => nd[a]?) = elem s i x := by
  obtain ⟨old, ho⟩ := contents_some hs e
  have holdlen : old.length = h.num := by
    simp only [contents] at ho
    cases hp : h.data with
    | none => rw [hp] at ho; cases ho; rw [hs.null i h e hp]; rfl
    | some p =>
      rw [hp] at ho
      obtain ⟨b, hb, hl⟩ := hs.ptr i h p e hp
      have ho : s.block p = some old := ho
      rw [ho] at hb; cases hb; exact hl
  have hel : ∀ x, InRange h.shape x → ∃ b v, sub2lin x h.stride = some b ∧
      old[b + h.shift]? = some v ∧ elem s i x = some v := by
    intro x hx
    obtain ⟨v, hv⟩ := hread x hx
    obtain ⟨g, p, b, a, h1, h2, h3, h4, h5⟩ := elem_some hv
    rw [e] at h1; cases h1
    simp only [contents, h2] at ho
    rw [h3] at ho; cases ho
    simp only [Handle.addr, Option.map_eq_some_iff] at h4
    obtain ⟨c, hc, rfl⟩ := h4
    exact ⟨c, v, hc, h5, hv⟩
  obtain ⟨l, hl, -, hmem⟩ := subs_spec h.shape hshape hpos
  have raw : sizeOf h.shape = h.num → ∀ x, InRange h.shape x →
      ((sub2lin x h.stride).bind fun a => (old.take h.num)[a]?) = elem s i x := by
    intro hn x hx
    obtain ⟨b, v, h1, h2, h3⟩ := hel x hx
    have : h.shift = 0 := by omega
    rw [this] at h2
    rw [h1, h3, Option.bind_some, ← holdlen, List.take_length]; exact h2
  have loop : ∀ st, (∀ x, InRange h.shape x → ∃ a, sub2lin x st = some a ∧ a < sizeOf h.shape) →
      (∀ x y, InRange h.shape x → InRange h.shape y → sub2lin x st = sub2lin y st →
        sub2lin x h.stride = sub2lin y h.stride) →
      ∃ nd, copyLoop st h.stride h.shift old l (List.replicate (sizeOf h.shape) default) = some nd ∧
      ∀ x, InRange h.shape x → ((sub2lin x st).bind fun a => nd[a]?) = elem s i x := by
    intro st hst hinj
    obtain ⟨nd, e1, -, hin, -⟩ := copyLoop_spec' st h.stride h.shift old l
      (List.replicate (sizeOf h.shape) default)
      (fun x hx => by
        obtain ⟨a, h1, h2⟩ := hst x ((hmem x).1 hx)
        exact ⟨a, h1, by rw [List.length_replicate]; exact h2⟩)
      (fun x hx => by
        obtain ⟨b, v, h1, h2, -⟩ := hel x ((hmem x).1 hx)
        exact ⟨b, h1, (List.getElem?_eq_some_iff.1 h2).1⟩)
      (fun x hx y hy he b c hb hc => by
        have := hinj x y ((hmem x).1 hx) ((hmem y).1 hy) he
        rw [hb, hc] at this
        rw [Option.some.inj this])
    refine ⟨nd, e1, fun x hx => ?_⟩
    obtain ⟨a, h1, h2⟩ := hst x hx
    obtain ⟨b, v, k1, k2, k3⟩ := hel x hx
    rw [h1, Option.bind_some, hin x ((hmem x).2 hx) a b h1 k1, k2, k3]
  cases k with
  | nd =>
    by_cases hn : sizeOf h.shape = h.num
    · refine ⟨old, old.take h.num, h.stride, ho, ?_, hlen.symm, raw hn⟩
      simp only [decoupleBuf, if_pos hn]
      rw [if_pos (by omega)]
    · obtain ⟨nd, e1, e2⟩ := loop h.stride (hnd rfl hn) (fun _ _ _ _ h => h)
      refine ⟨old, nd, h.stride, ho, ?_, hlen.symm, e2⟩
      simp only [decoupleBuf, if_neg hn, hl, Option.bind_some, e1, Option.map_some]
  | two =>
    by_cases hn : isContiguous2 h.shape h.stride = true ∧ sizeOf h.shape = h.num
    · refine ⟨old, old.take h.num, h.stride, ho, ?_, hlen.symm, raw hn.2⟩
      simp only [decoupleBuf, if_pos hn]
      rw [if_pos (by omega)]
    · have hcs : ∃ st, calcStride h.stride h.shape = some st := by
        have : h.stride ≠ [] := by
          intro h0; rw [h0] at hlen; exact hshape (List.length_eq_zero_iff.1 hlen)
        obtain ⟨t, ts, ht⟩ := List.exists_cons_of_ne_nil this
        rw [ht]
        simp only [calcStride, List.head?_cons]
        rw [List.getLast?_eq_getLast_of_ne_nil (by simp)]
        exact ⟨_, rfl⟩
      obtain ⟨st, hst⟩ := hcs
      obtain ⟨p1, p2⟩ := packed_calc hst
      rw [← sizeOf_eq hshape] at p1
      obtain ⟨nd, e1, e2⟩ := loop st p1 (fun x y hx hy he => by rw [p2 x y hx hy he])
      refine ⟨old, nd, st, ho, ?_, length_calc hst, e2⟩
      simp only [decoupleBuf, if_neg hn, hst, hl, Option.bind_some, e1, Option.map_some]

/-- `decouple()` when it copies. -/
theorem decouple_spec {k : Kind} {s : Store T} (hs : Inv s) {i : Nat} {h : Handle}
    (e : s.arr i = some h) (hshape : h.shape ≠ []) (hpos : ∀ n ∈ h.shape.tail, 0 < n)
    (hlen : h.shape.length = h.stride.length) (hchk : h.shift + sizeOf h.shape ≤ h.num)
    (hread : AllReadable s i h.shape)
    (hnd : k = .nd → sizeOf h.shape ≠ h.num →
      ∀ x, InRange h.shape x → ∃ a, sub2lin x h.stride = some a ∧ a < sizeOf h.shape)
    (hcopy : h.own = false ∨ h.mutable = false ∨ useCount s h.ref > 1) :
    ∃ s', step k s (.decouple i) = .ok s' ∧ shapeOf s' s.nArr = some h.shape ∧
      (∀ x, InRange h.shape x → elem s' s.nArr x = elem s i x) ∧
      (∀ j, j ≠ s.nArr → s'.arr j = s.arr j ∧ (∀ x, elem s' j x = elem s j x)) ∧
      ∀ j, j ≠ s.nArr → Apart k s' s.nArr j := by
  obtain ⟨old, nd, st, ho, hd, hst, hel⟩ := decoupleBuf_spec hs e hshape hpos hlen hchk hread hnd
  refine ⟨(s.alloc nd).newRef.push
      ⟨some s.nBlock, sizeOf h.shape, 0, true, some s.nRef, true, h.shape, st⟩, ?_, ?_, ?_, ?_, ?_⟩
  rotate_left
  · simp [shapeOf, Store.push, Store.newRef, Store.alloc]
  · intro x hx
    rw [← hel x hx]
    simp [elem, Store.push, Store.newRef, Store.alloc, Handle.addr]
  · intro j hj
    have : Function.update s.arr s.nArr
      (some ⟨some s.nBlock, sizeOf h.shape, 0, true, some s.nRef, true, h.shape, st⟩) j = s.arr j := by
      rw [Function.update_of_ne hj]
    refine ⟨this, fun x => elem_congr this ?_ x⟩
    intro g p eg hp
    have := ptr_lt hs eg hp
    simp only [Store.push, Store.newRef, Store.alloc]
    rw [Function.update_of_ne (by omega)]
  · intro j hj
    refine apart_of k ?_
    intro g g' p eg eg' hg hg'
    simp only [Store.push, Store.newRef, Store.alloc, Function.update_self] at eg
    cases eg
    cases hg
    simp only [Store.push, Store.newRef, Store.alloc] at eg'
    rw [Function.update_of_ne hj] at eg'
    exact absurd (ptr_lt hs eg' hg') (lt_irrefl _)
  · simp only [step, e, if_pos hcopy, ho, hd]
    rw [if_pos (by simp [initCheck, hst])]

end Brille.Arr
