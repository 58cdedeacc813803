import Verif.Proofs.ArrayResize
/-! Elements after append. -/
namespace Brille.Arr
open Brille.Subscript Brille.Spec
variable {T : Type}

theorem inRange_iff (shape x : List Nat) : InRange shape x ↔
    x.length = shape.length ∧ ∀ (i : Nat) (h : i < x.length) (h' : i < shape.length), x[i] < shape[i] := by
  unfold InRange
  rw [List.forall₂_iff_get]
  simp

theorem getD_of_lt (l : List Nat) (i : Nat) (h : i < l.length) : l.getD i 0 = l[i] := by
  simp [h]

theorem forall2_le_set (l : List Nat) (d k : Nat) (h : l.getD d 0 ≤ k) :
    List.Forall₂ (· ≤ ·) l (l.set d k) := by
  rw [List.forall₂_iff_get]
  refine ⟨by simp, fun i h1 h2 => ?_⟩
  simp only [List.get_eq_getElem, List.getElem_set]
  split
  · rename_i hd; subst hd
    rw [getD_of_lt l _ h1] at h; exact h
  · exact le_rfl

theorem appendLoop_spec (i j dim n : Nat) (hi hj : Handle) (p q : Nat) (hp : hi.data = some p)
    (hq : hj.data = some q) (hpq : q ≠ p) (bq : List T) (l : List (List Nat)) (hnd : l.Nodup)
    (s : Store T) (ei : s.arr i = some hi) (ej : s.arr j = some hj) (bp : List T)
    (hbp : s.block p = some bp) (hbq : s.block q = some bq)
    (h1 : ∀ x ∈ l, ∃ a, hi.addr (bump dim n x) = some a ∧ a < bp.length)
    (h2 : ∀ x ∈ l, ∃ b, hj.addr x = some b ∧ b < bq.length)
    (hinj : ∀ x ∈ l, ∀ y ∈ l, hi.addr (bump dim n x) = hi.addr (bump dim n y) → x = y) :
    ∃ bp', appendLoop i j dim n l s =
        .ok { s with block := Function.update s.block p (some bp') } ∧
      (∀ x ∈ l, ∀ a b, hi.addr (bump dim n x) = some a → hj.addr x = some b → bp'[a]? = bq[b]?) ∧
      ∀ a, (∀ x ∈ l, hi.addr (bump dim n x) ≠ some a) → bp'[a]? = bp[a]? := by
  induction l generalizing s bp with
  | nil =>
    refine ⟨bp, ?_, by simp, fun _ _ => rfl⟩
    rw [← hbp, Function.update_eq_self]; rfl
  | cons x l ih =>
    obtain ⟨a, ha, hal⟩ := h1 x List.mem_cons_self
    obtain ⟨b, hb, hbl⟩ := h2 x List.mem_cons_self
    obtain ⟨hx, hnd'⟩ := List.nodup_cons.1 hnd
    have hstep : assignElt s i (bump dim n x) j x =
        .ok { s with block := Function.update s.block p (some (bp.set a bq[b])) } := by
      simp only [assignElt, ei, ej, hp, hq, ha, hb, hbp, hbq, List.getElem?_eq_getElem hbl, if_pos hal]
    obtain ⟨bp', e, hin, hout⟩ := ih hnd'
      { s with block := Function.update s.block p (some (bp.set a bq[b])) } ei ej (bp.set a bq[b])
      (by simp) (by dsimp only; rw [Function.update_of_ne hpq]; exact hbq)
      (fun y hy => by
        obtain ⟨c, h3, h4⟩ := h1 y (List.mem_cons_of_mem _ hy)
        exact ⟨c, h3, by rw [List.length_set]; exact h4⟩)
      (fun y hy => h2 y (List.mem_cons_of_mem _ hy))
      (fun y hy z hz => hinj y (List.mem_cons_of_mem _ hy) z (List.mem_cons_of_mem _ hz))
    have hxa : ∀ y ∈ l, hi.addr (bump dim n y) ≠ some a := by
      intro y hy h
      have := hinj y (List.mem_cons_of_mem _ hy) x List.mem_cons_self (h.trans ha.symm)
      exact hx (this ▸ hy)
    refine ⟨bp', ?_, ?_, ?_⟩
    · simp only [appendLoop, hstep]
      rw [e]
      simp
    · intro y hy a' b' h3 h4
      rcases List.mem_cons.1 hy with rfl | hy
      · rw [ha] at h3; rw [hb] at h4
        obtain rfl := Option.some.inj h3
        obtain rfl := Option.some.inj h4
        rw [hout _ hxa, List.getElem?_set_self hal, List.getElem?_eq_getElem hbl]
      · exact hin y hy a' b' h3 h4
    · intro c hc
      rw [hout c (fun y hy => hc y (List.mem_cons_of_mem _ hy)), List.getElem?_set_ne]
      intro h
      exact hc x List.mem_cons_self (h ▸ ha)

theorem bump_length (dim n : Nat) (x : List Nat) : (bump dim n x).length = x.length := by
  simp [bump]

theorem bump_inj (dim n : Nat) (x y : List Nat) (h : bump dim n x = bump dim n y) : x = y := by
  have hl : x.length = y.length := by rw [← bump_length dim n x, h, bump_length]
  refine List.ext_getElem hl ?_
  intro i h1 h2
  have := List.getElem_of_eq h (i := i) (by rw [bump_length]; exact h1)
  simp only [bump, List.getElem_modify] at this
  split at this <;> omega

variable [Inhabited T]

/-- `append`: the first block keeps the old elements, the second block gets those of `extra`. -/
theorem append_spec {k : Kind} {s : Store T} (hs : Inv s) {i j dim m : Nat} {h x : Handle}
    (ei : s.arr i = some h) (ej : s.arr j = some x) (hij : i ≠ j) (hdim : dim < h.shape.length)
    (hx : x.shape = h.shape.set dim m)
    (hstr : h.shape.length = h.stride.length)
    (hsh : h.shift = 0) (hri : AllReadable s i h.shape) (hrj : AllReadable s j x.shape)
    (hpos : ∀ n ∈ h.shape.tail, 0 < n) (hposx : ∀ n ∈ x.shape.tail, 0 < n) :
    ∃ s', step k s (.append i dim j) = .ok s' ∧
      shapeOf s' i = some (h.shape.set dim (h.shape[dim] + m)) ∧
      (∀ z, InRange (h.shape.set dim (h.shape[dim] + m)) z →
        (z.getD dim 0 < h.shape[dim] → elem s' i z = elem s i z) ∧
        (h.shape[dim] ≤ z.getD dim 0 →
          elem s' i z = elem s j (z.set dim (z.getD dim 0 - h.shape[dim])))) ∧
      (∀ j', j' ≠ i → s'.arr j' = s.arr j' ∧ ∀ z, elem s' j' z = elem s j' z) ∧
      ∀ j', j' ≠ i → Apart k s' i j' := by
  have hne : h.shape ≠ [] := by intro h0; rw [h0] at hdim; simp at hdim
  have hgd : h.shape.getD dim 0 = h.shape[dim] := getD_of_lt _ _ hdim
  have hns : bump dim (h.shape.getD dim 0) x.shape = h.shape.set dim (h.shape[dim] + m) := by
    rw [hx, hgd]
    refine List.ext_getElem (by simp [bump]) ?_
    intro a h1 h2
    simp only [bump, List.getElem_modify, List.getElem_set]
    split <;> omega
  have herase : x.shape.eraseIdx dim = h.shape.eraseIdx dim := by
    rw [hx, List.eraseIdx_set_eq]
  have hle : List.Forall₂ (· ≤ ·) h.shape (h.shape.set dim (h.shape[dim] + m)) :=
    forall2_le_set _ _ _ (by rw [hgd]; omega)
  have hnsne : h.shape.set dim (h.shape[dim] + m) ≠ [] := by simpa using hne
  obtain ⟨s1, nd, nt, hr, hnt, hndl, hblk, harr, hoth, hel1, hel2⟩ :=
    resize_spec hs (ns := h.shape.set dim (h.shape[dim] + m)) ei hnsne (by simp) hstr hsh hri
      default (.inr ⟨hle, hpos⟩)
  obtain ⟨pk1, pk2⟩ := packed_calc hnt
  rw [← sizeOf_eq hnsne] at pk1
  obtain ⟨l, hl, hlnd, hmem⟩ := subs_spec x.shape (by rw [hx]; simpa using hne) hposx
  let hi : Handle := { h with
        data := some s.nBlock, num := sizeOf (h.shape.set dim (h.shape[dim] + m)), own := true,
        ref := some s.nRef,
        shape := h.shape.set dim (h.shape[dim] + m), stride := nt, mutable := true }
  have ei1 : s1.arr i = some hi := by rw [harr, Function.update_self]
  have ej1 : s1.arr j = some x := by rw [harr, Function.update_of_ne hij.symm]; exact ej
  have haddr : ∀ y, hi.addr y = sub2lin y nt := by
    intro y
    simp only [Handle.addr, hi, hsh]
    cases sub2lin y nt <;> simp
  have hbr : ∀ y, InRange x.shape y →
      InRange (h.shape.set dim (h.shape[dim] + m)) (bump dim h.shape[dim] y) := by
    intro y hy
    rw [hx, inRange_iff] at hy
    rw [inRange_iff]
    refine ⟨by simp [bump, hy.1], ?_⟩
    intro a h1 h2
    have h1' : a < y.length := by simpa [bump] using h1
    have := hy.2 a h1' (by simpa using h2)
    simp only [bump, List.getElem_modify, List.getElem_set] at this ⊢
    split
    · rename_i hd; rw [if_pos hd] at this; omega
    · rename_i hd; rw [if_neg hd] at this; exact this
  -- the loop
  have hloop : ∃ nd', appendLoop i j dim h.shape[dim] l s1 =
        .ok { s1 with block := Function.update s1.block s.nBlock (some nd') } ∧
      (∀ y ∈ l, ∀ a, hi.addr (bump dim h.shape[dim] y) = some a → nd'[a]? = elem s j y) ∧
      ∀ a, (∀ y ∈ l, hi.addr (bump dim h.shape[dim] y) ≠ some a) → nd'[a]? = nd[a]? := by
    cases l with
    | nil =>
      refine ⟨nd, ?_, by simp, fun _ _ => rfl⟩
      rw [← hblk, Function.update_eq_self]; rfl
    | cons y0 l0 =>
      obtain ⟨v0, hv0⟩ := hrj y0 ((hmem y0).1 List.mem_cons_self)
      obtain ⟨g, q, bq, a0, e1, hq, hbq, -, -⟩ := elem_some hv0
      rw [ej] at e1; cases e1
      have hqlt := ptr_lt hs ej hq
      obtain ⟨nd', e, hin, hout⟩ := appendLoop_spec i j dim h.shape[dim] hi x s.nBlock q rfl hq
        (by omega) bq (y0 :: l0) hlnd s1 ei1 ej1 nd hblk
        (by rw [hoth j x q hij.symm ej hq]; exact hbq)
        (fun y hy => by
          obtain ⟨a, h1, h2⟩ := pk1 _ (hbr y ((hmem y).1 hy))
          exact ⟨a, by rw [haddr]; exact h1, by rw [hndl]; exact h2⟩)
        (fun y hy => by
          obtain ⟨v, hv⟩ := hrj y ((hmem y).1 hy)
          rw [elem_eq ej hq hbq] at hv
          obtain ⟨b, hb, hbv⟩ := Option.bind_eq_some_iff.1 hv
          exact ⟨b, hb, (List.getElem?_eq_some_iff.1 hbv).1⟩)
        (fun y hy z hz he => by
          rw [haddr, haddr] at he
          exact bump_inj _ _ _ _
            (pk2 _ _ (hbr y ((hmem y).1 hy)) (hbr z ((hmem z).1 hz)) he))
      refine ⟨nd', e, ?_, hout⟩
      intro y hy a ha
      obtain ⟨v, hv⟩ := hrj y ((hmem y).1 hy)
      rw [elem_eq ej hq hbq] at hv ⊢
      obtain ⟨b, hb, hbv⟩ := Option.bind_eq_some_iff.1 hv
      rw [hb, Option.bind_some, hin y hy a b ha hb]
  obtain ⟨nd', he, hin, hout⟩ := hloop
  have helz : ∀ z, elem ({ s1 with block := Function.update s1.block s.nBlock (some nd') } : Store T) i z =
      (sub2lin z nt).bind fun a => nd'[a]? := by
    intro z
    rw [elem_eq (s := { s1 with block := Function.update s1.block s.nBlock (some nd') }) (h := hi)
      (p := s.nBlock) (b := nd') ei1 rfl (by simp), haddr]
  refine ⟨{ s1 with block := Function.update s1.block s.nBlock (some nd') }, ?_, ?_, ?_, ?_, ?_⟩
  · simp only [step, ei, ej]
    rw [if_neg (by simp only [hx, List.length_set]; omega), if_neg (by rw [herase]; simp)]
    rw [hns, hr]
    simp only [hl, hgd, he]
  · simp only [shapeOf, ei1, Option.map_some]; rfl
  · intro z hz
    obtain ⟨a, ha, hal⟩ := pk1 z hz
    have hz' := (inRange_iff _ _).1 hz
    have hdz : dim < z.length := by rw [hz'.1]; simpa using hdim
    have hzd : z.getD dim 0 = z[dim] := getD_of_lt _ _ hdz
    rw [helz z, ha, Option.bind_some]
    constructor
    · intro hlt
      rw [hout a ?_]
      · have hin' : InRange h.shape z := by
          rw [inRange_iff]
          refine ⟨by simpa using hz'.1, ?_⟩
          intro c h1 h2
          have := hz'.2 c h1 (by simpa using h2)
          rw [List.getElem_set] at this
          split at this
          · rename_i hd; subst hd; omega
          · exact this
        have := hel1 z hz hin'
        rw [ha, Option.bind_some] at this
        exact this
      · intro y hy hya
        rw [haddr] at hya
        have := pk2 _ _ (hbr y ((hmem y).1 hy)) hz (hya.trans ha.symm)
        have h3 := List.getElem_of_eq this (i := dim) (by rw [this]; exact hdz)
        simp only [bump, List.getElem_modify, if_true] at h3
        omega
    · intro hge
      have hy : InRange x.shape (z.set dim (z.getD dim 0 - h.shape[dim])) := by
        rw [hx, inRange_iff]
        refine ⟨by simpa using hz'.1, ?_⟩
        intro c h1 h2
        have := hz'.2 c (by simpa using h1) (by simpa using h2)
        simp only [List.getElem_set] at this ⊢
        split
        · rename_i hd
          subst hd
          rw [if_pos rfl] at this
          omega
        · rename_i hd; rw [if_neg hd] at this; exact this
      have hb : bump dim h.shape[dim] (z.set dim (z.getD dim 0 - h.shape[dim])) = z := by
        refine List.ext_getElem (by simp [bump]) ?_
        intro c h1 h2
        simp only [bump, List.getElem_modify, List.getElem_set]
        split
        · rename_i hd; subst hd; omega
        · rfl
      exact hin _ ((hmem _).2 hy) a (by rw [haddr, hb]; exact ha)
  · intro j' hj'
    have h1 : s1.arr j' = s.arr j' := by rw [harr, Function.update_of_ne hj']
    refine ⟨h1, fun z => elem_congr
      (s' := { s1 with block := Function.update s1.block s.nBlock (some nd') }) h1 ?_ z⟩
    intro g q eg hq
    have := ptr_lt hs eg hq
    dsimp only
    rw [Function.update_of_ne (by omega)]
    exact hoth j' g q hj' eg hq
  · intro j' hj'
    refine apart_of k ?_
    intro g g' p eg eg' hg hg'
    dsimp only at eg eg'
    rw [ei1] at eg; cases eg
    rw [harr, Function.update_of_ne hj'] at eg'
    have := ptr_lt hs eg' hg'
    simp only [hi] at hg
    cases hg
    omega

end Brille.Arr
