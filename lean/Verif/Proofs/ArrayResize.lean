import Verif.Proofs.ArrayElem
import Verif.Proofs.ArrayLeak
import Mathlib.Data.List.Basic
/-! Elements after resize and append. -/
namespace Brille.Arr
open Brille.Subscript Brille.Spec
variable {T : Type}

theorem all_le_iff (a b : List Nat) (h : a.length = b.length) :
    (List.zipWith (fun a b => decide (a ≤ b)) a b).all id = true ↔ List.Forall₂ (· ≤ ·) a b := by
  induction a generalizing b with
  | nil => cases b <;> simp at h ⊢
  | cons x a ih =>
    cases b with
    | nil => simp at h
    | cons y b =>
      simp only [List.zipWith_cons_cons, List.all_cons, id_eq, Bool.and_eq_true, decide_eq_true_eq,
        List.forall₂_cons]
      rw [ih b (by simpa using h)]

theorem zipWith_flip_le (a b : List Nat) :
    List.zipWith (fun a b => decide (b ≤ a)) a b = List.zipWith (fun a b => decide (a ≤ b)) b a := by
  induction a generalizing b with
  | nil => cases b <;> simp
  | cons x a ih => cases b <;> simp [ih]

theorem inRange_mono {a b x : List Nat} (h : List.Forall₂ (· ≤ ·) a b) (hx : InRange a x) :
    InRange b x := by
  induction h generalizing x with
  | nil => exact hx
  | cons h1 h2 ih =>
    obtain ⟨y, ys, rfl, hy, hys⟩ := inRange_cons hx
    exact List.Forall₂.cons (lt_of_lt_of_le hy h1) (ih hys)

theorem calcStride_some {stride sh : List Nat} (h : stride ≠ []) :
    ∃ st, calcStride stride sh = some st := by
  obtain ⟨t, ts, ht⟩ := List.exists_cons_of_ne_nil h
  rw [ht]
  simp only [calcStride, List.head?_cons]
  rw [List.getLast?_eq_getLast_of_ne_nil (by simp)]
  exact ⟨_, rfl⟩

variable [Inhabited T]

theorem resizeBuf_spec {s : Store T} {i : Nat} {h : Handle} {ns : List Nat}
    (e : s.arr i = some h) (hns : ns ≠ []) (hlen : ns.length = h.shape.length) (hstr : h.shape.length = h.stride.length)
    (hsh : h.shift = 0) (hread : AllReadable s i h.shape) (v : T)
    (hgs : (List.Forall₂ (· ≤ ·) ns h.shape ∧ ∀ n ∈ ns.tail, 0 < n) ∨
      (List.Forall₂ (· ≤ ·) h.shape ns ∧ ∀ n ∈ h.shape.tail, 0 < n)) :
    ∃ nd nt, resizeBuf h ns v (h.data.bind s.block) = .done nd nt ∧
      calcStride h.stride ns = some nt ∧
      (∀ x, InRange ns x → InRange h.shape x → ((sub2lin x nt).bind fun a => nd[a]?) = elem s i x) ∧
      ∀ x, InRange ns x → ¬ InRange h.shape x → ((sub2lin x nt).bind fun a => nd[a]?) = some v := by
  have hsne : h.shape ≠ [] := by
    intro h0; rw [h0] at hlen; exact hns (List.length_eq_zero_iff.1 hlen)
  have hstne : h.stride ≠ [] := by
    intro h0; rw [h0] at hstr; exact hsne (List.length_eq_zero_iff.1 hstr)
  obtain ⟨nt, hnt⟩ := calcStride_some (sh := ns) hstne
  obtain ⟨pk1, pk2⟩ := packed_calc hnt
  rw [← sizeOf_eq hns] at pk1
  -- the loop over `inside`
  have main : ∀ inside, (∀ x, InRange inside x → InRange ns x ∧ InRange h.shape x) →
      (∀ x, InRange ns x → InRange h.shape x → InRange inside x) →
      inside ≠ [] → (∀ n ∈ inside.tail, 0 < n) → ∀ w : T,
      ∃ nd, resizeCopy nt h.stride inside (h.data.bind s.block) (List.replicate (sizeOf ns) w) =
          .done nd nt ∧
        (∀ x, InRange ns x → InRange h.shape x →
          ((sub2lin x nt).bind fun a => nd[a]?) = elem s i x) ∧
        ∀ x, InRange ns x → ¬ InRange h.shape x → ((sub2lin x nt).bind fun a => nd[a]?) = some w := by
    intro inside hin1 hin2 hine hpos w
    obtain ⟨l, hl, -, hmem⟩ := subs_spec inside hine hpos
    cases hb : h.data.bind s.block with
    | none =>
      refine ⟨_, rfl, ?_, ?_⟩
      · intro x _ hx
        exfalso
        obtain ⟨v, hv⟩ := hread x hx
        obtain ⟨g, p, b, a, h1, h2, h3, -, -⟩ := elem_some hv
        rw [e] at h1; cases h1
        rw [h2, Option.bind_some, h3] at hb; cases hb
      · intro x hx _
        obtain ⟨a, ha, hal⟩ := pk1 x hx
        rw [ha, Option.bind_some, List.getElem?_replicate, if_pos hal]
    | some b =>
      obtain ⟨p, hp, hbp⟩ := Option.bind_eq_some_iff.1 hb
      have hel : ∀ x, InRange h.shape x → ∃ c u, sub2lin x h.stride = some c ∧
          b[c + 0]? = some u ∧ elem s i x = some u := by
        intro x hx
        obtain ⟨u, hu⟩ := hread x hx
        have := hu
        rw [elem_eq e hp hbp] at this
        obtain ⟨a, ha, hau⟩ := Option.bind_eq_some_iff.1 this
        simp only [Handle.addr, hsh, Option.map_eq_some_iff] at ha
        obtain ⟨c, hc, rfl⟩ := ha
        exact ⟨c, u, hc, hau, hu⟩
      obtain ⟨nd, e1, -, hin, hout⟩ := copyLoop_spec' nt h.stride 0 b l
        (List.replicate (sizeOf ns) w)
        (fun x hx => by
          obtain ⟨a, h1, h2⟩ := pk1 x (hin1 x ((hmem x).1 hx)).1
          exact ⟨a, h1, by rw [List.length_replicate]; exact h2⟩)
        (fun x hx => by
          obtain ⟨c, u, h1, h2, -⟩ := hel x (hin1 x ((hmem x).1 hx)).2
          exact ⟨c, h1, (List.getElem?_eq_some_iff.1 h2).1⟩)
        (fun x hx y hy he c d hc hd => by
          have := pk2 x y (hin1 x ((hmem x).1 hx)).1 (hin1 y ((hmem y).1 hy)).1 he
          rw [this, hd] at hc
          rw [Option.some.inj hc])
      refine ⟨nd, by simp only [resizeCopy, hl, Option.bind_some, e1], ?_, ?_⟩
      · intro x hx hx'
        obtain ⟨a, ha, -⟩ := pk1 x hx
        obtain ⟨c, u, h1, h2, h3⟩ := hel x hx'
        rw [ha, Option.bind_some, hin x ((hmem x).2 (hin2 x hx hx')) a c ha h1, h2, h3]
      · intro x hx hx'
        obtain ⟨a, ha, hal⟩ := pk1 x hx
        rw [ha, Option.bind_some, hout a ?_, List.getElem?_replicate, if_pos hal]
        intro y hy hya
        have h1 := hin1 y ((hmem y).1 hy)
        rw [pk2 y x h1.1 hx (hya.trans ha.symm)] at h1
        exact hx' h1.2
  by_cases hshr : List.Forall₂ (· ≤ ·) ns h.shape
  · have hall := (all_le_iff ns h.shape hlen).2 hshr
    have hpos : ∀ n ∈ ns.tail, 0 < n := by
      rcases hgs with h1 | h1
      · exact h1.2
      · have : ns = h.shape := by
          have h2 := h1.1
          clear h1 hread e main hnt pk1 pk2 hsne hstne hns hsh hstr hall
          generalize h.shape = b at hshr h2
          clear hlen
          induction hshr with
          | nil => rfl
          | cons a1 _ ih =>
            cases h2 with
            | cons b1 b2 => rw [ih b2, Nat.le_antisymm a1 b1]
        rw [this]; exact h1.2
    obtain ⟨nd, hm, h1, h2⟩ := main ns (fun x hx => ⟨hx, inRange_mono hshr hx⟩)
      (fun x hx _ => hx) hns hpos default
    refine ⟨nd, nt, ?_, hnt, h1, ?_⟩
    · simp only [resizeBuf, hall, hnt]
      simpa [hsh] using hm
    · intro x hx hx'
      exact absurd (inRange_mono hshr hx) hx'
  · have hg : List.Forall₂ (· ≤ ·) h.shape ns ∧ ∀ n ∈ h.shape.tail, 0 < n := by
      rcases hgs with h1 | h1
      · exact absurd h1.1 hshr
      · exact h1
    have hall : (List.zipWith (fun a b => decide (a ≤ b)) ns h.shape).all id = false := by
      rw [← Bool.not_eq_true, all_le_iff ns h.shape hlen]; exact hshr
    have hall2 : (List.zipWith (fun a b => decide (b ≤ a)) ns h.shape).all id = true := by
      rw [zipWith_flip_le, all_le_iff _ _ hlen.symm]; exact hg.1
    obtain ⟨nd, hm, h1, h2⟩ := main h.shape (fun x hx => ⟨inRange_mono hg.1 hx, hx⟩)
      (fun x _ hx => hx) hsne hg.2 v
    refine ⟨nd, nt, ?_, hnt, h1, h2⟩
    simp only [resizeBuf, hall, hall2, hnt]
    simpa [hsh] using hm

/-- `resize` of an unshifted array whose elements are all readable. -/
theorem resize_spec {s : Store T} (hs : Inv s) {i : Nat} {h : Handle} {ns : List Nat}
    (e : s.arr i = some h)
    (hns : ns ≠ []) (hlen : ns.length = h.shape.length) (hstr : h.shape.length = h.stride.length)
    (hsh : h.shift = 0) (hread : AllReadable s i h.shape) (v : T)
    (hgs : (List.Forall₂ (· ≤ ·) ns h.shape ∧ ∀ n ∈ ns.tail, 0 < n) ∨
      (List.Forall₂ (· ≤ ·) h.shape ns ∧ ∀ n ∈ h.shape.tail, 0 < n)) :
    ∃ s' nd nt, resize s i h ns v = .ok s' ∧ calcStride h.stride ns = some nt ∧
      nd.length = sizeOf ns ∧ s'.block s.nBlock = some nd ∧
      s'.arr = Function.update s.arr i (some { h with
        data := some s.nBlock, num := sizeOf ns, own := true, ref := some s.nRef,
        shape := ns, stride := nt, mutable := true }) ∧
      (∀ j g q, j ≠ i → s.arr j = some g → g.data = some q → s'.block q = s.block q) ∧
      (∀ x, InRange ns x → InRange h.shape x → ((sub2lin x nt).bind fun a => nd[a]?) = elem s i x) ∧
      ∀ x, InRange ns x → ¬ InRange h.shape x → ((sub2lin x nt).bind fun a => nd[a]?) = some v := by
  obtain ⟨nd, nt, hb, hnt, h1, h2⟩ := resizeBuf_spec e hns hlen hstr hsh hread v hgs
  have hndl := resizeBuf_length hb
  have hr : ∃ s', resize s i h ns v = .ok s' := by
    have hsafe := safe_resize hs e ns v
    simp only [resize, not_not.2 hlen, if_false] at hsafe ⊢
    split at hsafe
    · exact absurd hsafe (by simp [Safe])
    · rw [hb] at hsafe ⊢
      dsimp only at hsafe ⊢
      split at hsafe
      · exact absurd hsafe (by simp [Safe])
      · exact ⟨_, rfl⟩
  obtain ⟨s', hr⟩ := hr
  obtain ⟨-, nd', nt', hb', s2, hd, rfl⟩ := resize_ok_cases hr
  rw [hb] at hb'
  cases hb'
  have h2' : s2.arr = s.arr ∧ s2.nRef = s.nRef ∧ s2.block s.nBlock = some nd ∧
      (∀ j g q, j ≠ i → s.arr j = some g → g.data = some q → s2.block q = s.block q) := by
    split at hd
    · rename_i hc
      cases hp : h.data with
      | none =>
        rw [hp] at hd; cases hd
        refine ⟨rfl, rfl, by simp [Store.alloc], ?_⟩
        intro j g q hj ej hq
        have := ptr_lt hs ej hq
        simp only [Store.alloc]; rw [Function.update_of_ne (by omega)]
      | some p =>
        have hlt := ptr_lt hs e hp
        rw [hp] at hd
        simp only [Store.delete] at hd
        split at hd
        · cases hd
        · cases hd
          refine ⟨rfl, rfl, ?_, ?_⟩
          · dsimp only [Store.alloc]
            rw [Function.update_of_ne (by omega), Function.update_self]
          · intro j g q hj ej hq
            have h3 := ptr_lt hs ej hq
            have : q ≠ p := by
              rintro rfl
              exact hj (nobody hs e hc.2 q j g hp ej hq)
            dsimp only [Store.alloc]
            rw [Function.update_of_ne this, Function.update_of_ne (by omega)]
    · cases hd
      refine ⟨rfl, rfl, by simp [Store.alloc], ?_⟩
      intro j g q hj ej hq
      have := ptr_lt hs ej hq
      simp only [Store.alloc]; rw [Function.update_of_ne (by omega)]
  obtain ⟨ha, hn, hbl, ho⟩ := h2'
  refine ⟨_, nd, nt, hr, hnt, hndl, hbl, ?_, ho, h1, h2⟩
  simp only [Store.put, Store.newRef, ha, hn]

end Brille.Arr
