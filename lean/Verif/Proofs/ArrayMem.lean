import Verif.Model.ArrayMem
import Verif.Proofs.Subscript
import Verif.Spec.Subscript
import Mathlib.Tactic.Ring
import Mathlib.Tactic.Linarith
/-! Layout lemmas for the array memory model: strides computed by the library are one-to-one and stay
inside the block, and the copying loops copy what they should. -/
namespace Brille.Arr
open Brille.Subscript Brille.Spec

/-- Product of the extents. -/
abbrev prodOf (s : List Nat) : Nat := s.foldr (· * ·) 1

theorem sizeOf_eq {s : List Nat} (h : s ≠ []) : sizeOf s = prodOf s := by
  cases s with
  | nil => exact absurd rfl h
  | cons a t => rfl

theorem sizeOf_le (s : List Nat) : sizeOf s ≤ prodOf s := by
  cases s with
  | nil => simp [sizeOf]
  | cons a t => exact le_rfl

/-- Every valid subscript has an address below `n`, different for different subscripts. -/
def Packed (shape st : List Nat) (n : Nat) : Prop :=
  (∀ x, InRange shape x → ∃ a, sub2lin x st = some a ∧ a < n) ∧
  ∀ x y, InRange shape x → InRange shape y → sub2lin x st = sub2lin y st → x = y

theorem inRange_cons {n : Nat} {ns x : List Nat} (h : InRange (n :: ns) x) :
    ∃ y ys, x = y :: ys ∧ y < n ∧ InRange ns ys := by
  cases h with
  | cons h1 h2 => exact ⟨_, _, rfl, h1, h2⟩

theorem inRange_nil {x : List Nat} (h : InRange [] x) : x = [] := by
  cases h; rfl

theorem packed_row (shape : List Nat) : Packed shape (rowStride shape) (prodOf shape) := by
  induction shape with
  | nil =>
    refine ⟨fun x hx => ?_, fun x y hx hy _ => ?_⟩
    · rw [inRange_nil hx]; exact ⟨0, rfl, by simp [prodOf]⟩
    · rw [inRange_nil hx, inRange_nil hy]
  | cons n ns ih =>
    obtain ⟨h1, h2⟩ := ih
    have key : ∀ y ys, InRange ns ys → ∃ r, r < prodOf ns ∧ sub2lin ys (rowStride ns) = some r ∧
        sub2lin (y :: ys) (rowStride (n :: ns)) = some (y * prodOf ns + r) := by
      intro y ys h
      obtain ⟨r, hr, hl⟩ := h1 ys h
      exact ⟨r, hl, hr, by simp [rowStride, sub2lin, hr, prodOf]⟩
    refine ⟨fun x hx => ?_, fun x y hx hy he => ?_⟩
    · obtain ⟨y, ys, rfl, hy, hys⟩ := inRange_cons hx
      obtain ⟨r, hr, -, e⟩ := key y ys hys
      refine ⟨_, e, ?_⟩
      have : (y + 1) * prodOf ns ≤ n * prodOf ns := Nat.mul_le_mul_right _ hy
      have e2 : prodOf (n :: ns) = n * prodOf ns := rfl
      rw [e2]; rw [Nat.add_mul] at this; omega
    · obtain ⟨a, as, rfl, ha, has⟩ := inRange_cons hx
      obtain ⟨b, bs, rfl, hb, hbs⟩ := inRange_cons hy
      obtain ⟨r, hr, er, e⟩ := key a as has
      obtain ⟨q, hq, eq, e'⟩ := key b bs hbs
      rw [e, e'] at he
      have he := Option.some.inj he
      have hp : 0 < prodOf ns := by omega
      have hab : a = b := by
        have := congrArg (· / prodOf ns) he
        simpa [Nat.mul_comm _ (prodOf ns), Nat.mul_add_div hp, Nat.div_eq_of_lt hr,
          Nat.div_eq_of_lt hq] using this
      subst hab
      have : r = q := by omega
      subst this
      rw [h2 as bs has hbs (er.trans eq.symm)]

theorem col_addr (acc : Nat) (shape x : List Nat) (hx : InRange shape x) :
    ∃ c, sub2lin x (colStride acc shape) = some (acc * c) ∧
      sub2lin x (colStride 1 shape) = some c ∧ c < prodOf shape := by
  induction shape generalizing acc x with
  | nil => rw [inRange_nil hx]; exact ⟨0, by simp [sub2lin], by simp [sub2lin], by simp [prodOf]⟩
  | cons n ns ih =>
    obtain ⟨y, ys, rfl, hy, hys⟩ := inRange_cons hx
    obtain ⟨c, h1, h2, h3⟩ := ih (acc * n) ys hys
    obtain ⟨c', h1', h2', h3'⟩ := ih (1 * n) ys hys
    have hc : c' = c := by rw [h2] at h2'; exact (Option.some.inj h2').symm
    subst hc
    refine ⟨y + n * c', ?_, ?_, ?_⟩
    · simp only [colStride, sub2lin, h1, Option.map_some]; congr 1; ring
    · simp only [colStride, sub2lin, h1', Option.map_some]; congr 1; ring
    · have : n * (c' + 1) ≤ n * prodOf ns := Nat.mul_le_mul_left _ h3
      have e2 : prodOf (n :: ns) = n * prodOf ns := rfl
      rw [e2]; rw [Nat.mul_add] at this; omega

theorem packed_col (shape : List Nat) : Packed shape (colStride 1 shape) (prodOf shape) := by
  refine ⟨fun x hx => ?_, ?_⟩
  · obtain ⟨c, -, h, hc⟩ := col_addr 1 shape x hx
    exact ⟨c, h, hc⟩
  · induction shape with
    | nil => intro x y hx hy _; rw [inRange_nil hx, inRange_nil hy]
    | cons n ns ih =>
      intro x y hx hy he
      obtain ⟨a, as, rfl, ha, has⟩ := inRange_cons hx
      obtain ⟨b, bs, rfl, hb, hbs⟩ := inRange_cons hy
      obtain ⟨c, h1, h2, h3⟩ := col_addr n ns as has
      obtain ⟨d, k1, k2, k3⟩ := col_addr n ns bs hbs
      simp only [colStride, sub2lin, h1, k1, Option.map_some, Option.some.injEq, mul_one, one_mul]
        at he
      have hn : 0 < n := by omega
      have hcd : c = d := by
        have := congrArg (· / n) he
        simpa [Nat.add_mul_div_left _ _ hn, Nat.div_eq_of_lt ha, Nat.div_eq_of_lt hb] using this
      subst hcd
      have hab : a = b := by omega
      subst hab
      rw [ih as bs has hbs (h2.trans k2.symm)]

theorem packed_calc {stride sh st : List Nat} (h : calcStride stride sh = some st) :
    Packed sh st (prodOf sh) := by
  simp only [calcStride] at h
  split at h
  · have := Option.some.inj h
    split at this
    · rw [← this]; exact packed_col sh
    · rw [← this]; exact packed_row sh
  · cases h

theorem length_rowStride (s : List Nat) : (rowStride s).length = s.length := by
  induction s with
  | nil => rfl
  | cons a t ih => simp [rowStride, ih]

theorem length_colStride (acc : Nat) (s : List Nat) : (colStride acc s).length = s.length := by
  induction s generalizing acc with
  | nil => rfl
  | cons a t ih => simp [colStride, ih]

theorem length_calc {stride sh st : List Nat} (h : calcStride stride sh = some st) :
    st.length = sh.length := by
  simp only [calcStride] at h
  split at h
  · have := Option.some.inj h
    split at this
    · rw [← this]; exact length_colStride 1 sh
    · rw [← this]; exact length_rowStride sh
  · cases h

/-- The subscript loop, with the amount of fuel the model gives it. -/
theorem subs_spec (shape : List Nat) (hr : shape ≠ []) (hpos : ∀ s ∈ shape.tail, 0 < s) :
    ∃ l, subs shape = some l ∧ l.Nodup ∧ ∀ x, x ∈ l ↔ InRange shape x := by
  cases shape with
  | nil => exact absurd rfl hr
  | cons a t =>
    rcases Nat.eq_zero_or_pos a with rfl | ha
    · refine ⟨[], ?_, List.nodup_nil, ?_⟩
      · simp only [subs]
        cases (List.foldr (fun x1 x2 => x1 * x2) 1 (0 :: t)) <;>
          simp [SubIt.visits, SubIt.begin, SubIt.end, mkShape, findFirst, setEnd, loopFrom,
            SubIt.eq, SubIt.deref]
      · intro x
        cases x <;> simp [InRange]
    · have hall : ∀ s ∈ a :: t, 0 < s := by
        intro s hs
        rcases List.mem_cons.1 hs with rfl | hs
        · exact ha
        · exact hpos s hs
      refine ⟨(List.range (size (mkShape (a :: t)).axes)).map (sub (mkShape (a :: t)).axes),
        ?_, ?_, ?_⟩
      · have := visits_eq (mkShape (a :: t)) (wf_mkShape _) (findFirst_mkShape a t)
          (size_mkShape_pos _ hall) 0
        rw [← this, subs, foldr_eq_size, Nat.add_zero]
      · refine List.Pairwise.imp (R := fun x y => x < y) (S := fun x y => x ≠ y) ?_
          (rangeMap_pairwise (mkShape (a :: t)).axes)
        intro x y h e
        rw [e] at h
        exact List.lt_irrefl _ h
      · intro x
        rw [mem_rangeMap, ok_mkShape]

theorem copyLoop_length {T} (nst ost : List Nat) (shift : Nat) (old : List T)
    (l : List (List Nat)) (new new' : List T) (h : copyLoop nst ost shift old l new = some new') :
    new'.length = new.length := by
  induction l generalizing new with
  | nil => rw [copyLoop] at h; rw [← Option.some.inj h]
  | cons x l ih =>
    simp only [copyLoop] at h
    split at h
    · split at h
      · split at h
        · rw [ih _ h, List.length_set]
        · cases h
      · cases h
    · cases h

theorem copyLoop_spec {T} (nst ost : List Nat) (shift : Nat) (old : List T)
    (l : List (List Nat)) (new : List T) (hnd : l.Nodup)
    (hn : ∀ x ∈ l, ∃ a, sub2lin x nst = some a ∧ a < new.length)
    (ho : ∀ x ∈ l, ∃ b, sub2lin x ost = some b ∧ b + shift < old.length)
    (hinj : ∀ x ∈ l, ∀ y ∈ l, sub2lin x nst = sub2lin y nst → x = y) :
    ∃ new', copyLoop nst ost shift old l new = some new' ∧ new'.length = new.length ∧
      (∀ x ∈ l, ∀ a b, sub2lin x nst = some a → sub2lin x ost = some b →
        new'[a]? = old[b + shift]?) ∧
      ∀ a, (∀ x ∈ l, sub2lin x nst ≠ some a) → new'[a]? = new[a]? := by
  induction l generalizing new with
  | nil => exact ⟨new, rfl, rfl, by simp, fun _ _ => rfl⟩
  | cons x l ih =>
    obtain ⟨a, ha, hal⟩ := hn x List.mem_cons_self
    obtain ⟨b, hb, hbl⟩ := ho x List.mem_cons_self
    obtain ⟨hx, hnd'⟩ := List.nodup_cons.1 hnd
    obtain ⟨new', e, hlen, hin, hout⟩ := ih (new.set a old[b + shift]) hnd'
      (fun y hy => by
        obtain ⟨c, h1, h2⟩ := hn y (List.mem_cons_of_mem _ hy)
        exact ⟨c, h1, by rw [List.length_set]; exact h2⟩)
      (fun y hy => ho y (List.mem_cons_of_mem _ hy))
      (fun y hy z hz => hinj y (List.mem_cons_of_mem _ hy) z (List.mem_cons_of_mem _ hz))
    have hxa : ∀ y ∈ l, sub2lin y nst ≠ some a := by
      intro y hy h
      have := hinj y (List.mem_cons_of_mem _ hy) x List.mem_cons_self (h.trans ha.symm)
      exact hx (this ▸ hy)
    refine ⟨new', ?_, by rw [hlen, List.length_set], ?_, ?_⟩
    · simp only [copyLoop, ha, hb, List.getElem?_eq_getElem hbl, if_pos hal]
      exact e
    · intro y hy a' b' h1 h2
      rcases List.mem_cons.1 hy with rfl | hy
      · rw [ha] at h1; rw [hb] at h2
        obtain rfl := Option.some.inj h1
        obtain rfl := Option.some.inj h2
        rw [hout _ hxa, List.getElem?_set_self hal, List.getElem?_eq_getElem hbl]
      · exact hin y hy a' b' h1 h2
    · intro c hc
      rw [hout c (fun y hy => hc y (List.mem_cons_of_mem _ hy)), List.getElem?_set_ne]
      intro h
      exact hc x List.mem_cons_self (h ▸ ha)

end Brille.Arr
