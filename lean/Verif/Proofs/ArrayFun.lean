import Verif.Spec.ArrayFun
import Verif.Proofs.ArrayMem
import Mathlib.Data.List.Sort
import Mathlib.Data.List.Nodup
import Mathlib.Tactic.Ring
import Mathlib.Tactic.Linarith
import Mathlib.Algebra.BigOperators.Group.List.Basic
/-
Loops over the elements of a two-dimensional array.
-/
namespace Brille.ArrFun
open Brille.Subscript Brille.Arr Brille.Spec

variable {T U R : Type}

/-- The subscripts of a table in row order. -/
def grid (n m : Nat) : List (List Nat) :=
  (List.range n).flatMap fun i => (List.range m).map fun j => [i, j]

theorem mem_grid {n m : Nat} {x : List Nat} : x ∈ grid n m ↔ ∃ i < n, ∃ j < m, x = [i, j] := by
  simp only [grid, List.mem_flatMap, List.mem_map, List.mem_range]
  constructor
  · rintro ⟨i, hi, j, hj, rfl⟩; exact ⟨i, hi, j, hj, rfl⟩
  · rintro ⟨i, hi, j, hj, rfl⟩; exact ⟨i, hi, j, hj, rfl⟩

theorem grid_sorted (n m : Nat) : (grid n m).Pairwise (· < ·) := by
  unfold grid
  rw [List.pairwise_flatMap]
  constructor
  · intro i _
    rw [List.pairwise_map]
    refine List.Pairwise.imp ?_ (List.pairwise_lt_range (n := m))
    intro a b h
    simp [List.cons_lt_cons_iff, h]
  · refine List.Pairwise.imp ?_ (List.pairwise_lt_range (n := n))
    intro a b h x hx y hy
    simp only [List.mem_map] at hx hy
    obtain ⟨c, _, rfl⟩ := hx
    obtain ⟨d, _, rfl⟩ := hy
    simp [List.cons_lt_cons_iff, h]

theorem inRange_pair {n m : Nat} {x : List Nat} :
    InRange [n, m] x ↔ ∃ i < n, ∃ j < m, x = [i, j] := by
  constructor
  · intro h
    cases h with
    | cons h1 h2 =>
      cases h2 with
      | cons h3 h4 =>
        cases h4
        exact ⟨_, h1, _, h3, rfl⟩
  · rintro ⟨i, hi, j, hj, rfl⟩
    exact .cons hi (.cons hj .nil)

theorem subs_grid {n m : Nat} (hm : 0 < m) : subs [n, m] = some (grid n m) := by
  have hlt : ∀ (l1 l2 : List (List Nat)), l1.Pairwise (· < ·) → l2.Pairwise (· < ·) →
      (∀ x, x ∈ l1 ↔ x ∈ l2) → l1 = l2 := by
    intro l1 l2 h1 h2 h
    have n1 : l1.Nodup := h1.imp (fun h e => by rw [e] at h; exact List.lt_irrefl _ h)
    have n2 : l2.Nodup := h2.imp (fun h e => by rw [e] at h; exact List.lt_irrefl _ h)
    refine List.Perm.eq_of_pairwise (le := (· < ·)) ?_ h1 h2 ((List.perm_ext_iff_of_nodup n1 n2).2 h)
    intro a b _ _ hab hba
    exact absurd (List.lt_trans hab hba) (List.lt_irrefl _)
  rcases Nat.eq_zero_or_pos n with rfl | hn
  · obtain ⟨l, hl, _, hx⟩ := subs_spec [0, m] (by simp) (by simpa using hm)
    rw [hl]
    congr 1
    have : l = [] := by
      apply List.eq_nil_iff_forall_not_mem.2
      intro x hxl
      obtain ⟨i, hi, _⟩ := inRange_pair.1 ((hx x).1 hxl)
      omega
    rw [this]; rfl
  · have hall : ∀ s ∈ [n, m], 0 < s := by
      intro s hs; simp at hs; rcases hs with rfl | rfl <;> assumption
    have e := visits_eq (mkShape [n, m]) (wf_mkShape _) (findFirst_mkShape n [m])
      (size_mkShape_pos _ hall) 0
    rw [subs, foldr_eq_size, ← Nat.add_zero (size _), e]
    congr 1
    refine hlt _ _ (rangeMap_pairwise _) (grid_sorted n m) ?_
    intro x
    rw [mem_rangeMap, ok_mkShape, inRange_pair, mem_grid]

theorem subscripts_grid {n m : Nat} (hm : 0 < m) : subscripts n m = .ok (grid n m) := by
  rw [subscripts, subs_grid hm]; rfl

theorem grid_nodup (n m : Nat) : (grid n m).Nodup :=
  (grid_sorted n m).imp (fun h e => by rw [e] at h; exact List.lt_irrefl _ h)

/-! ### Reading and writing -/

@[simp] theorem addr_pair (a : A2 T) (i j : Nat) :
    a.addr [i, j] = .ok (i * a.t0 + j * a.t1 + a.shift) := by
  simp [A2.addr, sub2lin, orUb]

theorem read_pair (a : A2 T) (i j : Nat) :
    a.read [i, j] = orUb a.data[i * a.t0 + j * a.t1 + a.shift]? := by
  simp only [A2.read, addr_pair]; rfl

theorem orUb_ok {α : Type} {o : Option α} {v : α} : orUb o = .ok v ↔ o = some v := by
  cases o <;> simp [orUb]

theorem write_pair (a : A2 T) (i j : Nat) (v : T)
    (h : i * a.t0 + j * a.t1 + a.shift < a.data.length) :
    a.write [i, j] v = .ok { a with data := a.data.set (i * a.t0 + j * a.t1 + a.shift) v } := by
  simp only [A2.write, addr_pair]
  show (if _ then _ else _) = _
  rw [if_pos h]

/-- A loop which assigns to some elements, each from a value that does not depend on the elements
assigned before. -/
theorem assign_loop {σ : Type} (a : A2 T) (hs : Separate a)
    (hb : ∀ i j, i < a.n0 → j < a.n1 → i * a.t0 + j * a.t1 + a.shift < a.data.length)
    (pos : σ → Nat × Nat) (g : σ → T) (body : A2 T → σ → M (A2 T)) :
    ∀ (l : List σ) (o : A2 T), l.Pairwise (fun x y => pos x ≠ pos y) →
      (∀ x ∈ l, (pos x).1 < a.n0 ∧ (pos x).2 < a.n1) →
      SameElsewhere a o →
      (∀ x ∈ l, ∀ o : A2 T, SameElsewhere a o → o.read [(pos x).1, (pos x).2] = a.read [(pos x).1, (pos x).2] →
        body o x = o.write [(pos x).1, (pos x).2] (g x)) →
      (∀ x ∈ l, o.read [(pos x).1, (pos x).2] = a.read [(pos x).1, (pos x).2]) →
      ∃ o', l.foldlM body o = .ok o' ∧ SameElsewhere a o' ∧
        (∀ x ∈ l, o'.read [(pos x).1, (pos x).2] = .ok (g x)) ∧
        ∀ i j, i < a.n0 → j < a.n1 → (∀ x ∈ l, pos x ≠ (i, j)) → o'.read [i, j] = o.read [i, j] := by
  intro l
  induction l with
  | nil =>
    intro o _ _ h _ _
    exact ⟨o, rfl, h, by simp, fun _ _ _ _ _ => rfl⟩
  | cons x l ih =>
    intro o hp hin h hbody hread
    have hx := hin x (by simp)
    obtain ⟨q0, q1, q2, q3, q4, q5, q6⟩ := h
    have hw : o.write [(pos x).1, (pos x).2] (g x) = .ok { o with data := o.data.set ((pos x).1 * o.t0 + (pos x).2 * o.t1 + o.shift) (g x) } := by
      apply write_pair
      rw [q2, q3, q4, q5]
      exact hb _ _ hx.1 hx.2
    set o1 : A2 T := { o with data := o.data.set ((pos x).1 * o.t0 + (pos x).2 * o.t1 + o.shift) (g x) } with ho1
    have hsame : SameElsewhere a o1 := by
      refine ⟨q0, q1, q2, q3, q4, by simp [ho1, q5], ?_⟩
      intro k hk
      have := hk _ _ hx.1 hx.2
      rw [ho1]
      simp only
      rw [List.getElem?_set_ne (by rw [q2, q3, q4]; exact fun e => this e.symm)]
      exact q6 k hk
    have hother : ∀ i j, i < a.n0 → j < a.n1 → pos x ≠ (i, j) → o1.read [i, j] = o.read [i, j] := by
      intro i j hi hj hne
      rw [read_pair, read_pair]
      simp only [ho1]
      rw [List.getElem?_set_ne]
      intro e
      rw [q2, q3] at e
      have := hs _ _ _ _ hx.1 hx.2 hi hj (by omega)
      exact hne (Prod.ext this.1 this.2)
    have hself : o1.read [(pos x).1, (pos x).2] = .ok (g x) := by
      rw [read_pair]
      simp only [ho1]
      rw [List.getElem?_set_self (by rw [q2, q3, q4, q5]; exact hb _ _ hx.1 hx.2)]
      rfl
    rw [List.pairwise_cons] at hp
    obtain ⟨o', e', s', r', u'⟩ := ih o1 hp.2 (fun y hy => hin y (by simp [hy])) hsame
      (fun y hy => hbody y (by simp [hy]))
      (fun y hy => by
        rw [hother _ _ (hin y (by simp [hy])).1 (hin y (by simp [hy])).2 (hp.1 y hy)]
        exact hread y (by simp [hy]))
    refine ⟨o', ?_, s', ?_, ?_⟩
    · rw [List.foldlM_cons, hbody x (by simp) o ⟨q0, q1, q2, q3, q4, q5, q6⟩ (hread x (by simp)), hw]
      exact e'
    · intro y hy
      rcases List.mem_cons.1 hy with rfl | hy
      · rw [u' _ _ hx.1 hx.2 (fun z hz e => hp.1 z hz e.symm), hself]
      · exact r' y hy
    · intro i j hi hj hne
      rw [u' i j hi hj (fun z hz => hne z (by simp [hz])), hother i j hi hj (hne x (by simp))]

theorem _root_.Brille.Spec.SameElsewhere.refl (a : A2 T) : SameElsewhere a a :=
  ⟨rfl, rfl, rfl, rfl, rfl, rfl, fun _ _ => rfl⟩

theorem _root_.Brille.Spec.Shows.bound {a : A2 T} {n m : Nat} {f : Nat → Nat → T} (h : Shows a n m f) :
    ∀ i j, i < a.n0 → j < a.n1 → i * a.t0 + j * a.t1 + a.shift < a.data.length := by
  intro i j hi hj
  have := h.entry i j (h.rows ▸ hi) (h.cols ▸ hj)
  rw [read_pair, orUb_ok] at this
  exact (List.getElem?_eq_some_iff.1 this).1

theorem _root_.Brille.Spec.Shows.get {a : A2 T} {n m : Nat} {f : Nat → Nat → T} (h : Shows a n m f) {i j : Nat}
    (hi : i < n) (hj : j < m) : a.data[i * a.t0 + j * a.t1 + a.shift]? = some (f i j) := by
  have := h.entry i j hi hj
  rwa [read_pair, orUb_ok] at this

theorem _root_.Brille.Spec.RowPacked.separate {a : A2 T} (h : RowPacked a) : Separate a := by
  intro i j k l hi hj hk hl e
  rw [h i j hi hj, h k l hk hl] at e
  have e1 : (i * a.n1 + j) / a.n1 = (k * a.n1 + l) / a.n1 := by rw [e]
  have e2 : (i * a.n1 + j) % a.n1 = (k * a.n1 + l) % a.n1 := by rw [e]
  have h0 : 0 < a.n1 := by omega
  rw [Nat.mul_comm i, Nat.mul_comm k, Nat.mul_add_div h0, Nat.mul_add_div h0, Nat.div_eq_of_lt hj,
    Nat.div_eq_of_lt hl] at e1
  rw [Nat.mul_comm i, Nat.mul_comm k, Nat.mul_add_mod, Nat.mul_add_mod, Nat.mod_eq_of_lt hj,
    Nat.mod_eq_of_lt hl] at e2
  omega

theorem _root_.Brille.Spec.ColPacked.separate {a : A2 T} (h : ColPacked a) : Separate a := by
  intro i j k l hi hj hk hl e
  rw [h i j hi hj, h k l hk hl] at e
  have e1 : (i + j * a.n0) / a.n0 = (k + l * a.n0) / a.n0 := by rw [e]
  have e2 : (i + j * a.n0) % a.n0 = (k + l * a.n0) % a.n0 := by rw [e]
  have h0 : 0 < a.n0 := by omega
  rw [Nat.add_mul_div_right _ _ h0, Nat.add_mul_div_right _ _ h0, Nat.div_eq_of_lt hi,
    Nat.div_eq_of_lt hk] at e1
  rw [Nat.add_mul_mod_self_right, Nat.add_mul_mod_self_right, Nat.mod_eq_of_lt hi,
    Nat.mod_eq_of_lt hk] at e2
  omega

theorem lt_mul_pair {i j n m : Nat} (hi : i < n) (hj : j < m) : i * m + j < n * m := by
  calc i * m + j < i * m + m := by omega
    _ = (i + 1) * m := by ring
    _ ≤ n * m := Nat.mul_le_mul_right _ hi

/-- New memory with strides for which every element has its own place is ready to be filled. -/
theorem fill (b : A2 U) (n m : Nat) (h0 : b.n0 = n) (h1 : b.n1 = m) (hm : 0 < m)
    (hp : RowPacked b ∨ ColPacked b) (hshift : b.shift = 0) (hlen : b.data.length = n * m)
    (g : Nat → Nat → U) (body : A2 U → List Nat → M (A2 U))
    (hbody : ∀ i j, i < n → j < m → ∀ o : A2 U, body o [i, j] = o.write [i, j] (g i j)) :
    ∃ o, (grid n m).foldlM body b = .ok o ∧ Shows o n m g ∧ SameElsewhere b o := by
  subst h0 h1
  have hs : Separate b := hp.elim RowPacked.separate ColPacked.separate
  have hb : ∀ i j, i < b.n0 → j < b.n1 → i * b.t0 + j * b.t1 + b.shift < b.data.length := by
    intro i j hi hj
    rw [hshift, hlen]
    rcases hp with hp | hp
    · rw [hp i j hi hj]; exact lt_mul_pair hi hj
    · rw [hp i j hi hj]
      have := lt_mul_pair hj hi
      rw [Nat.mul_comm b.n1] at this
      omega
  obtain ⟨o, e, s, r, -⟩ := assign_loop b hs hb (fun x : List Nat => (x.getD 0 0, x.getD 1 0))
    (fun x => g (x.getD 0 0) (x.getD 1 0)) body (grid b.n0 b.n1) b
    (by
      refine (List.Pairwise.imp_of_mem ?_ (grid_nodup b.n0 b.n1))
      intro x y hx hy hne e
      obtain ⟨i, hi, j, hj, rfl⟩ := mem_grid.1 hx
      obtain ⟨k, hk, l, hl, rfl⟩ := mem_grid.1 hy
      simp at e
      exact hne (by rw [e.1, e.2]))
    (by
      intro x hx
      obtain ⟨i, hi, j, hj, rfl⟩ := mem_grid.1 hx
      exact ⟨hi, hj⟩)
    (SameElsewhere.refl b)
    (by
      intro x hx o _ _
      obtain ⟨i, hi, j, hj, rfl⟩ := mem_grid.1 hx
      exact hbody i j hi hj o)
    (fun _ _ => rfl)
  refine ⟨o, e, ⟨s.1, s.2.1, ?_⟩, s⟩
  intro i j hi hj
  exact r [i, j] (mem_grid.2 ⟨i, hi, j, hj, rfl⟩)

theorem rowPacked_fresh (n m : Nat) (v : T) : RowPacked (fresh n m m 1 v) := by
  intro i j _ _; simp [fresh]

theorem packed_fresh_calc (a : A2 T) (n m : Nat) (v : U) :
    RowPacked (fresh n m (a.calc n m).1 (a.calc n m).2 v) ∨
    ColPacked (fresh n m (a.calc n m).1 (a.calc n m).2 v) := by
  unfold A2.calc
  split
  · right; intro i j _ _; simp [fresh]
  · left; intro i j _ _; simp [fresh]

theorem mapTo_spec [Inhabited U] {a : A2 T} {n m : Nat} {f : Nat → Nat → T} (h : Shows a n m f)
    (hm : 0 < m) (t0 t1 : Nat)
    (hp : RowPacked (fresh n m t0 t1 (default : U)) ∨ ColPacked (fresh n m t0 t1 (default : U)))
    (g : T → U) :
    ∃ b, a.mapTo t0 t1 g = .ok b ∧ Shows b n m (fun i j => g (f i j)) ∧
      SameElsewhere (fresh n m t0 t1 default) b := by
  obtain ⟨o, e, s, r⟩ := fill (fresh n m t0 t1 (default : U)) n m rfl rfl hm hp rfl (by simp [fresh])
    (fun i j => g (f i j)) (fun out x => do
      let v ← a.read x
      out.write x (g v)) (by
      intro i j hi hj o
      rw [h.entry i j hi hj]; rfl)
  refine ⟨o, ?_, s, r⟩
  rw [A2.mapTo, h.rows, h.cols, subscripts_grid hm]
  exact e

/-! ### Linear order -/

theorem flat_eq {m : Nat} (hm : 0 < m) (n : Nat) (f : Nat → Nat → T) :
    flat n m f = (List.range (n * m)).map fun k => f (k / m) (k % m) := by
  induction n with
  | zero => simp [flat]
  | succ n ih =>
    have e : flat (n + 1) m f = flat n m f ++ (List.range m).map fun j => f n j := by
      simp [flat, List.range_succ]
    rw [e, ih, Nat.succ_mul, List.range_add, List.map_append, List.map_map]
    congr 1
    apply List.map_congr_left
    intro j hj
    rw [List.mem_range] at hj
    simp only [Function.comp]
    rw [Nat.mul_comm n m, Nat.mul_add_div hm, Nat.div_eq_of_lt hj, Nat.mul_add_mod, Nat.mod_eq_of_lt hj,
      Nat.add_zero]

theorem flat_length {m : Nat} (n : Nat) (f : Nat → Nat → T) : (flat n m f).length = n * m := by
  simp [flat, List.length_flatMap]

theorem lin_of_row {a : A2 T} {n m : Nat} {f : Nat → Nat → T} (h : Shows a n m f) (hp : RowPacked a)
    {k : Nat} (hk : k < n * m) : a.lin k = .ok (f (k / m) (k % m)) := by
  have hm : 0 < m := Nat.pos_of_ne_zero (fun e => by rw [e] at hk; omega)
  have hi : k / m < n := Nat.div_lt_of_lt_mul (by rwa [Nat.mul_comm])
  have hj : k % m < m := Nat.mod_lt _ hm
  have e := h.get hi hj
  rw [hp _ _ (h.rows ▸ hi) (h.cols ▸ hj), h.cols, Nat.mul_comm, Nat.div_add_mod] at e
  rw [A2.lin, e]; rfl

theorem lin_of_col {a : A2 T} {n m : Nat} {f : Nat → Nat → T} (h : Shows a n m f) (hp : ColPacked a)
    {k : Nat} (hk : k < n * m) : a.lin k = .ok (f (k % n) (k / n)) := by
  have hn : 0 < n := Nat.pos_of_ne_zero (fun e => by rw [e] at hk; omega)
  have hi : k % n < n := Nat.mod_lt _ hn
  have hj : k / n < m := Nat.div_lt_of_lt_mul hk
  have e := h.get hi hj
  rw [hp _ _ (h.rows ▸ hi) (h.cols ▸ hj), h.rows, Nat.mul_comm, Nat.mod_add_div] at e
  rw [A2.lin, e]; rfl

theorem allLoop_eq {a : A2 T} {v : Nat → T} (p : T → Bool) : ∀ {l : List Nat},
    (∀ k ∈ l, a.lin k = .ok (v k)) → allLoop a p l = .ok ((l.map v).all p)
  | [], _ => rfl
  | k :: l, h => by
    have e := allLoop_eq p (l := l) (fun k hk => h k (by simp [hk]))
    simp only [allLoop, h k (by simp), List.map_cons, List.all_cons]
    show (if !p (v k) then _ else _) = _
    cases p (v k) <;> simp [e]

theorem anyLoop_eq {a : A2 T} {v : Nat → T} (p : T → Bool) : ∀ {l : List Nat},
    (∀ k ∈ l, a.lin k = .ok (v k)) → anyLoop a p l = .ok ((l.map v).any p)
  | [], _ => rfl
  | k :: l, h => by
    have e := anyLoop_eq p (l := l) (fun k hk => h k (by simp [hk]))
    simp only [anyLoop, h k (by simp), List.map_cons, List.any_cons]
    show (if p (v k) then _ else _) = _
    cases p (v k) <;> simp [e]

theorem hitLoop_eq {a : A2 T} {v : Nat → T} (p : T → Bool) (no : Nat) : ∀ {l : List Nat},
    (∀ k ∈ l, a.lin k = .ok (v k)) →
    hitLoop a p no l = .ok ((l.find? fun k => p (v k)).getD no)
  | [], _ => rfl
  | k :: l, h => by
    have e := hitLoop_eq p no (l := l) (fun k hk => h k (by simp [hk]))
    simp only [hitLoop, h k (by simp), List.find?_cons]
    show (if p (v k) then _ else _) = _
    cases p (v k) <;> simp [e]

theorem countLoop_eq {a : A2 T} {v : Nat → T} (p : T → Bool) : ∀ {l : List Nat} (c : Nat),
    (∀ k ∈ l, a.lin k = .ok (v k)) →
    l.foldlM (fun c k => do
      let v ← a.lin k
      return if p v then c + 1 else c) c = (.ok (c + (l.map v).countP p) : M Nat)
  | [], c, _ => by simp; rfl
  | k :: l, c, h => by
    rw [List.foldlM_cons, h k (by simp)]
    show (l.foldlM _ (if p (v k) = true then c + 1 else c) : M Nat) = _
    rw [countLoop_eq p _ (fun k hk => h k (by simp [hk])), List.map_cons, List.countP_cons]
    cases p (v k) <;> simp <;> omega

theorem range_take (N len : Nat) (h : len ≤ N) (v : Nat → T) :
    (List.range len).map v = ((List.range N).map v).take len := by
  rw [← List.map_take, List.take_range, Nat.min_eq_left h]

theorem findIdx_range (N : Nat) (v : Nat → T) (p : T → Bool) :
    ((List.range N).find? fun k => p (v k)).getD N = ((List.range N).map v).findIdx p := by
  symm
  cases h : (List.range N).find? fun k => p (v k) with
  | none =>
    rw [Option.getD_none, List.findIdx_eq_length.2]
    · simp
    · rw [List.find?_eq_none] at h
      intro x hx
      obtain ⟨k, hk, rfl⟩ := List.mem_map.1 hx
      exact Bool.eq_false_iff.2 (h k hk)
  | some r =>
    rw [Option.getD_some]
    rw [List.find?_range_eq_some] at h
    have hr := List.mem_range.1 h.2.1
    rw [List.findIdx_eq (by simpa using hr)]
    refine ⟨by simpa using h.1, ?_⟩
    intro j hj
    simpa using h.2.2 j hj

end Brille.ArrFun
