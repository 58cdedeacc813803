import Verif.Props.ArrayFun
import Mathlib.Logic.Equiv.Basic
import Mathlib.Data.List.Perm.Subperm
import Mathlib.Data.Finset.Card
/-
Loops which move whole rows of an array.
-/
namespace Brille.ArrFun
open Brille.Subscript Brille.Arr Brille.Spec Brille.Props

variable {T U R : Type}

theorem _root_.Brille.Spec.SameElsewhere.trans {a b c : A2 T} (h : SameElsewhere a b)
    (k : SameElsewhere b c) : SameElsewhere a c := by
  obtain ⟨a0, a1, a2, a3, a4, a5, a6⟩ := h
  obtain ⟨b0, b1, b2, b3, b4, b5, b6⟩ := k
  refine ⟨b0.trans a0, b1.trans a1, b2.trans a2, b3.trans a3, b4.trans a4, b5.trans a5, ?_⟩
  intro q hq
  rw [b6 q, a6 q hq]
  rw [a0, a1, a2, a3, a4]
  exact hq

theorem _root_.Brille.Spec.SameElsewhere.separate {a b : A2 T} (h : SameElsewhere a b)
    (hs : Separate a) : Separate b := by
  obtain ⟨a0, a1, a2, a3, -, -, -⟩ := h
  unfold Separate
  rw [a0, a1, a2, a3]
  exact hs

/-- One assignment. -/
theorem write_shows {a : A2 T} {n m : Nat} {f : Nat → Nat → T} (h : Shows a n m f) (hs : Separate a)
    {i j : Nat} (hi : i < n) (hj : j < m) (v : T) :
    ∃ b, a.write [i, j] v = .ok b ∧
      Shows b n m (fun r c => if r = i ∧ c = j then v else f r c) ∧ SameElsewhere a b := by
  have hb := h.bound i j (h.rows ▸ hi) (h.cols ▸ hj)
  refine ⟨_, write_pair a i j v hb, ⟨h.rows, h.cols, ?_⟩, rfl, rfl, rfl, rfl, rfl, by simp, ?_⟩
  · intro r c hr hc
    rw [read_pair, orUb_ok]
    simp only
    by_cases e : r = i ∧ c = j
    · obtain ⟨rfl, rfl⟩ := e
      rw [List.getElem?_set_self hb]
      simp
    · rw [List.getElem?_set_ne, if_neg e, h.get hr hc]
      intro e'
      exact e (hs r c i j (h.rows ▸ hr) (h.cols ▸ hc) (h.rows ▸ hi) (h.cols ▸ hj) (by omega))
  · intro k hk
    simp only
    rw [List.getElem?_set_ne]
    exact fun e => hk i j (h.rows ▸ hi) (h.cols ▸ hj) e.symm

/-- Assigning to the elements of one row in the given columns. -/
theorem row_loop {σ : Type} {n m i : Nat} (hi : i < n) (col : σ → Nat) (g : σ → T)
    (body : A2 T → σ → M (A2 T)) :
    ∀ (l : List σ) (a : A2 T) (f : Nat → Nat → T), Shows a n m f → Separate a →
      (∀ x ∈ l, col x < m) → l.Pairwise (fun x y => col x ≠ col y) →
      (∀ x ∈ l, ∀ o : A2 T, SameElsewhere a o → body o x = o.write [i, col x] (g x)) →
      ∃ b f', l.foldlM body a = .ok b ∧ Shows b n m f' ∧ SameElsewhere a b ∧
        (∀ x ∈ l, f' i (col x) = g x) ∧
        (∀ r c, (∀ x ∈ l, ¬(r = i ∧ c = col x)) → f' r c = f r c) := by
  intro l
  induction l with
  | nil =>
    intro a f h _ _ _ _
    exact ⟨a, f, rfl, h, SameElsewhere.refl a, by simp, fun _ _ _ => rfl⟩
  | cons x l ih =>
    intro a f h hs hl hp hb
    rw [List.pairwise_cons] at hp
    obtain ⟨o, e, s, w⟩ := write_shows h hs hi (hl x (by simp)) (g x)
    obtain ⟨b, f', e', s', w', r', u'⟩ := ih o _ s (w.separate hs) (fun y hy => hl y (by simp [hy])) hp.2
      (fun y hy o' ho' => hb y (by simp [hy]) o' (w.trans ho'))
    refine ⟨b, f', ?_, s', w.trans w', ?_, ?_⟩
    · rw [List.foldlM_cons, hb x (by simp) a (SameElsewhere.refl a), e]
      exact e'
    · intro y hy
      rcases List.mem_cons.1 hy with rfl | hy
      · rw [u' i (col y) (fun z hz c => hp.1 z hz c.2)]
        simp
      · exact r' y hy
    · intro r c hrc
      rw [u' r c (fun z hz => hrc z (by simp [hz])), if_neg (hrc x (by simp))]

theorem grid_one (m : Nat) : grid 1 m = (List.range m).map fun j => [0, j] := by
  simp [grid]

theorem shows_congr {a : A2 T} {n m : Nat} {f g : Nat → Nat → T} (h : Shows a n m f)
    (e : ∀ i j, i < n → j < m → f i j = g i j) : Shows a n m g :=
  ⟨h.rows, h.cols, fun i j hi hj => by rw [← e i j hi hj]; exact h.entry i j hi hj⟩

theorem setRow_spec {a b : A2 T} {n m k : Nat} {f g : Nat → Nat → T} (h : Shows a n m f)
    (hs : Separate a) (hb : Shows b k m g) (hk : 0 < k) (hm : 0 < m) {i : Nat} (hi : i < n) :
    ∃ o, a.setRow i b = .ok o ∧ Shows o n m (fun r => if r = i then g 0 else f r) ∧
      SameElsewhere a o := by
  obtain ⟨o, f', e, s, w, r, u⟩ := row_loop (i := i) (m := m) hi (fun x : List Nat => x.getD 1 0)
    (fun x => g 0 (x.getD 1 0)) (fun o x => do
      let v ← b.read x
      o.write (x.set 0 i) v) (grid 1 m) a f h hs
    (by
      intro x hx
      obtain ⟨p, hp, q, hq, rfl⟩ := mem_grid.1 hx
      exact hq)
    (by
      refine List.Pairwise.imp_of_mem ?_ (grid_nodup 1 m)
      intro x y hx hy hne e
      obtain ⟨p, hp, q, hq, rfl⟩ := mem_grid.1 hx
      obtain ⟨p', hp', q', hq', rfl⟩ := mem_grid.1 hy
      have h1 : p = p' := by omega
      simp at e
      exact hne (by rw [h1, e]))
    (by
      intro x hx o _
      obtain ⟨p, hp, q, hq, rfl⟩ := mem_grid.1 hx
      have h1 : p = 0 := by omega
      subst h1
      rw [hb.entry 0 q hk hq]
      rfl)
  refine ⟨o, ?_, shows_congr s ?_, w⟩
  · rw [A2.setRow, h.cols, hb.cols, if_neg (by simp), subscripts_grid hm]
    exact e
  · intro p q hp hq
    by_cases hpi : p = i
    · subst hpi
      have := r [0, q] (mem_grid.2 ⟨0, by omega, q, hq, rfl⟩)
      simp at this
      simp [this]
    · rw [u p q (fun x _ c => hpi c.1), if_neg hpi]

/-- Copying rows of one array to consecutive rows of another. -/
def copyRows (a o : A2 T) (s : Nat) (js : List Nat) : M (A2 T) :=
  (js.zipIdx s).foldlM (fun o x => do
    let v ← a.view x.1
    o.setRow x.2 v) o

theorem copyRows_spec {a : A2 T} {n m N : Nat} {f : Nat → Nat → T} (h : Shows a n m f) (hm : 0 < m)
    (ht : 0 < a.t1) : ∀ (js : List Nat) (s : Nat) (o : A2 T) (g : Nat → Nat → T),
      Shows o N m g → Separate o → (∀ j ∈ js, j < n) → s + js.length ≤ N →
      ∃ b, copyRows a o s js = .ok b ∧
        Shows b N m (fun r => if s ≤ r ∧ r < s + js.length then f (js.getD (r - s) 0) else g r) ∧
        SameElsewhere o b := by
  intro js
  induction js with
  | nil =>
    intro s o g hg _ _ _
    refine ⟨o, rfl, shows_congr hg ?_, SameElsewhere.refl o⟩
    intro i j _ _
    rw [if_neg (by simp)]
  | cons j js ih =>
    intro s o g hg hs hj hN
    simp only [List.length_cons] at hN
    obtain ⟨v, ev, sv, -⟩ := view_shows h hm ht (hj j (by simp))
    obtain ⟨o1, e1, s1, w1⟩ := setRow_spec hg hs sv Nat.one_pos hm (i := s) (by omega)
    obtain ⟨b, e, sb, w⟩ := ih (s + 1) o1 _ s1 (w1.separate hs) (fun k hk => hj k (by simp [hk])) (by omega)
    refine ⟨b, ?_, shows_congr sb ?_, w1.trans w⟩
    · rw [copyRows, List.zipIdx_cons, List.foldlM_cons, ev]
      show ((o.setRow s v).bind fun o => _) = _
      rw [e1]
      exact e
    · intro r c hr hc
      simp only [List.length_cons]
      by_cases h1 : r = s
      · subst h1
        rw [if_neg (by omega), if_pos rfl, if_pos (by omega), Nat.sub_self]
        rfl
      · rw [if_neg h1]
        by_cases h2 : s + 1 ≤ r ∧ r < s + 1 + js.length
        · rw [if_pos h2, if_pos (by omega)]
          have : r - s = (r - (s + 1)) + 1 := by omega
          rw [this, List.getD_cons_succ]
        · rw [if_neg h2, if_neg (by omega)]

theorem fresh_shows {n m t0 t1 : Nat} {v : T} (hp : RowPacked (fresh n m t0 t1 v)) :
    Shows (fresh n m t0 t1 v) n m (fun _ _ => v) := by
  refine ⟨rfl, rfl, ?_⟩
  intro i j hi hj
  rw [read_pair, orUb_ok, hp i j hi hj]
  simp only [fresh, Nat.add_zero]
  rw [List.getElem?_replicate, if_pos (lt_mul_pair hi hj)]

/-- Choosing rows by flags while counting them. -/
theorem flagLoop_eq {a : A2 T} {flag : Nat → M Bool} {P : Nat → Bool} : ∀ (l : List Nat) (o : A2 T)
    (c : Nat), (∀ j ∈ l, flag j = .ok (P j)) →
    l.foldlM (fun (s : A2 T × Nat) j => do
      if ← flag j then
        let v ← a.view j
        let out ← s.1.setRow s.2 v
        return (out, s.2 + 1)
      else return s) (o, c) =
    (do
      let b ← copyRows a o c (l.filter P)
      return (b, c + (l.filter P).length) : M (A2 T × Nat)) := by
  intro l
  induction l with
  | nil => intro o c _; rfl
  | cons j l ih =>
    intro o c h
    rw [List.foldlM_cons, h j (by simp)]
    have ih' := fun o c => ih o c (fun k hk => h k (by simp [hk]))
    cases hP : P j
    · rw [List.filter_cons_of_neg (by simp [hP])]
      exact ih' o c
    · rw [List.filter_cons_of_pos hP, copyRows, List.zipIdx_cons, List.foldlM_cons]
      show (do
        let s ← (do
          let v ← a.view j
          let out ← o.setRow c v
          return (out, c + 1) : M (A2 T × Nat))
        l.foldlM _ s) = _
      cases hv : a.view j with
      | error e => rfl
      | ok v =>
        show (do
          let s ← (do
            let out ← o.setRow c v
            return (out, c + 1) : M (A2 T × Nat))
          l.foldlM _ s) = (do
            let b ← (do
              let o1 ← o.setRow c v
              (List.zipIdx (l.filter P) (c + 1)).foldlM _ o1)
            return (b, c + (j :: l.filter P).length))
        cases ho : o.setRow c v with
        | error e => rfl
        | ok o1 =>
          have e := ih' o1 (c + 1)
          show l.foldlM _ (o1, c + 1) = (do
            let b ← copyRows a o1 (c + 1) (l.filter P)
            return (b, c + (j :: l.filter P).length))
          rw [e]
          simp only [List.length_cons]
          congr 1
          funext b
          congr 2
          omega

/-! ### Exchanging rows -/

theorem fixed_row {n m i : Nat} (hi : i < n) (hm : 0 < m) :
    ∃ it, mkFixed [n, m] [i, m] = some it ∧ it.visits m = some ((List.range m).map fun j => [i, j]) := by
  have ha : fixedAxes [n, m] [i, m] = [⟨n, i, i, true⟩, ⟨m, m, 0, false⟩] := by
    simp [fixedAxes, isFixed, hi]
  have hf : findFirst (fixedAxes [n, m] [i, m]) = some 1 := by
    rw [ha]; simp [findFirst]
  have hsz : size (fixedAxes [n, m] [i, m]) = m := by rw [ha]; simp [size]
  refine ⟨⟨fixedAxes [n, m] [i, m], 1⟩, by simp [mkFixed, hf], ?_⟩
  have e := visits_eq ⟨fixedAxes [n, m] [i, m], 1⟩ (wf_fixedAxes _ _) hf (by rw [hsz]; exact hm) 0
  simp only [Nat.add_zero] at e
  rw [hsz] at e
  rw [e]
  congr 1
  have hp := rangeMap_pairwise (fixedAxes [n, m] [i, m])
  rw [hsz] at hp
  have hq : ((List.range m).map fun j => [i, j]).Pairwise (· < ·) := by
    rw [List.pairwise_map]
    refine List.Pairwise.imp ?_ (List.pairwise_lt_range (n := m))
    intro a b h
    simp [List.cons_lt_cons_iff, h]
  have n1 := hp.imp (S := (· ≠ ·)) (fun h e => by rw [e] at h; exact List.lt_irrefl _ h)
  have n2 := hq.imp (S := (· ≠ ·)) (fun h e => by rw [e] at h; exact List.lt_irrefl _ h)
  refine List.Perm.eq_of_pairwise (le := (· < ·)) ?_ hp hq ((List.perm_ext_iff_of_nodup n1 n2).2 ?_)
  · intro a b _ _ hab hba
    exact absurd (List.lt_trans hab hba) (List.lt_irrefl _)
  · intro x
    have := mem_rangeMap (fixedAxes [n, m] [i, m]) x
    rw [hsz] at this
    rw [this, ok_fixedAxes _ _ _ (show [n, m].length = [i, m].length from rfl)]
    simp only [List.mem_map, List.mem_range]
    constructor
    · intro hx
      match x, hx with
      | [p, q], hx =>
        simp only [Agrees, if_pos hi, lt_irrefl, if_false, and_true] at hx
        exact ⟨q, hx.2, by rw [hx.1]⟩
    · rintro ⟨j, hj, rfl⟩
      simp [Agrees, hi, hj]

theorem exchange_spec {a : A2 T} {n m : Nat} {f : Nat → Nat → T} (h : Shows a n m f) (hs : Separate a)
    {i j c d : Nat} (hi : i < n) (hj : j < n) (hc : c < m) (hd : d < m) :
    ∃ b, a.exchange [i, c] [j, d] = .ok b ∧
      Shows b n m (fun r q => if r = j ∧ q = d then f i c else if r = i ∧ q = c then f j d else f r q) ∧
      SameElsewhere a b := by
  obtain ⟨o, e, s, w⟩ := write_shows h hs hi hc (f j d)
  obtain ⟨b, e', s', w'⟩ := write_shows s (w.separate hs) hj hd (f i c)
  refine ⟨b, ?_, s', w.trans w'⟩
  rw [A2.exchange, h.entry i c hi hc, h.entry j d hj hd]
  show ((a.write [i, c] (f j d)).bind fun b => b.write [j, d] (f i c)) = _
  rw [e]
  exact e'

theorem swap_loop {n m i j : Nat} (hi : i < n) (hj : j < n) : ∀ (l : List Nat) (a : A2 T)
    (f : Nat → Nat → T), Shows a n m f → Separate a → (∀ c ∈ l, c < m) → l.Nodup →
    ∃ b, (l.map fun c => [i, c]).foldlM (fun o x => o.exchange x (x.set 0 j)) a = .ok b ∧
      Shows b n m (fun r c => if c ∈ l then f (Equiv.swap i j r) c else f r c) ∧ SameElsewhere a b := by
  intro l
  induction l with
  | nil =>
    intro a f h _ _ _
    exact ⟨a, rfl, by simpa using h, SameElsewhere.refl a⟩
  | cons c l ih =>
    intro a f h hs hl hn
    obtain ⟨o, e, s, w⟩ := exchange_spec h hs hi hj (hl c (by simp)) (hl c (by simp))
    rw [List.nodup_cons] at hn
    obtain ⟨b, e', s', w'⟩ := ih o _ s (w.separate hs) (fun q hq => hl q (by simp [hq])) hn.2
    refine ⟨b, ?_, shows_congr s' ?_, w.trans w'⟩
    · rw [List.map_cons, List.foldlM_cons]
      show ((a.exchange [i, c] [j, c]).bind fun o => _) = _
      rw [e]
      exact e'
    · intro r q hr hq
      by_cases hqc : q = c
      · subst hqc
        simp only [hn.1, List.mem_cons, true_or, if_true, if_false, and_true]
        by_cases hrj : r = j
        · subst hrj; simp
        · by_cases hri : r = i
          · subst hri; simp [hrj]
          · rw [if_neg hrj, if_neg hri, Equiv.swap_apply_of_ne_of_ne hri hrj]
      · simp only [List.mem_cons, hqc, false_or, and_false, if_false]

end Brille.ArrFun
