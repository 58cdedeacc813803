import Verif.Model.ArrayDot
import Verif.Props.ArrayBroadcast
import Mathlib.LinearAlgebra.CrossProduct
/-
C90: inner and vector products of the rows of two arrays.
-/
namespace Brille.Props
open Brille.ArrFun Brille.Spec Brille.Subscript

variable {T : Type}

theorem from_eq {a : A2 T} {n m : Nat} {f : Nat → Nat → T} (h : Shows a n m f) (hp : RowPacked a) {i : Nat} (hi : i < n) :
    a.from i m = .ok ((List.range m).map (f i)) := by
  refine mapM_ok _ _ _ fun j hj => ?_
  have hj := List.mem_range.1 hj
  rw [orUb_ok, ← h.get hi hj]
  have h1 := hp i j (h.rows ▸ hi) (h.cols ▸ hj)
  have h2 := hp i 0 (h.rows ▸ hi) (by rw [h.cols]; omega)
  congr 1
  omega

theorem pairRows_eq [Inhabited T] {a b : A2 T} {n k d c : Nat} {f g : Nat → Nat → T} (h : Shows a n d f) (hb : Shows b k d g)
    (ha : RowPacked a) (hb' : RowPacked b) (hk : n = k ∨ n = 1 ∨ k = 1) (hc : 0 < c) (w : List T → List T → Nat → T) :
    ∃ o, pairRows a b d c w = .ok o ∧ RowPacked o ∧ Shows o (if n = 1 then k else n) c
      (fun i j => w ((List.range d).map (f (oneOr n i))) ((List.range d).map (g (oneOr k i))) j) := by
  obtain ⟨o, e, s, u⟩ := fill (fresh (if n = 1 then k else n) c c 1 (default : T)) (if n = 1 then k else n) c rfl rfl hc
    (Or.inl (rowPacked_fresh _ _ _)) rfl (by simp [fresh])
    (fun i j => w ((List.range d).map (f (oneOr n i))) ((List.range d).map (g (oneOr k i))) j) (fun o s => do
      let x ← a.from (if n = 1 then 0 else s.getD 0 0) d
      let y ← b.from (if n = 1 then s.getD 0 0 else if k = 1 then 0 else s.getD 0 0) d
      o.write s (w x y (s.getD 1 0))) (by
      intro i j hi hj o
      have h1 : a.from (if n = 1 then 0 else i) d = .ok ((List.range d).map (f (oneOr n i))) :=
        from_eq h ha (i := oneOr n i) (by unfold oneOr; split <;> simp_all)
      have e2 : (if n = 1 then i else if k = 1 then 0 else i) = oneOr k i := by
        unfold oneOr
        by_cases hn : n = 1
        · rw [if_pos hn] at hi ⊢
          split <;> omega
        · rw [if_neg hn]
      have h2 : b.from (oneOr k i) d = .ok ((List.range d).map (g (oneOr k i))) := by
        refine from_eq hb hb' ?_
        unfold oneOr
        by_cases hn : n = 1
        · rw [if_pos hn] at hi
          split <;> omega
        · rw [if_neg hn] at hi
          split <;> omega
      simp only [List.getD_cons_zero, List.getD_cons_succ]
      rw [h1, e2, h2]; rfl)
  refine ⟨o, ?_, ?_, s⟩
  · rw [pairRows, h.rows, hb.rows]
    exact e
  · obtain ⟨q0, q1, q2, q3, -⟩ := u
    intro i j hi hj
    rw [q1, q2, q3]
    simp [fresh]

theorem vectorDot_eq [CommRing T] (d : Nat) (u v : Nat → T) :
    vectorDot ((List.range d).map u) ((List.range d).map v) = ∑ j ∈ Finset.range d, u j * v j := by
  have : ∀ (l : List Nat) (s : T), ((l.map u).zip (l.map v)).foldl (fun s p => s + p.1 * p.2) s = s + (l.map fun j => u j * v j).sum := by
    intro l
    induction l with
    | nil => intro s; simp
    | cons x l ih => intro s; simp [ih, add_assoc]
  rw [vectorDot, this, zero_add]
  rfl

/-- **C90.** `dot` of two arrays stored row after row, with the same number of rows or one with a single row, is the column of the inner products of
the rows. -/
theorem C90_dot [CommRing T] [Inhabited T] {a b : A2 T} {n k d : Nat} {f g : Nat → Nat → T} (h : Shows a n d f) (hb : Shows b k d g)
    (ha : RowPacked a) (hb' : RowPacked b) (hk : n = k ∨ n = 1 ∨ k = 1) :
    ∃ o, dotRows a b = .ok o ∧ RowPacked o ∧ Shows o (if n = 1 then k else n) 1
      (fun i _ => ∑ j ∈ Finset.range d, f (oneOr n i) j * g (oneOr k i) j) := by
  obtain ⟨o, e, p, s⟩ := pairRows_eq h hb ha hb' hk Nat.one_pos (fun x y _ => vectorDot x y)
  refine ⟨o, ?_, p, s.rows, s.cols, fun i j hi hj => ?_⟩
  · rw [dotRows, h.cols]; exact e
  · rw [s.entry i j hi hj, vectorDot_eq]

/-- **C90.** `cross` of two arrays of vectors stored row after row, with the same number of vectors or one with a single vector, is the array of the
vector products. -/
theorem C90_cross [CommRing T] [Inhabited T] {a b : A2 T} {n k : Nat} {f g : Nat → Nat → T} (h : Shows a n 3 f) (hb : Shows b k 3 g)
    (ha : RowPacked a) (hb' : RowPacked b) (hk : n = k ∨ n = 1 ∨ k = 1) :
    ∃ o F, crossRows a b = .ok o ∧ RowPacked o ∧ Shows o (if n = 1 then k else n) 3 F ∧
      ∀ i, (fun j : Fin 3 => F i j) = crossProduct (fun j : Fin 3 => f (oneOr n i) j) (fun j : Fin 3 => g (oneOr k i) j) := by
  obtain ⟨o, e, p, s⟩ := pairRows_eq h hb ha hb' hk (by decide : 0 < 3) vectorCross
  refine ⟨o, _, e, p, s, fun i => ?_⟩
  funext j
  rw [cross_apply]
  fin_cases j <;> simp [vectorCross, List.range_succ]

/-- 1 2 3 / 4 5 6 -/
def twoVectors : A2 Int := ⟨2, 3, 3, 1, 0, [1, 2, 3, 4, 5, 6]⟩

/-- the same table, column after column -/
def twoVectorsByColumns : A2 Int := ⟨2, 3, 1, 2, 0, [1, 4, 2, 5, 3, 6]⟩

/-- 1 1 2 -/
def oneVector : A2 Int := ⟨1, 3, 3, 1, 0, [1, 1, 2]⟩

theorem twoVectors_shows : Shows twoVectors 2 3 (fun i j => 3 * i + j + 1) :=
  ⟨rfl, rfl, by intro i j hi hj; interval_cases i <;> interval_cases j <;> rfl⟩

theorem twoVectorsByColumns_shows : Shows twoVectorsByColumns 2 3 (fun i j => 3 * i + j + 1) :=
  ⟨rfl, rfl, by intro i j hi hj; interval_cases i <;> interval_cases j <;> rfl⟩

example : ∃ o, dotRows twoVectors oneVector = .ok o ∧ o.data = [9, 21] := ⟨_, rfl, by decide⟩

example : ∃ o, crossRows twoVectors oneVector = .ok o ∧ o.data = [1, 1, -1, 4, -2, -1] := ⟨_, rfl, by decide⟩

example : RowPacked twoVectors ∧ RowPacked oneVector := by
  constructor
  · intro i j _ _; simp [twoVectors]
  · intro i j _ _; simp [oneVector]

/-- **C90 (counterexample).** The layout is only asserted: for the same table stored column after column, `dot` gives other numbers without an
error; and with two and three rows memory outside of the arrays is read. -/
theorem C90_dot_counterexample : (∃ f, Shows twoVectors 2 3 f ∧ Shows twoVectorsByColumns 2 3 f) ∧
    (∃ o, dotRows twoVectors oneVector = .ok o ∧ o.data = [9, 21]) ∧ (∃ o, dotRows twoVectorsByColumns oneVector = .ok o ∧ o.data = [9, 16]) ∧
    dotRows (⟨3, 1, 1, 1, 0, [1, 2, 3]⟩ : A2 Int) ⟨2, 1, 1, 1, 0, [1, 2]⟩ = .error .ub :=
  ⟨⟨_, twoVectors_shows, twoVectorsByColumns_shows⟩, ⟨_, rfl, by decide⟩, ⟨_, rfl, by decide⟩, by decide⟩

end Brille.Props
