import Verif.Model.Fill
import Verif.Spec.Fill
import Verif.Proofs.PermutationTable
import Mathlib.Tactic.Ring

namespace Brille.Fill
open Brille.Spec
open Rot (LengthUnit RotatesLike)

/-- the numbers of elements as a triple -/
def Elements.triple (e : Elements) : Nat × Nat × Nat := (e.scalars, e.vectors, e.matrices)

/-- no number exceeds what `ind_t` can hold -/
structure Small (shape : List Nat) (e : Elements) : Prop where
  elements : e.scalars + e.vectors + e.matrices < 2 ^ 32
  mode : (shape.drop 2).prod < 2 ^ 32
  row : (shape.drop 1).prod < 2 ^ 32

theorem ind_of_lt {x : Nat} (h : x < 2 ^ 32) : ind x = x := Nat.mod_eq_of_lt h

/-- an accepted specification has a layout -/
theorem layout_of_check {shape : List Nat} {e e' : Elements} (hs : Small shape e) (hne : shape ≠ [])
    (h : checkElements shape e = .ok e') :
    ∃ p, shape.head? = some p ∧ Layout shape e.triple p (branches shape e') e'.triple ∧
      (shape.drop 1).prod = branches shape e' * e'.span ∧ e'.scalars + e'.vectors + e'.matrices < 2 ^ 32 := by
  obtain ⟨s, v, m⟩ := e
  have h1 : s + v + m < 2 ^ 32 := hs.elements
  have h2 := hs.mode
  have h3 := hs.row
  have hspan : (⟨s, v, m⟩ : Elements).span = s + v + m := ind_of_lt h1
  match shape, hne, h with
  | [p], _, k =>
    refine ⟨p, rfl, ?_⟩
    simp only [checkElements, hspan] at k
    split at k
    · rename_i h0
      obtain ⟨rfl, rfl, rfl⟩ : s = 0 ∧ v = 0 ∧ m = 0 := by omega
      injection k with k; subst k
      exact ⟨Layout.oneDefault p, by simp [branches, Elements.span, ind], by decide⟩
    · split at k
      · cases k
      · injection k with k; subst k
        refine ⟨Layout.one p s v m (by omega), ?_, h1⟩
        rw [hspan]; simp [branches]; omega
  | [p, x], _, k =>
    refine ⟨p, rfl, ?_⟩
    simp only [checkElements, hspan] at k
    have hx : x < 2 ^ 32 := by simpa using h3
    split at k
    · rename_i h0
      obtain ⟨rfl, rfl, rfl⟩ : s = 0 ∧ v = 0 ∧ m = 0 := by omega
      split at k
      · cases k
      · rename_i hx0
        injection k with k; subst k
        have e1 : (⟨x, 0, 0⟩ : Elements).span = x := ind_of_lt (by simpa using hx)
        have e2 : branches [p, x] ⟨x, 0, 0⟩ = 1 := by
          simp only [branches, e1]
          rw [if_pos (by omega), Nat.div_self (by omega)]
        rw [e2, e1]
        exact ⟨Layout.twoDefault p x (by omega), by simp, by simpa using hx⟩
    · rename_i h0
      split at k
      · cases k
      · rename_i hmod
        injection k with k; subst k
        have e2 : branches [p, x] ⟨s, v, m⟩ = x / (s + v + m) := by
          simp only [branches, hspan]
          rw [if_pos (by omega)]
        have e3 : x = x / (s + v + m) * (s + v + m) := by
          rw [Nat.div_mul_cancel (Nat.dvd_of_mod_eq_zero (by simpa using hmod))]
        refine ⟨?_, ?_, h1⟩
        · rw [e2]
          have := Layout.two p (x / (s + v + m)) s v m (by omega)
          rw [← e3] at this
          exact this
        · rw [e2, hspan]; simpa using e3
  | [p, b, y], _, k =>
    refine ⟨p, rfl, ?_⟩
    simp only [checkElements, hspan] at k
    have hy : y < 2 ^ 32 := by simpa using h2
    split at k
    · rename_i h0
      obtain ⟨rfl, rfl, rfl⟩ : s = 0 ∧ v = 0 ∧ m = 0 := by omega
      injection k with k; subst k
      have e1 : (⟨y, 0, 0⟩ : Elements).span = y := ind_of_lt (by simpa using hy)
      rw [e1]
      exact ⟨Layout.threeDefault p b y, by simp [branches], by simpa using hy⟩
    · split at k
      · cases k
      · rename_i hy'
        injection k with k; subst k
        obtain rfl : y = s + v + m := by simpa using hy'
        rw [hspan]
        exact ⟨Layout.three p b s v m (by omega), by simp [branches], h1⟩
  | [p, b, n, t], _, k =>
    refine ⟨p, rfl, ?_⟩
    simp only [checkElements, hspan] at k
    split at k
    · cases k
    rename_i ht
    obtain rfl : t = 3 := by simpa using ht
    have hn : n * 3 < 2 ^ 32 := by simpa using h2
    rw [ind_of_lt hn] at k
    split at k
    · rename_i h0
      obtain ⟨rfl, rfl, rfl⟩ : s = 0 ∧ v = 0 ∧ m = 0 := by omega
      injection k with k; subst k
      have e1 : (⟨0, n * 3, 0⟩ : Elements).span = n * 3 := by simp [Elements.span, ind_of_lt hn]
      rw [e1]
      exact ⟨Layout.fourDefault p b n, by simp [branches], by simpa using hn⟩
    · split at k
      · cases k
      · rename_i h0 hy'
        injection k with k; subst k
        have e1 : n * 3 = s + v + m := by simpa using hy'
        rw [hspan]
        exact ⟨Layout.four p b n s v m (by omega) e1.symm, by simp [branches, e1], h1⟩
  | [p, b, n, t, u], _, k =>
    refine ⟨p, rfl, ?_⟩
    simp only [checkElements, hspan] at k
    split at k
    · cases k
    rename_i ht
    obtain ⟨rfl, rfl⟩ : t = 3 ∧ u = 3 := by simpa using ht
    have hn : n * 9 < 2 ^ 32 := by simpa using h2
    rw [ind_of_lt hn] at k
    split at k
    · rename_i h0
      obtain ⟨rfl, rfl, rfl⟩ : s = 0 ∧ v = 0 ∧ m = 0 := by omega
      injection k with k; subst k
      have e1 : (⟨0, 0, n * 9⟩ : Elements).span = n * 9 := by simp [Elements.span, ind_of_lt hn]
      rw [e1]
      exact ⟨Layout.fiveDefault p b n, by simp [branches], by simpa using hn⟩
    · split at k
      · cases k
      · rename_i h0 hy'
        injection k with k; subst k
        have e1 : n * 9 = s + v + m := by simpa using hy'
        rw [hspan]
        exact ⟨Layout.five p b n s v m (by omega) e1.symm, by simp [branches, e1], h1⟩
  | _ :: _ :: _ :: _ :: _ :: _ :: _, _, k => simp [checkElements] at k

/-- a specification with a layout is accepted -/
theorem check_of_layout {shape : List Nat} {e : Elements} (hs : Small shape e) {p b : Nat} {t : Nat × Nat × Nat}
    (h : Layout shape e.triple p b t) :
    ∃ e', checkElements shape e = .ok e' ∧ e'.triple = t ∧ branches shape e' = b ∧ shape.head? = some p := by
  obtain ⟨s, v, m⟩ := e
  have h1 : s + v + m < 2 ^ 32 := hs.elements
  have h2 := hs.mode
  have h3 := hs.row
  have hspan : (⟨s, v, m⟩ : Elements).span = s + v + m := ind_of_lt h1
  simp only [Elements.triple] at h
  cases h with
  | one _ _ _ _ h =>
    refine ⟨⟨s, v, m⟩, ?_, rfl, rfl, rfl⟩
    simp only [checkElements, hspan]
    rw [if_neg (by omega), if_neg (by omega)]
  | oneDefault =>
    refine ⟨⟨1, 0, 0⟩, ?_, rfl, rfl, rfl⟩
    simp [checkElements, Elements.span, ind]
  | two _ _ _ _ _ h =>
    refine ⟨⟨s, v, m⟩, ?_, rfl, ?_, rfl⟩
    · simp only [checkElements, hspan]
      rw [if_neg (by omega), if_neg (by simp)]
    · simp only [branches, hspan]
      rw [if_pos h, Nat.mul_div_cancel _ h]
  | twoDefault _ y h =>
    have hy : y < 2 ^ 32 := by simpa using h3
    have e1 : (⟨y, 0, 0⟩ : Elements).span = y := ind_of_lt (by simpa using hy)
    refine ⟨⟨y, 0, 0⟩, ?_, rfl, ?_, rfl⟩
    · simp [checkElements, Elements.span, ind, h.ne']
    · simp only [branches, e1]
      rw [if_pos h, Nat.div_self h]
  | three _ _ _ _ _ h =>
    refine ⟨⟨s, v, m⟩, ?_, rfl, rfl, rfl⟩
    simp only [checkElements, hspan]
    rw [if_neg (by omega), if_neg (by omega)]
  | threeDefault _ _ y =>
    refine ⟨⟨y, 0, 0⟩, ?_, rfl, rfl, rfl⟩
    simp [checkElements, Elements.span, ind]
  | four _ _ n _ _ _ h hn =>
    refine ⟨⟨s, v, m⟩, ?_, rfl, rfl, rfl⟩
    simp only [checkElements, hspan]
    rw [if_neg (by omega), if_neg (by omega), ind_of_lt (by omega), if_neg (by omega)]
  | fourDefault _ _ n =>
    have hn : n * 3 < 2 ^ 32 := by simpa using h2
    refine ⟨⟨0, n * 3, 0⟩, ?_, rfl, rfl, rfl⟩
    simp only [checkElements, ind_of_lt hn]
    simp [Elements.span, ind]
  | five _ _ n _ _ _ h hn =>
    refine ⟨⟨s, v, m⟩, ?_, rfl, rfl, rfl⟩
    simp only [checkElements, hspan]
    rw [if_neg (by omega), if_neg (by omega), ind_of_lt (by omega), if_neg (by omega)]
  | fiveDefault _ _ n =>
    have hn : n * 9 < 2 ^ 32 := by simpa using h2
    refine ⟨⟨0, 0, n * 9⟩, ?_, rfl, rfl, rfl⟩
    simp only [checkElements, ind_of_lt hn]
    simp [Elements.span, ind]

/-! ### reading the element arrays -/

/-- `readElements` gives the numbers in the array when none is negative or too large -/
theorem indOfInt_nat {x : Nat} (h : x < 2 ^ 32) : indOfInt (x : Int) = x := by
  simp only [indOfInt]; omega

theorem readRotatesLike_ok (len : Nat) (get : Nat → Int) :
    (∃ r, readRotatesLike len get = .ok r) ↔ (3 < len → 0 ≤ get 3 ∧ get 3 ≤ 2) := by
  simp only [readRotatesLike]
  by_cases h : len > 3
  · rw [if_pos h]
    constructor
    · rintro ⟨r, hr⟩ _
      split at hr
      · omega
      · split at hr
        · omega
        · split at hr
          · omega
          · cases hr
    · intro hk
      have := hk h
      split
      · exact ⟨_, rfl⟩
      · split
        · exact ⟨_, rfl⟩
        · rw [if_pos (by omega)]; exact ⟨_, rfl⟩
  · rw [if_neg h]
    exact ⟨fun _ h' => absurd h' h, fun _ => ⟨_, rfl⟩⟩

theorem readLengthUnit_ok (len : Nat) (get : Nat → Int) :
    (∃ r, readLengthUnit len get = .ok r) ↔ (4 < len → 0 ≤ get 4 ∧ get 4 ≤ 4) := by
  simp only [readLengthUnit]
  by_cases h : len > 4
  · rw [if_pos h]
    constructor
    · rintro ⟨r, hr⟩ _
      split at hr
      · omega
      · split at hr
        · omega
        · split at hr
          · omega
          · split at hr
            · omega
            · split at hr
              · omega
              · cases hr
    · intro hk
      have := hk h
      split
      · exact ⟨_, rfl⟩
      · split
        · exact ⟨_, rfl⟩
        · split
          · exact ⟨_, rfl⟩
          · split
            · exact ⟨_, rfl⟩
            · rw [if_pos (by omega)]; exact ⟨_, rfl⟩
  · rw [if_neg h]
    exact ⟨fun _ h' => absurd h' h, fun _ => ⟨_, rfl⟩⟩

/-- the roles are known -/
def KnownRoles (len : Nat) (get : Nat → Int) : Prop :=
  (3 < len → 0 ≤ get 3 ∧ get 3 ≤ 2) ∧ (4 < len → 0 ≤ get 4 ∧ get 4 ≤ 4)

theorem checked_ok {T : Type} (a : Nd T) (len : Nat) (get : Nat → Int) (h : Held T) :
    checked a len get = .ok h ↔
      ∃ rl lu, readRotatesLike len get = .ok rl ∧ readLengthUnit len get = .ok lu ∧
        make a (readElements len get) rl lu = .ok h := by
  simp only [checked]
  cases h1 : readRotatesLike len get with
  | error f => simp
  | ok rl =>
    cases h2 : readLengthUnit len get with
    | error f => simp
    | ok lu =>
      simp only [Except.ok.injEq]
      constructor
      · intro hh; exact ⟨rl, lu, rfl, rfl, hh⟩
      · rintro ⟨_, _, rfl, rfl, hh⟩; exact hh

/-- what is held after an array was accepted -/
structure Holds {T : Type} (h : Held T) (shape : List Nat) (mem : Nat → T) (p b : Nat) (t : Nat × Nat × Nat) :
    Prop where
  rows : h.rows = p
  cols : h.cols = b * (t.1 + t.2.1 + t.2.2)
  mem : h.mem = mem
  shape : h.shape = shape
  modes : h.branches = b
  span : h.elements.span = t.1 + t.2.1 + t.2.2
  elements : h.elements.triple = t

theorem make_holds {T : Type} {a : Nd T} {e : Elements} {rl : RotatesLike} {lu : LengthUnit} {h : Held T}
    (hs : Small a.shape e) (hne : a.shape ≠ []) (hm : make a e rl lu = .ok h) :
    ∃ p b t, Layout a.shape e.triple p b t ∧ Holds h a.shape a.mem p b t := by
  simp only [make] at hm
  cases hc : checkElements a.shape e with
  | error f => rw [hc] at hm; cases hm
  | ok e' =>
    rw [hc] at hm
    injection hm with hm; subst hm
    obtain ⟨p, hp, hl, hcol, hsm⟩ := layout_of_check hs hne hc
    have hsp : e'.span = e'.scalars + e'.vectors + e'.matrices := ind_of_lt hsm
    refine ⟨p, _, _, hl, ?_, ?_, rfl, rfl, rfl, hsp, rfl⟩
    · match hsh : a.shape, hne with
      | n :: r, _ => rw [hsh] at hp; simpa [rowsCols] using hp
    · match hsh : a.shape, hne with
      | n :: r, _ =>
        rw [hsh] at hcol
        simp only [rowsCols]
        simp only [List.drop_succ_cons, List.drop_zero] at hcol
        rw [hcol, hsp]; rfl

theorem make_of_layout {T : Type} {a : Nd T} {e : Elements} (rl : RotatesLike) (lu : LengthUnit)
    (hs : Small a.shape e) {p b : Nat} {t : Nat × Nat × Nat} (hl : Layout a.shape e.triple p b t) :
    ∃ h, make a e rl lu = .ok h ∧ Holds h a.shape a.mem p b t := by
  obtain ⟨e', hc, ht, hb, hp⟩ := check_of_layout hs hl
  have hm : make a e rl lu = .ok ⟨(rowsCols a.shape).1, (rowsCols a.shape).2, a.mem, a.shape, e', rl, lu⟩ := by
    simp only [make, hc]
  refine ⟨_, hm, ?_⟩
  have hne : a.shape ≠ [] := by intro h0; rw [h0] at hp; cases hp
  obtain ⟨p', b', t', hl', hh⟩ := make_holds hs hne hm
  have e1 : b' = b := by rw [← hh.modes]; exact hb
  have e2 : t' = t := by rw [← hh.elements]; exact ht
  have e3 : p' = p := by
    rw [← hh.rows]
    match hsh : a.shape, hne with
    | n :: r, _ => rw [hsh] at hp; simpa [rowsCols] using hp
  subst e1 e2 e3
  exact hh

/-- one-dimensional data are the same as two-dimensional data with one column -/
theorem layout_column {p q b : Nat} {e t : Nat × Nat × Nat} : Layout [p, 1] e q b t ↔ Layout [p] e q b t := by
  constructor
  · intro h
    generalize hs : [p, 1] = sh at h
    cases h with
    | two _ _ s v m h0 =>
      simp only [List.cons.injEq, and_true] at hs
      obtain ⟨rfl, h1⟩ := hs
      have hb := Nat.eq_one_of_mul_eq_one_right h1.symm
      have hc := Nat.eq_one_of_mul_eq_one_left h1.symm
      rw [hb]
      exact Layout.one _ s v m hc
    | twoDefault _ y h0 =>
      simp only [List.cons.injEq, and_true] at hs
      obtain ⟨rfl, rfl⟩ := hs
      exact Layout.oneDefault _
    | _ => simp at hs
  · intro h
    generalize hs : [p] = sh at h
    cases h with
    | one _ s v m h0 =>
      simp only [List.cons.injEq, and_true] at hs
      subst hs
      have := Layout.two p 1 s v m (by omega)
      rwa [h0] at this
    | oneDefault _ =>
      simp only [List.cons.injEq, and_true] at hs
      subst hs
      exact Layout.twoDefault p 1 (by omega)
    | _ => simp at hs

/-! ### the table -/

theorem updateTable_ok {T R : Type} {g g' : Grid T R} (h : updateTable g = .ok g') :
    g'.vertices = g.vertices ∧ g'.values = g.values ∧ g'.vectors = g.vectors ∧
      PermTable.step g.table (.refresh g.values.rows g.values.branches) = some g'.table := by
  simp only [updateTable] at h
  simp only [PermTable.step]
  cases hr : PermTable.refresh g.table g.values.rows g.values.branches with
  | none => rw [hr] at h; cases h
  | some x =>
    obtain ⟨t, b⟩ := x
    rw [hr] at h
    injection h with h; subst h
    exact ⟨rfl, rfl, rfl, rfl⟩

theorem refresh_none {t : PermTable.Table} {n b : Nat} (h : PermTable.refresh t n b = none) :
    t.permutations = [] := by
  simp only [PermTable.refresh] at h
  by_cases hn : (n != t.indexSize) = true
  · simp only [hn, if_true] at h
    cases hp : t.permutations with
    | nil => rfl
    | cons p ps => rw [hp] at h; simp only at h; split at h <;> cases h
  · simp only [hn] at h
    cases hp : t.permutations with
    | nil => rfl
    | cons p ps =>
      simp only [Bool.false_eq_true, if_false, hp] at h; split at h <;> cases h

theorem updateTable_total {T R : Type} {g : Grid T R} (h : g.table.permutations ≠ []) :
    ∃ g', updateTable g = .ok g' := by
  simp only [updateTable]
  cases hr : PermTable.refresh g.table g.values.rows g.values.branches with
  | none => exact absurd (refresh_none hr) h
  | some x => exact ⟨_, rfl⟩

end Brille.Fill
