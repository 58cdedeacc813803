import Verif.Spec.Atoms
import Verif.Props.Motion

/-
Lemmas on the atoms of a unit cell.
-/
namespace Brille.Atoms

open Brille.Mot Brille.Spec Brille.Props

theorem diffMod_zero (x p : Pt) : isZero (diffMod x p) = true ↔ SameModLattice x p := by
  rw [isZero, decide_eq_true_iff, funext_iff]
  refine forall_congr' fun i => ?_
  simp only [diffMod]
  have h0 := Int.fract_nonneg (x i - p i + 1 / 2)
  rw [Int.fract] at h0
  rw [abs_of_nonneg h0]
  constructor
  · intro h
    exact ⟨⌊x i - p i + 1 / 2⌋, by linarith⟩
  · rintro ⟨z, hz⟩
    rw [hz]
    have : ⌊(z : ℚ) + 1 / 2⌋ = z := by
      rw [Int.floor_intCast_add, add_eq_left]
      norm_num
    rw [this]
    ring

theorem diffMod_range (x p : Pt) (i : Fin 3) : -(1 / 2) ≤ diffMod x p i ∧ diffMod x p i < 1 / 2 := by
  simp only [diffMod]
  have h0 := Int.fract_nonneg (x i - p i + 1 / 2)
  have h1 := Int.fract_lt_one (x i - p i + 1 / 2)
  rw [Int.fract] at h0 h1
  rw [abs_of_nonneg h0]
  constructor <;> linarith

/-- the difference is the difference up to integers -/
theorem diffMod_same (x p : Pt) : SameModLattice (diffMod x p) (fun i => x i - p i) := by
  intro i
  refine ⟨-⌊x i - p i + 1 / 2⌋, ?_⟩
  simp only [diffMod]
  have h0 := Int.fract_nonneg (x i - p i + 1 / 2)
  rw [Int.fract] at h0
  rw [abs_of_nonneg h0]
  push_cast
  ring

theorem atoms_get (b : Basis) (k : Nat) (p : Pt) (t : Nat) :
    b.atoms[k]? = some (p, t) ↔ b.positions[k]? = some p ∧ b.types[k]? = some t := by
  rw [Basis.atoms, List.getElem?_zip_eq_some]

theorem equivalentTo_true (b : Basis) (near : Pt → Bool) (t : Nat) (x : Pt) (i : Nat) :
    b.equivalentTo near t x = (true, i) ↔
      (∃ p, b.positions[i]? = some p ∧ b.types[i]? = some t ∧ near (diffMod x p) = true) ∧
      ∀ j < i, ¬ ∃ p, b.positions[j]? = some p ∧ b.types[j]? = some t ∧ near (diffMod x p) = true := by
  have key : ∀ j : Nat, (∃ p, b.positions[j]? = some p ∧ b.types[j]? = some t ∧ near (diffMod x p) = true) ↔
      ∃ h : j < b.atoms.length, (decide (b.atoms[j].2 = t) && near (diffMod x b.atoms[j].1)) = true := by
    intro j
    constructor
    · rintro ⟨p, h1, h2, h3⟩
      have := (atoms_get b j p t).2 ⟨h1, h2⟩
      obtain ⟨h, e⟩ := List.getElem?_eq_some_iff.1 this
      exact ⟨h, by rw [e]; simp [h3]⟩
    · rintro ⟨h, e⟩
      rw [Bool.and_eq_true, decide_eq_true_iff] at e
      have := (atoms_get b j b.atoms[j].1 b.atoms[j].2).1 (List.getElem?_eq_getElem h)
      exact ⟨_, this.1, by rw [this.2, e.1], e.2⟩
  have e : b.equivalentTo near t x = (true, i) ↔
      (b.atoms.findIdx? fun a => decide (a.2 = t) && near (diffMod x a.1)) = some i := by
    unfold Basis.equivalentTo
    split
    · rename_i j hj
      rw [hj]; simp
    · rename_i hj
      rw [hj]; simp
  rw [e, List.findIdx?_eq_some_iff_getElem, key i]
  constructor
  · rintro ⟨h, h1, h2⟩
    refine ⟨⟨h, h1⟩, fun j hj hp => ?_⟩
    obtain ⟨h', hp⟩ := (key j).1 hp
    exact absurd hp (by simpa using h2 j hj)
  · rintro ⟨⟨h, h1⟩, h2⟩
    refine ⟨h, h1, fun j hj => ?_⟩
    intro hc
    exact h2 j hj ((key j).2 ⟨by omega, hc⟩)

theorem equivalentTo_false (b : Basis) (near : Pt → Bool) (t : Nat) (x : Pt) (i : Nat) :
    b.equivalentTo near t x = (false, i) ↔ i = b.positions.length ∧
      ∀ j : Nat, ¬ ∃ p, b.positions[j]? = some p ∧ b.types[j]? = some t ∧ near (diffMod x p) = true := by
  have e : b.equivalentTo near t x = (false, i) ↔ i = b.positions.length ∧
      (b.atoms.findIdx? fun a => decide (a.2 = t) && near (diffMod x a.1)) = none := by
    unfold Basis.equivalentTo
    split
    · rename_i j hj
      rw [hj]; simp
    · rename_i hj
      rw [hj]; simp [eq_comm]
  rw [e]
  refine and_congr_right fun _ => ?_
  rw [List.findIdx?_eq_none_iff]
  constructor
  · rintro h j ⟨p, h1, h2, h3⟩
    have := h (p, t) (List.mem_of_getElem? ((atoms_get b j p t).2 ⟨h1, h2⟩))
    simp [h3] at this
  · rintro h ⟨p, s⟩ hm
    obtain ⟨j, hj⟩ := List.mem_iff_getElem?.1 hm
    have := (atoms_get b j p s).1 hj
    by_contra hc
    simp only [Bool.not_eq_false, Bool.and_eq_true, decide_eq_true_iff] at hc
    exact h j ⟨p, this.1, by rw [this.2, hc.1], hc.2⟩

theorem exact_iff (b : Basis) (t : Nat) (x : Pt) (j : Nat) :
    (∃ p, b.positions[j]? = some p ∧ b.types[j]? = some t ∧ isZero (diffMod x p) = true) ↔ AtomAt b j t x := by
  simp only [AtomAt, diffMod_zero]

theorem AtomAt.same {b : Basis} {k t : ℕ} {x y : Pt} (h : AtomAt b k t x) (hxy : SameModLattice y x) :
    AtomAt b k t y := by
  obtain ⟨p, h1, h2, h3⟩ := h
  exact ⟨p, h1, h2, same_trans hxy h3⟩

theorem AtomAt.lt {b : Basis} {k t : ℕ} {x : Pt} (h : AtomAt b k t x) : k < b.positions.length := by
  obtain ⟨p, h1, _⟩ := h
  exact (List.getElem?_eq_some_iff.1 h1).1

/-- a motion takes a site to a site -/
theorem movePoint_same (m : Motion) {x y : Pt} (h : SameModLattice x y) :
    SameModLattice (movePoint m x) (movePoint m y) := by
  intro i
  obtain ⟨z, hz⟩ := mulVec_int m.W h i
  exact ⟨z, by simp only [movePoint]; rw [← hz]; ring⟩

/-- a motion with determinant ±1 takes different sites to different sites -/
theorem movePoint_inj (m : Motion) (hm : det3 m.W = 1 ∨ det3 m.W = -1) {x y : Pt}
    (h : SameModLattice (movePoint m x) (movePoint m y)) : SameModLattice x y :=
  same_trans (same_symm (C09_inverse_undoes m hm x).1)
    (same_trans (movePoint_same (inverse m) h) (C09_inverse_undoes m hm y).1)

theorem equivalentAfter_true (b : Basis) (hb : ProperCell b) (k : Nat) (m : Motion) (l : Nat) :
    b.equivalentAfter isZero k m = some (true, l) ↔
      ∃ p t, b.positions[k]? = some p ∧ b.types[k]? = some t ∧ AtomAt b l t (movePoint m p) := by
  unfold Basis.equivalentAfter
  constructor
  · intro h
    split at h
    · rename_i p t hp ht
      have := (equivalentTo_true b isZero t (movePoint m p) l).1 (Option.some.inj h)
      exact ⟨p, t, hp, ht, (exact_iff ..).1 this.1⟩
    · exact absurd h (by simp)
  · rintro ⟨p, t, hp, ht, ha⟩
    rw [hp, ht]
    dsimp only
    rw [Option.some_inj, equivalentTo_true]
    refine ⟨(exact_iff ..).2 ha, fun j hj hc => ?_⟩
    have := hb.distinct _ _ _ _ ((exact_iff ..).1 hc) ha
    omega

end Brille.Atoms
