import Verif.Proofs.Atoms
import Mathlib.Logic.Equiv.Fintype
import Mathlib.Tactic.FieldSimp
import Mathlib.Tactic.Set
import Mathlib.Tactic.LinearCombination
import Mathlib.Algebra.BigOperators.Group.List.Basic

/-
C56: the atoms of the unit cell under symmetry operations.
-/
namespace Brille.Props

open Brille.Atoms Brille.Mot Brille.Spec Brille.Mat

/-- **C56 (looking up an atom).** `equivalent_to` with exact comparison answers yes exactly if an atom of the wanted type
sits at the position, in whatever cell; the index is then that of the first such atom, and otherwise the number of
atoms. -/
theorem C56_equivalent_to (b : Basis) (t : ℕ) (x : Fin 3 → ℚ) :
    ((b.equivalentTo isZero t x).1 = true ↔ ∃ k, AtomAt b k t x) ∧
    ((b.equivalentTo isZero t x).1 = true → AtomAt b (b.equivalentTo isZero t x).2 t x ∧
      ∀ j < (b.equivalentTo isZero t x).2, ¬ AtomAt b j t x) ∧
    ((b.equivalentTo isZero t x).1 = false → (b.equivalentTo isZero t x).2 = b.positions.length) := by
  rcases hr : b.equivalentTo isZero t x with ⟨f, i⟩
  cases f with
  | true =>
    have := (equivalentTo_true b isZero t x i).1 hr
    simp only [exact_iff] at this
    exact ⟨⟨fun _ => ⟨i, this.1⟩, fun _ => rfl⟩, fun _ => this, fun h => absurd h (by simp)⟩
  | false =>
    have := (equivalentTo_false b isZero t x i).1 hr
    simp only [exact_iff] at this
    refine ⟨⟨fun h => absurd h (by simp), fun ⟨k, hk⟩ => absurd hk (this.2 k)⟩, fun h => absurd h (by simp),
      fun _ => this.1⟩

/-- **C56 (comparison with tolerance).** Whatever the comparison is, an answer yes comes with the index of an atom of the
wanted type whose distance modulo the lattice is accepted by the comparison. -/
theorem C56_equivalent_to_near (near : (Fin 3 → ℚ) → Bool) (b : Basis) (t : ℕ) (x : Fin 3 → ℚ) (i : ℕ)
    (h : b.equivalentTo near t x = (true, i)) :
    ∃ p d, b.positions[i]? = some p ∧ b.types[i]? = some t ∧ near d = true ∧
      SameModLattice d (fun a => x a - p a) ∧ ∀ a, -(1 / 2) ≤ d a ∧ d a < 1 / 2 := by
  obtain ⟨⟨p, h1, h2, h3⟩, _⟩ := (equivalentTo_true b near t x i).1 h
  exact ⟨p, diffMod x p, h1, h2, h3, diffMod_same x p, diffMod_range x p⟩

/-- **C56 (permutation).** An operation with determinant ±1 that takes every atom of a proper cell to an equivalent one
permutes the atoms, and only atoms of the same type. -/
theorem C56_permutation (b : Basis) (hb : ProperCell b) (m : Motion) (hm : det3 m.W = 1 ∨ det3 m.W = -1)
    (h : ∀ k < b.positions.length, ∃ l, b.equivalentAfter isZero k m = some (true, l)) :
    ∃ σ : Equiv.Perm (Fin b.positions.length),
      ∀ k : Fin b.positions.length, b.equivalentAfter isZero k m = some (true, (σ k : ℕ)) ∧ b.types[(σ k : ℕ)]? = b.types[(k : ℕ)]? := by
  have h' : ∀ k : Fin b.positions.length, ∃ l : Fin b.positions.length,
      b.equivalentAfter isZero k m = some (true, (l : ℕ)) := by
    intro k
    obtain ⟨l, hl⟩ := h k k.2
    obtain ⟨p, t, _, _, ha⟩ := (equivalentAfter_true b hb k m l).1 hl
    exact ⟨⟨l, AtomAt.lt ha⟩, hl⟩
  choose f hf using h'
  have hinj : Function.Injective f := by
    intro k k' e
    obtain ⟨p, t, hp, ht, ha⟩ := (equivalentAfter_true b hb k m _).1 (hf k)
    obtain ⟨p', t', hp', ht', ha'⟩ := (equivalentAfter_true b hb k' m _).1 (hf k')
    rw [← e] at ha'
    obtain ⟨q, hq, hqt, hs⟩ := ha
    obtain ⟨q', hq', hqt', hs'⟩ := ha'
    have e1 : q' = q := Option.some.inj (hq'.symm.trans hq)
    have e2 : t' = t := Option.some.inj (hqt'.symm.trans hqt)
    subst e1; subst e2
    have hsame : SameModLattice p p' := movePoint_inj m hm (same_trans hs (same_symm hs'))
    exact Fin.ext (hb.distinct k k' t' p ⟨p, hp, ht, same_refl p⟩ ⟨p', hp', ht', hsame⟩)
  refine ⟨Equiv.ofBijective f (Finite.injective_iff_bijective.1 hinj), fun k => ⟨hf k, ?_⟩⟩
  obtain ⟨p, t, hp, ht, q, hq, hqt, hs⟩ := (equivalentAfter_true b hb k m _).1 (hf k)
  rw [ht]
  exact hqt

/-- **C56 (composition).** Following an atom through `n` and then through `m` gives the same atom as following it through
the product `m * n`; the unit operation leaves each atom where it is; the inverse operation takes it back. -/
theorem C56_composition (b : Basis) (hb : ProperCell b) (m n : Motion) (k l j : ℕ)
    (h1 : b.equivalentAfter isZero k n = some (true, l)) (h2 : b.equivalentAfter isZero l m = some (true, j)) :
    b.equivalentAfter isZero k (mul m n) = some (true, j) := by
  obtain ⟨p, t, hp, ht, q, hq, hqt, hs⟩ := (equivalentAfter_true b hb k n l).1 h1
  obtain ⟨q', t', hq', ht', ha⟩ := (equivalentAfter_true b hb l m j).1 h2
  have e1 : q' = q := Option.some.inj (hq'.symm.trans hq)
  have e2 : t' = t := Option.some.inj (ht'.symm.trans hqt)
  subst e1; subst e2
  exact (equivalentAfter_true b hb k _ j).2
    ⟨p, t', hp, ht, AtomAt.same ha (same_trans (C09_product_acts m n p) (movePoint_same m hs))⟩

/-- **C56 (unit).** See `C56_composition`. -/
theorem C56_unit (b : Basis) (hb : ProperCell b) (k : ℕ) (hk : k < b.positions.length) :
    b.equivalentAfter isZero k (ofTranslation fun _ => 0) = some (true, k) := by
  have hk' : k < b.types.length := by rw [hb.typed]; exact hk
  refine (equivalentAfter_true b hb k _ k).2 ⟨_, _, List.getElem?_eq_getElem hk, List.getElem?_eq_getElem hk', _,
    List.getElem?_eq_getElem hk, List.getElem?_eq_getElem hk', ?_⟩
  have : movePoint (ofTranslation fun _ => 0) b.positions[k] = b.positions[k] := by
    funext i; simp [movePoint, ofTranslation, mulVec_id]
  rw [this]; exact same_refl _

/-- **C56 (inverse).** See `C56_composition`. -/
theorem C56_inverse (b : Basis) (hb : ProperCell b) (m : Motion) (hm : det3 m.W = 1 ∨ det3 m.W = -1) (k l : ℕ)
    (h : b.equivalentAfter isZero k m = some (true, l)) :
    b.equivalentAfter isZero l (inverse m) = some (true, k) := by
  obtain ⟨p, t, hp, ht, q, hq, hqt, hs⟩ := (equivalentAfter_true b hb k m l).1 h
  refine (equivalentAfter_true b hb l _ k).2 ⟨q, t, hq, hqt, p, hp, ht, ?_⟩
  exact same_trans (movePoint_same (inverse m) (same_symm hs)) (C09_inverse_undoes m hm p).1

/-- An atom of each of two kinds, and a second one of the first kind, as in fluorite along one axis. -/
def cell3 : Basis := ⟨[![0, 0, 0], ![1 / 4, 1 / 4, 1 / 4], ![3 / 4, 3 / 4, 3 / 4]], [7, 8, 8]⟩

theorem cell3_proper : ProperCell cell3 where
  typed := rfl
  distinct := by
    have key : ∀ k t x, AtomAt cell3 k t x →
        (k = 0 ∧ t = 7) ∨ (k = 1 ∧ t = 8 ∧ ∃ z : ℤ, x 0 - 1 / 4 = z) ∨ (k = 2 ∧ t = 8 ∧ ∃ z : ℤ, x 0 - 3 / 4 = z) := by
      rintro k t x ⟨p, hp, ht, hs⟩
      obtain ⟨z, hz⟩ := hs 0
      match k, hp, ht with
      | 0, hp, ht => left; exact ⟨rfl, (Option.some.inj ht).symm⟩
      | 1, hp, ht =>
        right; left
        have e : ![1 / 4, 1 / 4, 1 / 4] = p := Option.some.inj hp
        rw [← e] at hz
        exact ⟨rfl, (Option.some.inj ht).symm, z, hz⟩
      | 2, hp, ht =>
        right; right
        have e : ![3 / 4, 3 / 4, 3 / 4] = p := Option.some.inj hp
        rw [← e] at hz
        exact ⟨rfl, (Option.some.inj ht).symm, z, hz⟩
      | k + 3, hp, _ => simp [cell3] at hp
    intro k l t x hk hl
    rcases key k t x hk with ⟨rfl, h⟩ | ⟨rfl, h, z, hz⟩ | ⟨rfl, h, z, hz⟩ <;>
      rcases key l t x hl with ⟨rfl, h'⟩ | ⟨rfl, h', z', hz'⟩ | ⟨rfl, h', z', hz'⟩ <;> try omega
    · exfalso
      have e : ((2 * (z - z') : ℤ) : ℚ) = ((1 : ℤ) : ℚ) := by push_cast; linarith
      have := Int.cast_injective e
      omega
    · exfalso
      have e : ((2 * (z' - z) : ℤ) : ℚ) = ((1 : ℤ) : ℚ) := by push_cast; linarith
      have := Int.cast_injective e
      omega

/-- space inversion -/
def inv0 : Motion := ⟨fun i j => if i = j then -1 else 0, fun _ => 0⟩

-- the inversion exchanges the second and third atom
example : cell3.equivalentAfter isZero 0 inv0 = some (true, 0) ∧ cell3.equivalentAfter isZero 1 inv0 = some (true, 2) ∧
    cell3.equivalentAfter isZero 2 inv0 = some (true, 1) ∧ det3 inv0.W = -1 := by decide +kernel

-- a proper cell is needed: an atom entered twice is never found under its second number
example : (⟨[![0, 0, 0], ![1, 0, 0]], [7, 7]⟩ : Basis).equivalentAfter isZero 1 (ofTranslation fun _ => 0) =
    some (true, 0) := by decide +kernel

/-! Snapping -/

theorem moveAtom_len (near : Pt → Bool) (ops : List Motion) (b : Basis) (k : ℕ) :
    (b.moveAtom near ops k).positions.length = b.positions.length ∧ (b.moveAtom near ops k).types = b.types := by
  exact ⟨by simp [Basis.moveAtom], rfl⟩

theorem moveAtom_other (near : Pt → Bool) (ops : List Motion) (b : Basis) (k j : ℕ) (h : k ≠ j) :
    (b.moveAtom near ops k).positions[j]? = b.positions[j]? := by
  simp [Basis.moveAtom, h]

theorem moveAll_spec (near : Pt → Bool) (ops : List Motion) (bad : List ℕ) (b : Basis) :
    (bad.foldl (Basis.moveAtom near ops) b).positions.length = b.positions.length ∧
    (bad.foldl (Basis.moveAtom near ops) b).types = b.types ∧
    ∀ j, j ∉ bad → (bad.foldl (Basis.moveAtom near ops) b).positions[j]? = b.positions[j]? := by
  induction bad generalizing b with
  | nil => simp
  | cons k bad ih =>
    obtain ⟨h1, h2, h3⟩ := ih (b.moveAtom near ops k)
    obtain ⟨g1, g2⟩ := moveAtom_len near ops b k
    rw [List.foldl_cons]
    refine ⟨h1.trans g1, h2.trans g2, fun j hj => ?_⟩
    rw [List.mem_cons, not_or] at hj
    rw [h3 j hj.2, moveAtom_other near ops b k j (Ne.symm hj.1)]

theorem okAll_iff (near : Pt → Bool) (b : Basis) (ops : List Motion) :
    b.okAll near ops = true ↔ ∀ k < b.positions.length, ∀ op ∈ ops, ∃ l,
      b.equivalentAfter near k op = some (true, l) := by
  simp only [Basis.okAll, Basis.okAt, List.all_eq_true, List.mem_range]
  refine forall_congr' fun k => forall_congr' fun _ => forall_congr' fun op => forall_congr' fun _ => ?_
  rcases b.equivalentAfter near k op with _ | ⟨f, i⟩
  · simp
  · cases f <;> simp

/-- **C56 (snapping).** Whatever the comparison: `snap_to` answers yes exactly if afterwards every operation takes every
atom to an equivalent one.  It never changes the number of atoms or a type, does not move an atom which every
operation took to an equivalent one beforehand, and changes nothing if that was the case for all atoms. -/
theorem C56_snap (near : (Fin 3 → ℚ) → Bool) (b : Basis) (ops : List Motion) :
    ((b.snapTo near ops).1 = true ↔ ∀ k < b.positions.length, ∀ op ∈ ops, ∃ l,
      (b.snapTo near ops).2.equivalentAfter near k op = some (true, l)) ∧
    (b.snapTo near ops).2.positions.length = b.positions.length ∧ (b.snapTo near ops).2.types = b.types ∧
    (∀ k, (∀ op ∈ ops, ∃ l, b.equivalentAfter near k op = some (true, l)) →
      (b.snapTo near ops).2.positions[k]? = b.positions[k]?) ∧
    ((∀ k < b.positions.length, ∀ op ∈ ops, ∃ l, b.equivalentAfter near k op = some (true, l)) →
      b.snapTo near ops = (true, b)) := by
  unfold Basis.snapTo
  by_cases h : b.okAll near ops = true
  · rw [if_pos h]
    exact ⟨⟨fun _ => (okAll_iff near b ops).1 h, fun _ => rfl⟩, rfl, rfl, fun _ _ => rfl, fun _ => rfl⟩
  · rw [if_neg h]
    dsimp only
    obtain ⟨h1, h2, h3⟩ := moveAll_spec near ops
      ((List.range b.positions.length).filter fun k => !b.okAt near ops k) b
    refine ⟨?_, h1, h2, fun k hk => h3 k ?_, fun hc => absurd ((okAll_iff near b ops).2 hc) h⟩
    · rw [okAll_iff, h1]
    · intro hm
      rw [List.mem_filter] at hm
      have : b.okAt near ops k = true := by
        simp only [Basis.okAt, List.all_eq_true]
        intro op hop
        obtain ⟨l, hl⟩ := hk op hop
        rw [hl]; rfl
      rw [this] at hm
      exact absurd hm.2 (by simp)

/-- the operations for which atom `k` itself is closest to its image -/
def siteOps (near : Pt → Bool) (b : Basis) (ops : List Motion) (k : ℕ) (p : Pt) (t : ℕ) : List Motion :=
  ops.filter fun op => ((b.closestTo near t (movePoint op p)).map (·.2.1)) == some k

theorem closestTo_diff (near : Pt → Bool) (b : Basis) (t : ℕ) (x : Pt) (f : Bool) (c : ℕ) (d p : Pt)
    (h : b.closestTo near t x = some (f, c, d)) (hp : b.positions[c]? = some p) (ht : b.types[c]? = some t) :
    d = diffMod x p := by
  simp only [Basis.closestTo, Option.map_eq_some_iff] at h
  obtain ⟨a, ha, he⟩ := h
  simp only [Prod.mk.injEq] at he
  obtain ⟨_, hc, hd⟩ := he
  rw [hc, List.getElem?_map] at ha
  simp only [Option.map_eq_some_iff] at ha
  obtain ⟨at', h1, h2⟩ := ha
  have h3 : b.atoms[c]? = some (p, t) := (atoms_get b c p t).2 ⟨hp, ht⟩
  rw [h3] at h1
  rw [← hd, ← h2, ← Option.some.inj h1]
  simp [check]

theorem correction_eq (near : Pt → Bool) (b : Basis) (ops : List Motion) (k : ℕ) (p : Pt) (t : ℕ)
    (hp : b.positions[k]? = some p) (ht : b.types[k]? = some t) :
    (∀ i, (b.correction near ops k).1 i =
      ((siteOps near b ops k p t).map fun op => diffMod (movePoint op p) p i).sum) ∧
    (b.correction near ops k).2 = (siteOps near b ops k p t).length := by
  unfold Basis.correction siteOps
  rw [hp, ht]
  dsimp only
  have key : ∀ (ops : List Motion) (acc : Pt × ℕ),
      (∀ i, (ops.foldl (fun acc op => addDiff k acc (b.closestTo near t (movePoint op p))) acc).1 i =
        acc.1 i + ((ops.filter fun op => ((b.closestTo near t (movePoint op p)).map (·.2.1)) == some k).map
            fun op => diffMod (movePoint op p) p i).sum) ∧
      (ops.foldl (fun acc op => addDiff k acc (b.closestTo near t (movePoint op p))) acc).2 =
        acc.2 + (ops.filter fun op => ((b.closestTo near t (movePoint op p)).map (·.2.1)) == some k).length := by
    intro ops
    induction ops with
    | nil => intro acc; simp
    | cons op ops ih =>
      intro acc
      rw [List.foldl_cons]
      rcases hc : b.closestTo near t (movePoint op p) with _ | ⟨f, c, d⟩
      · obtain ⟨h1, h2⟩ := ih acc
        rw [List.filter_cons_of_neg (by simp [hc])]
        exact ⟨h1, h2⟩
      · by_cases e : c = k
        · subst e
          have hs : addDiff c acc (some (f, c, d)) = (fun i => acc.1 i + d i, acc.2 + 1) := if_pos rfl
          rw [hs, List.filter_cons_of_pos (by simp [hc])]
          obtain ⟨h1, h2⟩ := ih (fun i => acc.1 i + d i, acc.2 + 1)
          have hd := closestTo_diff near b t _ f c d p hc hp ht
          refine ⟨fun i => ?_, ?_⟩
          · rw [h1 i, List.map_cons, List.sum_cons, hd]; ring
          · rw [h2, List.length_cons]; dsimp only; omega
        · have hs : addDiff k acc (some (f, c, d)) = acc := if_neg e
          rw [hs, List.filter_cons_of_neg (by simp [hc, e])]
          exact ih acc
  obtain ⟨h1, h2⟩ := key ops (fun _ => 0, 0)
  refine ⟨fun i => ?_, ?_⟩
  · rw [h1 i]; simp
  · rw [h2]; simp

theorem sum_bound (l : List ℚ) (h : ∀ x ∈ l, |x| ≤ 1 / 2) : |l.sum| ≤ l.length * (1 / 2) := by
  induction l with
  | nil => simp
  | cons a l ih =>
    have h1 := h a (by simp)
    have h2 := ih fun x hx => h x (by simp [hx])
    rw [List.sum_cons, List.length_cons]
    push_cast
    have := abs_add_le a l.sum
    linarith

/-- **C56 (snapping moves atoms little).** Moving an atom changes none of its coordinates by more than half a lattice
vector, whatever the operations and the comparison. -/
theorem C56_snap_distance (near : (Fin 3 → ℚ) → Bool) (ops : List Motion) (b : Basis) (k : ℕ) (p : Fin 3 → ℚ) (t : ℕ)
    (hp : b.positions[k]? = some p) (ht : b.types[k]? = some t) :
    ∃ p', (b.moveAtom near ops k).positions[k]? = some p' ∧ ∀ i, |p' i - p i| ≤ 1 / 2 := by
  obtain ⟨h1, h2⟩ := correction_eq near b ops k p t hp ht
  refine ⟨_, by simp only [Basis.moveAtom, List.getElem?_modify, hp]; rfl, fun i => ?_⟩
  simp only [if_true, h1, h2]
  have hs := sum_bound ((siteOps near b ops k p t).map fun op => diffMod (movePoint op p) p i) (by
    intro x hx
    obtain ⟨op, _, rfl⟩ := List.mem_map.1 hx
    have := diffMod_range (movePoint op p) p i
    rw [abs_le]; constructor <;> linarith [this.1, this.2])
  rw [List.length_map] at hs
  split
  · rename_i hn
    have hpos : (0 : ℚ) < ((siteOps near b ops k p t).length : ℚ) := by
      exact_mod_cast Nat.pos_of_ne_zero hn
    rw [add_sub_cancel_left, abs_div, abs_of_pos hpos, div_le_iff₀ hpos]
    linarith
  · rename_i hn
    simp only [ne_eq, not_not] at hn
    rw [hn] at hs
    rw [add_sub_cancel_left]
    push_cast at hs
    linarith

theorem int_small {x : ℚ} (z : ℤ) (h : x = z) (h1 : -1 < x) (h2 : x < 1) : x = 0 := by
  subst h
  have a : (-1 : ℤ) < z := by exact_mod_cast h1
  have b : z < (1 : ℤ) := by exact_mod_cast h2
  have : z = 0 := by omega
  subst this; simp

theorem sum_map_moveVector (m : Motion) (l : List Motion) (f : Motion → Pt) (i : Fin 3) :
    (l.map fun op => moveVector m (f op) i).sum = moveVector m (fun j => (l.map fun op => f op j).sum) i := by
  induction l with
  | nil => simp [moveVector, mulVec3, Mot.cast]
  | cons a l ih =>
    rw [List.map_cons, List.sum_cons, ih]
    simp only [List.map_cons, List.sum_cons, moveVector, mulVec3, Mot.cast]
    ring

/-- **C56 (snapping reaches the special position).** Let the operations for which an atom is closest to its own image form
a group modulo lattice translations, and the atom be near enough to its special position that the displacements, one
rotated by another operation, still add up to less than half a lattice vector.  Then the moved atom lies at a position
which all these operations leave where it is, up to the lattice vector by which they displaced it before. -/
theorem C56_snap_site (near : (Fin 3 → ℚ) → Bool) (ops : List Motion) (b : Basis) (k : ℕ) (p : Fin 3 → ℚ) (t : ℕ)
    (hp : b.positions[k]? = some p) (ht : b.types[k]? = some t)
    (hgroup : ∀ a ∈ siteOps near b ops k p t,
      ((siteOps near b ops k p t).map (mul a)).Perm (siteOps near b ops k p t))
    (hsmall : ∀ a ∈ siteOps near b ops k p t, ∀ c ∈ siteOps near b ops k p t, ∀ i,
      |moveVector a (diffMod (movePoint c p) p) i + diffMod (movePoint a p) p i| < 1 / 2) :
    ∃ p', (b.moveAtom near ops k).positions[k]? = some p' ∧
      ∀ a ∈ siteOps near b ops k p t, SameModLattice (movePoint a p') p' := by
  obtain ⟨h1, h2⟩ := correction_eq near b ops k p t hp ht
  refine ⟨_, by simp only [Basis.moveAtom, List.getElem?_modify, hp]; rfl, fun a ha i => ?_⟩
  simp only [if_true, h1, h2]
  set H := siteOps near b ops k p t with hH
  have hn : H.length ≠ 0 := by
    intro e; rw [List.length_eq_zero_iff] at e; rw [e] at ha; cases ha
  have hq : (H.length : ℚ) ≠ 0 := by exact_mod_cast hn
  simp only [if_pos hn]
  -- the displacement of a product
  have hprod : ∀ c ∈ H, ∀ i, diffMod (movePoint (mul a c) p) p i =
      moveVector a (diffMod (movePoint c p) p) i + diffMod (movePoint a p) p i := by
    intro c hc i
    have r1 := diffMod_range (movePoint (mul a c) p) p i
    have r2 := abs_lt.1 (hsmall a ha c hc i)
    obtain ⟨z1, hz1⟩ := diffMod_same (movePoint (mul a c) p) p i
    obtain ⟨z2, hz2⟩ := diffMod_same (movePoint a p) p i
    obtain ⟨z3, hz3⟩ := C09_product_acts a c p i
    have hz4 := diffMod_same (movePoint c p) p
    choose w hw using hz4
    have e : movePoint a (movePoint c p) i = moveVector a (diffMod (movePoint c p) p) i
        - moveVector a (fun j => (w j : ℚ)) i + movePoint a p i := by
      have hw0 := hw 0; have hw1 := hw 1; have hw2 := hw 2
      simp only [movePoint, moveVector, mulVec3, Mot.cast] at *
      linear_combination (a.W i 0 : ℚ) * (-hw0) + (a.W i 1 : ℚ) * (-hw1) + (a.W i 2 : ℚ) * (-hw2)
    have hint : moveVector a (fun j => (w j : ℚ)) i = ((∑ j : Fin 3, a.W i j * w j : ℤ) : ℚ) := by
      simp [moveVector, mulVec3, Mot.cast, Fin.sum_univ_three]
    have := int_small (x := diffMod (movePoint (mul a c) p) p i -
      (moveVector a (diffMod (movePoint c p) p) i + diffMod (movePoint a p) p i))
      (z1 + z3 - z2 - ∑ j : Fin 3, a.W i j * w j) (by
        push_cast
        push_cast at hint
        rw [e] at hz3
        linarith) (by linarith) (by linarith)
    linarith
  -- the mean displacement is reproduced
  have hperm : ∀ i, (H.map fun c => diffMod (movePoint (mul a c) p) p i).sum =
      (H.map fun c => diffMod (movePoint c p) p i).sum := by
    intro i
    have := ((hgroup a ha).map fun c => diffMod (movePoint c p) p i).sum_eq
    rw [List.map_map] at this
    exact this
  have hmean : moveVector a (fun j => (H.map fun c => diffMod (movePoint c p) p j).sum) i +
      H.length * diffMod (movePoint a p) p i = (H.map fun c => diffMod (movePoint c p) p i).sum := by
    rw [← hperm i, ← sum_map_moveVector]
    have : (H.map fun c => diffMod (movePoint (mul a c) p) p i) =
        H.map fun c => moveVector a (diffMod (movePoint c p) p) i + diffMod (movePoint a p) p i :=
      List.map_congr_left fun c hc => hprod c hc i
    rw [this, List.sum_map_add, List.map_const', List.sum_replicate, nsmul_eq_mul]
  obtain ⟨z, hz⟩ := diffMod_same (movePoint a p) p i
  refine ⟨-z, ?_⟩
  simp only [movePoint, moveVector, mulVec3, Mot.cast] at *
  push_cast
  field_simp
  linear_combination hmean - (H.length : ℚ) * hz

-- an atom a hundredth away from the centre of inversion is moved onto it
example : let b : Basis := ⟨[![0, 0, 0], ![51 / 100, 1 / 2, 1 / 2]], [7, 8]⟩
    let ops := [ofTranslation fun _ => 0, inv0]
    (b.snapTo isZero ops).1 = true ∧ (b.snapTo isZero ops).2.positions.map (fun p => p 0) = [0, 1 / 2] ∧
    (siteOps isZero b ops 1 ![51 / 100, 1 / 2, 1 / 2] 8).length = 2 := by decide +kernel

/-- the cell of the example above -/
def nearCentre : Basis := ⟨[![0, 0, 0], ![51 / 100, 1 / 2, 1 / 2]], [7, 8]⟩
def unitInv : List Motion := [ofTranslation fun _ => 0, inv0]

theorem nearCentre_ops : siteOps isZero nearCentre unitInv 1 ![51 / 100, 1 / 2, 1 / 2] 8 = unitInv := by
  refine List.filter_eq_self.2 fun a ha => ?_
  rcases List.mem_cons.1 ha with rfl | ha
  · decide +kernel
  · rcases List.mem_cons.1 ha with rfl | ha
    · decide +kernel
    · cases ha

-- `C56_snap_site` applies to it
example : ∃ p', (nearCentre.moveAtom isZero unitInv 1).positions[1]? = some p' ∧
    ∀ a ∈ unitInv, SameModLattice (movePoint a p') p' := by
  have e := nearCentre_ops
  have h := C56_snap_site isZero unitInv nearCentre 1 ![51 / 100, 1 / 2, 1 / 2] 8 rfl rfl (by
    rw [e]
    intro a ha
    have m11 : mul (ofTranslation fun _ => 0) (ofTranslation fun _ => 0) = ofTranslation fun _ => 0 :=
      Motion.ext (by decide +kernel) (by decide +kernel)
    have m12 : mul (ofTranslation fun _ => 0) inv0 = inv0 := Motion.ext (by decide +kernel) (by decide +kernel)
    have m21 : mul inv0 (ofTranslation fun _ => 0) = inv0 := Motion.ext (by decide +kernel) (by decide +kernel)
    have m22 : mul inv0 inv0 = ofTranslation fun _ => 0 := Motion.ext (by decide +kernel) (by decide +kernel)
    rcases List.mem_cons.1 ha with rfl | ha
    · simp [unitInv, m11, m12]
    · rcases List.mem_cons.1 ha with rfl | ha
      · simp only [unitInv, List.map_cons, List.map_nil, m21, m22]
        exact List.Perm.swap _ _ _
      · cases ha) (by rw [e]; simp only [unitInv, List.mem_cons, List.not_mem_nil, or_false, forall_eq_or_imp, forall_eq]; decide +kernel)
  rwa [e] at h

end Brille.Props
