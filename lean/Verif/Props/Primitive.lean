import Verif.Model.Primitive
import Verif.Spec.Primitive
import Verif.Proofs.Motion
import Mathlib.Tactic.FieldSimp
import Mathlib.Tactic.LinearCombination

/-! C18, C19: conventional and primitive lattices. -/
namespace Brille.Props
open Brille.Prim Brille.Mat Brille.Spec

/-- The Bravais letter of a centring. -/
def letter : Centring → Bravais
  | .P => .P | .A => .A | .B => .B | .C => .C | .I => .I | .F => .F | .R => .R

/-- **C18.** For every centring except `P`, `6P · P⁻¹ = P⁻¹ · 6P = 6·identity`. -/
theorem C18_mutually_inverse_partial (c : Centring) (hc : c ≠ .P) : ∃ p q, get6P (letter c) = some p ∧
    getInvP (letter c) = some q ∧ ∀ i j,
      p i 0 * q 0 j + p i 1 * q 1 j + p i 2 * q 2 j = (if i = j then 6 else 0) ∧
      q i 0 * p 0 j + q i 1 * p 1 j + q i 2 * p 2 j = (if i = j then 6 else 0) := by
  cases c <;> first
    | exact absurd rfl hc
    | exact ⟨_, _, rfl, rfl, by decide⟩

/-- **C18 fails** for `P`: the accessor returns the all-sixes matrix instead of six times the
identity (it is exposed to users as the properties `P` and `Pt`). -/
theorem C18_primitive_counterexample : ∃ p q, get6P (letter .P) = some p ∧ getInvP (letter .P) = some q ∧
    p 0 0 * q 0 1 + p 0 1 * q 1 1 + p 0 2 * q 2 1 ≠ 0 ∧ det3 p = 0 :=
  ⟨_, _, rfl, rfl, by decide, by decide⟩

/-- **C18 (transposes).** -/
theorem C18_transposes (c : Centring) : ∃ p q pt qt, get6P (letter c) = some p ∧
    getInvP (letter c) = some q ∧ get6Pt (letter c) = some pt ∧ getInvPt (letter c) = some qt ∧
    ∀ i j, pt i j = p j i ∧ qt i j = q j i := by
  cases c <;> exact ⟨_, _, _, _, rfl, rfl, rfl, rfl, fun i j => ⟨rfl, rfl⟩⟩

/-- **C18 (cell volume).** The determinant of `P⁻¹` is the number of lattice points per conventional
cell. -/
theorem C18_determinant (c : Centring) : ∃ q, getInvP (letter c) = some q ∧
    det3 q = 1 + (centringVectors c).length := by
  cases c <;> exact ⟨_, rfl, by decide⟩

/-- **C18 (invalid).** The accessors throw for the invalid centring only. -/
theorem C18_invalid (b : Bravais) : (get6P b = none ↔ b = .invalid) ∧ (getInvP b = none ↔ b = .invalid) := by
  cases b <;> simp [get6P, getInvP]

/-- Components of an applied matrix. -/
theorem applyQ3 (m : IMat) (v : Fin 3 → ℚ) (i : Fin 3) :
    applyQ m v i = m i 0 * v 0 + m i 1 * v 1 + m i 2 * v 2 := by
  rw [applyQ, Mot.mulVec3]

/-- Both transformations, computed: the result and that `from` undoes `to`. -/
theorem C19_roundtrip (c : Centring) (u : Prim.Unit) (v : Fin 3 → ℚ) :
    (∃ on w, toPrimitive (letter c) .standard u v = some (on, w) ∧
      (on = if c = .P then .standard else .primitive) ∧
      fromPrimitive (letter c) on u w = some (.standard, v)) ∧
    (∃ on w, fromPrimitive (letter c) .primitive u v = some (on, w) ∧
      (on = if c = .P then .primitive else .standard) ∧
      toPrimitive (letter c) on u w = some (.primitive, v)) := by
  constructor
  all_goals
    cases c <;> cases u <;>
    refine ⟨_, _, rfl, by decide, ?_⟩ <;>
    simp only [fromPrimitive, toPrimitive, letter, doesNothing, get6P, getInvP, get6Pt, getInvPt, Option.map_some,
      reduceCtorEq, decide_false, decide_true, Bool.false_eq_true, if_false, if_true, ne_eq,
      not_true_eq_false] <;>
    (try rfl) <;>
    · congr 2
      funext i
      simp only [applyQ3]
      fin_cases i <;> simp [m9, transpose] <;> ring

example : toPrimitive .F .standard .inverseAngstrom ![1, 1, 1] = some (.primitive, fun i =>
    applyQ (transpose (m9 0 3 3 3 0 3 3 3 0)) ![1, 1, 1] i / 6) ∧
    applyQ (transpose (m9 0 3 3 3 0 3 3 3 0)) ![1, 1, 1] 0 / 6 = 1 := by
  refine ⟨rfl, ?_⟩
  rw [applyQ3]; simp [transpose, m9]; norm_num

/-- **C19 (already there).** A vector already on the requested lattice is returned unchanged and one on
an unrelated lattice is rejected. -/
theorem C19_other_lattices (b : Bravais) (u : Prim.Unit) (v : Fin 3 → ℚ) :
    toPrimitive b .primitive u v = some (.primitive, v) ∧
    fromPrimitive b .standard u v = some (.standard, v) ∧
    toPrimitive b .other u v = none ∧ fromPrimitive b .other u v = none := by
  simp [toPrimitive, fromPrimitive]

/-- **C19 (scalar product).** Transforming a reciprocal and a real vector keeps their scalar product. -/
theorem C19_dot_invariant (c : Centring) (q x : Fin 3 → ℚ) :
    ∃ o₁ q' o₂ x', toPrimitive (letter c) .standard .inverseAngstrom q = some (o₁, q') ∧
      toPrimitive (letter c) .standard .angstrom x = some (o₂, x') ∧ dot3 q' x' = dot3 q x := by
  cases c <;>
  · refine ⟨_, _, _, _, rfl, rfl, ?_⟩
    first
    | rfl
    | (simp only [dot3, applyQ3]
       simp [m9, transpose]
       ring)

/-- **C19 (real lattice).** A real-space vector is a lattice point of the centred lattice exactly when
its primitive coordinates are integers. -/
theorem C19_real_lattice (c : Centring) (x : Fin 3 → ℚ) :
    ∃ on x', toPrimitive (letter c) .standard .angstrom x = some (on, x') ∧
      (IsIntegral x' ↔ IsLatticePoint c x) := by
  have all3 : ∀ {p : Fin 3 → Prop}, (∀ i, p i) ↔ p 0 ∧ p 1 ∧ p 2 := by
    intro p
    constructor
    · intro h; exact ⟨h 0, h 1, h 2⟩
    · rintro ⟨a, b, d⟩ i; fin_cases i <;> assumption
  cases c with
  | P => exact ⟨_, _, rfl, by simp [IsLatticePoint, centringVectors]⟩
  | A =>
    refine ⟨_, _, rfl, ?_⟩
    simp only [IsLatticePoint, centringVectors, IsIntegral, all3, applyQ3, List.mem_singleton, exists_eq_left]
    simp [m9]
    constructor
    · rintro ⟨⟨a, ha⟩, ⟨b, hb⟩, ⟨d, hd⟩⟩
      rcases Int.even_or_odd' (b + d) with ⟨k, h | h⟩
      · have hk : (b : ℚ) + d = 2 * k := by exact_mod_cast h
        exact Or.inl ⟨⟨a, ha⟩, ⟨k - d, by push_cast; linarith⟩, ⟨k, by linarith⟩⟩
      · have hk : (b : ℚ) + d = 2 * k + 1 := by exact_mod_cast h
        exact Or.inr ⟨⟨a, ha⟩, ⟨k - d, by push_cast; linarith⟩, ⟨k, by linarith⟩⟩
    · rintro (⟨⟨a, ha⟩, ⟨b, hb⟩, ⟨d, hd⟩⟩ | ⟨⟨a, ha⟩, ⟨b, hb⟩, ⟨d, hd⟩⟩)
      · exact ⟨⟨a, ha⟩, ⟨b + d, by push_cast; linarith⟩, ⟨d - b, by push_cast; linarith⟩⟩
      · exact ⟨⟨a, ha⟩, ⟨b + d + 1, by push_cast; linarith⟩, ⟨d - b, by push_cast; linarith⟩⟩
  | B =>
    refine ⟨_, _, rfl, ?_⟩
    simp only [IsLatticePoint, centringVectors, IsIntegral, all3, applyQ3, List.mem_singleton, exists_eq_left]
    simp [m9]
    constructor
    · rintro ⟨⟨a, ha⟩, ⟨b, hb⟩, ⟨d, hd⟩⟩
      rcases Int.even_or_odd' (a + d) with ⟨k, h | h⟩
      · have hk : (a : ℚ) + d = 2 * k := by exact_mod_cast h
        exact Or.inl ⟨⟨k - d, by push_cast; linarith⟩, ⟨b, hb⟩, ⟨k, by linarith⟩⟩
      · have hk : (a : ℚ) + d = 2 * k + 1 := by exact_mod_cast h
        exact Or.inr ⟨⟨k - d, by push_cast; linarith⟩, ⟨b, hb⟩, ⟨k, by linarith⟩⟩
    · rintro (⟨⟨a, ha⟩, ⟨b, hb⟩, ⟨d, hd⟩⟩ | ⟨⟨a, ha⟩, ⟨b, hb⟩, ⟨d, hd⟩⟩)
      · exact ⟨⟨a + d, by push_cast; linarith⟩, ⟨b, hb⟩, ⟨d - a, by push_cast; linarith⟩⟩
      · exact ⟨⟨a + d + 1, by push_cast; linarith⟩, ⟨b, hb⟩, ⟨d - a, by push_cast; linarith⟩⟩
  | C =>
    refine ⟨_, _, rfl, ?_⟩
    simp only [IsLatticePoint, centringVectors, IsIntegral, all3, applyQ3, List.mem_singleton, exists_eq_left]
    simp [m9]
    constructor
    · rintro ⟨⟨a, ha⟩, ⟨b, hb⟩, ⟨d, hd⟩⟩
      rcases Int.even_or_odd' (a + b) with ⟨k, h | h⟩
      · have hk : (a : ℚ) + b = 2 * k := by exact_mod_cast h
        exact Or.inl ⟨⟨k, by push_cast; linarith⟩, ⟨k - a, by push_cast; linarith⟩, ⟨d, hd⟩⟩
      · have hk : (a : ℚ) + b = 2 * k + 1 := by exact_mod_cast h
        exact Or.inr ⟨⟨k, by push_cast; linarith⟩, ⟨k - a, by push_cast; linarith⟩, ⟨d, hd⟩⟩
    · rintro (⟨⟨a, ha⟩, ⟨b, hb⟩, ⟨d, hd⟩⟩ | ⟨⟨a, ha⟩, ⟨b, hb⟩, ⟨d, hd⟩⟩)
      · exact ⟨⟨a - b, by push_cast; linarith⟩, ⟨a + b, by push_cast; linarith⟩, ⟨d, hd⟩⟩
      · exact ⟨⟨a - b, by push_cast; linarith⟩, ⟨a + b + 1, by push_cast; linarith⟩, ⟨d, hd⟩⟩
  | I =>
    refine ⟨_, _, rfl, ?_⟩
    simp only [IsLatticePoint, centringVectors, IsIntegral, all3, applyQ3, List.mem_singleton, exists_eq_left]
    simp [m9]
    constructor
    · rintro ⟨⟨a, ha⟩, ⟨b, hb⟩, ⟨d, hd⟩⟩
      rcases Int.even_or_odd' (a + b + d) with ⟨k, h | h⟩
      · have hk : (a : ℚ) + b + d = 2 * k := by exact_mod_cast h
        exact Or.inl ⟨⟨k - a, by push_cast; linarith⟩, ⟨k - b, by push_cast; linarith⟩, ⟨k - d, by push_cast; linarith⟩⟩
      · have hk : (a : ℚ) + b + d = 2 * k + 1 := by exact_mod_cast h
        exact Or.inr ⟨⟨k - a, by push_cast; linarith⟩, ⟨k - b, by push_cast; linarith⟩, ⟨k - d, by push_cast; linarith⟩⟩
    · rintro (⟨⟨a, ha⟩, ⟨b, hb⟩, ⟨d, hd⟩⟩ | ⟨⟨a, ha⟩, ⟨b, hb⟩, ⟨d, hd⟩⟩)
      · exact ⟨⟨b + d, by push_cast; linarith⟩, ⟨a + d, by push_cast; linarith⟩, ⟨a + b, by push_cast; linarith⟩⟩
      · exact ⟨⟨b + d + 1, by push_cast; linarith⟩, ⟨a + d + 1, by push_cast; linarith⟩, ⟨a + b + 1, by push_cast; linarith⟩⟩
  | F =>
    refine ⟨_, _, rfl, ?_⟩
    simp only [IsLatticePoint, centringVectors, IsIntegral, all3, applyQ3, List.mem_cons, exists_eq_or_imp,
      List.not_mem_nil, or_false]
    simp [m9]
    constructor
    · rintro ⟨⟨a, ha⟩, ⟨b, hb⟩, ⟨d, hd⟩⟩
      rcases Int.even_or_odd' (b + d) with ⟨k, h | h⟩ <;> rcases Int.even_or_odd' (a + d) with ⟨l, h' | h'⟩
      · have hk : (b : ℚ) + d = 2 * k := by exact_mod_cast h
        have hl : (a : ℚ) + d = 2 * l := by exact_mod_cast h'
        exact Or.inl ⟨⟨k, by push_cast; linarith⟩, ⟨l, by push_cast; linarith⟩, ⟨k + l - d, by push_cast; linarith⟩⟩
      · have hk : (b : ℚ) + d = 2 * k := by exact_mod_cast h
        have hl : (a : ℚ) + d = 2 * l + 1 := by exact_mod_cast h'
        exact Or.inr (Or.inl ⟨⟨k, by push_cast; linarith⟩, ⟨l, by push_cast; linarith⟩, ⟨k + l - d, by push_cast; linarith⟩⟩)
      · have hk : (b : ℚ) + d = 2 * k + 1 := by exact_mod_cast h
        have hl : (a : ℚ) + d = 2 * l := by exact_mod_cast h'
        exact Or.inr (Or.inr (Or.inl ⟨⟨k, by push_cast; linarith⟩, ⟨l, by push_cast; linarith⟩, ⟨k + l - d, by push_cast; linarith⟩⟩))
      · have hk : (b : ℚ) + d = 2 * k + 1 := by exact_mod_cast h
        have hl : (a : ℚ) + d = 2 * l + 1 := by exact_mod_cast h'
        exact Or.inr (Or.inr (Or.inr ⟨⟨k, by push_cast; linarith⟩, ⟨l, by push_cast; linarith⟩, ⟨k + l - d + 1, by push_cast; linarith⟩⟩))
    · rintro (⟨⟨a, ha⟩, ⟨b, hb⟩, ⟨d, hd⟩⟩ | ⟨⟨a, ha⟩, ⟨b, hb⟩, ⟨d, hd⟩⟩ | ⟨⟨a, ha⟩, ⟨b, hb⟩, ⟨d, hd⟩⟩ | ⟨⟨a, ha⟩, ⟨b, hb⟩, ⟨d, hd⟩⟩)
      · exact ⟨⟨b + d - a, by push_cast; linarith⟩, ⟨a + d - b, by push_cast; linarith⟩, ⟨a + b - d, by push_cast; linarith⟩⟩
      · exact ⟨⟨b + d - a + 1, by push_cast; linarith⟩, ⟨a + d - b, by push_cast; linarith⟩, ⟨a + b - d, by push_cast; linarith⟩⟩
      · exact ⟨⟨b + d - a, by push_cast; linarith⟩, ⟨a + d - b + 1, by push_cast; linarith⟩, ⟨a + b - d, by push_cast; linarith⟩⟩
      · exact ⟨⟨b + d - a, by push_cast; linarith⟩, ⟨a + d - b, by push_cast; linarith⟩, ⟨a + b - d + 1, by push_cast; linarith⟩⟩
  | R =>
    refine ⟨_, _, rfl, ?_⟩
    simp only [IsLatticePoint, centringVectors, IsIntegral, all3, applyQ3, List.mem_cons, exists_eq_or_imp,
      List.not_mem_nil, or_false]
    simp [m9]
    constructor
    · rintro ⟨⟨a, ha⟩, ⟨b, hb⟩, ⟨d, hd⟩⟩
      obtain ⟨k, h⟩ : ∃ k, a + b + d = 3 * k ∨ a + b + d = 3 * k + 1 ∨ a + b + d = 3 * k + 2 :=
        ⟨(a + b + d) / 3, by omega⟩
      rcases h with h | h | h
      · have hk : (a : ℚ) + b + d = 3 * k := by exact_mod_cast h
        exact Or.inl ⟨⟨a - k, by push_cast; linarith⟩, ⟨k - d, by push_cast; linarith⟩, ⟨k, by push_cast; linarith⟩⟩
      · have hk : (a : ℚ) + b + d = 3 * k + 1 := by exact_mod_cast h
        exact Or.inr (Or.inl ⟨⟨a - k - 1, by push_cast; linarith⟩, ⟨k - d, by push_cast; linarith⟩, ⟨k, by push_cast; linarith⟩⟩)
      · have hk : (a : ℚ) + b + d = 3 * k + 2 := by exact_mod_cast h
        exact Or.inr (Or.inr ⟨⟨a - k - 1, by push_cast; linarith⟩, ⟨k - d, by push_cast; linarith⟩, ⟨k, by push_cast; linarith⟩⟩)
    · rintro (⟨⟨a, ha⟩, ⟨b, hb⟩, ⟨d, hd⟩⟩ | ⟨⟨a, ha⟩, ⟨b, hb⟩, ⟨d, hd⟩⟩ | ⟨⟨a, ha⟩, ⟨b, hb⟩, ⟨d, hd⟩⟩)
      · exact ⟨⟨a + d, by push_cast; linarith⟩, ⟨b + d - a, by push_cast; linarith⟩, ⟨d - b, by push_cast; linarith⟩⟩
      · exact ⟨⟨a + d + 1, by push_cast; linarith⟩, ⟨b + d - a, by push_cast; linarith⟩, ⟨d - b, by push_cast; linarith⟩⟩
      · exact ⟨⟨a + d + 1, by push_cast; linarith⟩, ⟨b + d - a + 1, by push_cast; linarith⟩, ⟨d - b, by push_cast; linarith⟩⟩

/-- **C19 (reciprocal lattice).** A reciprocal-space vector has integer primitive coordinates exactly
when its scalar product with every lattice point is an integer. -/
theorem C19_reciprocal_lattice (c : Centring) (q : Fin 3 → ℚ) :
    ∃ on q', toPrimitive (letter c) .standard .inverseAngstrom q = some (on, q') ∧
      (IsIntegral q' ↔ IsReciprocalPoint c q) := by
  obtain ⟨on, q', h1⟩ : ∃ on q', toPrimitive (letter c) .standard .inverseAngstrom q = some (on, q') := by
    cases c <;> exact ⟨_, _, rfl⟩
  refine ⟨on, q', h1, ?_⟩
  constructor
  · intro hq x hx
    obtain ⟨_, q'', _, x', e1, e2, e3⟩ := C19_dot_invariant c q x
    obtain ⟨_, x'', e4, e5⟩ := C19_real_lattice c x
    rw [h1] at e1
    rw [e2] at e4
    obtain ⟨rfl, rfl⟩ := Prod.mk.inj (Option.some.inj e1)
    obtain ⟨rfl, rfl⟩ := Prod.mk.inj (Option.some.inj e4)
    have hx' := e5.2 hx
    obtain ⟨a0, ha0⟩ := hq 0
    obtain ⟨a1, ha1⟩ := hq 1
    obtain ⟨a2, ha2⟩ := hq 2
    obtain ⟨b0, hb0⟩ := hx' 0
    obtain ⟨b1, hb1⟩ := hx' 1
    obtain ⟨b2, hb2⟩ := hx' 2
    refine ⟨a0 * b0 + a1 * b1 + a2 * b2, ?_⟩
    rw [← e3, dot3, ha0, ha1, ha2, hb0, hb1, hb2]
    push_cast
    ring
  · intro hq i
    -- the primitive basis vector i, in conventional coordinates
    obtain ⟨on2, x, hx, _, hback⟩ := (C19_roundtrip c .angstrom (fun j => if j = i then 1 else 0)).2
    have hto : toPrimitive (letter c) .standard .angstrom x =
        some (if c = .P then .standard else .primitive, fun j => if j = i then 1 else 0) := by
      by_cases hP : c = .P
      · subst hP
        have : x = fun j => if j = i then 1 else 0 := by
          have := (Prod.mk.inj (Option.some.inj hx)).2
          exact this.symm
        rw [this]; rfl
      · rename_i hon
        rw [if_neg hP] at hon ⊢
        rw [hon] at hback
        exact hback
    obtain ⟨_, x'', e4, e5⟩ := C19_real_lattice c x
    rw [hto] at e4
    obtain ⟨_, rfl⟩ := Prod.mk.inj (Option.some.inj e4)
    have hlat : IsLatticePoint c x := e5.1 (fun j => by
      by_cases hj : j = i
      · exact ⟨1, by simp [hj]⟩
      · exact ⟨0, by simp [hj]⟩)
    obtain ⟨z, hz⟩ := hq x hlat
    obtain ⟨_, q'', _, x', e1, e2, e3⟩ := C19_dot_invariant c q x
    rw [h1] at e1
    rw [hto] at e2
    obtain ⟨rfl, rfl⟩ := Prod.mk.inj (Option.some.inj e1)
    obtain ⟨_, rfl⟩ := Prod.mk.inj (Option.some.inj e2)
    refine ⟨z, ?_⟩
    rw [← hz, ← e3, dot3]
    fin_cases i <;> simp

/-- **C19 (reflection conditions).** Integer `(h,k,l)` maps to integer primitive indices exactly when
it obeys the reflection condition of the centring. -/
theorem C19_reflection_condition (c : Centring) (h k l : ℤ) :
    ∃ on q', toPrimitive (letter c) .standard .inverseAngstrom ![(h : ℚ), k, l] = some (on, q') ∧
      (IsIntegral q' ↔ reflectionCondition c h k l) := by
  have all3 : ∀ {p : Fin 3 → Prop}, (∀ i, p i) ↔ p 0 ∧ p 1 ∧ p 2 := by
    intro p
    constructor
    · intro h; exact ⟨h 0, h 1, h 2⟩
    · rintro ⟨a, b, d⟩ i; fin_cases i <;> assumption
  have int6 : ∀ n : ℤ, (∃ z : ℤ, (n : ℚ) / 6 = z) ↔ n % 6 = 0 := by
    intro n
    constructor
    · rintro ⟨z, hz⟩
      have : (n : ℚ) = 6 * z := by linarith
      have : n = 6 * z := by exact_mod_cast this
      omega
    · intro hn
      refine ⟨n / 6, ?_⟩
      have : n = 6 * (n / 6) := by omega
      have : (n : ℚ) = 6 * ((n / 6 : ℤ) : ℚ) := by exact_mod_cast this
      linarith
  cases c with
  | P => exact ⟨_, _, rfl, iff_of_true (fun i => by fin_cases i <;> exact ⟨_, rfl⟩) trivial⟩
  | _ =>
    refine ⟨_, _, rfl, ?_⟩
    have e : ∀ (m : IMat) i, applyQ m ![(h : ℚ), k, l] i = ((m i 0 * h + m i 1 * k + m i 2 * l : ℤ) : ℚ) := by
      intro m i; rw [applyQ3]; push_cast; simp
    simp only [IsIntegral, all3, e, int6, reflectionCondition]
    simp [m9, transpose]
    omega

example : reflectionCondition .F 1 1 1 ∧ ¬ reflectionCondition .F 1 0 0 ∧ reflectionCondition .R 1 0 1 := by
  simp [reflectionCondition]

/-- **C19 fails** for integer vectors: the division by six truncates, so an integer reciprocal vector
which is not a reciprocal lattice point of the primitive lattice changes when transformed. -/
theorem C19_integer_truncation_counterexample :
    ∃ q', toPrimitiveIntRecip .I ![1, 0, 0] = some q' ∧ q' = 0 :=
  ⟨_, rfl, by decide⟩

/-- For integer vectors obeying the reflection condition the integer transformation is exact. -/
theorem C19_integer_exact (c : Centring) (h k l : ℤ) (hc : reflectionCondition c h k l) :
    ∃ n on q', toPrimitiveIntRecip (letter c) ![h, k, l] = some n ∧
      toPrimitive (letter c) .standard .inverseAngstrom ![(h : ℚ), k, l] = some (on, q') ∧
      ∀ i, q' i = n i := by
  obtain ⟨on, q', h1, h2⟩ := C19_reflection_condition c h k l
  have hint := h2.2 hc
  have key : ∀ (m : IMat), (∀ i, ∃ z : ℤ, applyQ m ![(h : ℚ), k, l] i / 6 = z) →
      ∀ i, applyQ m ![(h : ℚ), k, l] i / 6 = (((mulVec m ![h, k, l] i).tdiv 6 : ℤ) : ℚ) := by
    intro m hm i
    obtain ⟨z, hz⟩ := hm i
    have e : applyQ m ![(h : ℚ), k, l] i = ((mulVec m ![h, k, l] i : ℤ) : ℚ) := by
      rw [applyQ3, Mot.mulVec3]; push_cast; simp
    rw [e] at hz ⊢
    have : (mulVec m ![h, k, l] i : ℤ) = 6 * z := by
      have : ((mulVec m ![h, k, l] i : ℤ) : ℚ) = 6 * z := by linarith
      exact_mod_cast this
    rw [this]
    simp
  cases c with
  | P =>
    refine ⟨_, _, _, rfl, rfl, ?_⟩
    intro i; fin_cases i <;> rfl
  | _ =>
    obtain ⟨_, rfl⟩ := Prod.mk.inj (Option.some.inj h1)
    exact ⟨_, _, _, rfl, rfl, key _ hint⟩

end Brille.Props
