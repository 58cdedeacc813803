import Verif.Proofs.Symmetry
import Verif.Props.Motion
import Mathlib.LinearAlgebra.Matrix.NonsingularInverse

namespace Brille.Sym

open Brille.Mot Brille.Spec

/-! ### motions modulo lattice translations -/

/-- the identity -/
abbrev one : Motion := ofTranslation fun _ => 0

/-- Motions with their translation in the unit cell: each stands for a motion modulo lattice translations. -/
abbrev Reduced : Type := { m : Motion // InUnitCell m.w }

theorem one_reduced : InUnitCell one.w := fun _ => ⟨le_refl _, by norm_num [one, ofTranslation]⟩

instance : Monoid Reduced where
  mul a b := ⟨mul a.1 b.1, (Props.C09_translation_reduced a.1 b.1).1⟩
  one := ⟨one, one_reduced⟩
  mul_assoc a b c := Subtype.ext (Props.C09_associative a.1 b.1 c.1)
  one_mul a := Subtype.ext ((Props.C09_identity a.1).2.2 a.2).1
  mul_one a := Subtype.ext ((Props.C09_identity a.1).2.2 a.2).2

/-- a motion modulo lattice translations -/
def red (m : Motion) : Reduced := ⟨mul one m, (Props.C09_translation_reduced one m).1⟩

theorem red_mul (a b : Motion) : red (mul a b) = red a * red b := by
  apply Subtype.ext
  show mul one (mul a b) = mul (mul one a) (mul one b)
  have h1 : mul one (mul a b) = mul a b :=
    ((Props.C09_identity (mul a b)).2.2 (Props.C09_translation_reduced a b).1).1
  have h2 : ∀ m, mul one m = mul m one := fun m =>
    (Props.C09_identity m).1.trans (Props.C09_identity m).2.1.symm
  have h3 : mul (mul a b) one = mul a b := (h2 _).symm.trans h1
  rw [h1, h2 b, ← Props.C09_associative, Props.C09_associative one a b, h1, h3]

theorem red_one : red one = 1 := Subtype.ext ((Props.C09_identity one).2.2 one_reduced).1

/-- translations that are multiples of `1/n` -/
def OnGrid (n : ℕ) (m : Motion) : Prop := ∀ i, ∃ z : ℤ, m.w i = z / n

theorem onGrid_mul {n : ℕ} (hn : 0 < n) {a b : Motion} (ha : OnGrid n a) (hb : OnGrid n b) :
    OnGrid n (mul a b) := by
  intro i
  obtain ⟨x0, h0⟩ := hb 0
  obtain ⟨x1, h1⟩ := hb 1
  obtain ⟨x2, h2⟩ := hb 2
  obtain ⟨y, hy⟩ := ha i
  have hnq : (n : ℚ) ≠ 0 := by exact_mod_cast hn.ne'
  refine ⟨a.W i 0 * x0 + a.W i 1 * x1 + a.W i 2 * x2 + y -
    ⌊Mat.mulVec (Mot.cast a.W) b.w i + a.w i⌋ * n, ?_⟩
  show Mat.mulVec (Mot.cast a.W) b.w i + a.w i - ⌊Mat.mulVec (Mot.cast a.W) b.w i + a.w i⌋ = _
  generalize ⌊Mat.mulVec (Mot.cast a.W) b.w i + a.w i⌋ = f
  rw [mulVec3, h0, h1, h2, hy]
  simp only [Mot.cast]
  push_cast
  field_simp

theorem red_eq_iff (a b : Motion) : red a = red b ↔ a.W = b.W ∧ SameModLattice b.w a.w := by
  have e : ∀ m, (red m).1 = ⟨m.W, fun i => m.w i - ⌊m.w i⌋⟩ := fun m => (Props.C09_identity m).1
  rw [Subtype.ext_iff, e, e, Motion.mk.injEq]
  refine and_congr_right fun _ => ?_
  constructor
  · intro h i
    refine ⟨⌊b.w i⌋ - ⌊a.w i⌋, ?_⟩
    have := congrFun h i
    push_cast
    linarith
  · intro h
    funext i
    obtain ⟨z, hz⟩ := h i
    have : b.w i = a.w i + z := by linarith
    rw [this, Int.floor_add_intCast]
    push_cast
    ring

theorem reads_motion {n : ℕ} (hn : 0 < n) (hn' : n ≤ 10 ^ 14) : Reads motionOps (OnGrid n) red where
  one := red_one
  mul := red_mul
  e_mem := fun _ => ⟨0, by simp [motionOps, ofTranslation]⟩
  mul_mem := fun _ _ ha hb => onGrid_mul hn ha hb
  beq := fun a b ha hb => (Props.C09_equality a b n hn hn' ha hb).trans (red_eq_iff a b).symm

theorem orderLoop_pos (mul' : Motion → Motion → Motion) (beq' : Motion → Motion → Bool) (e g : Motion) :
    ∀ fuel t ord, ord ≤ orderLoop mul' beq' e g fuel t ord := by
  intro fuel
  induction fuel with
  | zero => intro t ord; exact le_refl _
  | succ fuel ih =>
    intro t ord
    rw [orderLoop]
    by_cases h : beq' t e = true
    · rw [if_pos h]
    · rw [if_neg h]; exact (Nat.le_succ ord).trans (ih _ _)

theorem motion_order_pos (g : Motion) : 0 < motionOps.order g := orderLoop_pos _ _ _ g 9 g 1

theorem orderLoop_spec {n : ℕ} (hn : 0 < n) (hn' : n ≤ 10 ^ 14) {g : Motion} (hg : OnGrid n g) :
    ∀ (fuel : Nat) (t : Motion) (ord : Nat), OnGrid n t → red t = red g ^ ord →
      (∀ k, 0 < k → k < ord → red g ^ k ≠ 1) →
      (red g ^ orderLoop mul beq one g fuel t ord = 1 ∨ orderLoop mul beq one g fuel t ord = ord + fuel) ∧
      ∀ k, 0 < k → k < orderLoop mul beq one g fuel t ord → red g ^ k ≠ 1 := by
  intro fuel
  induction fuel with
  | zero => intro t ord _ _ h3; exact ⟨Or.inr rfl, h3⟩
  | succ fuel ih =>
    intro t ord ht h2 h3
    rw [orderLoop]
    have hb : beq t one = true ↔ red t = red one := (reads_motion hn hn').beq t one ht (reads_motion hn hn').e_mem
    by_cases h : beq t one = true
    · rw [if_pos h]
      rw [hb, h2, red_one] at h
      exact ⟨Or.inl h, h3⟩
    · rw [if_neg h]
      rw [hb, h2, red_one] at h
      have := ih (mul g t) (ord + 1) (onGrid_mul hn hg ht) (by rw [red_mul, h2, pow_succ']) (by
        intro k hk hk'
        rcases Nat.lt_or_eq_of_le (Nat.lt_succ_iff.mp hk') with h' | rfl
        · exact h3 k hk h'
        · exact h)
      rw [show ord + (fuel + 1) = ord + 1 + fuel by omega]
      exact this

/-- the order that is found: the true one if it is below ten, otherwise ten -/
theorem motion_order_spec {n : ℕ} (hn : 0 < n) (hn' : n ≤ 10 ^ 14) {g : Motion} (hg : OnGrid n g) :
    (red g ^ motionOps.order g = 1 ∨ motionOps.order g = 10) ∧
    ∀ k, 0 < k → k < motionOps.order g → red g ^ k ≠ 1 :=
  orderLoop_spec hn hn' hg 9 g 1 hg (by rw [pow_one]) (by intro k h1 h2; omega)

/-! ### integer matrices -/

/-- an integer matrix as a matrix -/
def mat (R : Fin 3 → Fin 3 → ℤ) : Matrix (Fin 3) (Fin 3) ℤ := Matrix.of R

theorem matBeq_iff (a b : Fin 3 → Fin 3 → ℤ) : matBeq a b = true ↔ a = b := by
  unfold matBeq
  rw [Approx.array_int]
  constructor
  · intro h
    funext i j
    have : (a i j : ℚ) = b i j := h ((a i j : ℚ), (b i j : ℚ)) (by
      rw [List.mem_flatMap]
      exact ⟨i, List.mem_finRange i, List.mem_map.mpr ⟨j, List.mem_finRange j, rfl⟩⟩)
    exact_mod_cast this
  · rintro rfl p hp
    rw [List.mem_flatMap] at hp
    obtain ⟨i, _, hp⟩ := hp
    obtain ⟨j, _, rfl⟩ := List.mem_map.mp hp
    rfl

theorem mat_mul (a b : Fin 3 → Fin 3 → ℤ) : mat (Mat.mulArrays a b) = mat a * mat b := by
  ext i j
  rw [Matrix.mul_apply, Fin.sum_univ_three]
  exact mulArrays3 a b i j

theorem mat_one : mat idMat = 1 := by
  ext i j
  rw [Matrix.one_apply]
  rfl

theorem mat_inj {a b : Fin 3 → Fin 3 → ℤ} : mat a = mat b ↔ a = b := Matrix.of.injective.eq_iff

theorem reads_point : Reads pointOps (fun _ => True) mat where
  one := mat_one
  mul := mat_mul
  e_mem := trivial
  mul_mem := fun _ _ _ _ => trivial
  beq := fun a b _ _ => (matBeq_iff a b).trans mat_inj.symm

end Brille.Sym
