import Verif.Proofs.Motion

/-! C09: products, inverses and actions of crystal motions. -/
namespace Brille.Props
open Brille.Mot Brille.Mat Brille.Spec

/-- The action on points, vectors and axial vectors written out. -/
theorem C09_action (a : Motion) (p : Fin 3 → ℚ) :
    movePoint a p = affine a.W a.w p ∧ moveVector a p = affine a.W (fun _ => 0) p ∧
    ∀ i, moveAxial a p i = det3 a.W * affine a.W (fun _ => 0) p i := by
  have hv : moveVector a p = affine a.W (fun _ => 0) p := by
    funext i; simp only [moveVector, mulVec3, Mot.cast, affine, add_zero]
  refine ⟨?_, hv, ?_⟩
  · funext i; simp only [movePoint, mulVec3, Mot.cast, affine]
  · intro i
    simp only [moveAxial, hv, determinant3]
    split
    · ring
    · next h => push Not at h; rw [← h]; simp

/-- **C09 (composition on points).** Moving a point by `a*b` is moving it by `b` and then by `a`, up to
a lattice vector. -/
theorem C09_product_acts (a b : Motion) (p : Fin 3 → ℚ) :
    SameModLattice (movePoint (mul a b) p) (movePoint a (movePoint b p)) := by
  intro i
  refine ⟨-⌊mulVec (Mot.cast a.W) b.w i + a.w i⌋, ?_⟩
  simp only [movePoint, mul, cast_mul, mulVec_mul]
  simp only [mulVec3, movePoint]
  push_cast
  ring

/-- **C09 (composition on vectors).** Vectors and axial vectors compose exactly. -/
theorem C09_product_vectors (a b : Motion) (v : Fin 3 → ℚ) :
    moveVector (mul a b) v = moveVector a (moveVector b v) ∧
    moveAxial (mul a b) v = moveAxial a (moveAxial b v) := by
  have h1 : ∀ v, moveVector (mul a b) v = moveVector a (moveVector b v) := by
    intro v; simp only [moveVector, mul, cast_mul, mulVec_mul]
  refine ⟨h1 v, ?_⟩
  have hax : ∀ (m : Motion) (v : Fin 3 → ℚ) i, moveAxial m v i = (det3 m.W : ℚ) * moveVector m v i := by
    intro m v i
    rw [(C09_action m v).2.2 i, (C09_action m v).2.1]
  have hdet : det3 (mul a b).W = det3 a.W * det3 b.W := by
    simp only [mul, det3, mulArrays3]
    ring
  funext i
  rw [hax, hax, h1, hdet]
  simp only [moveVector, mulVec3]
  have hb : ∀ i, moveAxial b v i = (det3 b.W : ℚ) * (Mot.cast b.W i 0 * v 0 + Mot.cast b.W i 1 * v 1 + Mot.cast b.W i 2 * v 2) := by
    intro i; rw [hax]; simp only [moveVector, mulVec3]
  rw [hb 0, hb 1, hb 2]
  push_cast
  ring

/-- **C09 (cell).** The translation part of a product and of an inverse is in `[0,1)³`. -/
theorem C09_translation_reduced (a b : Motion) : InUnitCell (mul a b).w ∧ InUnitCell (inverse a).w :=
  ⟨fun _ => ⟨Int.fract_nonneg _, Int.fract_lt_one _⟩, fun _ => ⟨Int.fract_nonneg _, Int.fract_lt_one _⟩⟩

/-- **C09 (associativity).** Exactly, not only up to a lattice vector. -/
theorem C09_associative (a b c : Motion) : mul (mul a b) c = mul a (mul b c) := by
  ext i j
  · simp only [mul]; rw [mulArrays_assoc]
  · simp only [mul, fract_sub]
    rw [Int.fract_eq_fract]
    obtain ⟨z, hz⟩ := mulVec_int a.W (p := fun j => Int.fract (mulVec (Mot.cast b.W) c.w j + b.w j))
      (q := fun j => mulVec (Mot.cast b.W) c.w j + b.w j)
      (fun j => ⟨-⌊mulVec (Mot.cast b.W) c.w j + b.w j⌋, by
        dsimp only; rw [← fract_sub]; push_cast; ring⟩) i
    refine ⟨-⌊mulVec (Mot.cast a.W) b.w i + a.w i⌋ - z, ?_⟩
    push_cast
    rw [← hz, cast_mul, mulVec_mul]
    simp only [mulVec3, Int.fract]
    ring

/-- **C09 (unit).** The identity motion is a two-sided unit for motions with reduced translation, and
only reduces the translation of others. -/
theorem C09_identity (a : Motion) :
    mul (ofTranslation fun _ => 0) a = ⟨a.W, fun i => a.w i - ⌊a.w i⌋⟩ ∧
    mul a (ofTranslation fun _ => 0) = ⟨a.W, fun i => a.w i - ⌊a.w i⌋⟩ ∧
    (InUnitCell a.w → mul (ofTranslation fun _ => 0) a = a ∧ mul a (ofTranslation fun _ => 0) = a) := by
  have h1 : mul (ofTranslation fun _ => 0) a = ⟨a.W, fun i => a.w i - ⌊a.w i⌋⟩ := by
    ext i j
    · simp only [mul, ofTranslation, (mulArrays_id a.W).2]
    · simp only [mul, ofTranslation, mulVec_id, add_zero]
  have h2 : mul a (ofTranslation fun _ => 0) = ⟨a.W, fun i => a.w i - ⌊a.w i⌋⟩ := by
    ext i j
    · simp only [mul, ofTranslation, (mulArrays_id a.W).1]
    · have : mulVec (Mot.cast a.W) (fun _ => 0) i = 0 := by rw [mulVec3]; ring
      simp only [mul, ofTranslation, this, zero_add]
  refine ⟨h1, h2, ?_⟩
  intro hr
  have : (⟨a.W, fun i => a.w i - ⌊a.w i⌋⟩ : Motion) = a := by
    ext i j
    · rfl
    · simp only
      rw [Int.floor_eq_zero_iff.2 ⟨(hr i).1, (hr i).2⟩]; simp
  exact ⟨h1.trans this, h2.trans this⟩

/-- **C09 (inverse).** For every motion whose rotation part has determinant ±1 the products with its
inverse, in both orders, are exactly the identity motion. -/
theorem C09_inverse (a : Motion) (h : det3 a.W = 1 ∨ det3 a.W = -1) :
    mul a (inverse a) = ofTranslation (fun _ => 0) ∧ mul (inverse a) a = ofTranslation (fun _ => 0) := by
  obtain ⟨h1, h2⟩ := invMat_mul a.W h
  constructor
  · ext i j
    · simp only [mul, inverse, h1, ofTranslation]
    · simp only [mul, inverse, ofTranslation]
      obtain ⟨z, hz⟩ := mulVec_int a.W
        (fract_same (fun j => mulVec (Mot.cast (invMat a.W)) a.w j * (-1))) i
      have e : mulVec (Mot.cast a.W) (fun j => mulVec (Mot.cast (invMat a.W)) a.w j * (-1)) i = - a.w i := by
        have : mulVec (Mot.cast a.W) (mulVec (Mot.cast (invMat a.W)) a.w) i = a.w i := by
          rw [← mulVec_mul, ← cast_mul, h1, mulVec_id]
        rw [← this]
        simp only [mulVec3]
        ring
      rw [e] at hz
      have : mulVec (Mot.cast a.W) (fun j => mulVec (Mot.cast (invMat a.W)) a.w j * (-1) -
          ⌊mulVec (Mot.cast (invMat a.W)) a.w j * (-1)⌋) i + a.w i = z := by linarith
      rw [this]; simp
  · ext i j
    · simp only [mul, inverse, h2, ofTranslation]
    · simp only [mul, inverse, ofTranslation]
      have : mulVec (Mot.cast (invMat a.W)) a.w i + (mulVec (Mot.cast (invMat a.W)) a.w i * (-1) -
          ⌊mulVec (Mot.cast (invMat a.W)) a.w i * (-1)⌋) =
          ((-⌊mulVec (Mot.cast (invMat a.W)) a.w i * (-1)⌋ : ℤ) : ℚ) := by push_cast; ring
      rw [this]; simp

/-- **C09 (undoing).** Moving a point by a motion and then by its inverse, or the other way around,
gives the point back up to a lattice vector, and vectors exactly. -/
theorem C09_inverse_undoes (a : Motion) (h : det3 a.W = 1 ∨ det3 a.W = -1) (p : Fin 3 → ℚ) :
    SameModLattice (movePoint (inverse a) (movePoint a p)) p ∧
    SameModLattice (movePoint a (movePoint (inverse a) p)) p ∧
    moveVector (inverse a) (moveVector a p) = p ∧ moveVector a (moveVector (inverse a) p) = p := by
  obtain ⟨h1, h2⟩ := C09_inverse a h
  have e : ∀ p, movePoint (ofTranslation fun _ => 0) p = p := by
    intro p; funext i; simp [movePoint, ofTranslation, mulVec_id]
  have ev : ∀ p, moveVector (ofTranslation fun _ => 0) p = p := by
    intro p; simp [moveVector, ofTranslation, mulVec_id]
  refine ⟨?_, ?_, ?_, ?_⟩
  · have := same_symm (C09_product_acts (inverse a) a p)
    rwa [h2, e] at this
  · have := same_symm (C09_product_acts a (inverse a) p)
    rwa [h1, e] at this
  · rw [← (C09_product_vectors _ _ _).1, h2, ev]
  · rw [← (C09_product_vectors _ _ _).1, h1, ev]

-- a three-fold screw axis: the hypotheses are met by a motion with both parts non-trivial
example : let a : Motion := ⟨![![0, -1, 0], ![1, -1, 0], ![0, 0, 1]], ![0, 0, 1/3]⟩
    det3 a.W = 1 ∧ InUnitCell a.w := by
  refine ⟨by decide, ?_⟩
  intro i
  fin_cases i <;> norm_num

/-- **C09 (limit).** For other determinants the integer "inverse" does not invert. -/
theorem C09_inverse_counterexample :
    ∃ a : Motion, det3 a.W ≠ 0 ∧ (mul a (inverse a)).W ≠ idMat :=
  ⟨⟨fun i j => if i = j then 2 else 0, fun _ => 0⟩, by decide, by decide⟩

theorem beq_iff (a m : Motion) : beq a m = true ↔ a.W = m.W ∧
    ∀ i, abs (1 / 2 - abs (Int.fract (m.w i - a.w i) - 1 / 2)) ≤
      5 / 10 ^ 15 + 10 ^ 4 / 2 ^ 52 * abs (1 / 2 - abs (Int.fract (m.w i - a.w i) - 1 / 2)) := by
  rw [beq, Bool.and_eq_true, Approx.array_double, Approx.array_int, and_comm]
  refine and_congr ?_ ?_
  · constructor
    · intro h
      funext i j
      have := h ((a.W i j : ℚ), (m.W i j : ℚ)) (by
        rw [List.mem_flatMap]
        exact ⟨i, List.mem_finRange i, List.mem_map.2 ⟨j, List.mem_finRange j, rfl⟩⟩)
      dsimp only at this
      exact_mod_cast this
    · intro h p hp
      rw [List.mem_flatMap] at hp
      obtain ⟨i, _, hp⟩ := hp
      obtain ⟨j, _, rfl⟩ := List.mem_map.1 hp
      rw [h]
  · constructor
    · intro h i
      have := h _ (List.mem_map.2 ⟨i, List.mem_finRange i, rfl⟩)
      simpa only [sub_zero, add_zero, fract_sub] using this
    · intro h p hp
      obtain ⟨i, _, rfl⟩ := List.mem_map.1 hp
      simpa only [sub_zero, add_zero, fract_sub] using h i

/-- **C09 (equality).** For motions whose translations are multiples of `1/n` with `n ≤ 10¹⁴` (all
crystallographic ones have `n` dividing 24), `==` holds exactly when the rotation parts are equal and
the translations differ by a lattice vector. -/
theorem C09_equality (a m : Motion) (n : ℕ) (hn : 0 < n) (hn' : n ≤ 10 ^ 14)
    (ha : ∀ i, ∃ z : ℤ, a.w i = z / n) (hm : ∀ i, ∃ z : ℤ, m.w i = z / n) :
    beq a m = true ↔ a.W = m.W ∧ SameModLattice m.w a.w := by
  rw [beq_iff]
  refine and_congr_right fun _ => ?_
  have hnq : (0 : ℚ) < n := by exact_mod_cast hn
  refine forall_congr' fun i => ?_
  obtain ⟨x, hx⟩ := ha i
  obtain ⟨y, hy⟩ := hm i
  have hd : m.w i - a.w i = ((y - x : ℤ) : ℚ) / n := by rw [hx, hy]; push_cast; ring
  have f0 := Int.fract_nonneg (m.w i - a.w i)
  have f1 := Int.fract_lt_one (m.w i - a.w i)
  constructor
  · intro h
    -- the fractional part is a multiple of 1/n
    have hf : ∃ k : ℤ, Int.fract (m.w i - a.w i) = k / n := by
      refine ⟨y - x - n * ⌊m.w i - a.w i⌋, ?_⟩
      rw [Int.fract, hd]
      push_cast
      field_simp
    obtain ⟨k, hk⟩ := hf
    have hkn : (n : ℚ) * Int.fract (m.w i - a.w i) = k := by rw [hk]; field_simp
    rcases eq_or_ne k 0 with hk0 | hk0
    · subst hk0
      refine ⟨⌊m.w i - a.w i⌋, ?_⟩
      have : Int.fract (m.w i - a.w i) = 0 := by rw [hk]; simp
      rw [Int.fract] at this
      linarith
    · exfalso
      have hk1 : (1 : ℚ) ≤ k := by
        have : (0 : ℚ) < k := by
          have h1 : (0 : ℚ) ≤ k := by rw [← hkn]; positivity
          rcases lt_or_eq_of_le h1 with h | h
          · exact h
          · exact absurd (by exact_mod_cast h.symm) hk0
        exact_mod_cast this
      have hk2 : (k : ℚ) + 1 ≤ n := by
        have : (k : ℚ) < n := by
          rw [← hkn]; nlinarith
        exact_mod_cast this
      have hn14 : (n : ℚ) ≤ 10 ^ 14 := by exact_mod_cast hn'
      set f := Int.fract (m.w i - a.w i) with hfdef
      have hlow : 1 / 10 ^ 14 ≤ f := by
        rw [hk, div_le_div_iff₀ (by norm_num) hnq]
        linarith
      have hhigh : f ≤ 1 - 1 / 10 ^ 14 := by
        rw [hk, div_le_iff₀ hnq]
        have : (n : ℚ) / 10 ^ 14 ≤ 1 := by rw [div_le_one (by norm_num)]; exact hn14
        have e : (1 - 1 / 10 ^ 14 : ℚ) * n = n - n / 10 ^ 14 := by ring
        rw [e]
        linarith
      have hg : 1 / 10 ^ 14 ≤ 1 / 2 - |f - 1 / 2| := by
        rcases abs_cases (f - 1 / 2) with ⟨e, _⟩ | ⟨e, _⟩ <;> rw [e] <;> linarith
      set g := 1 / 2 - |f - 1 / 2|
      have hgp : 0 < g := lt_of_lt_of_le (by norm_num) hg
      rw [abs_of_pos hgp] at h
      nlinarith
  · rintro ⟨z, hz⟩
    have : Int.fract (m.w i - a.w i) = 0 := by rw [hz]; exact Int.fract_intCast z
    rw [this]
    norm_num [abs_of_neg]

example : let a : Motion := ⟨idMat, ![1/4, 0, 3/4]⟩
    let m : Motion := ⟨idMat, ![-3/4, 1, 7/4]⟩
    (∀ i, ∃ z : ℤ, a.w i = z / (4 : ℕ)) ∧ (∀ i, ∃ z : ℤ, m.w i = z / (4 : ℕ)) ∧
      SameModLattice m.w a.w := by
  refine ⟨?_, ?_, ?_⟩
  · intro i; fin_cases i
    · exact ⟨1, by norm_num⟩
    · exact ⟨0, by norm_num⟩
    · exact ⟨3, by norm_num⟩
  · intro i; fin_cases i
    · exact ⟨-3, by norm_num⟩
    · exact ⟨4, by norm_num⟩
    · exact ⟨7, by norm_num⟩
  · intro i; fin_cases i
    · exact ⟨-1, by norm_num⟩
    · exact ⟨1, by norm_num⟩
    · exact ⟨1, by norm_num⟩

/-- **C09 (equality is reflexive and symmetric)** for all motions. -/
theorem C09_equality_symmetric (a m : Motion) : beq a a = true ∧ beq a m = beq m a := by
  constructor
  · rw [beq_iff]
    refine ⟨rfl, fun i => ?_⟩
    rw [sub_self, Int.fract_zero]
    norm_num [abs_of_neg]
  · rw [Bool.eq_iff_iff, beq_iff, beq_iff]
    refine and_congr eq_comm ?_
    refine forall_congr' fun i => ?_
    have : |Int.fract (m.w i - a.w i) - 1 / 2| = |Int.fract (a.w i - m.w i) - 1 / 2| := by
      rw [← neg_sub (a.w i) (m.w i)]
      rcases eq_or_ne (Int.fract (a.w i - m.w i)) 0 with h | h
      · rw [h, Int.fract_neg_eq_zero.2 h]
      · rw [Int.fract_neg h, ← abs_neg]
        congr 1; ring
    rw [this]

end Brille.Props
