import Verif.Proofs.Lattice
import Verif.Props.Primitive

/-! C64: lattices. -/
namespace Brille.Props
open Brille.Lat Brille.Spec
open Brille.Rot (LengthUnit)

/-- An angle in radian. -/
noncomputable def radians : AngleUnit → ℝ → ℝ
  | .degree, a => a / 180 * Real.pi
  | .pi, a => Real.pi * a
  | _, a => a

/-- The two units of vectors. -/
def IsLengthUnit (lu : LengthUnit) : Prop := lu = .angstrom ∨ lu = .inverseAngstrom

/-- **C64 (trigonometry).** The cosines and sines used for the angles are the cosine and sine, whichever shortcut is
taken. -/
theorem C64_trigonometry (au : AngleUnit) (hau : au ≠ .notProvided) (a : ℝ) :
    cosSinOf au a = (Real.cos (radians au a), Real.sin (radians au a)) := by
  cases au
  · exact absurd rfl hau
  · exact cosAndSin_eq a
  · exact cosAndSinD_eq a
  · exact cosAndSin_eq _

theorem cosinesSines_eq (au : AngleUnit) (hau : au ≠ .notProvided) (ang : V3) :
    cosinesSines ang au = some (fun i => Real.cos (radians au (ang i)), fun i => Real.sin (radians au (ang i))) := by
  unfold cosinesSines resolveUnit
  rw [if_neg hau, Option.map_some]
  simp only [C64_trigonometry au hau]

theorem valid_of (au : AngleUnit) {len ang : V3} (hlen : ∀ i, 0 < len i)
    (hang : ∀ i, 0 < radians au (ang i) ∧ radians au (ang i) < Real.pi)
    (hv : 0 < vol2 fun i => Real.cos (radians au (ang i))) :
    Valid ⟨len, fun i => Real.cos (radians au (ang i)), fun i => Real.sin (radians au (ang i))⟩ := by
  refine ⟨hlen, fun i => Real.sin_pos_of_pos_of_lt_pi (hang i).1 (hang i).2, fun i => ?_, hv⟩
  have := Real.sin_sq_add_cos_sq (radians au (ang i))
  show Real.sin _ * Real.sin _ = 1 - Real.cos _ * Real.cos _
  linear_combination this

theorem gram_parameters (m : M3) (p : Params) (ang : V3) (hc : ∀ i, p.cos i = Real.cos (ang i))
    (h : ∀ i j, columnDot m m i j = gram p i j) : HasParameters m p.len ang := by
  constructor
  · intro i
    rw [h]
    fin_cases i <;> rfl
  · intro i
    rw [h, ← hc]
    fin_cases i
    · rfl
    · show p.len 0 * p.len 2 * p.cos 1 = p.len 2 * p.len 0 * p.cos 1
      ring
    · rfl

/-- **C64 (parameters).** A lattice can be constructed from lengths and angles exactly if a cell with these lengths and
angles exists.  It then has these lengths and angles, in the space they were given for; its real and reciprocal vectors
are dual, right-handed, and in the orientation of Busing and Levy: the first reciprocal vector is along x and the second
in the xy plane. -/
theorem C64_parameters (lu : LengthUnit) (hlu : IsLengthUnit lu) (len ang : V3) (au : AngleUnit) (hau : au ≠ .notProvided)
    (hlen : ∀ i, 0 < len i) (hang : ∀ i, 0 < radians au (ang i) ∧ radians au (ang i) < Real.pi) :
    ((fromParameters lu len ang au).isSome = true ↔ CellExists len fun i => radians au (ang i)) ∧
    ∀ l, fromParameters lu len ang au = some l →
      DualBases l.real l.recip ∧
      (∃ m, l.vectors lu = some m ∧ HasParameters m len fun i => radians au (ang i)) ∧
      (∀ i, l.length lu i = some (len i) ∧ l.angle lu i au = some (ang i)) ∧
      0 < Matrix.det (Matrix.of l.real) ∧ 0 < Matrix.det (Matrix.of l.recip) ∧
      0 < l.recip 0 0 ∧ l.recip 1 0 = 0 ∧ l.recip 2 0 = 0 ∧ 0 < l.recip 1 1 ∧ l.recip 2 1 = 0 := by
  set c : V3 := fun i => Real.cos (radians au (ang i)) with hc
  set s : V3 := fun i => Real.sin (radians au (ang i)) with hs
  have hcs := cosinesSines_eq au hau ang
  have hpi := Real.pi_pos
  -- everything about a lattice that was made
  have made : ∀ l, 0 < vol2 c → fromParameters lu len ang au = some l →
      DualBases l.real l.recip ∧
      (∃ m, l.vectors lu = some m ∧ HasParameters m len fun i => radians au (ang i)) ∧
      0 < Matrix.det (Matrix.of l.recip) ∧
      0 < l.recip 0 0 ∧ l.recip 1 0 = 0 ∧ l.recip 2 0 = 0 ∧ 0 < l.recip 1 1 ∧ l.recip 2 1 = 0 := by
    intro l hv hl
    have hp := valid_of au hlen hang hv
    obtain ⟨r, hr⟩ := dual_some hp
    have hrv := dual_valid hp hr
    obtain ⟨k1, k2⟩ := fromParams_spec hp hr
    unfold fromParameters at hl
    rw [hcs, Option.bind_some] at hl
    rcases hlu with rfl | rfl
    · simp only [hr, Option.bind_some] at hl
      obtain ⟨hh, hrec, hdet, hg⟩ := k1 l hl
      refine ⟨hh.dual, ⟨l.real, rfl, gram_parameters _ _ _ (fun i => rfl) hg⟩, hdet, ?_⟩
      rw [hrec]
      exact ⟨hrv.len 0, rfl, rfl, mul_pos (hrv.len 1) (hrv.sin 2), rfl⟩
    · simp only [hr, Option.bind_some] at hl
      obtain ⟨hh, hrec, hdet, hg⟩ := k2 l hl
      refine ⟨hh.dual, ⟨l.recip, rfl, gram_parameters _ _ _ (fun i => rfl) hg⟩, hdet, ?_⟩
      rw [hrec]
      exact ⟨hp.len 0, rfl, rfl, mul_pos (hp.len 1) (hp.sin 2), rfl⟩
  have pos : ∀ l, fromParameters lu len ang au = some l → 0 < vol2 c := by
    intro l hl
    by_contra hn
    have hd : dualParams ⟨len, c, s⟩ = none := dual_none (not_lt.mp hn)
    unfold fromParameters at hl
    rw [hcs, Option.bind_some] at hl
    rcases hlu with rfl | rfl <;> simp only at hl <;> rw [hd] at hl <;> exact absurd hl (by simp)
  constructor
  · constructor
    · intro h
      obtain ⟨l, hl⟩ := Option.isSome_iff_exists.mp h
      obtain ⟨hd, ⟨m, hm, hp⟩, hdet, -⟩ := made l (pos l hl) hl
      refine ⟨m, hp, ?_⟩
      have e := dual_det hd
      rcases hlu with rfl | rfl
      · cases Option.some.inj hm
        intro h0
        rw [h0, zero_mul] at e
        exact absurd e.symm (by positivity)
      · cases Option.some.inj hm
        exact hdet.ne'
    · rintro ⟨A, hA, hdet⟩
      have hv := vol_of_cell hA hdet
      have hp := valid_of au hlen hang hv
      obtain ⟨r, hr⟩ := dual_some hp
      unfold fromParameters
      rw [hcs, Option.bind_some]
      rcases hlu with rfl | rfl <;> simp only <;> rw [hr] <;> rfl
  · intro l hl
    obtain ⟨hd, ⟨m, hm, hp⟩, hdet, hor⟩ := made l (pos l hl) hl
    refine ⟨hd, ⟨m, hm, hp⟩, ?_, ?_, hdet, hor⟩
    · intro i
      refine ⟨read_length hm i (hlen i).le (hp.lengths i), ?_⟩
      obtain ⟨r1, r2, r3⟩ := read_angle hm i (hlen _) (hlen _) (hang i).1.le (hang i).2.le (hp.lengths _) (hp.lengths _)
        (hp.angles i)
      cases au
      · exact absurd rfl hau
      · exact r1
      · rw [r2]; congr 1
        show ang i / 180 * Real.pi / Real.pi * 180 = ang i
        field_simp
      · rw [r3]; congr 1
        show Real.pi * ang i / Real.pi = ang i
        field_simp
    · have e := dual_det hd
      have h3 : 0 < (2 * Real.pi) ^ 3 := by positivity
      rw [← e] at h3
      exact (pos_iff_pos_of_mul_pos h3).mpr hdet

/-- **C64 (default unit).** Without a unit the angles must not be negative; they are in radian if all are smaller than
π, in degree otherwise. -/
theorem C64_default_unit (lu : LengthUnit) (len ang : V3) :
    ((∃ i, ang i < 0) → fromParameters lu len ang .notProvided = none) ∧
    ((∀ i, 0 ≤ ang i ∧ ang i < Real.pi) →
      fromParameters lu len ang .notProvided = fromParameters lu len ang .radian) ∧
    ((∀ i, 0 ≤ ang i) → (∃ i, Real.pi ≤ ang i) →
      fromParameters lu len ang .notProvided = fromParameters lu len ang .degree) := by
  have three : ∀ (P : Fin 3 → Prop), (∃ i, P i) → P 0 ∨ P 1 ∨ P 2 := by
    rintro P ⟨i, hi⟩
    fin_cases i
    · exact .inl hi
    · exact .inr (.inl hi)
    · exact .inr (.inr hi)
  have core : ∀ u, resolveUnit ang .notProvided = some u → u ≠ .notProvided →
      fromParameters lu len ang .notProvided = fromParameters lu len ang u := by
    intro u hu hne
    have : cosinesSines ang .notProvided = cosinesSines ang u := by
      unfold cosinesSines
      rw [hu]
      unfold resolveUnit
      rw [if_neg hne]
    unfold fromParameters
    rw [this]
  refine ⟨fun h => ?_, fun h => ?_, fun h1 h2 => ?_⟩
  · have : resolveUnit ang .notProvided = none := by
      unfold resolveUnit
      rw [if_pos rfl, if_pos]
      rcases three _ h with h | h | h <;> simp [h]
    unfold fromParameters cosinesSines
    rw [this]; rfl
  · apply core _ _ (by decide)
    unfold resolveUnit
    rw [if_pos rfl, if_neg, if_pos]
    · simp [(h 0).2, (h 1).2, (h 2).2]
    · simp [(h 0).1, (h 1).1, (h 2).1]
  · apply core _ _ (by decide)
    unfold resolveUnit
    rw [if_pos rfl, if_neg, if_neg]
    · rcases three _ h2 with h | h | h <;> simp [h]
    · simp [h1 0, h1 1, h1 2]

/-- **C64 (vectors).** From three vectors that do not lie in a plane, in rows or columns and of either space, a lattice is
made that has these vectors; the vectors of the other space are dual to them. -/
theorem C64_vectors (lu : LengthUnit) (hlu : IsLengthUnit lu) (v : M3) (column : Bool)
    (hv : Matrix.det (Matrix.of v) ≠ 0) :
    ∃ l, fromVectors lu v column = some l ∧ DualBases l.real l.recip ∧
      ∀ i, l.vector lu i = some fun k => if column then v k i else v i k := by
  have hdet : Matrix.det (Matrix.of (if column then v else Mat.transpose v)) ≠ 0 := by
    cases column
    · have : Matrix.of (Mat.transpose v) = (Matrix.of v).transpose := rfl
      simp only [Bool.false_eq_true, if_false]
      rwa [this, Matrix.det_transpose]
    · exact hv
  obtain ⟨l, hl⟩ : ∃ l, fromVectors lu v column = some l := by
    unfold fromVectors
    rcases hlu with rfl | rfl <;> exact ⟨_, rfl⟩
  refine ⟨l, hl, ?_⟩
  obtain ⟨hh, hm⟩ := fromMatrix_spec hdet hl
  refine ⟨hh.dual, fun i => ?_⟩
  unfold Lattice.vector
  rw [hm]
  cases column <;> rfl

/-- **C64 (consequences of duality).** The volumes of the two cells multiply to `(2π)³`, and going from coordinates to
positions and back changes nothing. -/
theorem C64_duality (l : Lattice) (h : DualBases l.real l.recip) (lu : LengthUnit) (hlu : IsLengthUnit lu) :
    (∃ v w, l.volume .angstrom = some v ∧ l.volume .inverseAngstrom = some w ∧ v * w = (2 * Real.pi) ^ 3) ∧
    ∃ m n, l.vectors lu = some m ∧ l.fromXyz lu = some n ∧
      ∀ x, position n (position m x) = x ∧ position m (position n x) = x := by
  refine ⟨⟨_, _, rfl, rfl, ?_⟩, ?_⟩
  · rw [Mat.determinant_eq, Mat.determinant_eq]
    exact dual_det h
  · have hp := twoPi
    have pos_eq : ∀ (m : M3) (x : V3), position m x = (Matrix.of m).mulVec x := by
      intro m x; funext k
      simp [position, Matrix.mulVec, dotProduct, Fin.sum_univ_three]
    have key : ∀ A B : M3, DualBases A B → ∀ x : V3,
        position (Mat.transpose fun i j => B i j / (2 * Real.pi)) (position A x) = x ∧
        position A (position (Mat.transpose fun i j => B i j / (2 * Real.pi)) x) = x := by
      intro A B hd x
      have hn : Matrix.of (Mat.transpose fun i j => B i j / (2 * Real.pi))
          = (2 * Real.pi)⁻¹ • (Matrix.of B).transpose := by
        ext i j
        show B j i / (2 * Real.pi) = (2 * Real.pi)⁻¹ * B j i
        field_simp
      rw [pos_eq, pos_eq, pos_eq, pos_eq, Matrix.mulVec_mulVec, Matrix.mulVec_mulVec, hn, Matrix.smul_mul,
        (dual_iff B A).mp (dual_symm hd), Matrix.mul_smul, dual_right hd, smul_smul, inv_mul_cancel₀ hp, one_smul,
        Matrix.one_mulVec]
      exact ⟨rfl, rfl⟩
    rcases hlu with rfl | rfl
    · exact ⟨_, _, rfl, rfl, key _ _ h⟩
    · exact ⟨_, _, rfl, rfl, key _ _ (dual_symm h)⟩

/-- **C64 (metrics).** The metrics of a lattice made from parameters or vectors are the scalar products of its basis
vectors. -/
theorem C64_metrics (lu : LengthUnit) (m : M3) (l : Lattice) (hl : fromMatrix m lu = some l) (i j : Fin 3) :
    l.realMetric i j = columnDot l.real l.real i j ∧ l.recipMetric i j = columnDot l.recip l.recip i j := by
  cases lu <;> simp only [fromMatrix, Option.some.injEq, reduceCtorEq] at hl
  all_goals
    subst hl
    exact ⟨metricOf_eq _ i j, metricOf_eq _ i j⟩

theorem metrics_of (A B : M3) (h : DualBases A B) : Healthy ⟨A, B, metricOf A, metricOf B⟩ := withMetrics_healthy h

/-- **C64 (primitive).** The primitive lattice of a lattice with centring vectors is dual again, and its cell is smaller by
the number of lattice points in the conventional cell. -/
theorem C64_primitive (l : Lattice) (h : DualBases l.real l.recip) (c : Spec.Centring) :
    ∃ p, l.primitive (letter c) = some p ∧ DualBases p.real p.recip ∧
      (c ≠ .P → ∀ i j, p.realMetric i j = columnDot p.real p.real i j ∧ p.recipMetric i j = columnDot p.recip p.recip i j) ∧
      Matrix.det (Matrix.of l.real) = (1 + (Spec.centringVectors c).length) * Matrix.det (Matrix.of p.real) ∧
      Matrix.det (Matrix.of p.recip) = (1 + (Spec.centringVectors c).length) * Matrix.det (Matrix.of l.recip) := by
  by_cases hc : c = .P
  · subst hc
    refine ⟨l, rfl, h, fun h => absurd rfl h, ?_, ?_⟩ <;> simp [Spec.centringVectors]
  · obtain ⟨p, q, hp, hq, hpq⟩ := C18_mutually_inverse_partial c hc
    obtain ⟨p', q', pt, qt, hp', hq', -, hqt, ht⟩ := C18_transposes c
    obtain ⟨q'', hq'', hdet⟩ := C18_determinant c
    rw [hp] at hp'; rw [hq] at hq' hq''
    cases Option.some.inj hp'
    cases Option.some.inj hq'
    cases Option.some.inj hq''
    have hdo : Prim.doesNothing (letter c) = false := by
      cases c <;> first | rfl | exact absurd rfl hc
    have hdual : DualBases (fun i j => Mat.mulArrays l.real (fun i j => (p i j : ℝ)) i j / 6)
        (Mat.mulArrays l.recip fun i j => (qt i j : ℝ)) := by
      rw [dual_iff]
      have e1 : Matrix.of (fun i j => Mat.mulArrays l.real (fun i j => (p i j : ℝ)) i j / 6)
          = (6 : ℝ)⁻¹ • (Matrix.of l.real * Matrix.of fun i j => (p i j : ℝ)) := by
        ext i j
        rw [Mat.mulArrays_eq]
        show (Matrix.of l.real * Matrix.of fun i j => (p i j : ℝ)) i j / 6 = 6⁻¹ * _
        ring
      have e2 : Matrix.of (Mat.mulArrays l.recip fun i j => (qt i j : ℝ))
          = Matrix.of l.recip * Matrix.of fun i j => (qt i j : ℝ) := by
        rw [Mat.mulArrays_eq]; rfl
      have e3 : (Matrix.of fun i j => (p i j : ℝ)).transpose * (Matrix.of fun i j => (qt i j : ℝ))
          = (6 : ℝ) • (1 : Matrix (Fin 3) (Fin 3) ℝ) := by
        ext i j
        rw [Matrix.mul_apply, Fin.sum_univ_three, Matrix.smul_apply, Matrix.one_apply]
        have := (hpq j i).2
        show (p 0 i : ℝ) * qt 0 j + p 1 i * qt 1 j + p 2 i * qt 2 j = _
        rw [(ht 0 j).2, (ht 1 j).2, (ht 2 j).2]
        have t := congrArg (fun z : ℤ => (z : ℝ)) this
        simp only [Int.cast_add, Int.cast_mul] at t
        have : (p 0 i : ℝ) * q j 0 + p 1 i * q j 1 + p 2 i * q j 2 = q j 0 * p 0 i + q j 1 * p 1 i + q j 2 * p 2 i := by
          ring
        rw [this, t]
        by_cases hij : i = j
        · rw [if_pos hij, if_pos hij.symm]; simp
        · rw [if_neg hij, if_neg (fun h => hij h.symm)]; simp
      rw [e1, e2, Matrix.transpose_smul, Matrix.transpose_mul, Matrix.smul_mul, Matrix.mul_assoc,
        ← Matrix.mul_assoc (Matrix.of l.real).transpose, (dual_iff _ _).mp h, Matrix.smul_mul, Matrix.one_mul,
        Matrix.mul_smul, e3, smul_smul, smul_smul]
      congr 1; ring
    refine ⟨⟨_, _, metricOf _, metricOf _⟩, ?_, hdual, fun _ i j => ⟨metricOf_eq _ i j, metricOf_eq _ i j⟩, ?_⟩
    · unfold Lattice.primitive
      rw [hdo, hp, hqt]; rfl
    · have hrec : Matrix.det (Matrix.of (Mat.mulArrays l.recip fun i j => (qt i j : ℝ)))
          = (1 + (Spec.centringVectors c).length) * Matrix.det (Matrix.of l.recip) := by
        have e2 : Matrix.of (Mat.mulArrays l.recip fun i j => (qt i j : ℝ))
            = Matrix.of l.recip * Matrix.of fun i j => (qt i j : ℝ) := by
          rw [Mat.mulArrays_eq]; rfl
        have hq3 : Matrix.det (Matrix.of fun i j => (qt i j : ℝ)) = 1 + (Spec.centringVectors c).length := by
          have t := congrArg (fun z : ℤ => (z : ℝ)) hdet
          rw [Matrix.det_fin_three]
          simp only [Matrix.of_apply, (ht _ _).2]
          unfold Brille.Spec.det3 at t
          push_cast at t
          rw [← t]; ring
        rw [e2, Matrix.det_mul, hq3]; ring
      refine ⟨?_, hrec⟩
      have d1 := dual_det h
      have d2 := dual_det hdual
      rw [hrec] at d2
      have hne : Matrix.det (Matrix.of l.recip) ≠ 0 := by
        intro h0
        rw [h0, mul_zero] at d1
        have := Real.pi_pos
        exact absurd d1.symm (by positivity)
      apply mul_right_cancel₀ hne
      rw [d1, ← d2]; ring

/-- **C64 fails** for vectors in a plane: no exception, the other space silently gets the zero basis. -/
theorem C64_planar_counterexample : ∃ v l, fromVectors .angstrom v true = some l ∧ Matrix.det (Matrix.of v) = 0 ∧
    (∀ i j, l.recip i j = 0) ∧ ¬ DualBases l.real l.recip := by
  have hdet : Matrix.det (Matrix.of (fun _ _ => 1 : M3)) = 0 := by rw [Matrix.det_fin_three]; simp
  have hinv : (Mat.inverseField (fun _ _ => 1 : M3) 0).2 = none := by
    rw [(C13_inverse_field (fun _ _ => 1 : M3) 0 le_rfl).2.1, hdet, abs_zero]
  have hz : ∀ i j, Mat.transpose (fun i j => matInverse (fun _ _ => 1) i j * (2 * Real.pi)) i j = 0 := by
    intro i j
    unfold Mat.transpose matInverse
    rw [hinv]; simp
  refine ⟨fun _ _ => 1, _, rfl, hdet, hz, ?_⟩
  intro h
  have e := h 0 0
  unfold columnDot at e
  simp only [withMetrics, hz, mul_zero, add_zero, if_true] at e
  exact twoPi e.symm

theorem fromParameters_right (len : V3) (r : Params)
    (hr : dualParams ⟨len, fun _ => 0, fun _ => 1⟩ = some r) :
    fromParameters .angstrom len (fun _ => 90) .degree = fromMatrix (bMatrix ⟨len, fun _ => 0, fun _ => 1⟩ r) .inverseAngstrom := by
  have hcs : cosinesSines (fun _ => 90) .degree = some (fun _ => 0, fun _ => 1) := by
    rw [cosinesSines_eq _ (by decide)]
    simp only [radians]
    rw [show (90 : ℝ) / 180 * Real.pi = Real.pi / 2 by ring, Real.cos_pi_div_two, Real.sin_pi_div_two]
  unfold fromParameters
  rw [hcs, Option.bind_some]
  simp only
  rw [hr, Option.bind_some]

/-- **C64 fails** for negative lengths: they are accepted, and the lattice is left-handed. -/
theorem C64_negative_counterexample : ∃ l : Lattice,
    fromParameters .angstrom ![-1, 1, 1] (fun _ => 90) .degree = some l ∧ Matrix.det (Matrix.of l.recip) < 0 := by
  obtain ⟨r, hr⟩ : ∃ r, dualParams ⟨![-1, 1, 1], fun _ => 0, fun _ => 1⟩ = some r := by
    unfold dualParams
    rw [unitVolume_eq, if_neg (by simp [vol2])]
    exact ⟨_, rfl⟩
  refine ⟨_, (fromParameters_right _ r hr).trans rfl, ?_⟩
  show Matrix.det (Matrix.of (bMatrix ⟨![-1, 1, 1], fun _ => 0, fun _ => 1⟩ r)) < 0
  unfold dualParams at hr
  rw [unitVolume_eq, if_neg (by simp [vol2]), Option.map_some, Option.some.injEq] at hr
  subst hr
  rw [Matrix.det_fin_three]
  have := Real.pi_pos
  simp [bMatrix, vol2]
  have h3 : 0 < Real.pi * Real.pi * Real.pi := by positivity
  linarith [show 2 * Real.pi / -1 * (2 * Real.pi) * (2 * Real.pi) = -8 * (Real.pi * Real.pi * Real.pi) by ring]

/-- The cubic lattice exists, so that the hypotheses of `C64_parameters` can be met. -/
example : CellExists ![2, 3, 4] (fun _ => radians .degree 90) ∧ 0 < radians .degree 90 ∧ radians .degree 90 < Real.pi := by
  have hpi := Real.pi_pos
  have e : radians .degree 90 = Real.pi / 2 := by unfold radians; ring
  rw [e]
  refine ⟨⟨![![2, 0, 0], ![0, 3, 0], ![0, 0, 4]], ⟨?_, ?_⟩, ?_⟩, by positivity, by linarith⟩
  · intro i; fin_cases i <;> simp [columnDot]
  · intro i; rw [Real.cos_pi_div_two, mul_zero]; fin_cases i <;> simp [columnDot]
  · rw [Matrix.det_fin_three]; simp

/-- An oblique cell: two angles of 60° and one of 90°. -/
example : CellExists ![1, 1, 1] (fun i => radians .degree (![60, 60, 90] i)) := by
  have e1 : Real.cos (radians .degree 60) = 1 / 2 := by
    simp only [radians]; rw [show (60 : ℝ) / 180 * Real.pi = Real.pi / 3 by ring, Real.cos_pi_div_three]
  have e2 : Real.cos (radians .degree 90) = 0 := by
    simp only [radians]; rw [show (90 : ℝ) / 180 * Real.pi = Real.pi / 2 by ring, Real.cos_pi_div_two]
  have hs : Real.sqrt (1 / 2) * Real.sqrt (1 / 2) = 1 / 2 := Real.mul_self_sqrt (by norm_num)
  refine ⟨![![1, 0, 1 / 2], ![0, 1, 1 / 2], ![0, 0, Real.sqrt (1 / 2)]], ⟨?_, ?_⟩, ?_⟩
  · intro i
    fin_cases i
    · simp [columnDot]
    · simp [columnDot]
    · show 1 / 2 * (1 / 2) + 1 / 2 * (1 / 2) + Real.sqrt (1 / 2) * Real.sqrt (1 / 2) = (1 : ℝ) * 1
      rw [hs]; norm_num
  · intro i
    fin_cases i
    · show (0 : ℝ) * (1 / 2) + 1 * (1 / 2) + 0 * Real.sqrt (1 / 2) = 1 * 1 * Real.cos (radians .degree 60)
      rw [e1]; norm_num
    · show (1 : ℝ) / 2 * 1 + 1 / 2 * 0 + Real.sqrt (1 / 2) * 0 = 1 * 1 * Real.cos (radians .degree 60)
      rw [e1]; norm_num
    · show (1 : ℝ) * 0 + 0 * 1 + 0 * 0 = 1 * 1 * Real.cos (radians .degree 90)
      rw [e2]; norm_num
  · rw [Matrix.det_fin_three]; simp

end Brille.Props
