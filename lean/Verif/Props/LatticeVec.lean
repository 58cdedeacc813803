import Verif.Props.Lattice

/-! C65: vectors of a lattice. -/
namespace Brille.Props
open Brille.Lat Brille.Spec
open Brille.Rot (LengthUnit)

/-- **C65 (reachable).** Every lattice made from a matrix of vectors that do not lie in a plane, from parameters, or as the
primitive lattice of another has dual bases and the metrics that belong to them. -/
theorem C65_reachable :
    (∀ lu v column l, Matrix.det (Matrix.of v) ≠ 0 → fromVectors lu v column = some l → Healthy l) ∧
    (∀ lu len ang au l, au ≠ .notProvided → (∀ i, 0 < len i) →
      (∀ i, 0 < radians au (ang i) ∧ radians au (ang i) < Real.pi) → fromParameters lu len ang au = some l → Healthy l) ∧
    (∀ l b p, Healthy l → l.primitive b = some p → Healthy p) := by
  refine ⟨?_, ?_, ?_⟩
  · intro lu v column l hv hl
    refine (fromMatrix_spec ?_ hl).1
    cases column
    · have : Matrix.of (Mat.transpose v) = (Matrix.of v).transpose := rfl
      simp only [Bool.false_eq_true, if_false]
      rwa [this, Matrix.det_transpose]
    · exact hv
  · intro lu len ang au l hau hlen hang hl
    have hlu : IsLengthUnit lu := by
      unfold fromParameters at hl
      rw [cosinesSines_eq au hau] at hl
      cases lu with
      | angstrom => exact .inl rfl
      | inverseAngstrom => exact .inr rfl
      | none => exact absurd hl (by simp)
      | realLattice => exact absurd hl (by simp)
      | reciprocalLattice => exact absurd hl (by simp)
    have hd := ((C64_parameters lu hlu len ang au hau hlen hang).2 l hl).1
    have hm : ∃ m, fromMatrix m .inverseAngstrom = some l := by
      unfold fromParameters at hl
      rw [cosinesSines_eq au hau] at hl
      rcases hlu with rfl | rfl
      all_goals
        simp only [Option.bind_some, Option.bind_eq_some_iff] at hl
        obtain ⟨r, -, h⟩ := hl
        exact ⟨_, h⟩
    obtain ⟨m, hm⟩ := hm
    exact ⟨hd, fun i j => (C64_metrics _ _ _ hm i j).1, fun i j => (C64_metrics _ _ _ hm i j).2⟩
  · intro l b p hl hp
    have key : ∀ c : Spec.Centring, letter c = b → Healthy p := by
      intro c hcb
      subst hcb
      obtain ⟨p', hp', hd, hm, -⟩ := C64_primitive l hl.dual c
      rw [hp] at hp'
      cases Option.some.inj hp'
      by_cases hc : c = .P
      · subst hc
        have : p = l := (Option.some.inj hp).symm
        rw [this]; exact hl
      · exact ⟨hd, fun i j => (hm hc i j).1, fun i j => (hm hc i j).2⟩
    cases b
    · exact absurd hp (by simp [Lattice.primitive, Prim.doesNothing, Prim.get6P])
    · exact key .P rfl
    · exact key .A rfl
    · exact key .B rfl
    · exact key .C rfl
    · exact key .I rfl
    · exact key .F rfl
    · exact key .R rfl

theorem mulVec3R (m : M3) (x : V3) : Mat.mulVec m x = position m x := by
  funext k
  rw [Mat.mulVec_eq]
  simp [position, Matrix.mulVec, dotProduct, Fin.sum_univ_three]

/-- The basis of one of the two spaces. -/
def basisOf (l : Lattice) (lu : LengthUnit) : M3 := if lu = .angstrom then l.real else l.recip

/-- **C65 (position).** The position of a vector is the sum of the basis vectors of its space, times its coordinates. -/
theorem C65_position (l : Lattice) (v : LVec) (hv : IsLengthUnit v.type) :
    xyz l v = some (position (basisOf l v.type) v.hkl) := by
  obtain ⟨t, x⟩ := v
  rcases hv with h | h <;> simp only at h <;> subst h <;> simp [xyz, Lattice.vectors, basisOf, mulVec3R]

theorem metric_some (l : Lattice) (h : Healthy l) (u : LengthUnit) (hu : IsLengthUnit u) :
    ∃ g, l.metric u = some g ∧ ∀ i j, g i j = columnDot (basisOf l u) (basisOf l u) i j := by
  rcases hu with rfl | rfl
  · exact ⟨_, rfl, h.realMetric⟩
  · exact ⟨_, rfl, h.recipMetric⟩

/-- a position in one space, from the coordinates in the other -/
theorem star_position (l : Lattice) (h : Healthy l) (u : LengthUnit) (hu : IsLengthUnit u) (g : M3)
    (hg : ∀ i j, g i j = columnDot (basisOf l u) (basisOf l u) i j) (x : V3) :
    position (basisOf l (starType u)) (position g x) = fun k => 2 * Real.pi * position (basisOf l u) x k := by
  have core : ∀ A B : M3, DualBases A B → (∀ i j, g i j = columnDot A A i j) →
      position B (position g x) = fun k => 2 * Real.pi * position A x k := by
    intro A B hd hg
    have hr := dual_right (dual_symm hd)
    funext k
    have e : ∀ j, B k 0 * A j 0 + B k 1 * A j 1 + B k 2 * A j 2 = if k = j then 2 * Real.pi else 0 := by
      intro j
      have t := congrFun (congrFun hr k) j
      rw [Matrix.mul_apply, Fin.sum_univ_three, Matrix.smul_apply, Matrix.one_apply] at t
      simpa using t
    have key : position B (position g x) k
        = (B k 0 * A 0 0 + B k 1 * A 0 1 + B k 2 * A 0 2) * position A x 0
        + (B k 0 * A 1 0 + B k 1 * A 1 1 + B k 2 * A 1 2) * position A x 1
        + (B k 0 * A 2 0 + B k 1 * A 2 1 + B k 2 * A 2 2) * position A x 2 := by
      unfold position
      simp only [hg, columnDot]
      ring
    rw [key, e 0, e 1, e 2]
    fin_cases k <;> simp
  rcases hu with rfl | rfl
  · exact core _ _ h.dual hg
  · exact core _ _ (dual_symm h.dual) hg

/-- **C65 (scalar product).** The scalar product of two vectors of a lattice, of the same or of different spaces, is the
scalar product of their positions. -/
theorem C65_dot (l : Lattice) (h : Healthy l) (a b : LVec) (ha : IsLengthUnit a.type) (hb : IsLengthUnit b.type) :
    lvecDot l a b
      = some (scalarProduct (position (basisOf l a.type) a.hkl) (position (basisOf l b.type) b.hkl)) := by
  obtain ⟨ta, x⟩ := a
  obtain ⟨tb, y⟩ := b
  simp only at ha hb
  by_cases hab : ta = tb
  · subst hab
    obtain ⟨g, hg, hge⟩ := metric_some l h ta ha
    unfold lvecDot
    rw [if_neg (by simp)]
    simp only [hg, Option.map_some]
    congr 1
    unfold metricDot
    rw [mulVec3R]
    unfold position scalarProduct
    simp only [hge, columnDot, position]
    ring
  · unfold lvecDot
    rw [if_pos hab]
    congr 1
    have core : ∀ A B : M3, DualBases A B → dot x y * (2 * Real.pi) = scalarProduct (position A x) (position B y) := by
      intro A B hd
      have e := fun i j => hd i j
      unfold columnDot at e
      have e00 := e 0 0; have e01 := e 0 1; have e02 := e 0 2
      have e10 := e 1 0; have e11 := e 1 1; have e12 := e 1 2
      have e20 := e 2 0; have e21 := e 2 1; have e22 := e 2 2
      simp at e00 e01 e02 e10 e11 e12 e20 e21 e22
      unfold scalarProduct position dot
      linear_combination (-(x 0 * y 0)) * e00 - x 0 * y 1 * e01 - x 0 * y 2 * e02 - x 1 * y 0 * e10 - x 1 * y 1 * e11
        - x 1 * y 2 * e12 - x 2 * y 0 * e20 - x 2 * y 1 * e21 - x 2 * y 2 * e22
    rcases ha with rfl | rfl <;> rcases hb with rfl | rfl
    · exact absurd rfl hab
    · exact core _ _ h.dual
    · exact core _ _ (dual_symm h.dual)
    · exact absurd rfl hab

/-- **C65 (length).** The norm of a vector is the length of its position. -/
theorem C65_norm (l : Lattice) (h : Healthy l) (a : LVec) (ha : IsLengthUnit a.type) :
    lvecNorm l a = some (Real.sqrt
      (scalarProduct (position (basisOf l a.type) a.hkl) (position (basisOf l a.type) a.hkl))) := by
  unfold lvecNorm
  rw [C65_dot l h a a ha ha]; rfl

theorem starType_unit (u : LengthUnit) (hu : IsLengthUnit u) :
    IsLengthUnit (starType u) ∧ starType u ≠ u ∧ starType (starType u) = u := by
  rcases hu with rfl | rfl <;> simp [starType, IsLengthUnit]

/-- A position determines the coordinates. -/
theorem position_inj (l : Lattice) (h : Healthy l) (u : LengthUnit) (hu : IsLengthUnit u) (x y : V3)
    (e : position (basisOf l u) x = position (basisOf l u) y) : x = y := by
  obtain ⟨m, n, hm, hn, hi⟩ := (C64_duality l h.dual u hu).2
  have hmb : m = basisOf l u := by
    rcases hu with rfl | rfl
    · exact (Option.some.inj hm).symm
    · exact (Option.some.inj hm).symm
  subst hmb
  rw [← (hi x).1, e, (hi y).1]

theorem position_div (m : M3) (x : V3) (t : ℝ) (ht : t ≠ 0) (k : Fin 3) :
    position m (fun i => x i / t) k = position m x k / t := by
  unfold position; field_simp

/-- **C65 (dual vector).** The method `star` expresses the same vector in the basis of the other space; done twice it
gives the vector back. -/
theorem C65_star (l : Lattice) (h : Healthy l) (v : LVec) (hv : IsLengthUnit v.type) :
    ∃ w, v.star l = some w ∧ w.type = starType v.type ∧ w.type ≠ v.type ∧ xyz l w = xyz l v ∧ w.star l = some v := by
  obtain ⟨g, hg, hge⟩ := metric_some l h v.type hv
  obtain ⟨s1, s2, s3⟩ := starType_unit v.type hv
  have hp := star_position l h v.type hv g hge v.hkl
  have main : ∀ v : LVec, IsLengthUnit v.type → ∃ w, v.star l = some w ∧ w.type = starType v.type ∧
      position (basisOf l w.type) w.hkl = position (basisOf l v.type) v.hkl := by
    intro v hv
    obtain ⟨g, hg, hge⟩ := metric_some l h v.type hv
    have hp := star_position l h v.type hv g hge v.hkl
    refine ⟨⟨starType v.type, fun i => Mat.mulVec g v.hkl i / (2 * Real.pi)⟩, ?_, rfl, ?_⟩
    · unfold LVec.star
      rw [hg]; rfl
    · funext k
      show position (basisOf l (starType v.type)) (fun i => Mat.mulVec g v.hkl i / (2 * Real.pi)) k = _
      rw [position_div _ _ _ twoPi, mulVec3R, hp]
      have := twoPi
      field_simp
  obtain ⟨w, hw, ht, hx⟩ := main v hv
  obtain ⟨u, hu, ht', hx'⟩ := main w (ht ▸ s1)
  refine ⟨w, hw, ht, ht ▸ s2, ?_, ?_⟩
  · rw [C65_position l w (ht ▸ s1), C65_position l v hv, hx]
  · rw [hu]
    have htt : u.type = v.type := by rw [ht', ht, s3]
    have hxx : u.hkl = v.hkl := by
      apply position_inj l h v.type hv
      rw [← hx, ← hx', htt]
    obtain ⟨ut, ux⟩ := u
    obtain ⟨vt, vx⟩ := v
    simp only at htt hxx
    rw [htt, hxx]

/-- **C65 (vector product).** The vector product of two vectors of one space is a vector of this space, and its position
is the vector product of their positions. -/
theorem C65_cross (l : Lattice) (h : Healthy l) (a b : LVec) (ha : IsLengthUnit a.type) (hb : b.type = a.type) :
    ∃ c, lvecCross l a b = some c ∧ c.type = a.type ∧
      position (basisOf l c.type) c.hkl
        = vectorProduct (position (basisOf l a.type) a.hkl) (position (basisOf l b.type) b.hkl) := by
  obtain ⟨s1, s2, s3⟩ := starType_unit a.type ha
  have hvol : l.volume a.type = some (Matrix.det (Matrix.of (basisOf l a.type))) := by
    rcases ha with h | h <;> rw [h] <;> simp [Lattice.volume, Lattice.vectors, basisOf, Mat.determinant_eq]
  obtain ⟨w, hw, ht, -, hx, -⟩ := C65_star l h ⟨starType a.type, fun i => vectorCross a.hkl b.hkl i
    * (Matrix.det (Matrix.of (basisOf l a.type)) / (2 * Real.pi))⟩ s1
  have htw : w.type = a.type := by rw [ht]; exact s3
  refine ⟨w, ?_, htw, ?_⟩
  · unfold lvecCross
    rw [if_neg (by simp [hb]), hvol, Option.bind_some]
    exact hw
  · rw [C65_position l w (htw ▸ ha), C65_position l _ s1] at hx
    rw [Option.some.inj hx, hb]
    show position (basisOf l (starType a.type)) _ = _
    have core : ∀ A B : M3, DualBases A B → ∀ x y : V3,
        position B (fun i => vectorCross x y i * (Matrix.det (Matrix.of A) / (2 * Real.pi)))
          = vectorProduct (position A x) (position A y) := by
      intro A B hd x y
      set w := vectorProduct (position A x) (position A y) with hwd
      have hr := dual_right (dual_symm hd)
      have e : ∀ k j, B k 0 * A j 0 + B k 1 * A j 1 + B k 2 * A j 2 = if k = j then 2 * Real.pi else 0 := by
        intro k j
        have t := congrFun (congrFun hr k) j
        rw [Matrix.mul_apply, Fin.sum_univ_three, Matrix.smul_apply, Matrix.one_apply] at t
        simpa using t
      have hA : ∀ i, vectorCross x y i * Matrix.det (Matrix.of A) = A 0 i * w 0 + A 1 i * w 1 + A 2 i * w 2 := by
        intro i
        rw [Matrix.det_fin_three]
        have w0 : w 0 = position A x 1 * position A y 2 - position A x 2 * position A y 1 := rfl
        have w1 : w 1 = position A x 2 * position A y 0 - position A x 0 * position A y 2 := rfl
        have w2 : w 2 = position A x 0 * position A y 1 - position A x 1 * position A y 0 := rfl
        rw [w0, w1, w2]
        simp only [Matrix.of_apply]
        fin_cases i
        · show (x 1 * y 2 - x 2 * y 1) * _ = _
          unfold position; simp only [Fin.zero_eta]; ring
        · show (x 2 * y 0 - x 0 * y 2) * _ = _
          unfold position; simp only [Fin.mk_one]; ring
        · show (x 0 * y 1 - x 1 * y 0) * _ = _
          unfold position; simp only [Fin.reduceFinMk]; ring
      have h2 := twoPi
      funext k
      have key : position B (fun i => vectorCross x y i * (Matrix.det (Matrix.of A) / (2 * Real.pi))) k
          = ((B k 0 * A 0 0 + B k 1 * A 0 1 + B k 2 * A 0 2) * w 0
            + (B k 0 * A 1 0 + B k 1 * A 1 1 + B k 2 * A 1 2) * w 1
            + (B k 0 * A 2 0 + B k 1 * A 2 1 + B k 2 * A 2 2) * w 2) / (2 * Real.pi) := by
        have : position B (fun i => vectorCross x y i * (Matrix.det (Matrix.of A) / (2 * Real.pi))) k
            = (B k 0 * (vectorCross x y 0 * Matrix.det (Matrix.of A))
              + B k 1 * (vectorCross x y 1 * Matrix.det (Matrix.of A))
              + B k 2 * (vectorCross x y 2 * Matrix.det (Matrix.of A))) / (2 * Real.pi) := by
          unfold position; ring
        rw [this, hA, hA, hA]
        congr 1; ring
      rw [key, e k 0, e k 1, e k 2]
      fin_cases k <;> simp
    rcases ha with h1 | h1
    · rw [h1]; exact core _ _ h.dual _ _
    · rw [h1]; exact core _ _ (dual_symm h.dual) _ _

/-- **C65 (from positions).** Vectors made from a position have this position, and a vector made from the position of a
vector is this vector. -/
theorem C65_from_position (l : Lattice) (h : Healthy l) (u : LengthUnit) (hu : IsLengthUnit u) (e : V3) :
    (∃ v, fromXyzLike l u e = some v ∧ v.type = u ∧ xyz l v = some e) ∧
    ∀ x, fromXyzLike l u (position (basisOf l u) x) = some ⟨u, x⟩ := by
  obtain ⟨m, n, hm, hn, hi⟩ := (C64_duality l h.dual u hu).2
  have hmb : m = basisOf l u := by
    rcases hu with rfl | rfl
    · exact (Option.some.inj hm).symm
    · exact (Option.some.inj hm).symm
  subst hmb
  have hf : ∀ e, fromXyzLike l u e = some ⟨u, position n e⟩ := by
    intro e
    unfold fromXyzLike
    rw [hn, Option.map_some, mulVec3R]
  refine ⟨⟨_, hf e, rfl, ?_⟩, fun x => ?_⟩
  · rw [C65_position l _ hu]
    exact congrArg some (hi e).2
  · rw [hf, (hi x).1]

/-- **C65 fails** for the free function `star`: its result is 2π times as long as the vector. -/
theorem C65_star_function_counterexample (l : Lattice) (h : Healthy l) (v : LVec) (hv : IsLengthUnit v.type) :
    ∃ w, starFunction l v = some w ∧ w.type = starType v.type ∧
      position (basisOf l w.type) w.hkl = fun k => 2 * Real.pi * position (basisOf l v.type) v.hkl k := by
  obtain ⟨g, hg, hge⟩ := metric_some l h v.type hv
  refine ⟨_, by unfold starFunction; rw [hg]; rfl, rfl, ?_⟩
  show position (basisOf l (starType v.type)) (Mat.mulVec g v.hkl) = _
  rw [mulVec3R, star_position l h v.type hv g hge]

/-- Healthy lattices exist: the cubic lattice with vectors of length two. -/
example : ∃ l, fromVectors .angstrom ![![2, 0, 0], ![0, 2, 0], ![0, 0, 2]] false = some l ∧ Healthy l := by
  have hd : Matrix.det (Matrix.of (![![2, 0, 0], ![0, 2, 0], ![0, 0, 2]] : M3)) ≠ 0 := by
    rw [Matrix.det_fin_three]; simp
  obtain ⟨l, hl, -⟩ := C64_vectors .angstrom (.inl rfl) _ false hd
  exact ⟨l, hl, C65_reachable.1 _ _ _ _ hd hl⟩

end Brille.Props
