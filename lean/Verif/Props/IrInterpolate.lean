import Verif.Model.IrInterpolate
import Verif.Props.MoveInto
import Verif.Props.RotateGamma

/-
C60: interpolating at any point of reciprocal space.
-/
namespace Brille.Props

open Brille.IrInterp Brille.Move Brille.Prim Brille.Rot Brille.Spec Brille.Mot Brille.Atoms

variable {K : Type} [CommRing K]

theorem inverseOps_of {r s : Fin 3 → Fin 3 → ℤ} (h : Matrix.of r * Matrix.of s = 1) (h' : Matrix.of s * Matrix.of r = 1) :
    InverseOps r s := by
  constructor
  · intro i j
    have := congrFun (congrFun h i) j
    rw [Matrix.mul_apply, Matrix.one_apply] at this
    exact this
  · intro i j
    have := congrFun (congrFun h' i) j
    rw [Matrix.mul_apply, Matrix.one_apply] at this
    exact this

/-- What happens to one point. -/
structure PointDone (b : Bravais) (z : Zone) (contains : OnLattice → (Fin 3 → ℚ) → Bool) (wedge : (Fin 3 → ℚ) → Bool)
    (ps : List (Fin 3 → Fin 3 → ℤ)) (interp : (Fin 3 → ℚ) → Option ((ℕ → K) × (ℕ → K))) (s : Turning K)
    (values vectors : Kind) (Q : Fin 3 → ℚ) (out : (ℕ → K) × (ℕ → K)) : Prop where
  steps : ∃ p tau x, irMoveinto b z contains wedge ps Q = some (p, tau) ∧ interp p.q = some x ∧
    turnRow s ps values p x.1 = some out.1 ∧ turnRow s ps vectors p x.2 = some out.2

theorem turnBoth_some {s : Turning K} {ps : List (Fin 3 → Fin 3 → ℤ)} {values vectors : Kind}
    {r : IrPoint × (ℕ → K) × (ℕ → K)} {o : (ℕ → K) × (ℕ → K)} (h : turnBoth s ps values vectors r = some o) :
    turnRow s ps values r.1 r.2.1 = some o.1 ∧ turnRow s ps vectors r.1 r.2.2 = some o.2 := by
  unfold turnBoth at h
  split at h
  · rename_i a b h1 h2
    obtain rfl := Option.some.inj h
    exact ⟨h1, h2⟩
  · cases h

theorem irInterpolateAt_points (b : Bravais) (z : Zone) (contains : OnLattice → (Fin 3 → ℚ) → Bool)
    (wedge : (Fin 3 → ℚ) → Bool) (ps : List (Fin 3 → Fin 3 → ℤ))
    (interp : (Fin 3 → ℚ) → Option ((ℕ → K) × (ℕ → K))) (s : Turning K) (values vectors : Kind) (Qs : List (Fin 3 → ℚ))
    (out : List ((ℕ → K) × (ℕ → K))) (h : irInterpolateAt b z contains wedge ps interp s values vectors Qs = some out) :
    out.length = Qs.length ∧ ∀ (i : ℕ) (Q : Fin 3 → ℚ), Qs[i]? = some Q →
      ∃ o, out[i]? = some o ∧ PointDone b z contains wedge ps interp s values vectors Q o := by
  unfold irInterpolateAt at h
  split at h
  · cases h
  rename_i moved hm
  split at h
  · cases h
  rename_i rows hr
  obtain ⟨l1, g1⟩ := mapM_some_get _ _ _ hm
  obtain ⟨l2, g2⟩ := mapM_some_get _ _ _ hr
  obtain ⟨l3, g3⟩ := mapM_some_get _ _ _ h
  refine ⟨by omega, fun i Q hQ => ?_⟩
  obtain ⟨⟨p, tau⟩, a1, a2⟩ := g1 i Q hQ
  obtain ⟨r, b1, b2⟩ := g2 i _ a2
  obtain ⟨o, c1, c2⟩ := g3 i _ b2
  rw [Option.map_eq_some_iff] at b1
  obtain ⟨x, d1, rfl⟩ := b1
  obtain ⟨e1, e2⟩ := turnBoth_some c1
  exact ⟨o, c2, ⟨p, tau, x, a1, d1, e1, e2⟩⟩

/-- What is known of the point in the irreducible zone and its operations. -/
theorem moved_point (c : Centring) (z : Zone) (contains : OnLattice → (Fin 3 → ℚ) → Bool) (wedge : (Fin 3 → ℚ) → Bool)
    (ps : List (Fin 3 → Fin 3 → ℤ)) (hid : idMat ∈ ps) (Q : Fin 3 → ℚ) (p : IrPoint) (tau : IPt)
    (h : irMoveinto (letter c) z contains wedge ps Q = some (p, tau)) :
    wedge p.q = true ∧ IsReciprocalPoint c (fun i => tau i) ∧ ∃ r rinv, ps[p.ridx]? = some r ∧ ps[p.invRidx]? = some rinv ∧
      InverseOps r rinv ∧ Q = fun i => (∑ j, (r j i : ℚ) * p.q j) + tau i := by
  obtain ⟨h1, h2, r, rinv, h3, h4, h5, h6, h7⟩ := C34_ir_moveinto c z contains wedge ps hid Q p tau h
  refine ⟨h1, h2, r, rinv, h3, h4, inverseOps_of h5 h6, ?_⟩
  funext i
  rw [h7 i, Fin.sum_univ_three]

/-- A function on reciprocal space, with rows of numbers as values, that is periodic and has the symmetry of the
operations, its vectors and matrices being those of reciprocal space. -/
def SymmetricReciprocal (c : Centring) (ps : List (Fin 3 → Fin 3 → ℤ)) (l : Layout) (f : (Fin 3 → ℚ) → ℕ → K) : Prop :=
  ∀ R ∈ ps, ∀ S ∈ ps, InverseOps R S → ∀ (q : Fin 3 → ℚ) (tau : Fin 3 → ℤ), IsReciprocalPoint c (fun i => tau i) →
    RowTurned l.e0 l.e1 l.e2 l.branches (times (wholeT R)) (fun m => timesM (wholeT R) (timesM m (wholeT S)))
      (f q) (f fun i => (∑ j, (R j i : ℚ) * q j) + tau i)

/-- The same for pseudovectors with components along the lattice vectors. -/
def SymmetricAxial (c : Centring) (ps : List (Fin 3 → Fin 3 → ℤ)) (l : Layout) (f : (Fin 3 → ℚ) → ℕ → K) : Prop :=
  ∀ R ∈ ps, ∀ S ∈ ps, InverseOps R S → ∀ (q : Fin 3 → ℚ) (tau : Fin 3 → ℤ), IsReciprocalPoint c (fun i => tau i) →
    RowTurned l.e0 l.e1 l.e2 l.branches (fun v j => (det3 R : K) * times (whole S) v j)
      (fun m => timesM (whole S) (timesM m (whole R))) (f q) (f fun i => (∑ j, (R j i : ℚ) * q j) + tau i)

/-- The data is of a kind for which the code does the right thing, and the function has its symmetry: reciprocal vectors,
pseudovectors, or scalars. -/
def RightlyTurned (c : Centring) (ps : List (Fin 3 → Fin 3 → ℤ)) (k : Kind) (f : (Fin 3 → ℚ) → ℕ → K) : Prop :=
  (ProperLayout k.layout ∧ k.unit = .reciprocalLattice ∧ k.like = .vector ∧ SymmetricReciprocal c ps k.layout f) ∨
  (ProperLayout k.layout ∧ k.unit = .realLattice ∧ k.like = .pseudovector ∧ SymmetricAxial c ps k.layout f) ∨
  (k.layout.e1 = 0 ∧ k.layout.e2 = 0 ∧ (k.unit = .realLattice ∨ k.unit = .reciprocalLattice) ∧ k.like = .vector ∧
    ∀ R ∈ ps, ∀ (q : Fin 3 → ℚ) (tau : Fin 3 → ℤ), IsReciprocalPoint c (fun i => tau i) →
      (f fun i => (∑ j, (R j i : ℚ) * q j) + tau i) = f q)

theorem turnRow_field (c : Centring) (s : Turning K) (ps : List (Fin 3 → Fin 3 → ℤ)) (k : Kind) (f : (Fin 3 → ℚ) → ℕ → K)
    (hk : RightlyTurned c ps k f) (p : IrPoint) (R S : Fin 3 → Fin 3 → ℤ) (hR : ps[p.ridx]? = some R)
    (hS : ps[p.invRidx]? = some S) (hRS : InverseOps R S) (tau : Fin 3 → ℤ) (htau : IsReciprocalPoint c (fun i => tau i))
    (o : ℕ → K) (h : turnRow s ps k p (f p.q) = some o) : o = f fun i => (∑ j, (R j i : ℚ) * p.q j) + tau i := by
  have mR := List.mem_of_getElem? hR
  have mS := List.mem_of_getElem? hS
  unfold turnRow at h
  rcases hk with ⟨hl, hu, hli, hf⟩ | ⟨hl, hu, hli, hf⟩ | ⟨h1, h2, hu, hli, hf⟩
  · rw [hu, hli] at h
    have e : (ripRecip k.layout ps p.ridx p.invRidx (f p.q)).2 = o := Option.some.inj h
    rw [← e]
    exact RowTurned.unique hl.vectors hl.matrices (C58_recip k.layout hl ps _ _ R S hR hS hRS (f p.q)).2
      (hf R mR S mS hRS p.q tau htau)
  · rw [hu, hli] at h
    have e : (ripAxial k.layout ps p.ridx p.invRidx (f p.q)).2 = o := Option.some.inj h
    rw [← e]
    exact RowTurned.unique hl.vectors hl.matrices (C58_axial k.layout hl ps _ _ R S hR hS hRS (f p.q)).2
      (hf R mR S mS hRS p.q tau htau)
  · have hun := C58_unchanged k.layout ps p.ridx p.invRidx (f p.q) (Or.inl (by omega))
    rw [hf R mR p.q tau htau]
    rcases hu with hu | hu
    · rw [hu, hli] at h
      have e : (ripReal k.layout ps p.ridx p.invRidx (f p.q)).2 = o := Option.some.inj h
      rw [← e]; exact hun.1
    · rw [hu, hli] at h
      have e : (ripRecip k.layout ps p.ridx p.invRidx (f p.q)).2 = o := Option.some.inj h
      rw [← e]; exact hun.2.1

/-- **C60 (fields with the symmetry of the crystal).** If the interpolation inside of the irreducible zone reproduces two
functions that are periodic and have the symmetry of the operations, then the results at all points of reciprocal space,
anywhere, are the values of these functions: reciprocal vectors and matrices, pseudovectors, scalars, in any layout. -/
theorem C60_fields (c : Centring) (z : Zone) (contains : OnLattice → (Fin 3 → ℚ) → Bool) (wedge : (Fin 3 → ℚ) → Bool)
    (ps : List (Fin 3 → Fin 3 → ℤ)) (hid : idMat ∈ ps) (interp : (Fin 3 → ℚ) → Option ((ℕ → K) × (ℕ → K)))
    (s : Turning K) (values vectors : Kind) (f g : (Fin 3 → ℚ) → ℕ → K) (hf : RightlyTurned c ps values f)
    (hg : RightlyTurned c ps vectors g) (hin : ∀ q, wedge q = true → ∀ x, interp q = some x → x = (f q, g q))
    (Qs : List (Fin 3 → ℚ)) (out : List ((ℕ → K) × (ℕ → K)))
    (h : irInterpolateAt (letter c) z contains wedge ps interp s values vectors Qs = some out) :
    out = Qs.map fun Q => (f Q, g Q) := by
  obtain ⟨hlen, hget⟩ := irInterpolateAt_points _ z contains wedge ps interp s values vectors Qs out h
  refine List.ext_getElem? fun i => ?_
  rw [List.getElem?_map]
  cases hQ : Qs[i]? with
  | none =>
    rw [List.getElem?_eq_none_iff] at hQ
    rw [List.getElem?_eq_none_iff.2 (by omega)]
    rfl
  | some Q =>
    obtain ⟨o, ho, ⟨p, tau, x, h1, h2, h3, h4⟩⟩ := hget i Q hQ
    obtain ⟨hw, htau, R, S, hR, hS, hRS, rfl⟩ := moved_point c z contains wedge ps hid Q p tau h1
    have hx := hin p.q hw x h2
    rw [hx] at h3 h4
    rw [ho, Option.map_some, Option.some.injEq]
    exact Prod.ext (turnRow_field c s ps values f hf p R S hR hS hRS tau htau o.1 h3)
      (turnRow_field c s ps vectors g hg p R S hR hS hRS tau htau o.2 h4)

/-- **C60 (phonons).** For every crystal whose forces have the symmetry of its space group: if at the points of the
irreducible zone the interpolation gives energies, and eigenvectors of the dynamical matrix that belong to them, then at
every point of reciprocal space the results are energies and eigenvectors that belong to them.  `eigenvalue` takes the
energy to the eigenvalue. -/
theorem C60_phonons (c : Centring) (z : Zone) (contains : OnLattice → (Fin 3 → ℚ) → Bool) (wedge : (Fin 3 → ℚ) → Bool)
    (ps : List (Fin 3 → Fin 3 → ℤ)) (hid : idMat ∈ ps) (interp : (Fin 3 → ℚ) → Option ((ℕ → K) × (ℕ → K)))
    (s : Turning K) (he : PhaseFactor s.e) (spg : List Motion) (cell : Basis) (hcell : ProperCell cell)
    (hne : cell.positions ≠ []) (hdet : ∀ m ∈ spg, det3 m.W = 1 ∨ det3 m.W = -1)
    (htab : Gamma.construct isZero isSame ps spg cell = some s.table)
    (hxyz : timesM s.fromXyz s.toXyz = whole idMat) (hxyz' : timesM s.toXyz s.fromXyz = whole idMat)
    (F : Forces K) (hfin : FiniteRange F)
    (hsym : ∀ m ∈ spg, ∀ R ∈ ps, InverseOps R m.W →
      SymmetricForces cell F m (timesM (timesM s.toXyz (whole m.W)) s.fromXyz)
        (timesM (timesM s.toXyz (whole R)) s.fromXyz))
    (n : ℕ) (eigenvalue : K → K)
    (hin : ∀ q, wedge q = true → ∀ x, interp q = some x → ∀ b < n,
      IsMode s.e F cell.positions.length q (vectorOf 0 (3 * cell.positions.length) 0 x.2 b) (eigenvalue (x.1 b)))
    (Qs : List (Fin 3 → ℚ)) (out : List ((ℕ → K) × (ℕ → K)))
    (h : irInterpolateAt (letter c) z contains wedge ps interp s ⟨.realLattice, .vector, false, ⟨1, 0, 0, n⟩⟩
      ⟨.angstrom, .gamma, true, ⟨0, 3 * cell.positions.length, 0, n⟩⟩ Qs = some out) :
    out.length = Qs.length ∧ ∀ (i : ℕ) (Q : Fin 3 → ℚ), Qs[i]? = some Q → ∃ o, out[i]? = some o ∧ ∀ b < n,
      IsMode s.e F cell.positions.length Q (vectorOf 0 (3 * cell.positions.length) 0 o.2 b) (eigenvalue (o.1 b)) := by
  obtain ⟨hlen, hget⟩ := irInterpolateAt_points _ z contains wedge ps interp s _ _ Qs out h
  refine ⟨hlen, fun i Q hQ => ?_⟩
  obtain ⟨o, ho, ⟨p, tau, x, h1, h2, h3, h4⟩⟩ := hget i Q hQ
  obtain ⟨hw, htau, R, S, hR, hS, hRS, rfl⟩ := moved_point c z contains wedge ps hid Q p tau h1
  refine ⟨o, ho, fun b hb => ?_⟩
  -- the energies stay
  have e1 : x.1 = o.1 := by
    have hun := (C58_unchanged ⟨1, 0, 0, n⟩ ps p.ridx p.invRidx x.1 (Or.inl ⟨Nat.succ_pos 2, Nat.succ_pos 8⟩)).1
    have : (ripReal ⟨1, 0, 0, n⟩ ps p.ridx p.invRidx x.1).2 = o.1 := Option.some.inj h3
    rw [← this, hun]
  obtain ⟨x', hx', hmodes⟩ := C59_modes he ps spg cell hcell hne hdet s.table htab s.toXyz s.fromXyz hxyz hxyz' p.ridx
    p.invRidx R S hR hS hRS F hfin (fun m hm hW => by
      have := hsym m hm R (List.mem_of_getElem? hR) (by rw [hW]; exact hRS)
      rw [hW] at this
      exact this) p.q _ tau (fun i => rfl) 0 n x.2 (s.scratch p.q)
  have e2 : x' = o.2 := by
    unfold turnRow at h4
    rw [hx'] at h4
    exact Option.some.inj h4
  rw [← e1, ← e2]
  exact (hmodes b hb).2 _ (hin p.q hw x h2 b hb)

/-- **C60 (points known to be inside).** Without moving, data other than phonon eigenvectors is what the interpolation
gives, if the unit operation is there. -/
theorem C60_no_move (ps : List (Fin 3 → Fin 3 → ℤ)) (hid : idMat ∈ ps)
    (interp : (Fin 3 → ℚ) → Option ((ℕ → K) × (ℕ → K))) (s : Turning K) (values vectors : Kind)
    (hv : values.like ≠ .gamma) (hw : vectors.like ≠ .gamma) (Qs : List (Fin 3 → ℚ)) (out : List ((ℕ → K) × (ℕ → K)))
    (h : irInterpolateNoMove ps interp s values vectors Qs = some out) : Qs.mapM interp = some out := by
  have hget : ps[Sym.findIndex ps idMat]? = some idMat := by
    unfold Sym.findIndex
    have hlt : ps.findIdx (fun r => Sym.matBeq idMat r) < ps.length :=
      List.findIdx_lt_length.2 ⟨idMat, hid, (Sym.matBeq_iff _ _).2 rfl⟩
    rw [List.getElem?_eq_getElem hlt]
    exact congrArg some ((Sym.matBeq_iff _ _).1 (List.findIdx_getElem (w := hlt))).symm
  have hrow : ∀ (k : Kind) (hk : k.like ≠ .gamma) (q : Fin 3 → ℚ) (x o : ℕ → K),
      turnRow s ps k ⟨q, Sym.findIndex ps idMat, Sym.findIndex ps idMat⟩ x = some o → o = x := by
    intro k hk q x o ho
    obtain ⟨a1, a2, a3⟩ := C58_unchanged k.layout ps (Sym.findIndex ps idMat) (Sym.findIndex ps idMat) x (Or.inr hget)
    unfold turnRow rotateInPlace at ho
    split at ho
    all_goals first
      | (rename_i hl; exact absurd hl hk)
      | (simp only [Option.map_some, Option.some.injEq, a1, a2, a3] at ho; exact ho.symm)
      | (simp at ho)
  unfold irInterpolateNoMove at h
  split at h
  · cases h
  rename_i rows hr
  obtain ⟨l1, g1⟩ := mapM_some_get _ _ _ hr
  obtain ⟨l2, g2⟩ := mapM_some_get _ _ _ h
  have key : ∀ (Qs : List (Fin 3 → ℚ)) (out : List ((ℕ → K) × (ℕ → K))), out.length = Qs.length →
      (∀ (i : ℕ) (q : Fin 3 → ℚ), Qs[i]? = some q → ∃ o, out[i]? = some o ∧ interp q = some o) →
      Qs.mapM interp = some out := by
    intro Qs
    induction Qs with
    | nil => intro out hl _; rw [List.length_eq_zero_iff.1 hl]; rfl
    | cons q Qs ih =>
      intro out hl hp
      cases out with
      | nil => simp at hl
      | cons o out =>
        obtain ⟨o', h1, h2⟩ := hp 0 q rfl
        have e : o = o' := Option.some.inj h1
        subst e
        rw [List.mapM_cons, h2, ih out (by simpa using hl) fun i q' hq' => hp (i + 1) q' hq']
        rfl
  refine key Qs out (by omega) fun i q hq => ?_
  obtain ⟨r, b1, b2⟩ := g1 i q hq
  obtain ⟨o, c1, c2⟩ := g2 i _ b2
  rw [Option.map_eq_some_iff] at b1
  obtain ⟨x, d1, rfl⟩ := b1
  obtain ⟨e1, e2⟩ := turnBoth_some c1
  refine ⟨o, c2, ?_⟩
  rw [d1, ← Prod.ext (hrow values hv q x.1 o.1 e1) (hrow vectors hw q x.2 o.2 e2)]

/-! ### a case: one scalar and one reciprocal vector, in a crystal with a centre of inversion -/

/-- the part of the zone with positive first component -/
def half : (Fin 3 → ℚ) → Bool := insideWedge (fun x => decide (0 ≤ x)) (fun x => decide (x ≤ 0)) true fun p => [p 0]

/-- a function that is periodic and symmetric -/
def hump (q : Fin 3 → ℚ) : ℕ → ℚ := fun i => if i = 0 then Int.fract (q 0) * (1 - Int.fract (q 0)) else 0

/-- a vector in reciprocal space, along the first axis, that is periodic and changes its sign with `q` -/
def slope (q : Fin 3 → ℚ) : ℕ → ℚ := fun i =>
  if i = 0 then Int.fract (q 0) * (1 - Int.fract (q 0)) * (1 - 2 * Int.fract (q 0)) else 0

theorem fract_turned (a : ℚ) (z : ℤ) : Int.fract (-a + z) * (1 - Int.fract (-a + z)) = Int.fract a * (1 - Int.fract a) ∧
    Int.fract (-a + z) * (1 - Int.fract (-a + z)) * (1 - 2 * Int.fract (-a + z)) =
      -(Int.fract a * (1 - Int.fract a) * (1 - 2 * Int.fract a)) := by
  rw [Int.fract_add_intCast]
  by_cases h : Int.fract a = 0
  · have : Int.fract (-a) = 0 := Int.fract_neg_eq_zero.2 h
    rw [this, h]; simp
  · rw [Int.fract_neg h]
    constructor <;> ring

def turning0 : Turning ℚ := ⟨fun _ => 1, ⟨0, 0, [], fun _ => 0, fun _ => 0, []⟩, fun _ _ => 0, fun _ _ => 0, fun _ => []⟩

theorem mem_unitInv {R : Fin 3 → Fin 3 → ℤ} (h : R ∈ [idMat, inv0.W]) : R = idMat ∨ R = inv0.W := by
  simpa using h

theorem hump_right : RightlyTurned .P [idMat, inv0.W] ⟨.realLattice, .vector, false, ⟨1, 0, 0, 1⟩⟩ hump := by
  refine Or.inr (Or.inr ⟨rfl, rfl, Or.inl rfl, rfl, fun R hR q tau _ => ?_⟩)
  funext i
  unfold hump
  split
  · simp only [Fin.sum_univ_three]
    rcases mem_unitInv hR with rfl | rfl
    · simp [idMat]
    · simpa [inv0] using (fract_turned (q 0) (tau 0)).1
  · rfl

theorem slope_right : RightlyTurned .P [idMat, inv0.W] ⟨.reciprocalLattice, .vector, false, ⟨0, 3, 0, 1⟩⟩ slope := by
  refine Or.inl ⟨⟨⟨1, rfl⟩, ⟨0, rfl⟩, Or.inl (by decide)⟩, rfl, rfl, fun R hR S hS hRS q tau _ => ?_⟩
  constructor
  · intro b hb s hs; exact absurd hs (by simp)
  · intro b hb v hv
    have hv0 : v = 0 := by dsimp only at hv; omega
    have hb0 : b = 0 := by dsimp only at hb; omega
    subst hv0 hb0
    funext j
    simp only [vectorOf, times, wholeT, Fin.sum_univ_three]
    rcases mem_unitInv hR with rfl | rfl
    · fin_cases j <;> simp [slope, idMat]
    · have := (fract_turned (q 0) (tau 0)).2
      fin_cases j
      · simpa [slope, inv0] using this
      · simp [slope, inv0]
      · simp [slope, inv0]
  · intro b hb m hm; exact absurd hm (by simp)
  · intro i hi
    have : i ≠ 0 := by dsimp only at hi; omega
    simp [slope, this]

-- at every list of points the result is the value of the two functions
example (Qs : List (Fin 3 → ℚ)) (out : List ((ℕ → ℚ) × (ℕ → ℚ)))
    (h : irInterpolateAt .P cubic (fun _ => cubic.inside) half [idMat, inv0.W] (fun q => some (hump q, slope q)) turning0
      ⟨.realLattice, .vector, false, ⟨1, 0, 0, 1⟩⟩ ⟨.reciprocalLattice, .vector, false, ⟨0, 3, 0, 1⟩⟩ Qs = some out) :
    out = Qs.map fun Q => (hump Q, slope Q) :=
  C60_fields .P cubic (fun _ => cubic.inside) half [idMat, inv0.W] (by simp) _ turning0 _ _ hump slope hump_right slope_right
    (fun q _ x hx => (Option.some.inj hx).symm) Qs out h

-- and there are results, for points in and out of the zone
example : (irInterpolateAt .P cubic (fun _ => cubic.inside) half [idMat, inv0.W] (fun q => some (hump q, slope q)) turning0
      ⟨.realLattice, .vector, false, ⟨1, 0, 0, 1⟩⟩ ⟨.reciprocalLattice, .vector, false, ⟨0, 3, 0, 1⟩⟩
      [![1 / 4, 0, 0], ![-1 / 4, 0, 0], ![7 / 4, 2, 1]]).map (fun l => l.map fun r => (r.1 0, r.2 0)) =
    some [(3 / 16, 3 / 32), (3 / 16, -3 / 32), (3 / 16, -3 / 32)] := by decide +kernel

end Brille.Props
