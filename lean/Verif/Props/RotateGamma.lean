import Verif.Proofs.RotateGamma
import Verif.Proofs.Phonon
import Mathlib.Algebra.Star.BigOperators
import Mathlib.Analysis.SpecialFunctions.Complex.Circle
import Mathlib.Tactic.NormNum

/-
C59: phonon eigenvectors are rotated, permuted and given their phases.
-/
namespace Brille.Props

open Brille.Rot Brille.Atoms Brille.Mot Brille.Spec Brille.Mat

variable {K : Type} [CommRing K]

/-- A row of `n` branches, each of `e0` scalars and the vectors of `N` atoms, has been turned: the vector of atom `k` has
been turned by `C`, multiplied with the phase of `k` and moved to atom `σ k`.  Nothing else has changed. -/
structure ModesTurned (e0 N n : ℕ) (σ : Equiv.Perm (Fin N)) (phase : Fin N → K) (C : Fin 3 → Fin 3 → K) (x x' : ℕ → K) :
    Prop where
  vectors : ∀ b < n, ∀ k : Fin N, vectorOf e0 (3 * N) 0 x' b (σ k) =
    fun j => phase k * times C (vectorOf e0 (3 * N) 0 x b k) j
  scalars : ∀ b < n, ∀ s < e0, scalarOf e0 (3 * N) 0 x' b s = scalarOf e0 (3 * N) 0 x b s
  rest : ∀ i, n * (e0 + 3 * N) ≤ i → x' i = x i

/-- **C59 (what happens to a row).** For every table whose operation `ir` permutes the atoms, every row with one vector for
each of the atoms, whatever the temporary holds: the vectors of each branch are turned by the rotation matrix, multiplied
with the phase of the table and moved to the equivalent atom; scalars stay. -/
theorem C59_vectors (e : ℚ → K) (g : Gamma) (N : ℕ) (hN : 0 < N) (e0 n : ℕ) (rot : ℕ → Fin 3 → Fin 3 → K)
    (q : Fin 3 → ℚ) (r ir : ℕ) (σ : Equiv.Perm (Fin N)) (v : Fin N → Fin 3 → ℚ)
    (hF : ∀ k : Fin N, g.F0 k ir = some (σ k : ℕ)) (hv : ∀ k : Fin N, g.vector k ir = some (v k))
    (x : ℕ → K) (t : List K) :
    ∃ x' t', ripGamma e g ⟨e0, 3 * N, 0, n⟩ rot q r ir x t = some (true, x', t') ∧
      ModesTurned e0 N n σ (fun k => e (dotQ q (v k))) (rot ir) x x' := by
  have hσ : ∀ k < N, (fun k => if h : k < N then ((σ ⟨k, h⟩ : Fin N) : ℕ) else 0) k < N := by
    intro k hk
    dsimp only
    rw [dif_pos hk]
    exact (σ ⟨k, hk⟩).2
  obtain ⟨x', t', h1, h2, h3⟩ := gammaFold_spec e g q (rot r) (rot ir) r ir ⟨e0, 3 * N, 0, n⟩ (Nat.sqrt 0 / 3) N rfl rfl
    (fun k => if h : k < N then ((σ ⟨k, h⟩ : Fin N) : ℕ) else 0)
    (fun k => if h : k < N then e (dotQ q (v ⟨k, h⟩)) else 0) hσ
    (fun k hk k' hk' h => by
      rw [dif_pos hk, dif_pos hk'] at h
      have := σ.injective (Fin.ext h)
      exact congrArg Fin.val this)
    (fun k hk => by rw [dif_pos hk]; exact hF ⟨k, hk⟩)
    (fun k hk => by rw [dif_pos hk, phaseAt, hv ⟨k, hk⟩]; rfl) x t n
  have hany : Layout.anything ⟨e0, 3 * N, 0, n⟩ = true := by
    simp [Layout.anything, Layout.n1, hN]
  refine ⟨x', t', ?_, ?_, ?_, ?_⟩
  · unfold ripGamma
    rw [hany, if_neg (by simp), if_neg (by simp [Layout.n2])]
    simp only [Layout.n2, Nat.zero_div]
    rw [h1]
    rfl
  · intro b hb k
    funext j
    have := h2 b hb k k.2 j
    rw [dif_pos k.2, dif_pos k.2] at this
    exact this
  · intro b hb s hs
    refine h3 _ fun b' hb' => ?_
    simp only [Layout.span, Nat.add_zero]
    rcases Nat.lt_trichotomy b' b with h | h | h
    · right
      have : (b' + 1) * (e0 + 3 * N) ≤ b * (e0 + 3 * N) := Nat.mul_le_mul_right _ h
      rw [Nat.succ_mul] at this
      omega
    · subst h; left; omega
    · left
      have : (b + 1) * (e0 + 3 * N) ≤ b' * (e0 + 3 * N) := Nat.mul_le_mul_right _ h
      rw [Nat.succ_mul] at this
      omega
  · intro i hi
    refine h3 _ fun b' hb' => ?_
    simp only [Layout.span, Nat.add_zero]
    right
    have : (b' + 1) * (e0 + 3 * N) ≤ n * (e0 + 3 * N) := Nat.mul_le_mul_right _ hb'
    rw [Nat.succ_mul] at this
    omega

/-- **C59 (modes go to modes).** For every crystal, every table made for it, and forces with the symmetry of the crystal:
if `Q = Rᵀ q + τ` with a vector `τ` of the reciprocal lattice, and the vectors of a branch are an eigenvector of the
dynamical matrix at `q`, then after the rotation in place they are an eigenvector of the dynamical matrix at `Q`, with the
same eigenvalue.  The row is taken in Cartesian coordinates, the lattice vectors being the columns of `toXyz`. -/
theorem C59_modes {e : ℚ → K} (he : PhaseFactor e) (ps : List (Fin 3 → Fin 3 → ℤ)) (spg : List Motion) (cell : Basis)
    (hcell : ProperCell cell) (hne : cell.positions ≠ []) (hdet : ∀ m ∈ spg, det3 m.W = 1 ∨ det3 m.W = -1) (g : Gamma)
    (hg : Gamma.construct isZero isSame ps spg cell = some g)
    (toXyz fromXyz : Fin 3 → Fin 3 → K) (hxyz : timesM fromXyz toXyz = whole idMat)
    (hxyz' : timesM toXyz fromXyz = whole idMat)
    (r ir : ℕ) (R S : Fin 3 → Fin 3 → ℤ) (_hR : ps[r]? = some R) (hS : ps[ir]? = some S) (hRS : InverseOps R S)
    (F : Forces K) (hfin : FiniteRange F)
    (hsym : ∀ m ∈ spg, m.W = S → SymmetricForces cell F m (timesM (timesM toXyz (whole S)) fromXyz)
      (timesM (timesM toXyz (whole R)) fromXyz))
    (q Q : Fin 3 → ℚ) (z : Fin 3 → ℤ) (hQ : ∀ i, Q i = (∑ j, (R j i : ℚ) * q j) + z i)
    (e0 n : ℕ) (x : ℕ → K) (t : List K) :
    ∃ x', rotateInPlace e g toXyz fromXyz .angstrom .gamma true ⟨e0, 3 * cell.positions.length, 0, n⟩ ps q r ir x t =
        some (true, x') ∧
      ∀ b < n, (∀ s < e0, scalarOf e0 (3 * cell.positions.length) 0 x' b s =
          scalarOf e0 (3 * cell.positions.length) 0 x b s) ∧
        ∀ ev, IsMode e F cell.positions.length q (vectorOf e0 (3 * cell.positions.length) 0 x b) ev →
          IsMode e F cell.positions.length Q (vectorOf e0 (3 * cell.positions.length) 0 x' b) ev := by
  have hir : ir < ps.length := (List.getElem?_eq_some_iff.1 hS).1
  obtain ⟨σ, hσ⟩ := C57_permutation ps spg cell hcell g hdet hg ir hir
  obtain ⟨M, hM⟩ := C57_lattice_vectors ps spg cell g hdet hg
  obtain ⟨hM1, hM2, m0, hM3⟩ := hM ir S hS
  have hk : ∀ k : Fin cell.positions.length, ∃ v : Fin 3 → ℤ, ∃ p p', cell.positions[(k : ℕ)]? = some p ∧
      cell.positions[((σ k : Fin _) : ℕ)]? = some p' ∧ cell.types[((σ k : Fin _) : ℕ)]? = cell.types[(k : ℕ)]? ∧
      g.vector k ir = some (fun i => (v i : ℚ)) ∧
      ∀ i, affine S (fun _ => 0) (fun j => ((v j - m0 j : ℤ) : ℚ)) i = p' i - affine S (M ir).w p i := by
    intro k
    obtain ⟨l, p', v, h1, h2, h3, h4, h5⟩ := hM3 k _ (List.getElem?_eq_getElem k.2)
    have : l = (σ k : Fin _) := Option.some.inj (h1.symm.trans (hσ k))
    subst this
    exact ⟨v, _, p', List.getElem?_eq_getElem k.2, h3, h2, h4, h5⟩
  choose v p p' hp hp' hty hv hlat using hk
  obtain ⟨x', t', hx, hmt⟩ := C59_vectors e g cell.positions.length (List.length_pos_iff.2 hne) e0 n
    (fun i => rotCart toXyz fromXyz (get ps i)) q r ir σ (fun k i => (v k i : ℚ)) hσ hv x t
  have hC : rotCart toXyz fromXyz (get ps ir) = timesM (timesM toXyz (whole S)) fromXyz := by
    rw [get_some hS, rotCart, mulArrays_times, mulArrays_times]
    rfl
  rw [hC] at hmt
  refine ⟨x', ?_, fun b hb => ⟨hmt.scalars b hb, fun ev hmode => ?_⟩⟩
  · unfold rotateInPlace
    rw [if_neg (by simp), hx]
    rfl
  -- the vectors take the place of the lattice vectors between the image and the equivalent atom
  have hinv : timesM (timesM (timesM toXyz (whole R)) fromXyz) (timesM (timesM toXyz (whole S)) fromXyz) =
      whole idMat := by
    rw [timesM_assoc (timesM toXyz (whole R)), ← timesM_assoc fromXyz, ← timesM_assoc fromXyz, hxyz, (timesM_id _).1,
      timesM_assoc toXyz, ← timesM_assoc (whole R), whole_inverse hRS, (timesM_id _).1, hxyz']
  refine mode_image e F _ q Q σ _ _ hinv (fun k => e (dotQ q fun i => (v k i : ℚ)))
    (fun k => e (dotQ q fun i => ((-v k i : ℤ) : ℚ))) (fun k => ?_) (fun k k' a a' => ?_) _ _
    (fun k => hmt.vectors b hb k) ev hmode
  · rw [← he.add]
    have : dotQ q (fun i => ((-v k i : ℤ) : ℚ)) + dotQ q (fun i => (v k i : ℚ)) = ((0 : ℤ) : ℚ) := by
      simp only [dotQ]; push_cast; ring
    rw [this, he.whole]
  · have hN : ∀ k i, affine (M ir).W (M ir).w (p k) i = p' k i + ((times S (fun j => m0 j - v k j) i : ℤ) : ℚ) := by
      intro k i
      have := hlat k i
      rw [hM2]
      simp only [affine, times, Fin.sum_univ_three] at this ⊢
      push_cast at this ⊢
      linear_combination this
    refine dynamical_image e F hfin q Q k k' (σ k) (σ k') _ _
      (latticeMove R S hRS fun i => times S (fun j => m0 j - v k' j) i - times S (fun j => m0 j - v k j) i) _
      (fun L => ?_) (fun L => ?_) a a'
    · refine hsym _ hM1 hM2 k k' (σ k) (σ k') (p k) (p k') (p' k) (p' k') _ _ L _ (hp k) (hp k') (hp' k) (hp' k')
        (hty k) (hty k') (hN k) (hN k') fun i => ?_
      rw [hM2]
      simp only [latticeMove, Equiv.coe_fn_mk, times]
      ring
    · have e1 : (latticeMove R S hRS fun i => times S (fun j => m0 j - v k' j) i - times S (fun j => m0 j - v k j) i) L =
          times S fun j => L j + (v k j + -v k' j) := by
        funext i
        simp only [latticeMove, Equiv.coe_fn_mk, times, Fin.sum_univ_three]
        ring
      rw [e1, phase_turned he hRS q Q z hQ, ← he.add, ← he.add]
      congr 1
      simp only [dotQ]
      push_cast
      ring

/-- **C59 (scalar products stay).** If the rotation matrix is unitary and the phases have absolute value one, then scalar
products of the modes of any two branches do not change: an orthonormal set of modes stays one. -/
theorem C59_scalar_products [StarRing K] (e0 N n : ℕ) (σ : Equiv.Perm (Fin N)) (phase : Fin N → K)
    (C : Fin 3 → Fin 3 → K) (hph : ∀ k, star (phase k) * phase k = 1)
    (hC : ∀ c d, ∑ a, star (C a c) * C a d = if c = d then 1 else 0) (x x' : ℕ → K)
    (h : ModesTurned e0 N n σ phase C x x') (b b' : ℕ) (hb : b < n) (hb' : b' < n) :
    ∑ k : Fin N, ∑ a, star (vectorOf e0 (3 * N) 0 x' b k a) * vectorOf e0 (3 * N) 0 x' b' k a =
      ∑ k : Fin N, ∑ a, star (vectorOf e0 (3 * N) 0 x b k a) * vectorOf e0 (3 * N) 0 x b' k a := by
  rw [← Equiv.sum_comp σ]
  refine Finset.sum_congr rfl fun k _ => ?_
  rw [h.vectors b hb k, h.vectors b' hb' k]
  generalize vectorOf e0 (3 * N) 0 x b k = u
  generalize vectorOf e0 (3 * N) 0 x b' k = w
  have hk := hph k
  have hc : ∀ c d, star (C 0 c) * C 0 d + star (C 1 c) * C 1 d + star (C 2 c) * C 2 d = if c = d then 1 else 0 := by
    intro c d; rw [← hC c d, Fin.sum_univ_three]
  simp only [times, Fin.sum_univ_three, star_mul', star_add]
  have h00 := hc 0 0; have h01 := hc 0 1; have h02 := hc 0 2
  have h10 := hc 1 0; have h11 := hc 1 1; have h12 := hc 1 2
  have h20 := hc 2 0; have h21 := hc 2 1; have h22 := hc 2 2
  simp only [Fin.isValue, reduceIte, Fin.reduceEq] at h00 h01 h02 h10 h11 h12 h20 h21 h22
  generalize star (C 0 0) = s00 at *; generalize star (C 0 1) = s01 at *; generalize star (C 0 2) = s02 at *
  generalize star (C 1 0) = s10 at *; generalize star (C 1 1) = s11 at *; generalize star (C 1 2) = s12 at *
  generalize star (C 2 0) = s20 at *; generalize star (C 2 1) = s21 at *; generalize star (C 2 2) = s22 at *
  generalize star (u 0) = u0; generalize star (u 1) = u1; generalize star (u 2) = u2
  generalize star (phase k) = f at hk ⊢
  linear_combination (f * phase k) * (u0 * w 0 * h00 + u0 * w 1 * h01 + u0 * w 2 * h02 + u1 * w 0 * h10 + u1 * w 1 * h11 +
    u1 * w 2 * h12 + u2 * w 0 * h20 + u2 * w 1 * h21 + u2 * w 2 * h22) + (u0 * w 0 + u1 * w 1 + u2 * w 2) * hk

/-- **C59 (the rotation matrices are orthogonal).** If the operation keeps all lengths, that is the metric of the lattice,
then its matrix in Cartesian coordinates is orthogonal. -/
theorem C59_orthogonal (toXyz fromXyz : Fin 3 → Fin 3 → K) (hxyz : timesM toXyz fromXyz = whole idMat)
    (S : Fin 3 → Fin 3 → ℤ)
    (hmetric : ∀ i j, ∑ a, (∑ c, toXyz a c * (S c i : K)) * (∑ c, toXyz a c * (S c j : K)) = ∑ a, toXyz a i * toXyz a j)
    (c d : Fin 3) : ∑ a, rotCart toXyz fromXyz S a c * rotCart toXyz fromXyz S a d = if c = d then 1 else 0 := by
  have hid : ∀ i j, ∑ k, toXyz i k * fromXyz k j = if i = j then 1 else 0 := by
    intro i j
    have := congrFun (congrFun hxyz i) j
    rw [whole_id] at this
    exact this
  have hrot : ∀ a c, rotCart toXyz fromXyz S a c = ∑ k, (∑ l, toXyz a l * (S l k : K)) * fromXyz k c := by
    intro a c
    rw [rotCart, mulArrays_times, mulArrays_times]
    rfl
  have e1 : ∑ a, rotCart toXyz fromXyz S a c * rotCart toXyz fromXyz S a d =
      ∑ i, ∑ j, fromXyz i c * fromXyz j d *
        ∑ a, (∑ c, toXyz a c * (S c i : K)) * (∑ c, toXyz a c * (S c j : K)) := by
    simp only [hrot]
    obtain ⟨P, hP⟩ : ∃ P : Fin 3 → Fin 3 → K, ∀ a k, ∑ l, toXyz a l * (S l k : K) = P a k := ⟨_, fun _ _ => rfl⟩
    simp only [hP]
    simp only [Fin.sum_univ_three]
    ring
  have e2 : ∑ i, ∑ j, fromXyz i c * fromXyz j d * ∑ a, toXyz a i * toXyz a j =
      ∑ a, (∑ k, toXyz a k * fromXyz k c) * (∑ k, toXyz a k * fromXyz k d) := by
    simp only [Fin.sum_univ_three]; ring
  rw [e1]
  simp only [hmetric]
  rw [e2]
  simp only [hid, Fin.sum_univ_three]
  fin_cases c <;> fin_cases d <;> simp

/-- a loop over the vectors which ends well has stayed inside the temporary -/
theorem gammaVecs_inside (e : ℚ → K) (g : Gamma) (q : Fin 3 → ℚ) (rot : Fin 3 → Fin 3 → K) (ir : ℕ) (x : ℕ → K) (o n k : ℕ)
    (t t' : List K) (h : gammaVecs e g q rot ir x o k n t = some t') :
    ∀ k', k ≤ k' → k' < k + n → ∃ l, g.F0 k' ir = some l ∧ 3 * l + 3 ≤ t.length := by
  induction n generalizing k t with
  | zero => intro k' h1 h2; omega
  | succ n ih =>
    intro k' h1 h2
    unfold gammaVecs at h
    split at h
    case h_2 => cases h
    rename_i l ph hl hph
    split at h
    case h_2 => cases h
    rename_i t1 ht1
    by_cases ek : k' = k
    · subst ek
      refine ⟨l, hl, ?_⟩
      unfold put at ht1
      split at ht1
      · rename_i hle; rw [List.length_ofFn] at hle; exact hle
      · cases ht1
    · obtain ⟨l', hl', hle⟩ := ih (k + 1) t1 h k' (by omega) (by omega)
      exact ⟨l', hl', by rw [(put_spec ht1).1] at hle; exact hle⟩

/-- **C59 (when the temporary suffices).** If the rotation ends well, the table has an entry for every vector, and this is
not beyond the vectors of a branch, unless the temporary happened to be larger.  So a row with more vectors than atoms is
an exception, and a row with fewer may write beyond the temporary. -/
theorem C59_inside (e : ℚ → K) (g : Gamma) (l : Layout) (hbr : 0 < l.branches) (rot : ℕ → Fin 3 → Fin 3 → K)
    (q : Fin 3 → ℚ) (r ir : ℕ) (x x' : ℕ → K) (t t' : List K)
    (h : ripGamma e g l rot q r ir x t = some (true, x', t')) (k : ℕ) (hk : k < l.n1) :
    ∃ a, g.F0 k ir = some a ∧ (a < l.n1 ∨ 3 * a + 3 ≤ t.length) := by
  unfold ripGamma at h
  split at h
  · simp at h
  split at h
  · simp at h
  obtain ⟨n, hn⟩ := Nat.exists_eq_succ_of_ne_zero (by omega : l.branches ≠ 0)
  rw [hn, List.range_succ_eq_map, List.foldlM_cons] at h
  cases hb : gammaBranch e g q (rot r) (rot ir) r ir l (Nat.sqrt l.n2 / 3) (x, t) 0 with
  | none => rw [hb] at h; simp at h
  | some s =>
    unfold gammaBranch at hb
    dsimp only at hb
    rw [if_pos (by omega : 0 < l.n1)] at hb
    cases hv : gammaVecs e g q (rot ir) ir x (0 * l.span + l.e0) 0 l.n1 (grow t (l.n1 * 3)) with
    | none => rw [hv] at hb; simp at hb
    | some t1 =>
      obtain ⟨a, ha, hle⟩ := gammaVecs_inside e g q (rot ir) ir x _ _ _ _ _ hv k (by omega) (by omega)
      refine ⟨a, ha, ?_⟩
      unfold grow at hle
      split at hle
      · rw [List.length_append, List.length_replicate] at hle
        left; omega
      · right; exact hle

/-- **C59 (matrices: wrong).** For `N` atoms there are `N²` matrices.  The code only goes on if `N` is a multiple of three:
otherwise it turns nothing, not even the vectors, and only says so in the value returned. -/
theorem C59_matrices_counterexample (e : ℚ → K) (g : Gamma) (e0 n N : ℕ) (hN : ¬ 3 ∣ N) (rot : ℕ → Fin 3 → Fin 3 → K)
    (q : Fin 3 → ℚ) (r ir : ℕ) (x : ℕ → K) (t : List K) :
    ripGamma e g ⟨e0, 3 * N, 9 * (N * N), n⟩ rot q r ir x t = some (false, x, t) := by
  have h2 : Layout.n2 ⟨e0, 3 * N, 9 * (N * N), n⟩ = N * N := by simp [Layout.n2]
  unfold ripGamma
  rw [h2, Nat.sqrt_eq]
  split
  · rfl
  · rw [if_pos]
    intro h
    apply hN
    have h3 : N * N = (3 * (N / 3)) * (3 * (N / 3)) := by rw [h]; ring
    have := Nat.mul_self_inj.1 h3
    exact ⟨N / 3, this⟩

/-! ### a case -/

/-- `exp(2πi x)` -/
noncomputable def turn (x : ℚ) : ℂ := Complex.exp ((x : ℂ) * (2 * Real.pi * Complex.I))

theorem turn_phase : PhaseFactor turn where
  add x y := by
    unfold turn
    rw [← Complex.exp_add]
    congr 1
    push_cast
    ring
  whole z := by
    unfold turn
    rw [Rat.cast_intCast]
    exact Complex.exp_int_mul_two_pi_mul_I z

theorem turn_unit (x : ℚ) : star (turn x) * turn x = 1 := by
  have h : star (turn x) = turn (-x) := by
    unfold turn
    show (starRingEnd ℂ) _ = _
    rw [← Complex.exp_conj]
    congr 1
    have : (starRingEnd ℂ) 2 = 2 := Complex.conj_ofNat 2
    simp [this]
  rw [h, ← turn_phase.add]
  have := turn_phase.whole 0
  simpa using this

/-- one atom in the cell -/
def cell1 : Basis := ⟨[fun _ => 0], [0]⟩

/-- springs to the two neighbours along the first axis -/
def chain : Forces ℂ := fun k k' L a b =>
  if k = 0 ∧ k' = 0 ∧ a = b then
    (if L = ![0, 0, 0] then 2 else if L = ![1, 0, 0] ∨ L = ![-1, 0, 0] then -1 else 0)
  else 0

theorem chain_finite : FiniteRange chain := by
  intro k k'
  refine Set.Finite.subset (Set.toFinite {![0, 0, 0], ![1, 0, 0], ![-1, 0, 0]}) fun L hL => ?_
  by_contra hn
  simp only [Set.mem_insert_iff, Set.mem_singleton_iff, not_or] at hn
  apply hL
  funext a b
  simp [chain, hn.1, hn.2.1, hn.2.2]

theorem cell1_proper : ProperCell cell1 where
  typed := rfl
  distinct := by
    have key : ∀ k t x, AtomAt cell1 k t x → k = 0 := by
      rintro k t x ⟨p, hp, -, -⟩
      match k, hp with
      | 0, _ => rfl
      | k + 1, hp => simp [cell1] at hp
    intro k l t x hk hl
    rw [key k t x hk, key l t x hl]

theorem chain_symmetric (C : Fin 3 → Fin 3 → ℂ) (hC : C = fun i j => if i = j then -1 else 0) :
    SymmetricForces cell1 chain inv0 C C := by
  intro k k' l l' pk pk' pl pl' N N' L M h1 h2 h3 h4 _ _ h5 h6 h7
  have key : ∀ k p, cell1.positions[k]? = some p → k = 0 ∧ p = fun _ => 0 := by
    intro k p hp
    match k, hp with
    | 0, hp => exact ⟨rfl, (Option.some.inj hp).symm⟩
    | k + 1, hp => simp [cell1] at hp
  obtain ⟨rfl, rfl⟩ := key k pk h1
  obtain ⟨rfl, rfl⟩ := key k' pk' h2
  obtain ⟨rfl, rfl⟩ := key l pl h3
  obtain ⟨rfl, rfl⟩ := key l' pl' h4
  have hM : ∀ i, M i = -L i := by
    intro i
    have e5 := h5 i
    have e6 := h6 i
    have e7 := h7 i
    have a0 : affine inv0.W inv0.w (fun _ => 0) i = 0 := by simp [affine, inv0]
    rw [a0, zero_add] at e5 e6
    have n5 : N i = 0 := by exact_mod_cast e5.symm
    have n6 : N' i = 0 := by exact_mod_cast e6.symm
    rw [e7, n5, n6, Fin.sum_univ_three]
    fin_cases i <;> simp [inv0]
  have hL : L = fun i => -M i := by funext i; rw [hM]; ring
  have z1 : (L = ![0, 0, 0]) ↔ M = ![0, 0, 0] := by
    rw [hL]; constructor
    · intro h; funext i; have := congrFun h i; fin_cases i <;> simpa using this
    · intro h; rw [h]; funext i; fin_cases i <;> simp
  have z2 : (L = ![1, 0, 0]) ↔ M = ![-1, 0, 0] := by
    rw [hL]; constructor
    · intro h; funext i; have := congrFun h i; fin_cases i <;> simp at this ⊢ <;> omega
    · intro h; rw [h]; funext i; fin_cases i <;> simp
  have z3 : (L = ![-1, 0, 0]) ↔ M = ![1, 0, 0] := by
    rw [hL]; constructor
    · intro h; funext i; have := congrFun h i; fin_cases i <;> simp at this ⊢ <;> omega
    · intro h; rw [h]; funext i; fin_cases i <;> simp
  funext a b
  have e1 : timesM C (timesM (chain 0 0 L) C) a b = chain 0 0 L a b := by
    rw [hC]
    simp only [timesM, Fin.sum_univ_three]
    fin_cases a <;> fin_cases b <;> simp
  rw [e1]
  simp only [chain, z1, z2, z3, or_comm]

theorem chain_dynamical (q : Fin 3 → ℚ) (a b : Fin 3) :
    dynamical turn chain q 0 0 a b = if a = b then 2 - turn (q 0) - turn (-q 0) else 0 := by
  unfold dynamical
  rw [finsum_eq_sum_of_support_subset (s := {![0, 0, 0], ![1, 0, 0], ![-1, 0, 0]})]
  · have n1 : (![0, 0, 0] : Fin 3 → ℤ) ≠ ![1, 0, 0] := by decide
    have n2 : (![0, 0, 0] : Fin 3 → ℤ) ≠ ![-1, 0, 0] := by decide
    have n3 : (![1, 0, 0] : Fin 3 → ℤ) ≠ ![-1, 0, 0] := by decide
    rw [Finset.sum_insert (by simp [n1, n2]), Finset.sum_insert (by simp [n3]), Finset.sum_singleton]
    have t0 : turn 0 = 1 := by simpa using turn_phase.whole 0
    have hd0 : dotQ q (fun i => ((![0, 0, 0] : Fin 3 → ℤ) i : ℚ)) = 0 := by simp [dotQ]
    have hd1 : dotQ q (fun i => ((![1, 0, 0] : Fin 3 → ℤ) i : ℚ)) = q 0 := by simp [dotQ]
    have hd2 : dotQ q (fun i => ((![-1, 0, 0] : Fin 3 → ℤ) i : ℚ)) = -q 0 := by simp [dotQ]
    rw [hd0, hd1, hd2, t0]
    by_cases hab : a = b
    · simp only [chain, hab, n1.symm, n2.symm, true_and, and_true, if_true, if_false, or_true, true_or]
      ring
    · simp [chain, hab]
  · intro L hL
    simp only [Finset.coe_insert, Finset.coe_singleton, Set.mem_insert_iff, Set.mem_singleton_iff]
    by_contra hn
    simp only [not_or] at hn
    apply hL
    simp [chain, hn.1, hn.2.1, hn.2.2]

-- the hypotheses of `C59_modes` are met by a chain of atoms with an inversion centre, for every pair of points `q` and
-- `Q = -q + τ`, and there are modes: every polarisation is one
example (g : Gamma) (hg : Gamma.construct isZero isSame [idMat, inv0.W] unitInv cell1 = some g) (q : Fin 3 → ℚ)
    (z : Fin 3 → ℤ) (x : ℕ → ℂ) :
    ∃ x', rotateInPlace turn g (whole idMat) (whole idMat) .angstrom .gamma true ⟨1, 3, 0, 2⟩ [idMat, inv0.W] q 1 1 x [] =
        some (true, x') ∧
      IsMode turn chain 1 (fun i => -q i + z i) (vectorOf 1 3 0 x' 1) (2 - turn (q 0) - turn (-q 0)) := by
  have hRS : InverseOps inv0.W inv0.W := ⟨by decide, by decide⟩
  have hC : timesM (timesM (whole idMat : Fin 3 → Fin 3 → ℂ) (whole inv0.W)) (whole idMat) =
      fun i j => if i = j then -1 else 0 := by
    rw [(timesM_id _).1, (timesM_id _).2]
    funext i j
    by_cases h : i = j <;> simp [whole, inv0, h]
  obtain ⟨x', h1, h2⟩ := C59_modes turn_phase [idMat, inv0.W] unitInv cell1 cell1_proper (by simp [cell1]) (by
      intro m hm
      rcases List.mem_cons.1 hm with rfl | hm
      · decide +kernel
      · rcases List.mem_cons.1 hm with rfl | hm
        · decide +kernel
        · cases hm) g hg (whole idMat) (whole idMat) (timesM_id _).1 (timesM_id _).1 1 1 inv0.W inv0.W rfl rfl hRS
    chain chain_finite (by
      intro m hm hW
      rcases List.mem_cons.1 hm with rfl | hm
      · exact absurd (congrFun (congrFun hW 0) 0) (by decide +kernel)
      · rcases List.mem_cons.1 hm with rfl | hm
        · rw [hC]; exact chain_symmetric _ rfl
        · cases hm) q (fun i => -q i + z i) z (by
      intro i; rw [Fin.sum_univ_three]; fin_cases i <;> simp [inv0]) 1 2 x []
  refine ⟨x', h1, (h2 1 (by omega)).2 _ ?_⟩
  intro k hk a
  have : k = 0 := by simpa [cell1] using hk
  subst this
  rw [show cell1.positions.length = 1 from rfl, Finset.sum_range_one]
  simp only [chain_dynamical, Fin.sum_univ_three]
  fin_cases a <;> simp

-- and the table can be made
example : (Gamma.construct isZero isSame [idMat, inv0.W] unitInv cell1).isSome = true := by decide +kernel

/-- the table for three atoms -/
def table3 : Option Gamma := Gamma.construct isZero isSame [idMat, inv0.W] unitInv cell3

-- a row with two vectors for the three atoms: the write goes beyond the end of the temporary.  A row with four vectors: an
-- exception.  With three all is well.
example : (table3.bind fun g => ripGamma (fun _ => (1 : ℚ)) g ⟨0, 6, 0, 1⟩ (fun _ _ _ => 1) (fun _ => 0) 1 1 (fun _ => 1) []).isNone
      = true ∧
    (table3.bind fun g => ripGamma (fun _ => (1 : ℚ)) g ⟨0, 12, 0, 1⟩ (fun _ _ _ => 1) (fun _ => 0) 1 1 (fun _ => 1) []).isNone
      = true ∧
    (table3.bind fun g => ripGamma (fun _ => (1 : ℚ)) g ⟨0, 9, 0, 1⟩ (fun _ _ _ => 1) (fun _ => 0) 1 1 (fun _ => 1) []).isSome
      = true := by decide +kernel

/-- **C59 (matrices lost: wrong).** Even with three atoms and the operation that changes nothing: of the nine matrices only
the first is kept, the others become zero. -/
theorem C59_matrices_lost_counterexample :
    (table3.bind fun g => (ripGamma (fun _ => (1 : ℚ)) g ⟨0, 0, 81, 1⟩ (fun _ i j => if i = j then 1 else 0) (fun _ => 0) 0 0
        (fun _ => 1) []).map fun s => (s.1, (List.range 81).all fun i => s.2.1 i == if i < 9 then 1 else 0)) =
      some (true, true) := by decide +kernel

end Brille.Props
