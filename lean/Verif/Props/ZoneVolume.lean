/-
The volume of the first Brillouin zone, and the end of the search for it.
-/
import Verif.Props.Zone
import Verif.Props.Volume
import Mathlib.Algebra.Module.ZLattice.Basic
import Mathlib.LinearAlgebra.Matrix.NonsingularInverse
import Mathlib.LinearAlgebra.FiniteDimensional.Lemmas

namespace Brille.Props

open Brille.Spec Brille.Tetra Brille.Faces Brille.Cut Brille.Convex Brille.Zone Brille.Neighbours MeasureTheory

/-- the rows of the matrix as vectors of space -/
def rowsReal (B : Matrix (Fin 3) (Fin 3) ℚ) : Matrix (Fin 3) (Fin 3) ℝ := fun k d => (B k d : ℝ)

theorem rows_det (B : Matrix (Fin 3) (Fin 3) ℚ) : (rowsReal B).det = ((B.det : ℚ) : ℝ) := by
  have : rowsReal B = B.map (algebraMap ℚ ℝ) := by ext; rfl
  rw [this, ← RingHom.mapMatrix_apply, ← RingHom.map_det]
  rfl

/-- the lattice vectors as a basis of space -/
noncomputable def rowsBasis (B : Matrix (Fin 3) (Fin 3) ℚ) (hB : B.det ≠ 0) : Module.Basis (Fin 3) ℝ (Fin 3 → ℝ) :=
  basisOfLinearIndependentOfCardEqFinrank
    (Matrix.linearIndependent_rows_of_det_ne_zero (A := rowsReal B) (by rw [rows_det]; exact_mod_cast hB)) (by simp)

theorem rowsBasis_apply (B : Matrix (Fin 3) (Fin 3) ℚ) (hB : B.det ≠ 0) (k : Fin 3) : rowsBasis B hB k = rowsReal B k := by
  simp only [rowsBasis, coe_basisOfLinearIndependentOfCardEqFinrank]

theorem latticePoint_real (B : Matrix (Fin 3) (Fin 3) ℚ) (i : Fin 3 → ℤ) : real (latticePoint B i) = ∑ k, i k • rowsReal B k := by
  funext d
  simp only [real, latticePoint, Finset.sum_apply]
  push_cast
  refine Finset.sum_congr rfl fun k _ => ?_
  rw [Pi.smul_apply, zsmul_eq_mul]
  rfl

/-- the members of the lattice -/
theorem mem_lattice (B : Matrix (Fin 3) (Fin 3) ℚ) (hB : B.det ≠ 0) (g : Fin 3 → ℝ) :
    g ∈ Submodule.span ℤ (Set.range (rowsBasis B hB)) ↔ ∃ i, g = real (latticePoint B i) := by
  rw [Submodule.mem_span_range_iff_exists_fun]
  constructor
  · rintro ⟨c, rfl⟩
    exact ⟨c, by rw [latticePoint_real]; simp only [rowsBasis_apply]⟩
  · rintro ⟨c, rfl⟩
    exact ⟨c, by rw [latticePoint_real]; simp only [rowsBasis_apply]⟩

/-- one of the lattice points is nearest -/
theorem nearest_exists (B : Matrix (Fin 3) (Fin 3) ℚ) (hB : B.det ≠ 0) (x : Fin 3 → ℝ) :
    ∃ i, ∀ j, distance2 x (real (latticePoint B i)) ≤ distance2 x (real (latticePoint B j)) := by
  obtain ⟨C, hC, hfar⟩ := far_away B hB
  -- those not further away than the origin
  let S : Set (Fin 3 → ℤ) := {i | distance2 x (real (latticePoint B i)) ≤ distance2 x (real (latticePoint B 0))}
  have hS : S.Finite := by
    let R : ℝ := C * (3 * (1 + distance2 x (real (latticePoint B 0))) + ∑ d, |x d|)
    refine Set.Finite.subset (Set.Finite.pi' (t := fun _ : Fin 3 => Set.Icc (-⌈R⌉) ⌈R⌉) fun _ => Set.finite_Icc _ _) ?_
    intro i hi k
    have hd : ∀ d, |real (latticePoint B i) d| ≤ (1 + distance2 x (real (latticePoint B 0))) + |x d| := by
      intro d
      have h1 : (x d - real (latticePoint B i) d) ^ 2 ≤ distance2 x (real (latticePoint B 0)) := by
        refine le_trans ?_ hi
        exact Finset.single_le_sum (f := fun d => (x d - real (latticePoint B i) d) ^ 2) (fun d _ => sq_nonneg _) (Finset.mem_univ d)
      have h2 : |x d - real (latticePoint B i) d| ≤ 1 + distance2 x (real (latticePoint B 0)) := by
        rw [← sq_abs] at h1
        nlinarith [abs_nonneg (x d - real (latticePoint B i) d), sq_nonneg (|x d - real (latticePoint B i) d| - 1)]
      calc |real (latticePoint B i) d| = |x d - (x d - real (latticePoint B i) d)| := by ring_nf
        _ ≤ |x d| + |x d - real (latticePoint B i) d| := abs_sub _ _
        _ ≤ _ := by linarith
    have hk : |(i k : ℝ)| ≤ R := by
      refine le_trans (hfar i k) (mul_le_mul_of_nonneg_left ?_ hC.le)
      refine le_trans (Finset.sum_le_sum fun d _ => hd d) ?_
      rw [Finset.sum_add_distrib, Finset.sum_const, Finset.card_univ, Fintype.card_fin, nsmul_eq_mul]
      push_cast
      exact le_refl _
    have hk' : |(i k : ℝ)| ≤ (⌈R⌉ : ℝ) := le_trans hk (Int.le_ceil R)
    have : |i k| ≤ ⌈R⌉ := by exact_mod_cast hk'
    rw [abs_le] at this
    exact this
  obtain ⟨i, hi, hmin⟩ := Set.exists_min_image S (fun i => distance2 x (real (latticePoint B i))) hS ⟨0, le_refl (distance2 x (real (latticePoint B 0)))⟩
  refine ⟨i, fun j => ?_⟩
  by_cases hj : j ∈ S
  · exact hmin j hj
  · have : distance2 x (real (latticePoint B 0)) < distance2 x (real (latticePoint B j)) := not_le.mp hj
    exact le_trans hi this.le

theorem zone_closed (B : Matrix (Fin 3) (Fin 3) ℚ) : IsClosed (FirstZone B) := by
  have : FirstZone B = ⋂ i, {x | distance2 x 0 ≤ distance2 x (real (latticePoint B i))} := by
    ext x
    simp [FirstZone, Nearest]
  rw [this]
  refine isClosed_iInter fun i => isClosed_le ?_ ?_ <;> · unfold distance2; fun_prop

theorem latticePoint_sub (B : Matrix (Fin 3) (Fin 3) ℚ) (i j : Fin 3 → ℤ) :
    real (latticePoint B (i - j)) = real (latticePoint B i) - real (latticePoint B j) := by
  funext d
  simp only [real, latticePoint, Pi.sub_apply, Fin.sum_univ_three]
  push_cast
  ring

theorem distance2_shift (x y g : Fin 3 → ℝ) : distance2 (x - g) y = distance2 x (y + g) := by
  simp only [distance2, Pi.sub_apply, Pi.add_apply]
  refine Finset.sum_congr rfl fun d _ => by ring

/-- the copies of the zone around the lattice points fill space and overlap only in boundaries -/
theorem zone_domain (B : Matrix (Fin 3) (Fin 3) ℚ) (hB : B.det ≠ 0) :
    IsAddFundamentalDomain (Submodule.span ℤ (Set.range (rowsBasis B hB))) (FirstZone B) volume := by
  refine ⟨(zone_closed B).measurableSet.nullMeasurableSet, Filter.Eventually.of_forall fun x => ?_, ?_⟩
  · obtain ⟨i, hi⟩ := nearest_exists B hB x
    refine ⟨⟨-real (latticePoint B i), Submodule.neg_mem _ ((mem_lattice B hB _).mpr ⟨i, rfl⟩)⟩, ?_⟩
    intro j _
    have e : ((⟨-real (latticePoint B i), Submodule.neg_mem _ ((mem_lattice B hB _).mpr ⟨i, rfl⟩)⟩ :
        Submodule.span ℤ (Set.range (rowsBasis B hB))) +ᵥ x) = x - real (latticePoint B i) := by
      rw [Submodule.vadd_def, vadd_eq_add]; simp only; abel
    rw [e, distance2_shift, distance2_shift, zero_add]
    have := hi (j + i)
    have e2 : real (latticePoint B (j + i)) = real (latticePoint B j) + real (latticePoint B i) := by
      have := latticePoint_sub B (j + i) i
      rw [add_sub_cancel_right] at this
      rw [this]; abel
    rw [← e2]
    exact this
  · rintro ⟨g, hg⟩ ⟨k, hk⟩ hne
    obtain ⟨i, rfl⟩ := (mem_lattice B hB g).mp hg
    obtain ⟨j, rfl⟩ := (mem_lattice B hB k).mp hk
    have hij : real (latticePoint B i) ≠ real (latticePoint B j) := fun e => hne (Subtype.ext e)
    generalize hgi : real (latticePoint B i) = g at *
    generalize hkj : real (latticePoint B j) = k at *
    let s : (Fin 3 → ℝ) → ℝ := fun x => distance2 x g - distance2 x k
    have hs : Aff s := by
      refine ⟨2 * (k 0 - g 0), 2 * (k 1 - g 1), 2 * (k 2 - g 2), (g 0 ^ 2 + g 1 ^ 2 + g 2 ^ 2) - (k 0 ^ 2 + k 1 ^ 2 + k 2 ^ 2), fun x => ?_⟩
      simp only [s, distance2, Fin.sum_univ_three]
      ring
    have pos : 0 < distance2 g k := by
      obtain ⟨d, hd⟩ := Function.ne_iff.mp hij
      have : 0 < (g d - k d) ^ 2 := by
        have := sub_ne_zero.mpr hd
        positivity
      refine lt_of_lt_of_le this ?_
      exact Finset.single_le_sum (f := fun d => (g d - k d) ^ 2) (fun d _ => sq_nonneg _) (Finset.mem_univ d)
    have z : ∀ y, distance2 y y = 0 := fun y => by simp [distance2]
    have sym : distance2 k g = distance2 g k := by
      simp only [distance2]; exact Finset.sum_congr rfl fun d _ => by ring
    refine measure_mono_null ?_ (hs.null g k (by
      simp only [s]
      rw [z, z, sym]
      intro e
      linarith))
    rintro x ⟨h1, h2⟩
    obtain ⟨y, hy, hyx⟩ := h1
    obtain ⟨w, hw, hwx⟩ := h2
    have hyx : g + y = x := hyx
    have hwx : k + w = x := hwx
    have a := hy (j - i) trivial
    have b := hw (i - j) trivial
    rw [latticePoint_sub, hgi, hkj] at a b
    have ey : y = x - g := by rw [← hyx]; abel
    have ew : w = x - k := by rw [← hwx]; abel
    rw [ey, distance2_shift, distance2_shift, zero_add, sub_add_cancel] at a
    rw [ew, distance2_shift, distance2_shift, zero_add, sub_add_cancel] at b
    simp only [s, Set.mem_ofPred_eq]
    linarith

/-- C68.  The volume of the first Brillouin zone is that of a cell of the lattice. -/
theorem C68_zone_volume (B : Matrix (Fin 3) (Fin 3) ℚ) (hB : B.det ≠ 0) : volume (FirstZone B) = ENNReal.ofReal ((|B.det| : ℚ) : ℝ) := by
  have : VAddInvariantMeasure (Submodule.span ℤ (Set.range (rowsBasis B hB))) (Fin 3 → ℝ) volume :=
    inferInstanceAs <| VAddInvariantMeasure (Submodule.span ℤ (Set.range (rowsBasis B hB))).toAddSubgroup (Fin 3 → ℝ) volume
  have h1 := (zone_domain B hB).measure_eq (ZSpan.isAddFundamentalDomain (rowsBasis B hB) volume)
  rw [h1, ZSpan.volume_fundamentalDomain]
  have : Matrix.of (rowsBasis B hB) = rowsReal B := by
    ext k d
    simp [rowsBasis_apply]
  rw [this, rows_det]
  push_cast
  rfl

theorem faces_ne (v : List Pt) (f : List Face) (h : ConvexSolid v f) (h0 : (0 : Fin 3 → ℝ) ∈ Hull (· ∈ v)) :
    f ≠ [] := by
  rintro rfl
  have hv : v = [] := by
    rcases v with _ | ⟨a, l⟩
    · rfl
    · obtain ⟨f, hf, _⟩ := h.used 0 (by simp)
      simp at hf
  subst hv
  simp [Hull] at h0

theorem zero_nearest (B : Matrix (Fin 3) (Fin 3) ℚ) (S : (Fin 3 → ℤ) → Prop) : (0 : Fin 3 → ℝ) ∈ Nearest B S := by
  intro i _
  have : distance2 (0 : Fin 3 → ℝ) 0 = 0 := by simp [distance2]
  rw [this]
  exact Finset.sum_nonneg fun d _ => sq_nonneg _

/-- the search succeeds with a polyhedron of positive volume -/
theorem search_positive (B : Matrix (Fin 3) (Fin 3) ℚ) (hB : B.det ≠ 0) (e : ℤ) (he : 1 ≤ e) :
    ∃ v f, voroSearch (tau B e) = some (v, f) ∧ 0 < Faces.volume f fun i => v.getD i 0 := by
  obtain ⟨v, f, h1, h2, h3⟩ := C68_search B hB e he (tau B e) (tau_perm B e)
  have h0 : (0 : Fin 3 → ℝ) ∈ Hull (· ∈ v) := by
    rw [h3]
    have e0 : real (latticePoint B 0) = 0 := by funext d; simp [real, latticePoint]
    refine ⟨zero_nearest B _, fun d => ⟨⟨0, fun k => by simpa using (by omega : 0 ≤ e), ?_⟩, ⟨0, fun k => by simpa using (by omega : 0 ≤ e), ?_⟩⟩⟩ <;>
    · rw [e0]
  exact ⟨v, f, h1, C69_positive v f h2 (faces_ne v f h2 h0)⟩

/-- C68.  From some extent on the volume computed for the polyhedron found is exactly that of a cell of the lattice. -/
theorem C68_large_extent_volume (B : Matrix (Fin 3) (Fin 3) ℚ) (hB : B.det ≠ 0) : ∃ E : ℤ, ∀ e, E ≤ e → ∀ ts : List Pt,
    ts.Perm ((offsets e).map (position B)) →
    ∃ v f, voroSearch ts = some (v, f) ∧ Faces.volume f (fun i => v.getD i 0) = |B.det| := by
  obtain ⟨E, hE⟩ := C68_large_extent B hB
  refine ⟨E, fun e he ts hts => ?_⟩
  obtain ⟨v, f, h1, h2, h3⟩ := hE e he ts hts
  refine ⟨v, f, h1, ?_⟩
  have hne := faces_ne v f h2 (by rw [h3]; exact zero_nearest B _)
  have hm := C69_volume v f h2 hne
  rw [h3, C68_zone_volume B hB] at hm
  have := (ENNReal.ofReal_eq_ofReal_iff (by exact_mod_cast abs_nonneg B.det) (by exact_mod_cast (C69_positive v f h2 hne).le)).mp hm
  exact_mod_cast this.symm

/-- C68.  The constructor comes to an end, for every lattice, if the comparison of volumes takes equal volumes for equal and no
positive volume for zero: it takes as many turns as there are extents up to the one found above, and one more. -/
theorem C68_terminates (near : ℚ → ℚ → Bool) (hr : ∀ a, near a a = true) (hz : ∀ a, 0 < a → near a 0 = false)
    (B : Matrix (Fin 3) (Fin 3) ℚ) (hB : B.det ≠ 0) (start : ℤ) (hs : 1 ≤ start) (old : ℚ) :
    ∃ N, ∀ turns, N ≤ turns → ∃ v f, construct near B turns start old = some (v, f) := by
  obtain ⟨E, hE⟩ := C68_large_extent_volume B hB
  have step : ∀ turns s old, 1 ≤ s → ∃ v f, voroSearch (tau B s) = some (v, f) ∧
      (construct near B (turns + 1) s old = some (v, f) ∨
        construct near B (turns + 1) s old = construct near B turns (s + 1) (Faces.volume f fun i => v.getD i 0)) ∧
      (near (Faces.volume f fun i => v.getD i 0) old = true → construct near B (turns + 1) s old = some (v, f)) := by
    intro turns s old hs
    obtain ⟨v, f, h1, h2⟩ := search_positive B hB s hs
    have hc : construct near B (turns + 1) s old = if near (Faces.volume f fun i => v.getD i 0) old then
        (if near (Faces.volume f fun i => v.getD i 0) 0 then none else some (v, f))
        else construct near B turns (s + 1) (Faces.volume f fun i => v.getD i 0) := by
      simp only [construct, h1]
    refine ⟨v, f, h1, ?_, ?_⟩
    · rw [hc]
      cases hn : near (Faces.volume f fun i => v.getD i 0) old with
      | true => left; simp only [hz _ h2, if_true, Bool.false_eq_true, if_false]
      | false => right; simp only [Bool.false_eq_true, if_false]
    · intro hn
      rw [hc]
      simp only [hn, hz _ h2, if_true, Bool.false_eq_true, if_false]
  have main : ∀ (m : ℕ) (s : ℤ) (old : ℚ), 1 ≤ s → E ≤ s + m → ∃ v f, construct near B (m + 2) s old = some (v, f) := by
    intro m
    induction m with
    | zero =>
      intro s old h1 h2
      obtain ⟨v, f, e1, e2, e3⟩ := step 1 s old h1
      rcases e2 with e2 | e2
      · exact ⟨v, f, e2⟩
      · obtain ⟨v', f', g1, g2, g3⟩ := step 0 (s + 1) (Faces.volume f fun i => v.getD i 0) (by omega)
        obtain ⟨w, k, w1, w2⟩ := hE s (by simpa using h2) (tau B s) (tau_perm B s)
        obtain ⟨w', k', w1', w2'⟩ := hE (s + 1) (by have : E ≤ s := by simpa using h2
                                                    omega) (tau B (s + 1)) (tau_perm B (s + 1))
        rw [e1] at w1
        rw [g1] at w1'
        simp only [Option.some.injEq, Prod.mk.injEq] at w1 w1'
        obtain ⟨rfl, rfl⟩ := w1
        obtain ⟨rfl, rfl⟩ := w1'
        exact ⟨v', f', by rw [show (0 + 2 : ℕ) = 1 + 1 from rfl, e2]; exact g3 (by rw [w2, w2']; exact hr _)⟩
    | succ m ih =>
      intro s old h1 h2
      obtain ⟨v, f, e1, e2, e3⟩ := step (m + 2) s old h1
      rcases e2 with e2 | e2
      · exact ⟨v, f, e2⟩
      · obtain ⟨v', f', h⟩ := ih (s + 1) (Faces.volume f fun i => v.getD i 0) (by omega) (by push_cast at h2; omega)
        exact ⟨v', f', by rw [show m + 1 + 2 = m + 2 + 1 from rfl, e2]; exact h⟩
  refine ⟨(E - start).toNat + 2, fun turns ht => ?_⟩
  obtain ⟨m, rfl⟩ : ∃ m, turns = m + 2 := ⟨turns - 2, by omega⟩
  exact main m start old hs (by omega)

/-- C68.  A polyhedron that contains the first Brillouin zone and has the volume of a cell is the first Brillouin zone. -/
theorem C68_volume_decides (B : Matrix (Fin 3) (Fin 3) ℚ) (hB : B.det ≠ 0) (v : List Pt) (f : List Face) (h : ConvexSolid v f) (hne : f ≠ [])
    (hsub : FirstZone B ⊆ Hull (· ∈ v)) :
    |B.det| ≤ Faces.volume f (fun i => v.getD i 0) ∧ (Faces.volume f (fun i => v.getD i 0) = |B.det| ↔ Hull (· ∈ v) = FirstZone B) := by
  obtain ⟨E, hE⟩ := C68_large_extent B hB
  obtain ⟨w, g, -, h2, h3⟩ := hE E le_rfl (tau B E) (tau_perm B E)
  have gne := faces_ne w g h2 (by rw [h3]; exact zero_nearest B _)
  have hm := C69_volume w g h2 gne
  rw [h3, C68_zone_volume B hB] at hm
  have hv : |B.det| = Faces.volume g (fun i => w.getD i 0) := by
    have := (ENNReal.ofReal_eq_ofReal_iff (by exact_mod_cast abs_nonneg B.det) (by exact_mod_cast (C69_positive w g h2 gne).le)).mp hm
    exact_mod_cast this
  have := C69_part w v g f h2 h gne hne (by rw [h3]; exact hsub)
  rw [h3, ← hv] at this
  exact ⟨this.1, by rw [eq_comm, this.2, eq_comm]⟩

example : (Matrix.of ![![1, 0, 0], ![1 / 2, 1, 0], ![0, 0, 2]] : Matrix (Fin 3) (Fin 3) ℚ).det ≠ 0 := by
  rw [Matrix.det_fin_three]; simp
example : (∀ a : ℚ, decide (a = a) = true) ∧ ∀ a : ℚ, 0 < a → decide (a = 0) = false :=
  ⟨fun a => by simp, fun a h => by simp [h.ne']⟩

end Brille.Props
