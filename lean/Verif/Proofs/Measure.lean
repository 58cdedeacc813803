/- The measure of tetrahedra and of what is put together from them. -/
import Verif.Proofs.ConvexFace
import Mathlib.MeasureTheory.Measure.Lebesgue.EqHaar

namespace Brille.Convex

open Brille.Spec Brille.Tetra MeasureTheory

/-- an affine function on space -/
def Aff (s : (Fin 3 → ℝ) → ℝ) : Prop := ∃ n0 n1 n2 k : ℝ, ∀ x, s x = n0 * x 0 + n1 * x 1 + n2 * x 2 + k

theorem Aff.comb {s : (Fin 3 → ℝ) → ℝ} (hs : Aff s) (x y : Fin 3 → ℝ) (a b : ℝ) (hab : a + b = 1) :
    s (a • x + b • y) = a * s x + b * s y := by
  obtain ⟨n0, n1, n2, k, h⟩ := hs
  simp only [h, Pi.add_apply, Pi.smul_apply, smul_eq_mul]
  obtain rfl : b = 1 - a := by linarith
  ring

/-- an affine function that is not negative at the corners is not negative on the hull -/
theorem Aff.hull {s : (Fin 3 → ℝ) → ℝ} (hs : Aff s) (S : Set (Fin 3 → ℝ)) (h : ∀ x ∈ S, 0 ≤ s x) (x : Fin 3 → ℝ)
    (hx : x ∈ convexHull ℝ S) : 0 ≤ s x := by
  have hconv : Convex ℝ {x | 0 ≤ s x} := by
    intro y hy z hz a b ha hb hab
    simp only [Set.mem_ofPred_eq] at hy hz ⊢
    rw [hs.comb y z a b hab]
    exact add_nonneg (mul_nonneg ha hy) (mul_nonneg hb hz)
  exact convexHull_min (fun y hy => h y hy) hconv hx

theorem Aff.neg {s : (Fin 3 → ℝ) → ℝ} (hs : Aff s) : Aff fun x => -s x := by
  obtain ⟨n0, n1, n2, k, h⟩ := hs
  exact ⟨-n0, -n1, -n2, -k, fun x => by simp only [h]; ring⟩

theorem Aff.lin {s t : (Fin 3 → ℝ) → ℝ} (hs : Aff s) (ht : Aff t) (a b : ℝ) : Aff fun x => s x * a - t x * b := by
  obtain ⟨n0, n1, n2, k, h⟩ := hs
  obtain ⟨m0, m1, m2, j, g⟩ := ht
  exact ⟨n0 * a - m0 * b, n1 * a - m1 * b, n2 * a - m2 * b, k * a - j * b, fun x => by simp only [h, g]; ring⟩

theorem aff_side (a b c : Fin 3 → ℝ) : Aff (side a b c) := side_affine a b c

theorem aff_third (a b i : Fin 3 → ℝ) : Aff fun x => side a b x i := by
  obtain ⟨n0, n1, n2, k, h⟩ := side_affine a b i
  refine ⟨-n0, -n1, -n2, -k, fun x => ?_⟩
  have : side a b x i = -side a b i x := by unfold side; ring
  simp only
  rw [this, h]; ring

/-- a plane has no volume -/
theorem Aff.null {s : (Fin 3 → ℝ) → ℝ} (hs : Aff s) (p q : Fin 3 → ℝ) (hpq : s p ≠ s q) : volume {x | s x = 0} = 0 := by
  let A : AffineSubspace ℝ (Fin 3 → ℝ) :=
    { carrier := {x | s x = 0}
      smul_vsub_vadd_mem' := by
        intro c x y z hx hy hz
        obtain ⟨n0, n1, n2, k, h⟩ := hs
        simp only [Set.mem_ofPred_eq, h, vsub_eq_sub, vadd_eq_add, Pi.add_apply, Pi.smul_apply, Pi.sub_apply, smul_eq_mul] at hx hy hz ⊢
        linear_combination c * hx - c * hy + hz }
  have hA : A ≠ ⊤ := by
    intro h
    have mem : ∀ x, s x = 0 := by
      intro x
      have : x ∈ A := by rw [h]; exact AffineSubspace.mem_top _ _ _
      exact this
    exact hpq ((mem p).trans (mem q).symm)
  exact Measure.addHaar_affineSubspace volume A hA

/-- the volume of the tetrahedron of the origin and the three unit vectors -/
noncomputable def unitVolume : ENNReal := volume (convexHull ℝ (insert 0 (Set.range fun i : Fin 3 => (Pi.single i 1 : Fin 3 → ℝ))))

/-- the volume of a tetrahedron -/
theorem tetra_volume (c a b d : Fin 3 → ℝ) : volume (convexHull ℝ {c, a, b, d}) = ENNReal.ofReal |side a b d c| * unitVolume := by
  let M : Matrix (Fin 3) (Fin 3) ℝ := Matrix.of ![fun i => a i - c i, fun i => b i - c i, fun i => d i - c i]
  let f : (Fin 3 → ℝ) →ₗ[ℝ] (Fin 3 → ℝ) := Matrix.toLin' M.transpose
  have hf : ∀ i, f (Pi.single i 1) = M i := by
    intro i
    simp only [f, Matrix.toLin'_apply, Matrix.mulVec_single_one]
    rfl
  have himg : convexHull ℝ {c, a, b, d} = (fun x => c + x) '' (f '' convexHull ℝ (insert 0 (Set.range fun i : Fin 3 => (Pi.single i 1 : Fin 3 → ℝ)))) := by
    rw [LinearMap.image_convexHull]
    have h1 : (fun x => c + x) = (AffineEquiv.constVAdd ℝ (Fin 3 → ℝ) c).toAffineMap := by
      funext x; simp
    rw [h1, AffineMap.image_convexHull, ← h1]
    congr 1
    rw [Set.image_insert_eq, Set.image_insert_eq, map_zero, add_zero, ← Set.range_comp, ← Set.range_comp]
    have h2 : Set.range ((fun x => c + x) ∘ f ∘ fun i : Fin 3 => (Pi.single i 1 : Fin 3 → ℝ)) = {a, b, d} := by
      ext x
      simp only [Set.mem_range, Function.comp_apply, hf, Set.mem_insert_iff, Set.mem_singleton_iff]
      have e0 : c + M 0 = a := by funext i; simp [M]
      have e1 : c + M 1 = b := by funext i; simp [M]
      have e2 : c + M 2 = d := by funext i; simp [M]
      constructor
      · rintro ⟨i, rfl⟩
        match i with
        | 0 => exact Or.inl e0
        | 1 => exact Or.inr (Or.inl e1)
        | 2 => exact Or.inr (Or.inr e2)
      · rintro (rfl | rfl | rfl)
        · exact ⟨0, e0⟩
        · exact ⟨1, e1⟩
        · exact ⟨2, e2⟩
    rw [h2]
  rw [himg, Set.image_add_left, measure_preimage_add, Measure.addHaar_image_linearMap]
  unfold unitVolume
  congr 3
  simp only [f, LinearMap.det_toLin', Matrix.det_transpose]
  rw [Matrix.det_fin_three]
  simp only [M, Matrix.of_apply, Matrix.cons_val_zero, Matrix.cons_val_one, Matrix.cons_val, side]
  ring

/-- the measure of a union of sets that overlap in null sets only -/
theorem measure_list {α : Type} (T : α → Set (Fin 3 → ℝ)) (l : List α) (hm : ∀ t ∈ l, MeasurableSet (T t))
    (hd : l.Pairwise fun s t => volume (T s ∩ T t) = 0) : volume (⋃ t ∈ l, T t) = (l.map fun t => volume (T t)).sum := by
  induction l with
  | nil => simp
  | cons a l ih =>
    rw [List.pairwise_cons] at hd
    have h1 : (⋃ t ∈ a :: l, T t) = T a ∪ ⋃ t ∈ l, T t := by
      ext x; simp
    have hn : volume (T a ∩ ⋃ t ∈ l, T t) = 0 := by
      have hsub : (T a ∩ ⋃ t ∈ l, T t) ⊆ ⋃ t ∈ {t | t ∈ l}, T a ∩ T t := by
        intro x hx
        obtain ⟨hxa, hx⟩ := hx
        simp only [Set.mem_iUnion] at hx ⊢
        obtain ⟨t, ht, hxt⟩ := hx
        exact ⟨t, ht, hxa, hxt⟩
      refine measure_mono_null hsub ?_
      exact (measure_biUnion_null_iff (List.finite_toSet l).countable).mpr fun t ht => hd.1 t ht
    rw [h1, measure_union₀ _ hn, ih (fun t ht => hm t (List.mem_cons_of_mem _ ht)) hd.2, List.map_cons, List.sum_cons]
    exact (MeasurableSet.biUnion (List.finite_toSet l).countable fun t ht => hm t (List.mem_cons_of_mem _ ht)).nullMeasurableSet

end Brille.Convex
