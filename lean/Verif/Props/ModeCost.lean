import Verif.Proofs.ModeCostMatrix
import Verif.Proofs.ModeCostZero
import Verif.Props.SortPermutations

/-! C61: pairing the modes of two points. -/
namespace Brille.Props
open Finset Brille.ModeCost Brille.Spec

variable {T : Type} [RCLike T]

/-- The usual data of a phonon calculation: each mode has scalar values, real or complex, and complex vectors. -/
structure PhononData (values : Data T) (vectors : Data ℂ) : Prop where
  branches : vectors.branches = values.branches
  values_vectors : values.vectors = 0
  values_matrices : values.matrices = 0
  vectors_scalars : vectors.scalars = 0
  vectors_matrices : vectors.matrices = 0
  vectors_any : vectors.vectors ≠ 0

/-- the scalars of mode `b` of point `i` -/
def scalarsOf (values : Data T) (i b k : Nat) : T := values.row i (b * values.scalars + k)

/-- the vector components of mode `b` of point `i` -/
def vectorsOf (vectors : Data ℂ) (i b k : Nat) : ℂ := vectors.row i (b * vectors.vectors + k)

/-- The cost of pairing mode `b` of point `i` with mode `c` of point `j`: the weighted sum of the absolute differences of
the scalars and of the documented cost of the vectors, which does not depend on phases. -/
noncomputable def modePairCost (values : Data T) (vectors : Data ℂ) (i j b c : Nat) : ℝ :=
  values.mult.1 * ∑ k ∈ range values.scalars, ‖scalarsOf values i b k - scalarsOf values j c k‖ +
    vectors.mult.2.1 * vectorCost vectors.vcf vectors.vectors (vectorsOf vectors i b) (vectorsOf vectors j c)

/-- **C61 (cost).** For two different points the cost matrix is always found, without an exception, and holds in row `b` and
column `c` the cost of pairing mode `b` of the first with mode `c` of the second point. -/
theorem C61_cost (st : Scalars T) (values : Data T) (vectors : Data ℂ) (hd : PhononData values vectors) (i j : Nat)
    (hij : i ≠ j) :
    ∃ cost, costMatrix st complexes values vectors i j = some cost ∧
      cost.length = values.branches * values.branches ∧
      ∀ b c, b < values.branches → c < values.branches →
        cost.getD (b * values.branches + c) 0 = modePairCost values vectors i j b c :=
  costMatrix_spec st values vectors hd.branches hd.values_vectors hd.values_matrices hd.vectors_scalars
    hd.vectors_matrices hd.vectors_any i j hij

/-- **C61 (symmetric).** The cost is the same from either side. -/
theorem C61_symmetric (values : Data T) (vectors : Data ℂ) (i j b c : Nat) :
    modePairCost values vectors j i c b = modePairCost values vectors i j b c := by
  unfold modePairCost
  rw [vectorCost_comm]
  congr 2
  exact sum_congr rfl fun k _ => norm_sub_rev _ _

/-- **C61 (phases).** The cost does not change when the vectors of a mode are multiplied by a phase factor. -/
theorem C61_phase (values : Data T) (vectors vectors' : Data ℂ) (i j b c : Nat)
    (h0 : vectors'.vectors = vectors.vectors) (h1 : vectors'.vcf = vectors.vcf) (h2 : vectors'.mult = vectors.mult)
    (ha : Rephased vectors.vectors (vectorsOf vectors i b) (vectorsOf vectors' i b))
    (hb : Rephased vectors.vectors (vectorsOf vectors j c) (vectorsOf vectors' j c)) :
    modePairCost values vectors' i j b c = modePairCost values vectors i j b c := by
  unfold modePairCost
  rw [h0, h1, h2, vectorCost_phase hb, vectorCost_comm, vectorCost_phase ha, vectorCost_comm]

/-- **C61 (distance).** With cost function 1 the cost of the vectors is the least distance that can be reached by giving the
second vector another phase. -/
theorem C61_least_distance (n : Nat) (a b : Nat → ℂ) :
    (∀ c : ℂ, ‖c‖ = 1 → vectorCost 1 n a b ≤ Spec.length n (fun k => a k - c * b k)) ∧
      ∃ c : ℂ, ‖c‖ = 1 ∧ vectorCost 1 n a b = Spec.length n (fun k => a k - c * b k) := by
  have key : ∀ c : ℂ, ‖c‖ = 1 → Spec.length n (fun k => a k - c * b k) =
      Real.sqrt (Spec.length n a ^ 2 + Spec.length n b ^ 2 - 2 * (c * hdot n a b).re) := by
    intro c hc
    have e1 : toE n (fun k => a k - c * b k) = toE n a - toE n (fun k => c * b k) := by
      ext i; simp [toE]
    rw [length_norm, e1, ← Real.sqrt_sq (norm_nonneg (toE n a - toE n fun k => c * b k)), @norm_sub_sq ℂ,
      ← hdot_inner, hdot_mul, ← length_norm, ← length_norm, length_mul, hc, one_mul]
    congr 1
    simp only [RCLike.re_to_complex]
    ring
  have v : vectorCost 1 n a b = Real.sqrt (Spec.length n a ^ 2 + Spec.length n b ^ 2 - 2 * ‖hdot n a b‖) := rfl
  constructor
  · intro c hc
    rw [v, key c hc]
    apply Real.sqrt_le_sqrt
    have : (c * hdot n a b).re ≤ ‖hdot n a b‖ := by
      calc (c * hdot n a b).re ≤ ‖c * hdot n a b‖ := Complex.re_le_norm _
        _ = ‖hdot n a b‖ := by rw [norm_mul, hc, one_mul]
    linarith
  · refine ⟨Interp.antiphase n a b, antiphase_norm n a b, ?_⟩
    rw [v, key _ (antiphase_norm n a b), antiphase_mul, Complex.ofReal_re]

/-- **C61 (no cost).** Pairing vectors costs nothing if one is a rephased copy of the other, and something if they have
different directions.  (Cost function 2 presumes normalised vectors.) -/
theorem C61_vectors_cost (kind : Int) (n : Nat) (a b : Nat → ℂ) (ha : NormalisedFor kind n a)
    (hb : NormalisedFor kind n b) :
    0 ≤ vectorCost kind n a b ∧ (Rephased n a b → vectorCost kind n a b = 0) ∧
      (¬ Parallel n a b → 0 < vectorCost kind n a b) :=
  ⟨vectorCost_nonneg ha hb, vectorCost_rephased ha, vectorCost_pos ha hb⟩

/-- what the solver leaves when every mode of the second point has one cheapest partner -/
theorem readSolution_perm {n : Nat} (f : Fin n → Option (Fin n)) (σ : Equiv.Perm (Fin n))
    (h : ∀ i, f i = some (σ i)) : Lapjv.readSolution f = (List.finRange n).map fun i => (σ i).val := by
  unfold Lapjv.readSolution
  exact List.map_congr_left fun i _ => by rw [h i]

/-- the list of the images of `0 … n-1` -/
def images {n : Nat} (π : Equiv.Perm (Fin n)) : List Nat := (List.finRange n).map fun i => (π i).val

/-- **C61 (closest).** Whatever the costs are: if every mode `π b` of point `j` is cheaper to pair with mode `b` of point
`i` than with any other mode of `i`, then the permutation found for `(i, j)` is `π` and the one for `(j, i)` its inverse. -/
theorem C61_closest (st : Scalars T) (values : Data T) (vectors : Data ℂ) (hd : PhononData values vectors) (i j : Nat)
    (hij : i ≠ j) (π : Equiv.Perm (Fin values.branches))
    (h : ∀ b c : Fin values.branches, c ≠ b →
      modePairCost values vectors i j b (π b) < modePairCost values vectors i j c (π b)) (fuel : Nat) :
    determine st complexes values vectors i j (fuel + 1) = some (images π, images π.symm) := by
  obtain ⟨cost, h1, _, h3⟩ := C61_cost st values vectors hd i j hij
  obtain ⟨r, k1, k2, k3⟩ := Lapjv.lapjv_direct
    (fun a b : Fin values.branches => cost.getD (a.val * values.branches + b.val) 0) π.symm (by
      intro a b hab
      rw [h3 _ _ (Fin.isLt _) (Fin.isLt _), h3 _ _ (Fin.isLt _) (Fin.isLt _)]
      have := h (π.symm b) a hab
      simpa using this) fuel
  unfold determine
  rw [h1, Option.bind_some]
  unfold Lapjv.jvFill
  rw [k1, Option.map_some, readSolution_perm _ π (by simpa using k2), readSolution_perm _ π.symm k3]
  rfl

/-- **C61 (relabelled).** If the modes of point `j` are those of point `i` in another order and with other phases, and the
modes of `i` can be told apart, then the permutation found is exactly that order. -/
theorem C61_recovers (st : Scalars T) (values : Data T) (vectors : Data ℂ) (hd : PhononData values vectors)
    (hs : 0 < values.mult.1) (hv : 0 < vectors.mult.2.1) (i j : Nat) (hij : i ≠ j)
    (π : Equiv.Perm (Fin values.branches))
    (hrel : Relabelled values.branches values.scalars vectors.vectors (scalarsOf values i) (scalarsOf values j)
      (vectorsOf vectors i) (vectorsOf vectors j) π)
    (hdis : Distinguishable values.branches values.scalars vectors.vectors (scalarsOf values i) (vectorsOf vectors i))
    (hnorm : ∀ b, b < values.branches → NormalisedFor vectors.vcf vectors.vectors (vectorsOf vectors i b))
    (fuel : Nat) :
    determine st complexes values vectors i j (fuel + 1) = some (images π, images π.symm) := by
  refine C61_closest st values vectors hd i j hij π (fun b c hcb => ?_) fuel
  have e0 : modePairCost values vectors i j b (π b) = 0 := by
    unfold modePairCost
    rw [vectorCost_rephased (hnorm b b.isLt) (hrel.vectors b), mul_zero, add_zero, sum_eq_zero, mul_zero]
    intro k hk
    rw [hrel.scalars b k (mem_range.mp hk), sub_self, norm_zero]
  have e1 : modePairCost values vectors i j c (π b) = values.mult.1 *
      ∑ k ∈ range values.scalars, ‖scalarsOf values i c k - scalarsOf values i b k‖ +
      vectors.mult.2.1 * vectorCost vectors.vcf vectors.vectors (vectorsOf vectors i c) (vectorsOf vectors i b) := by
    unfold modePairCost
    rw [vectorCost_phase (hrel.vectors b)]
    congr 2
    exact sum_congr rfl fun k hk => by rw [hrel.scalars b k (mem_range.mp hk)]
  rw [e0, e1]
  have p1 : 0 ≤ ∑ k ∈ range values.scalars, ‖scalarsOf values i c k - scalarsOf values i b k‖ :=
    sum_nonneg fun _ _ => norm_nonneg _
  have p2 := vectorCost_nonneg (hnorm c c.isLt) (hnorm b b.isLt)
  rcases hdis c b c.isLt b.isLt (fun e => hcb (Fin.ext e)) with ⟨k, hk, hne⟩ | hnp
  · have : 0 < ∑ k ∈ range values.scalars, ‖scalarsOf values i c k - scalarsOf values i b k‖ := by
      refine sum_pos' (fun _ _ => norm_nonneg _) ⟨k, mem_range.mpr hk, ?_⟩
      exact norm_pos_iff.mpr (sub_ne_zero.mpr hne)
    have := mul_pos hs this
    have := mul_nonneg hv.le p2
    linarith
  · have := mul_pos hv (vectorCost_pos (hnorm c c.isLt) (hnorm b b.isLt) hnp)
    have := mul_nonneg hs.le p1
    linarith

end Brille.Props
