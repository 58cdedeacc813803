import Verif.Proofs.MatrixMem
import Verif.Props.Matrix
import Mathlib.LinearAlgebra.CrossProduct
import Mathlib.Data.Complex.Basic

/-! C86: the matrix routines on memory compute the matrix operations and write nothing else, if the result is apart
from the operands.  `matAt h p n m` is the `n`×`m` matrix at the address `p`, row by row; `Apart p n q k` says that
the `n` cells at `p` and the `k` cells at `q` are different.  The operations are Mathlib's. -/
namespace Brille.Props
open Brille.MatMem Matrix

/-- only the `n` cells at `c` are different from before -/
def OnlyAt {R : Type} (h h' : Mem R) (c n : ℕ) : Prop := ∀ x, (x < c ∨ c + n ≤ x) → h' x = h x

/-- a memory for the examples: a list of numbers, then zeros -/
def memOf {R : Type} [Zero R] (l : List R) : Mem R := fun x => l.getD x 0

theorem matAt_only {R : Type} {h h' : Mem R} {c k p n m : ℕ} (o : OnlyAt h h' c k) (a : Apart c k p (n * m)) :
    matAt h' p n m = matAt h p n m := by
  funext i j
  unfold Apart at a
  have := cell i.2 j.2
  exact o _ (by omega)

/-- a block which `new` returns, set to zero -/
theorem fresh_only {R : Type} [Zero R] (h : Mem R) (t n : ℕ) : OnlyAt h (loop n (fun i h => put h (t + i) 0) h) t n :=
  (fill_block n t (fun _ _ => (0 : R)) h fun _ _ _ _ => rfl).2

/-- **C86 (product).** For all sizes, matrices and addresses: a product is written, and nothing else. -/
theorem C86_multiply {R : Type} [CommRing R] (h : Mem R) (c a b n l m : ℕ) (hA : Apart c (n * m) a (n * l))
    (hB : Apart c (n * m) b (l * m)) :
    Matrix.of (matAt (multiplyArrays h c a b n l m) c n m) = Matrix.of (matAt h a n l) * Matrix.of (matAt h b l m) ∧
    OnlyAt h (multiplyArrays h c a b n l m) c (n * m) := by
  obtain ⟨h1, h2⟩ := multiply_spec h c a b n l m hA hB
  refine ⟨?_, h2⟩
  ext i j
  rw [Matrix.mul_apply]
  show multiplyArrays h c a b n l m (c + (i.val * m + j.val)) = _
  rw [h1 i j i.2 j.2, Finset.sum_range]
  rfl

example : multiplyArrays (memOf [1, 2, 3, 4, 5, 6, 9, 9, 9, 9, 7] : Mem ℤ) 6 0 0 2 2 2 7 = 10 ∧
    Apart 6 (2 * 2) 0 (2 * 2) := by
  refine ⟨by decide, Or.inr (by norm_num)⟩

theorem loop_inv {σ : Type} (P : σ → Prop) (n : ℕ) (f : ℕ → σ → σ) (s : σ) (h0 : P s)
    (hs : ∀ i, i < n → ∀ s, P s → P (f i s)) : P (loop n f s) := by
  induction n with
  | zero => exact h0
  | succ n ih => rw [loop_succ]; exact hs n (by omega) _ (ih fun i hi => hs i (by omega))

/-- a product writes nothing else, even if the result overlaps the factors -/
theorem multiply_above {R : Type} [CommRing R] (h : Mem R) (c a b n l m x : ℕ) (hx : x < c ∨ c + n * m ≤ x) :
    multiplyArrays h c a b n l m x = h x := by
  set P : Mem R → Prop := fun s => s x = h x with hP
  unfold multiplyArrays
  refine loop_inv P n _ _ (fresh_only h c (n * m) x hx) fun i hi s hs =>
      loop_inv P m _ _ hs fun j hj s hs => loop_inv P l _ _ hs fun k hk s hs => ?_
  have h1 := cell hi hj
  show put _ _ _ x = h x
  rw [put_other _ _ (by omega)]
  exact hs

/-- **C86 (product, overlap).** If the result is to replace the second factor, it is zero whatever the factors are:
the factor is set to zero before it is used. -/
theorem C86_multiply_counterexample {R : Type} [CommRing R] (h : Mem R) (c a n m : ℕ) :
    Matrix.of (matAt (multiplyArrays h c a c n n m) c n m) = 0 := by
  have key : ∀ x, c ≤ x ∧ x < c + n * m → multiplyArrays h c a c n n m x = 0 := by
    obtain ⟨z1, z2⟩ := fill_block (n * m) c (fun _ _ => (0 : R)) h fun _ _ _ _ => rfl
    unfold multiplyArrays
    set P : Mem R → Prop := fun s => ∀ x, c ≤ x ∧ x < c + n * m → s x = 0 with hP
    refine loop_inv P n _ _ (fun x hx => ?_) fun i hi s hs =>
      loop_inv P m _ _ hs fun j hj s hs => loop_inv P n _ _ hs fun k hk s hs x hx => ?_
    · have := z1 (x - c) (by omega)
      rwa [Nat.add_sub_cancel' hx.1] at this
    · have h1 := cell hi hj
      have h2 := cell hk hj
      by_cases e : x = c + i * m + j
      · rw [e, put_same, hs _ (by omega), hs (c + k * m + j) (by omega)]; simp
      · rw [put_other _ _ e]; exact hs x hx
  ext i j
  have := cell i.2 j.2
  exact key _ (by omega)

example : multiplyArrays (memOf [1, 0, 0, 1, 5, 6, 7, 8] : Mem ℤ) 4 0 4 2 2 2 4 = 0 := by decide

/-- **C86 (sums and differences).** Element by element, also in place; an operand may begin at or behind the
result or lie apart from it. -/
theorem C86_elementwise {R : Type} (op : R → R → R) (h : Mem R) (c a b size : ℕ) (hA : c ≤ a ∨ a + size ≤ c)
    (hB : c ≤ b ∨ b + size ≤ c) :
    (∀ i, i < size → zipArrays op h c a b size (c + i) = op (h (a + i)) (h (b + i))) ∧
    OnlyAt h (zipArrays op h c a b size) c size :=
  fill_block size c (fun i h => op (h (a + i)) (h (b + i))) h fun i hi h' hh => by
    show op _ _ = op _ _
    rw [hh _ (by omega), hh _ (by omega)]

/-- an operand that begins a little before the result is overwritten while it is read -/
theorem C86_elementwise_counterexample :
    ∃ h : Mem ℤ, zipArrays (· + ·) h 1 0 0 2 (1 + 1) ≠ h (0 + 1) + h (0 + 1) := ⟨memOf [1, 1, 1], by decide⟩

example : zipArrays (· + ·) (memOf [1, 2, 3, 4] : Mem ℤ) 0 0 2 2 1 = 6 := by decide

/-- **C86 (copy).** -/
theorem C86_copy {R : Type} (h : Mem R) (d s size : ℕ) (hS : d ≤ s ∨ s + size ≤ d) :
    (∀ i, i < size → copyArray h d s size (d + i) = h (s + i)) ∧ OnlyAt h (copyArray h d s size) d size :=
  fill_block size d (fun i h => h (s + i)) h fun i hi h' hh => hh _ (by omega)

example : copyArray (memOf [1, 2, 3, 4] : Mem ℤ) 0 2 2 1 = 4 := by decide

/-- **C86 (determinant).** The recursion over minors in freshly allocated blocks gives the determinant. -/
theorem C86_determinant {R : Type} [CommRing R] (M : Mem R) (n : ℕ) :
    MatMem.determinant (n + 1) M = (Matrix.of (matAt M 0 (n + 1) (n + 1))).det := by
  rw [determinant_refines, C13_determinant]

example : MatMem.determinant 3 (memOf [2, 1, 0, 1, 3, 1, 0, 1, 4] : Mem ℤ) = 18 := by decide +kernel

theorem shift_matAt {R : Type} (h : Mem R) (p n m : ℕ) : matAt (fun x => h (p + x)) 0 n m = matAt h p n m := by
  funext i j; simp [matAt]

/-- one cell of the adjoint -/
theorem adjoint_cells {R : Type} [CommRing R] (h : Mem R) (a m n : ℕ)
    (hM : Apart a ((n + 2) * (n + 2)) m ((n + 2) * (n + 2))) :
    (∀ i j : Fin (n + 2), matrixAdjoint h a m (n + 2) (a + (i.val * (n + 2) + j.val)) =
      Mat.adjoint (matAt h m (n + 2) (n + 2)) i j) ∧
    OnlyAt h (matrixAdjoint h a m (n + 2)) a ((n + 2) * (n + 2)) := by
  set N := n + 2 with hN
  unfold Apart at hM
  set g : ℕ → Mem R → R := fun t s => (if (t / N + t % N) % 2 = 0 then 1 else -1) *
    MatMem.determinant (N - 1) (arrayCofactor (fun x => s (m + x)) (t / N) (t % N) N N fun _ => 0).2 with hg
  have key : matrixAdjoint h a m N = loop (N * N) (fun t s => put s (a + t) (g t s)) h := by
    unfold matrixAdjoint
    rw [if_neg (by omega)]
    rw [loop_loop N N (fun i j (s : Mem R × Mem R) =>
      let cof := (arrayCofactor (fun x => s.1 (m + x)) i j N N s.2).2
      (put s.1 (a + j + i * N) ((if (i + j) % 2 = 0 then 1 else -1) * MatMem.determinant (N - 1) cof), cof))]
    refine loop_fst _ _ _ _ fun t ht s => ?_
    have hi : t / N < N := Nat.div_lt_of_lt_mul ht
    have hj : t % N < N := Nat.mod_lt _ (by omega)
    have e : a + t % N + t / N * N = a + t := by rw [Nat.add_assoc, Nat.mul_comm, Nat.mod_add_div]
    show put _ _ _ = _
    rw [e]
    congr 2
    refine determinant_congr _ _ _ fun x hx => ?_
    rw [cofactor_spec _ _ _ _ _ _ hi, cofactor_spec _ _ _ _ _ _ hi]
    have ho : others (t % N) N = N - 1 := by simp [others, hj]
    simp only [ho, if_pos hx]
  have loc : ∀ t, t < N * N → ∀ h' : Mem R, (∀ x, (x < a ∨ a + t ≤ x) → h' x = h x) → g t h' = g t h := by
    intro t ht h' hh
    have hi : t / N < N := Nat.div_lt_of_lt_mul ht
    have hj : t % N < N := Nat.mod_lt _ (by omega)
    simp only [hg]
    congr 1
    refine determinant_congr _ _ _ fun x hx => ?_
    rw [cofactor_spec _ _ _ _ _ _ hi, cofactor_spec _ _ _ _ _ _ hi]
    have ho : others (t % N) N = N - 1 := by simp [others, hj]
    simp only [ho, if_pos hx]
    have h1 : x / (N - 1) < N - 1 := Nat.div_lt_of_lt_mul hx
    have h2 : x % (N - 1) < N - 1 := Nat.mod_lt _ (by omega)
    have h3 : ∀ i b, b < N - 1 → skip i b < N := by intro i b hb; unfold skip; split <;> omega
    have h4 := cell (h3 (t % N) _ h1) (h3 (t / N) _ h2)
    rw [Nat.mul_comm] at h4
    exact hh _ (by omega)
  obtain ⟨f1, f2⟩ := fill_block (N * N) a g h loc
  rw [key]
  refine ⟨fun i j => ?_, f2⟩
  have hp : 0 < N := by omega
  rw [f1 _ (cell i.2 j.2)]
  simp only [hg]
  rw [Nat.mul_comm i.val N, Nat.mul_add_div hp, Nat.div_eq_of_lt j.2, Nat.mul_add_mod, Nat.mod_eq_of_lt j.2, Nat.add_zero]
  show _ * _ = _ * _
  congr 1
  rw [determinant_refines]
  have := cofactor_mat (fun x => h (m + x)) (n := n + 1) i j (fun _ => 0)
  rw [shift_matAt] at this
  rw [← this]
  rfl

/-- **C86 (adjoint).** -/
theorem C86_adjoint {R : Type} [CommRing R] (h : Mem R) (a m n : ℕ)
    (hM : Apart a ((n + 1) * (n + 1)) m ((n + 1) * (n + 1))) :
    Matrix.of (matAt (matrixAdjoint h a m (n + 1)) a (n + 1) (n + 1)) =
      (Matrix.of (matAt h m (n + 1) (n + 1))).adjugate ∧
    OnlyAt h (matrixAdjoint h a m (n + 1)) a ((n + 1) * (n + 1)) := by
  match n with
  | 0 =>
    refine ⟨?_, fun x hx => put_other _ _ (by omega)⟩
    ext i j
    obtain rfl : i = 0 := Fin.ext (by have := i.2; show i.val = 0; omega)
    obtain rfl : j = 0 := Fin.ext (by have := j.2; show j.val = 0; omega)
    simp [matAt, matrixAdjoint, put]
  | n + 1 =>
    obtain ⟨h1, h2⟩ := adjoint_cells h a m n hM
    refine ⟨?_, h2⟩
    have := Mat.adjoint_eq (matAt h m (n + 2) (n + 2))
    rw [← this]
    ext i j
    exact h1 i j

example : matrixAdjoint (memOf [1, 2, 3, 4] : Mem ℤ) 4 0 2 5 = -2 ∧ Apart 4 ((1 + 1) * (1 + 1)) 0 ((1 + 1) * (1 + 1)) :=
  ⟨by decide +kernel, Or.inr (by norm_num)⟩

/-- the adjoint in place is wrong: elements are replaced while others still need them -/
theorem C86_adjoint_counterexample : ∃ h : Mem ℤ,
    Matrix.of (matAt (matrixAdjoint h 0 0 2) 0 2 2) ≠ (Matrix.of (matAt h 0 2 2)).adjugate := by
  refine ⟨memOf [1, 2, 3, 4], fun e => ?_⟩
  have := congrFun (congrFun e 1) 1
  rw [Matrix.adjugate_fin_two] at this
  revert this
  decide +kernel

/-- **C86 (inverse).** Whether there is an inverse is reported; if so it is written, else nothing. -/
theorem C86_inverse {K : Type} [Field K] [LinearOrder K] [IsStrictOrderedRing K] (h : Mem K) (inv m n : ℕ) (tol : K)
    (htol : 0 ≤ tol) (hM : Apart inv ((n + 1) * (n + 1)) m ((n + 1) * (n + 1))) :
    let A := Matrix.of (matAt h m (n + 1) (n + 1))
    let r := matrixInverse (· / ·) (fun d => decide (|d| > tol)) h inv m (n + 1)
    (r.1 = true ↔ tol < |A.det|) ∧
    (r.1 = false → r.2 = h) ∧
    (r.1 = true → Matrix.of (matAt r.2 inv (n + 1) (n + 1)) * A = 1 ∧ A * Matrix.of (matAt r.2 inv (n + 1) (n + 1)) = 1) ∧
    OnlyAt h r.2 inv ((n + 1) * (n + 1)) := by
  intro A r
  have hd : MatMem.determinant (n + 1) (fun x => h (m + x)) = A.det := by rw [C86_determinant, shift_matAt]
  obtain ⟨a1, a2⟩ := C86_adjoint h inv m n hM
  by_cases hgt : |A.det| > tol
  · have e1 : r.1 = true := by simp [r, matrixInverse, determinantAndInverse, hd, hgt]
    have e2 : r.2 = loop ((n + 1) * (n + 1)) (fun i h => put h (inv + i) (h (inv + i) / A.det))
        (matrixAdjoint h inv m (n + 1)) := by simp [r, matrixInverse, determinantAndInverse, hd, hgt]
    have h0 : A.det ≠ 0 := by
      intro e; rw [e, abs_zero] at hgt; exact absurd htol (not_le.2 hgt)
    obtain ⟨f1, f2⟩ := fill_block ((n + 1) * (n + 1)) inv (fun i s => s (inv + i) / A.det)
      (matrixAdjoint h inv m (n + 1)) fun i hi h' hh => by
        show _ / _ = _ / _
        rw [hh _ (Or.inr (le_refl _))]
    have e3 : Matrix.of (matAt r.2 inv (n + 1) (n + 1)) = A.det⁻¹ • A.adjugate := by
      rw [← a1, e2]
      ext i j
      show _ = A.det⁻¹ * matrixAdjoint h inv m (n + 1) (inv + (i.val * (n + 1) + j.val))
      rw [mul_comm (A.det⁻¹), ← div_eq_mul_inv]
      exact f1 _ (cell i.2 j.2)
    refine ⟨by simp [e1, hgt], fun e => by simp [e1] at e, fun _ => ⟨?_, ?_⟩, fun x hx => ?_⟩
    · rw [e3, Matrix.smul_mul, Matrix.adjugate_mul, smul_smul, inv_mul_cancel₀ h0, one_smul]
    · rw [e3, Matrix.mul_smul, Matrix.mul_adjugate, smul_smul, inv_mul_cancel₀ h0, one_smul]
    · rw [e2, f2 x hx, a2 x hx]
  · have e1 : r.1 = false := by simp [r, matrixInverse, determinantAndInverse, hd, hgt]
    have e2 : r.2 = h := by simp [r, matrixInverse, determinantAndInverse, hd, hgt]
    exact ⟨by simp [e1, hgt], fun _ => e2, fun e => by simp [e1] at e, fun x _ => by rw [e2]⟩

example : (matrixInverse (· / ·) (fun d => decide (|d| > 0)) (memOf [1, 2, 3, 4] : Mem ℚ) 4 0 2).2 5 = 1 := by
  decide +kernel

/-- **C86 (transpose).** With the identity the transposed, with the conjugation the adjoint matrix. -/
theorem C86_transpose {R : Type} (f : R → R) (h : Mem R) (d s N M : ℕ) (hS : Apart d (N * M) s (N * M)) :
    matAt (arrayTranspose f h d s N M) d M N = (fun j i => f (matAt h s N M i j)) ∧
    OnlyAt h (arrayTranspose f h d s N M) d (N * M) := by
  unfold Apart at hS
  have key : arrayTranspose f h d s N M =
      loop (N * M) (fun t h => put h (d + (t / M + t % M * N)) (f (h (s + t)))) h := by
    unfold arrayTranspose
    rw [loop_loop N M (fun i j h => put h (d + i + j * N) (f (h (s + j + i * M))))]
    refine loop_congr _ _ _ _ fun t _ h => ?_
    rw [Nat.add_assoc, Nat.add_assoc s, Nat.mul_comm (t / M) M, Nat.mod_add_div]
  have hin : ∀ t, t < N * M → t / M < N ∧ t % M < M := fun t ht =>
    ⟨Nat.div_lt_of_lt_mul (by rwa [Nat.mul_comm]), Nat.mod_lt _ (Nat.pos_of_ne_zero fun e => by simp [e] at ht)⟩
  have hlt : ∀ t, t < N * M → t / M + t % M * N < N * M := fun t ht => by
    have := cell (hin t ht).2 (hin t ht).1
    rw [Nat.mul_comm M N] at this; omega
  obtain ⟨f1, f2⟩ := fill (N * M) (fun t => d + (t / M + t % M * N)) (fun t h => f (h (s + t))) h
    (fun i hi k hk e => by
      have e : i / M + i % M * N = k / M + k % M * N := by exact Nat.add_left_cancel (show d + (i / M + i % M * N) = d + (k / M + k % M * N) from e)
      obtain ⟨i1, i2⟩ := hin i hi
      obtain ⟨k1, k2⟩ := hin k (by omega)
      have hN : 0 < N := Nat.lt_of_le_of_lt (Nat.zero_le _) i1
      have q1 : i / M = k / M := by
        have := congrArg (· % N) e
        simpa [Nat.add_mul_mod_self_right, Nat.mod_eq_of_lt i1, Nat.mod_eq_of_lt k1] using this
      have q2 : i % M = k % M := by
        have := congrArg (· / N) e
        simpa [Nat.add_mul_div_right _ _ hN, Nat.div_eq_of_lt i1, Nat.div_eq_of_lt k1] using this
      have := Nat.div_add_mod i M
      have := Nat.div_add_mod k M
      rw [q1, q2] at *
      omega)
    (fun i hi h' hh => by
      show f _ = f _
      rw [hh]
      intro k hk
      have := hlt k (by omega)
      show s + i ≠ d + (k / M + k % M * N)
      generalize k / M + k % M * N = u at *
      omega)
  rw [key]
  refine ⟨?_, fun x hx => f2 x fun i hi => ?_⟩
  · funext j i
    have hM : 0 < M := by have := j.2; omega
    have := f1 _ (cell i.2 j.2)
    rw [Nat.mul_comm i.val M, Nat.mul_add_div hM, Nat.div_eq_of_lt j.2, Nat.mul_add_mod, Nat.mod_eq_of_lt j.2,
      Nat.add_zero, Nat.mul_comm M] at this
    rw [Nat.add_comm i.val] at this
    exact this
  · have := hlt i hi
    show x ≠ d + (i / M + i % M * N)
    generalize i / M + i % M * N = u at *
    omega

/-- for complex numbers with conjugation: the conjugate transpose -/
theorem C86_conjugate_transpose (h : Mem ℂ) (d s N M : ℕ) (hS : Apart d (N * M) s (N * M)) :
    Matrix.of (matAt (arrayTranspose (starRingEnd ℂ) h d s N M) d M N) = (Matrix.of (matAt h s N M)).conjTranspose := by
  ext j i
  have := congrFun (congrFun (C86_transpose (starRingEnd ℂ) h d s N M hS).1 j) i
  simpa [Matrix.conjTranspose_apply] using this

example : arrayTranspose id (memOf [1, 2, 3, 4, 5, 6] : Mem ℤ) 6 0 2 3 7 = 4 ∧ Apart 6 (2 * 3) 0 (2 * 3) :=
  ⟨by decide, Or.inr (by norm_num)⟩

/-- **C86 (transpose in place).** Three by three. -/
theorem C86_transpose_in_place {R : Type} (h : Mem R) (b : ℕ) :
    Matrix.of (matAt (transposeInPlace h b 3) b 3 3) = (Matrix.of (matAt h b 3 3)).transpose ∧
    OnlyAt h (transposeInPlace h b 3) b (3 * 3) := by
  refine ⟨?_, fun x hx => ?_⟩
  · ext i j
    fin_cases i <;> fin_cases j <;>
      (simp [matAt, transposeInPlace, loop, List.range_succ, put]
       try (repeat rw [if_neg (by omega)]))
  · simp [transposeInPlace, loop, List.range_succ, put]
    repeat rw [if_neg (by omega)]

example : transposeInPlace (memOf [1, 2, 3, 4, 5, 6, 7, 8, 9] : Mem ℤ) 0 3 5 = 8 := by decide

/-- **C86 (transpose in place, other sizes).** For no other size above one: whatever the matrix is, as long as its
elements differ, the result is not the transposed matrix. -/
theorem C86_transpose_in_place_counterexample {R : Type} (h : Mem R) (b N : ℕ) (hN : 2 ≤ N) (h3 : N ≠ 3)
    (inj : ∀ x y, b ≤ x → x < b + N * N → b ≤ y → y < b + N * N → h x = h y → x = y) :
    Matrix.of (matAt (transposeInPlace h b N) b N N) ≠ (Matrix.of (matAt h b N N)).transpose := by
  intro e
  by_cases h2 : N = 2
  · subst h2
    have := congrFun (congrFun e 1) 0
    simp [matAt, transposeInPlace, loop, List.range_succ, put] at this
    have := inj _ _ (by omega) (by omega) (by omega) (by omega) this
    omega
  · have hsq : 4 * N ≤ N * N := Nat.mul_le_mul_right _ (by omega)
    have keep : ∀ x, b + 4 * N - 4 ≤ x → transposeInPlace h b N x = h x := by
      intro x hx
      unfold transposeInPlace
      set P : Mem R → Prop := fun s => s x = h x with hP
      refine loop_inv P N _ _ rfl fun i hi s hs => loop_inv P _ _ _ hs fun t ht s hs => ?_
      show put _ _ _ x = h x
      rw [put_other _ _ (by omega), put_other _ _ (by omega)]
      exact hs
    have := congrFun (congrFun e ⟨N - 1, by omega⟩) ⟨N - 2, by omega⟩
    change transposeInPlace h b N (b + ((N - 1) * N + (N - 2))) = h (b + ((N - 2) * N + (N - 1))) at this
    obtain ⟨k, rfl⟩ : ∃ k, N = k + 4 := ⟨N - 4, by omega⟩
    have e1 : (k + 4 - 1) * (k + 4) + (k + 4 - 2) = (k + 4) * (k + 4) - 2 := by
      have : (k + 4 - 1) = k + 3 := by omega
      rw [this]
      have : (k + 4) * (k + 4) = (k + 3) * (k + 4) + (k + 4) := by ring
      omega
    have e2 : (k + 4 - 2) * (k + 4) + (k + 4 - 1) + (k + 5) = (k + 4) * (k + 4) := by
      have h1 : (k + 4 - 2) = k + 2 := by omega
      have h2 : (k + 4 - 1) = k + 3 := by omega
      rw [h1, h2]; ring
    rw [keep _ (by omega)] at this
    have := inj _ _ (by omega) (by omega) (by omega) (by omega) this
    omega

example : ∀ x y : ℕ, (fun x => (x : ℤ)) x = (fun x => (x : ℤ)) y → x = y := fun _ _ => Int.ofNat.inj

/-- **C86 (metric).** `M = Lᵀ L`; besides the result only the temporary block changes. -/
theorem C86_metric {R : Type} [CommRing R] (h : Mem R) (m l N t : ℕ) (h1 : Apart m (N * N) l (N * N))
    (h2 : Apart t (N * N) l (N * N)) (h3 : Apart m (N * N) t (N * N)) :
    Matrix.of (matAt (matrixMetric h m l N t) m N N) = (Matrix.of (matAt h l N N)).transpose * Matrix.of (matAt h l N N) ∧
    ∀ x, (x < m ∨ m + N * N ≤ x) → (x < t ∨ t + N * N ≤ x) → matrixMetric h m l N t x = h x := by
  have o1 := fresh_only h t (N * N)
  obtain ⟨t1, o2⟩ := C86_transpose id (loop (N * N) (fun i h => put h (t + i) 0) h) t l N N h2
  obtain ⟨p, o3⟩ := C86_multiply (arrayTranspose id (loop (N * N) (fun i h => put h (t + i) 0) h) t l N N) m t l N N N h3 h1
  refine ⟨?_, fun x hx ht => ?_⟩
  · show Matrix.of (matAt (multiplyArrays _ m t l N N N) m N N) = _
    rw [p, t1, matAt_only o2 h2, matAt_only o1 h2]
    rfl
  · show multiplyArrays _ m t l N N N x = _
    rw [o3 x hx, o2 x ht, o1 x ht]

example : matrixMetric (memOf [1, 2, 3, 4] : Mem ℤ) 4 0 2 8 4 = 10 ∧ Apart 4 (2 * 2) 8 (2 * 2) :=
  ⟨by decide, Or.inl (by norm_num)⟩

/-- **C86 (similar matrix).** `M = B⁻¹ A B`, said without the inverse; besides the result only the temporary blocks
change. -/
theorem C86_similar {K : Type} [Field K] [LinearOrder K] [IsStrictOrderedRing K] (h : Mem K) (m a b n c p : ℕ) (tol : K)
    (htol : 0 ≤ tol)
    (hca : Apart c ((n + 1) * (n + 1)) a ((n + 1) * (n + 1))) (hcb : Apart c ((n + 1) * (n + 1)) b ((n + 1) * (n + 1)))
    (hpa : Apart p ((n + 1) * (n + 1)) a ((n + 1) * (n + 1))) (hpb : Apart p ((n + 1) * (n + 1)) b ((n + 1) * (n + 1)))
    (hpc : Apart p ((n + 1) * (n + 1)) c ((n + 1) * (n + 1))) (hmc : Apart m ((n + 1) * (n + 1)) c ((n + 1) * (n + 1)))
    (hmp : Apart m ((n + 1) * (n + 1)) p ((n + 1) * (n + 1))) :
    let A := Matrix.of (matAt h a (n + 1) (n + 1))
    let B := Matrix.of (matAt h b (n + 1) (n + 1))
    let r := similarMatrix (· / ·) (fun d => decide (|d| > tol)) h m a b (n + 1) c p
    (r.1 = true ↔ tol < |B.det|) ∧
    (r.1 = true → B * Matrix.of (matAt r.2 m (n + 1) (n + 1)) = A * B) := by
  intro A B r
  have o1 := fresh_only h c ((n + 1) * (n + 1))
  set h0 := loop ((n + 1) * (n + 1)) (fun i h => put h (c + i) 0) h with hh0
  obtain ⟨i1, i2, i3, i4⟩ := C86_inverse h0 c b n tol htol hcb
  have eB : matAt h0 b (n + 1) (n + 1) = matAt h b (n + 1) (n + 1) := matAt_only o1 hcb
  have eA : matAt h0 a (n + 1) (n + 1) = matAt h a (n + 1) (n + 1) := matAt_only o1 hca
  rw [eB] at i1 i3
  set q := matrixInverse (· / ·) (fun d => decide (|d| > tol)) h0 c b (n + 1) with hq
  by_cases hok : q.1 = true
  · have er : r = (true, multiplyArrays (multiplyArrays (loop ((n + 1) * (n + 1)) (fun i h => put h (p + i) 0) q.2) p a b (n + 1) (n + 1) (n + 1))
        m c p (n + 1) (n + 1) (n + 1)) := by
      show similarMatrix _ _ _ _ _ _ _ _ _ = _
      unfold similarMatrix
      simp only
      rw [← hh0, ← hq, if_pos hok]
    refine ⟨by rw [er]; simpa [hok] using i1, fun _ => ?_⟩
    rw [er]
    have o2 := fresh_only q.2 p ((n + 1) * (n + 1))
    set h1 := loop ((n + 1) * (n + 1)) (fun i h => put h (p + i) 0) q.2
    obtain ⟨p1, o3⟩ := C86_multiply h1 p a b (n + 1) (n + 1) (n + 1) hpa hpb
    obtain ⟨p2, _⟩ := C86_multiply (multiplyArrays h1 p a b (n + 1) (n + 1) (n + 1)) m c p (n + 1) (n + 1) (n + 1) hmc hmp
    have e1 : matAt h1 a (n + 1) (n + 1) = matAt h a (n + 1) (n + 1) := by rw [matAt_only o2 hpa, matAt_only i4 hca, eA]
    have e2 : matAt h1 b (n + 1) (n + 1) = matAt h b (n + 1) (n + 1) := by rw [matAt_only o2 hpb, matAt_only i4 hcb, eB]
    have e3 : matAt (multiplyArrays h1 p a b (n + 1) (n + 1) (n + 1)) c (n + 1) (n + 1) = matAt q.2 c (n + 1) (n + 1) := by
      rw [matAt_only o3 hpc, matAt_only o2 hpc]
    show B * Matrix.of (matAt (multiplyArrays (multiplyArrays h1 p a b (n + 1) (n + 1) (n + 1)) m c p (n + 1) (n + 1) (n + 1)) m (n + 1) (n + 1)) = A * B
    rw [p2, p1, e1, e2, e3, ← Matrix.mul_assoc]
    rw [(i3 hok).2, Matrix.one_mul]
  · have er : r.1 = false := by
      show (similarMatrix _ _ _ _ _ _ _ _ _).1 = _
      unfold similarMatrix
      simp only
      rw [← hh0, ← hq, if_neg hok]
    refine ⟨?_, fun e => by simp [er] at e⟩
    rw [er]
    constructor
    · intro e; simp at e
    · intro e; exact absurd (i1.2 e) hok

example : Apart 12 ((1 + 1) * (1 + 1)) 0 ((1 + 1) * (1 + 1)) ∧
    (similarMatrix (· / ·) (fun d => decide (|d| > 0)) (memOf [1, 2, 3, 4, 1, 1, 0, 1] : Mem ℚ) 8 0 4 2 12 16).2 8 = -2 :=
  ⟨Or.inr (by norm_num), by decide +kernel⟩

/-- **C86 (cross product).** -/
theorem C86_cross {R : Type} [CommRing R] (h : Mem R) (c a b : ℕ) (hA : Apart c 3 a 3) (hB : Apart c 3 b 3) :
    (fun i : Fin 3 => vectorCross h c a b (c + i.val)) =
      crossProduct (fun i : Fin 3 => h (a + i.val)) (fun i : Fin 3 => h (b + i.val)) ∧
    OnlyAt h (vectorCross h c a b) c 3 := by
  unfold Apart at hA hB
  refine ⟨?_, fun x hx => ?_⟩
  · funext i
    rw [cross_apply]
    have a0 : ∀ v, v < 3 → a ≠ c + v ∧ b ≠ c + v := fun v hv => by omega
    have c0 : ∀ u, u < 3 → a + u ≠ c ∧ b + u ≠ c := fun u hu => by omega
    have ac : a ≠ c ∧ b ≠ c := by omega
    fin_cases i <;>
      simp [vectorCross, put, (a0 1 (by omega)).1, (a0 1 (by omega)).2,
        (c0 1 (by omega)).1, (c0 1 (by omega)).2, (c0 2 (by omega)).1, (c0 2 (by omega)).2, ac.1, ac.2]
  · simp only [vectorCross]
    rw [put_other _ _ (by omega), put_other _ _ (by omega), put_other _ _ (by omega)]

example : vectorCross (memOf [1, 2, 3, 4, 5, 6] : Mem ℤ) 6 0 3 7 = 6 ∧ Apart 6 3 0 3 := ⟨by decide, Or.inr (by norm_num)⟩

end Brille.Props
