import Verif.Model.Matrix
import Verif.Model.PointGroup
/-
The matrix routines of /repo/src/utilities.tpp as they run: on pointers into one memory, where the result may overlap
the operands.

Simplifications: the memory is a function from addresses to elements of one type, so an access is never outside of an
allocated block (the theorems say which addresses are written); a block from `new` is either an address which the
caller of the model provides, or, for the minors of the determinant, a memory of its own.
-/
namespace Brille.MatMem

/-- contents of the memory -/
abbrev Mem (R : Type) := ℕ → R

variable {R : Type}

/-- `p[k] = v` for the address `k` -/
def put (h : Mem R) (k : ℕ) (v : R) : Mem R := fun x => if x = k then v else h x

/-- `for (i=0; i<n; ++i) f(i)` on a state -/
def loop {σ : Type} (n : ℕ) (f : ℕ → σ → σ) (s : σ) : σ := (List.range n).foldl (fun s i => f i s) s

/-- `copy_array`, utilities.tpp 26-28, `size` being `N*M` -/
def copyArray (h : Mem R) (d s size : ℕ) : Mem R := loop size (fun i h => put h (d + i) (h (s + i))) h

/-- `add_arrays` and, with another operation, `subtract_arrays`, utilities.tpp 80-84 -/
def zipArrays (op : R → R → R) (h : Mem R) (c a b size : ℕ) : Mem R :=
  loop size (fun i h => put h (c + i) (op (h (a + i)) (h (b + i)))) h

/-- `multiply_arrays`, utilities.tpp 39-42, and `mul_arrays`, 48-77: set to zero, then accumulated in place -/
def multiplyArrays [Zero R] [Add R] [Mul R] (h : Mem R) (c a b n l m : ℕ) : Mem R :=
  let h0 := loop (n * m) (fun i h => put h (c + i) 0) h
  loop n (fun i => loop m fun j => loop l fun k h =>
    put h (c + i * m + j) (h (c + i * m + j) + h (a + i * l + k) * h (b + k * m + j))) h0

/-- `array_cofactor`, utilities.tpp 98-101: the state is the counter `k` and the output block; `A` is read only -/
def arrayCofactor (A : Mem R) (i j N M : ℕ) (C : Mem R) : ℕ × Mem R :=
  loop M (fun m => loop N fun n s =>
    if i ≠ n ∧ j ≠ m then (s.1 + 1, put s.2 s.1 (A (n + N * m))) else s) (0, C)

/-- `matrix_determinant`, utilities.tpp 105-122; `M` is what the pointer points to.  The block `cof` is allocated
afresh and set to zero. -/
def determinant [Ring R] : ℕ → Mem R → R
  | 0, _ => 0
  | 1, M => M 0
  | N + 2, M =>
    (loop (N + 2) (fun i (s : (R × R) × Mem R) =>
      let cof := (arrayCofactor M 0 i (N + 2) (N + 2) s.2).2
      ((s.1.1 + s.1.2 * M (i * (N + 2)) * determinant (N + 1) cof, s.1.2 * (-1)), cof)) ((0, 1), fun _ => 0)).1.1

/-- `matrix_adjoint(a, m, N)`, utilities.tpp 125-141 -/
def matrixAdjoint [Ring R] (h : Mem R) (a m N : ℕ) : Mem R :=
  if 1 = N then put h a 1
  else
    (loop N (fun i => loop N fun j (s : Mem R × Mem R) =>
      let cof := (arrayCofactor (fun x => s.1 (m + x)) i j N N s.2).2
      (put s.1 (a + j + i * N) ((if (i + j) % 2 = 0 then 1 else -1) * determinant (N - 1) cof), cof))
      (h, fun _ => 0)).1

/-- `matrix_determinant_and_inverse`, utilities.tpp 144-155, with the division of the type and the test
`std::abs(d) > tol`: the returned determinant and the memory -/
def determinantAndInverse [Ring R] (div : R → R → R) (above : R → Bool) (h : Mem R) (inv m N : ℕ) : R × Mem R :=
  let d := determinant N fun x => h (m + x)
  if above d then
    (d, loop (N * N) (fun i h => put h (inv + i) (div (h (inv + i)) d)) (matrixAdjoint h inv m N))
  else (d, h)

/-- `matrix_inverse`, utilities.tpp 156 -/
def matrixInverse [Ring R] (div : R → R → R) (above : R → Bool) (h : Mem R) (inv m N : ℕ) : Bool × Mem R :=
  let r := determinantAndInverse div above h inv m N
  (above r.1, r.2)

/-- `similar_matrix`, utilities.tpp 158-172; `c` and `p` are the addresses which `new` returns -/
def similarMatrix [Ring R] (div : R → R → R) (above : R → Bool) (h : Mem R) (m a b N c p : ℕ) : Bool × Mem R :=
  let h0 := loop (N * N) (fun i h => put h (c + i) 0) h
  let r := matrixInverse div above h0 c b N
  if r.1 then
    let h1 := loop (N * N) (fun i h => put h (p + i) 0) r.2
    (true, multiplyArrays (multiplyArrays h1 p a b N N N) m c p N N N)
  else (false, r.2)

/-- `array_transpose`, utilities.tpp 174-177, and `complex_conj_array_transpose`, 180-183, with a function for the
elements -/
def arrayTranspose (f : R → R) (h : Mem R) (d s N M : ℕ) : Mem R :=
  loop N (fun i => loop M fun j h => put h (d + i + j * N) (f (h (s + j + i * M)))) h

/-- `matrix_transpose` in place, utilities.tpp 186-193 -/
def transposeInPlace (h : Mem R) (b N : ℕ) : Mem R :=
  loop N (fun i => loop (N - (i + 1)) fun t h =>
    let j := i + 1 + t
    let old := h (b + i + j * 3)
    let h := put h (b + i + j * 3) (h (b + j + i * 3))
    put h (b + j + i * 3) old) h

/-- `matrix_metric`, utilities.tpp 195-201; `t` is the address which `new` returns -/
def matrixMetric [Zero R] [Add R] [Mul R] (h : Mem R) (m l N t : ℕ) : Mem R :=
  let h0 := loop (N * N) (fun i h => put h (t + i) 0) h
  multiplyArrays (arrayTranspose id h0 t l N N) m t l N N N

/-- `vector_cross_impl<T,R,S,3>::vector_cross`, utilities.hpp 366-373 -/
def vectorCross [Ring R] (h : Mem R) (c a b : ℕ) : Mem R :=
  let h := put h c (h (a + 1) * h (b + 2) - h (a + 2) * h (b + 1))
  let h := put h (c + 1) (h (a + 2) * h b - h a * h (b + 2))
  put h (c + 2) (h a * h (b + 1) - h (a + 1) * h b)

end Brille.MatMem
