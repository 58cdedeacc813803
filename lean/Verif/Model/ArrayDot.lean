import Verif.Model.ArrayFun
import Mathlib.Algebra.Ring.Defs
/-
`dot` and `cross` of two arrays of vectors (/repo/src/array_functions.hpp).  Simplifications as in
`Verif/Model/ArrayFun.lean`; both arrays have the same type of elements.
-/
namespace Brille.ArrFun

variable {T : Type}

/-- The `d` values that follow `ptr(i)`, whatever the second stride. -/
def A2.from (a : A2 T) (i d : Nat) : M (List T) :=
  (List.range d).mapM fun j => orUb a.data[i * a.t0 + a.shift + j]?

/-- The three loops of `cross` and `dot`, array_functions.hpp:177-187, 232-242: `c` results `h x y 0`, ..., for each pair of
rows `x`, `y`.  Simplification: the rows are read again for each result. -/
def pairRows [Inhabited T] (a b : A2 T) (d c : Nat) (h : List T → List T → Nat → T) : M (A2 T) :=
  let oO := if a.n0 = 1 then b.n0 else a.n0
  ((List.range oO).flatMap fun i => (List.range c).map fun j => [i, j]).foldlM (fun o s => do
    let i := s.getD 0 0
    let x ← a.from (if a.n0 = 1 then 0 else i) d
    let y ← b.from (if a.n0 = 1 then i else if b.n0 = 1 then 0 else i) d
    o.write s (h x y (s.getD 1 0))) (fresh oO c c 1 default)

/-- `vector_dot`, utilities.tpp:209-214. -/
def vectorDot [Semiring T] (x y : List T) : T := (x.zip y).foldl (fun s p => s + p.1 * p.2) 0

/-- `dot`, array_functions.hpp:224-244. -/
def dotRows [Semiring T] [Inhabited T] (a b : A2 T) : M (A2 T) := pairRows a b a.n1 1 fun x y _ => vectorDot x y

/-- One component of `vector_cross`, utilities.hpp:369-377. -/
def vectorCross [Ring T] (x y : List T) (j : Nat) : T :=
  match j with
  | 0 => x.getD 1 0 * y.getD 2 0 - x.getD 2 0 * y.getD 1 0
  | 1 => x.getD 2 0 * y.getD 0 0 - x.getD 0 0 * y.getD 2 0
  | _ => x.getD 0 0 * y.getD 1 0 - x.getD 1 0 * y.getD 0 0

/-- `cross`, array_functions.hpp:168-189. -/
def crossRows [Ring T] [Inhabited T] (a b : A2 T) : M (A2 T) := pairRows a b 3 3 vectorCross

end Brille.ArrFun
