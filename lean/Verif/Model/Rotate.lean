/-
Rotating interpolated results in place: /repo/src/interpolator_real.tpp, interpolator_recip.tpp, interpolator_axial.tpp,
interpolator_gamma.tpp and `rotate_in_place` of interpolator.hpp.

A row of the results is a function from the position in the row; the arrays are contiguous within a row, so `x.val(i,j)`
and `xi[j]` are the same.  The rows are treated by a parallel loop whose temporaries are private and whose iterations
touch only their own row: one row is modelled.  Numbers are of any commutative ring.
-/
import Verif.Model.Matrix
import Verif.Model.Motion
import Verif.Model.Atoms

namespace Brille.Rot

open Brille.Mat

variable {K : Type} [CommRing K]

/-- what the `Interpolator` knows of a row: the number of elements per branch that are scalars, parts of vectors, parts of
matrices, and the number of branches -/
structure Layout where
  e0 : ℕ
  e1 : ℕ
  e2 : ℕ
  branches : ℕ

/-- `branch_span`, interpolator.hpp 598-600 -/
def Layout.span (l : Layout) : ℕ := l.e0 + l.e1 + l.e2

/-- `count_scalars_vectors_matrices`, interpolator.hpp 601-604 -/
def Layout.n1 (l : Layout) : ℕ := l.e1 / 3
def Layout.n2 (l : Layout) : ℕ := l.e2 / 9

/-- `xi+o` as a vector and as a matrix -/
def readVec (x : ℕ → K) (o : ℕ) : Fin 3 → K := fun j => x (o + j)
def readMat (x : ℕ → K) (o : ℕ) : Fin 3 → Fin 3 → K := fun i j => x (o + 3 * i + j)

/-- `for (j..) xi[o+j] = t[j]` -/
def writeVec (x : ℕ → K) (o : ℕ) (t : Fin 3 → K) : ℕ → K :=
  (List.finRange 3).foldl (fun x (j : Fin 3) => Function.update x (o + j) (t j)) x
def writeMat (x : ℕ → K) (o : ℕ) (t : Fin 3 → Fin 3 → K) : ℕ → K :=
  (List.finRange 3).foldl (fun x (i : Fin 3) =>
    (List.finRange 3).foldl (fun x (j : Fin 3) => Function.update x (o + 3 * i + j) (t i j)) x) x

/-- an integer matrix among the numbers of the results -/
def castMat (W : Fin 3 → Fin 3 → ℤ) : Fin 3 → Fin 3 → K := fun i j => (W i j : K)

/-- the loop over the vectors of a branch, interpolator_real.tpp 46-50: the row and the offset -/
def vecLoop (f : (Fin 3 → K) → Fin 3 → K) : ℕ → (ℕ → K) × ℕ → (ℕ → K) × ℕ
  | 0, s => s
  | n + 1, s => vecLoop f n (writeVec s.1 s.2 (f (readVec s.1 s.2)), s.2 + 3)

/-- the loop over the matrices of a branch, interpolator_real.tpp 51-58 -/
def matLoop (f : (Fin 3 → Fin 3 → K) → Fin 3 → Fin 3 → K) : ℕ → (ℕ → K) × ℕ → (ℕ → K) × ℕ
  | 0, s => s
  | n + 1, s => matLoop f n (writeMat s.1 s.2 (f (readMat s.1 s.2)), s.2 + 9)

/-- the loop over the branches, interpolator_real.tpp 42-59 -/
def rotRow (l : Layout) (fv : (Fin 3 → K) → Fin 3 → K) (fm : (Fin 3 → Fin 3 → K) → Fin 3 → Fin 3 → K) (x : ℕ → K) :
    ℕ → K :=
  (List.range l.branches).foldl (fun x b => (matLoop fm l.n2 (vecLoop fv l.n1 (x, b * l.span + l.e0))).1) x

/-- `PointSymmetry::get`, pointsymmetry.cpp 108-110 -/
def get (ps : List (Fin 3 → Fin 3 → ℤ)) (i : ℕ) : Fin 3 → Fin 3 → ℤ := ps.getD i fun _ _ => 0

/-- are there vectors or matrices, interpolator_real.tpp 25-26 -/
def Layout.anything (l : Layout) : Bool := decide (0 < l.n1) || decide (0 < l.n2)

/-- `rip_real`, interpolator_real.tpp 18-64, for a row with operation `r` and its inverse `ir`: the value returned and the
row afterwards.  The comparison with the unit matrix is that of integers. -/
def ripReal (l : Layout) (ps : List (Fin 3 → Fin 3 → ℤ)) (r ir : ℕ) (x : ℕ → K) : Bool × (ℕ → K) :=
  if l.anything = false then (false, x)
  else if get ps r = Mot.idMat then (true, x)
  else (true, rotRow l (fun v => mulVec (castMat (get ps r)) v)
    (fun m => mulArrays (castMat (get ps r)) (mulArrays m (castMat (get ps ir)))) x)

/-- `rip_recip`, interpolator_recip.tpp 18-64 -/
def ripRecip (l : Layout) (ps : List (Fin 3 → Fin 3 → ℤ)) (r ir : ℕ) (x : ℕ → K) : Bool × (ℕ → K) :=
  if l.anything = false then (false, x)
  else if get ps r = Mot.idMat then (true, x)
  else (true, rotRow l (fun v => mulVec (castMat (transpose (get ps r))) v)
    (fun m => mulArrays (castMat (transpose (get ps r))) (mulArrays m (castMat (transpose (get ps ir))))) x)

/-- `rip_axial`, interpolator_axial.tpp 18-68 -/
def ripAxial (l : Layout) (ps : List (Fin 3 → Fin 3 → ℤ)) (r ir : ℕ) (x : ℕ → K) : Bool × (ℕ → K) :=
  if l.anything = false then (false, x)
  else if get ps r = Mot.idMat then (true, x)
  else (true, rotRow l (fun v j => ((determinant (get ps r) : ℤ) : K) * mulVec (castMat (get ps ir)) v j)
    (fun m => mulArrays (castMat (get ps ir)) (mulArrays m (castMat (get ps r)))) x)

/-! Phonon eigenvectors, interpolator_gamma.tpp 47-139 -/

open Brille.Atoms (Gamma)

/-- a write into the temporary `tA`; `none`: beyond its end -/
def put (t : List K) (o : ℕ) (v : List K) : Option (List K) :=
  if o + v.length ≤ t.length then some (t.take o ++ v ++ t.drop (o + v.length)) else none

/-- `tA.resize` if it is too small; new elements are zero -/
def grow (t : List K) (n : ℕ) : List K := if t.length < n then t ++ List.replicate (n - t.length) 0 else t

/-- `e_iqd_gt`, interpolator_gamma.tpp 22-34 and 56-58: the phase for the scalar product of `q` and the vector noted in
the table.  `e x` stands for `exp(2πi x)`. -/
def phaseAt (e : ℚ → K) (g : Gamma) (q : Fin 3 → ℚ) (k r : ℕ) : Option K :=
  (g.vector k r).map fun d => e (q 0 * d 0 + q 1 * d 1 + q 2 * d 2)

/-- the loop over the vectors, interpolator_gamma.tpp 101-112, from atom `k` on, with `n` vectors left.  `none`: an
exception (the atom is not in the table) or a write beyond the end of the temporary -/
def gammaVecs (e : ℚ → K) (g : Gamma) (q : Fin 3 → ℚ) (rot : Fin 3 → Fin 3 → K) (ir : ℕ) (x : ℕ → K) (o : ℕ) :
    ℕ → ℕ → List K → Option (List K)
  | _, 0, t => some t
  | k, n + 1, t =>
    match g.F0 k ir, phaseAt e g q k ir with
    | some l, some ph =>
      match put t (3 * l) (List.ofFn fun j => ph * mulVec rot (readVec x (o + 3 * k)) j) with
      | some t' => gammaVecs e g q rot ir x o (k + 1) n t'
      | none => none
    | _, _ => none

/-- copying the temporary back, interpolator_gamma.tpp 113 and 133 -/
def copyBack (x : ℕ → K) (o n : ℕ) (t : List K) : ℕ → K :=
  (List.range n).foldl (fun x j => Function.update x (o + j) (t.getD j 0)) x

/-- the body of the double loop over the matrices, interpolator_gamma.tpp 117-131 -/
def gammaMat (e : ℚ → K) (g : Gamma) (q : Fin 3 → ℚ) (rotR rotI : Fin 3 → Fin 3 → K) (r ir nmat : ℕ) (x : ℕ → K) (o : ℕ)
    (t : List K) (nm : ℕ × ℕ) : Option (List K) :=
  match g.F0 nm.1 r, phaseAt e g q nm.1 r, g.F0 nm.2 ir, phaseAt e g q nm.2 ir with
  | some v, some ph, some k, some iph =>
    let m := mulArrays rotI (mulArrays (readMat x (o + 9 * (nm.1 * nmat + nm.2))) rotR)
    put t ((v * nmat + k) * 9) (List.ofFn fun j : Fin 9 => ph * iph * m ⟨j / 3, by omega⟩ ⟨j % 3, by omega⟩)
  | _, _, _, _ => none

/-- one branch, interpolator_gamma.tpp 79-135: the row and the temporary -/
def gammaBranch (e : ℚ → K) (g : Gamma) (q : Fin 3 → ℚ) (rotR rotI : Fin 3 → Fin 3 → K) (r ir : ℕ) (l : Layout)
    (nmat : ℕ) (s : (ℕ → K) × List K) (b : ℕ) : Option ((ℕ → K) × List K) :=
  let o := b * l.span + l.e0
  let afterVecs : Option ((ℕ → K) × List K) :=
    if 0 < l.n1 then
      (gammaVecs e g q rotI ir s.1 o 0 l.n1 (grow s.2 (l.n1 * 3))).map fun t => (copyBack s.1 o (l.n1 * 3) t, t)
    else some s
  match afterVecs with
  | none => none
  | some (x, t) =>
    if 0 < l.n2 then
      (((List.range nmat).flatMap fun n => (List.range nmat).map fun m => (n, m)).foldlM
        (gammaMat e g q rotR rotI r ir nmat x (o + 3 * l.n1)) (grow t (l.n2 * 9))).map
          fun t => (copyBack x (o + 3 * l.n1) (l.n2 * 9) t, t)
    else some (x, t)

/-- `rip_gamma_complex` for one row, interpolator_gamma.tpp 47-139.  `Nmat` is the integer part of the square root,
divided by three (whole numbers).  `t` is the temporary as the row before has left it.  `none`: an exception, or a write
outside of the temporary. -/
def ripGamma (e : ℚ → K) (g : Gamma) (l : Layout) (rot : ℕ → Fin 3 → Fin 3 → K) (q : Fin 3 → ℚ) (r ir : ℕ) (x : ℕ → K)
    (t : List K) : Option (Bool × (ℕ → K) × List K) :=
  if l.anything = false then some (false, x, t)
  else if l.n2 ≠ 9 * (Nat.sqrt l.n2 / 3) * (Nat.sqrt l.n2 / 3) then some (false, x, t)
  else ((List.range l.branches).foldlM (gammaBranch e g q (rot r) (rot ir) r ir l (Nat.sqrt l.n2 / 3)) (x, t)).map
    fun s => (true, s.1, s.2)

/-- the length units and the kinds of rotation, enums.hpp -/
inductive LengthUnit | none | angstrom | inverseAngstrom | realLattice | reciprocalLattice
  deriving DecidableEq
inductive RotatesLike | vector | pseudovector | gamma
  deriving DecidableEq

/-- the rotation matrix in Cartesian coordinates, interpolator.hpp 412-420: lattice × rotation × inverse lattice -/
def rotCart (toXyz fromXyz : Fin 3 → Fin 3 → K) (W : Fin 3 → Fin 3 → ℤ) : Fin 3 → Fin 3 → K :=
  mulArrays (mulArrays toXyz (castMat W)) fromXyz

/-- `rotate_in_place` for one row, interpolator.hpp 386-426.  Phonon eigenvectors must be
complex, interpolator.hpp 612-622.  `none`: an exception or undefined behaviour. -/
def rotateInPlace (e : ℚ → K) (g : Gamma) (toXyz fromXyz : Fin 3 → Fin 3 → K) (unit : LengthUnit) (like : RotatesLike)
    (complex : Bool) (l : Layout) (ps : List (Fin 3 → Fin 3 → ℤ)) (q : Fin 3 → ℚ) (r ir : ℕ) (x : ℕ → K) (t : List K) :
    Option (Bool × (ℕ → K)) :=
  match unit, like with
  | .realLattice, .vector => some (ripReal l ps r ir x)
  | .realLattice, .pseudovector => some (ripAxial l ps r ir x)
  | .realLattice, .gamma =>
    if complex = false then none
    else (ripGamma e g l (fun i => castMat (get ps i)) q r ir x t).map fun s => (s.1, s.2.1)
  | .reciprocalLattice, .vector => some (ripRecip l ps r ir x)
  | .angstrom, .gamma =>
    if complex = false then none
    else (ripGamma e g l (fun i => rotCart toXyz fromXyz (get ps i)) q r ir x t).map fun s => (s.1, s.2.1)
  | _, _ => none

end Brille.Rot
