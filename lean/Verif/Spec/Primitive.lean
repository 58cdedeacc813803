import Mathlib.Data.Rat.Defs
import Mathlib.Algebra.Field.Rat
import Mathlib.Data.Fin.VecNotation

/-
Specification of centred lattices (International Tables): the lattice points of a conventional cell
are the integer points plus the centring vectors.  See the documentation block of
`/repo/src/bravais.hpp:41-49`.
-/
namespace Brille.Spec

/-- The centring letters. -/
inductive Centring | P | A | B | C | I | F | R
deriving DecidableEq, Repr

/-- Centring vectors other than zero, in units of the conventional basis vectors. -/
def centringVectors : Centring → List (Fin 3 → ℚ)
  | .P => []
  | .A => [![0, 1/2, 1/2]]
  | .B => [![1/2, 0, 1/2]]
  | .C => [![1/2, 1/2, 0]]
  | .I => [![1/2, 1/2, 1/2]]
  | .F => [![0, 1/2, 1/2], ![1/2, 0, 1/2], ![1/2, 1/2, 0]]
  | .R => [![2/3, 1/3, 1/3], ![1/3, 2/3, 2/3]]

def IsIntegral (x : Fin 3 → ℚ) : Prop := ∀ i, ∃ z : ℤ, x i = z

/-- Real-space lattice points: an integer vector, possibly plus a centring vector. -/
def IsLatticePoint (c : Centring) (x : Fin 3 → ℚ) : Prop :=
  IsIntegral x ∨ ∃ t ∈ centringVectors c, IsIntegral fun i => x i - t i

/-- Scalar product of a reciprocal and a real vector in mutually dual bases. -/
def dot3 (q x : Fin 3 → ℚ) : ℚ := q 0 * x 0 + q 1 * x 1 + q 2 * x 2

/-- Reciprocal lattice points: `q·x` is an integer for all lattice points `x`. -/
def IsReciprocalPoint (c : Centring) (q : Fin 3 → ℚ) : Prop :=
  ∀ x, IsLatticePoint c x → ∃ z : ℤ, dot3 q x = z

/-- The reflection conditions on integer `h k l`. -/
def reflectionCondition : Centring → ℤ → ℤ → ℤ → Prop
  | .P, _, _, _ => True
  | .A, _, k, l => (k + l) % 2 = 0
  | .B, h, _, l => (h + l) % 2 = 0
  | .C, h, k, _ => (h + k) % 2 = 0
  | .I, h, k, l => (h + k + l) % 2 = 0
  | .F, h, k, l => h % 2 = k % 2 ∧ k % 2 = l % 2
  | .R, h, k, l => (-h + k + l) % 3 = 0

end Brille.Spec
