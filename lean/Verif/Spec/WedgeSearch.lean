/-
What operations of a point group are, and what it means that planes bound a part of space that such an operation brings every vector into.
-/
import Verif.Model.WedgeSearch

namespace Brille.Spec

open Brille.WedgeSearch

variable {K : Type} [Field K] [LinearOrder K]

/-- What an operation of a point group, other than the identity, is: it is linear, keeps scalar products and comes back to the
identity after `order` times, which is the order of the rotation, apart from the three-fold rotoinversion, which is the inversion after three
times.  A two-fold rotation and a mirror have order two, and a mirror turns its axis round.  Any other operation, a
rotation or rotoinversion, keeps what is perpendicular to its axis apart from what is parallel, and leaves only vectors along the axis
as they are. -/
structure PointOperation (o : Op K) : Prop where
  add : ∀ x y, o.turn (x + y) = o.turn x + o.turn y
  dot : ∀ x y, WedgeSearch.dot (o.turn x) (o.turn y) = WedgeSearch.dot x y
  order : 1 < o.order
  back : o.isometry ≠ -3 → ∀ x, o.turn^[o.order] x = x
  inverting : o.isometry = -3 → o.order = 3 ∧ (∀ x, o.turn^[3] x = -x) ∧ ∀ x, o.turn x = -x → cross o.axis x = 0
  twofold : o.isometry = 2 → o.order = 2 ∧ o.axis ≠ 0
  mirror : o.isometry = -2 → o.order = 2 ∧ ∀ x, WedgeSearch.dot o.axis (o.turn x) = -WedgeSearch.dot o.axis x
  about : o.isometry ≠ -2 → ∀ x, o.turn (cross o.axis x) = cross o.axis (o.turn x)
  fixed : o.isometry ≠ -2 → ∀ x, o.turn x = x → cross o.axis x = 0

/-- Every vector is carried by a power of the operation to the positive side of all the planes. -/
def Reaches (o : Op K) (normals : List (V K)) : Prop :=
  ∀ x : V K, ∃ k : ℕ, ∀ n ∈ normals, 0 ≤ WedgeSearch.dot n (o.turn^[k] x)

/-- the real and the reciprocal basis belong together -/
def BelongTogether (a b : Fin 3 → V K) (c : K) : Prop := c ≠ 0 ∧ ∀ i j, WedgeSearch.dot (a i) (b j) = if i = j then c else 0

end Brille.Spec
