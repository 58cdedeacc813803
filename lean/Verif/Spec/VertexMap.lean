/-
What the bookkeeping of vertices must deliver: for every request, an index into the final vertex list
under which the requested vertex is found.
-/
import Verif.Model.VertexMap
import Mathlib.Data.List.Forall2

namespace Brille.Spec

open Brille.VMap

/-- `w` is what was asked for: exactly the indexed grid vertex, or a vertex equal (within tolerance) to the
one given. -/
def Delivers {V : Type} (near : V → V → Bool) (grid : List V) (w : V) : Op V → Prop
  | .keep index => grid[index]? = some w
  | .add v _ => near w v = true

/-- A request is admissible: the index exists. -/
def Admissible {V : Type} (grid : List V) : Op V → Prop
  | .keep index => index < grid.length
  | .add _ _ => True

/-- `near` separates the rows: no two are equal within tolerance. -/
def Separated {V : Type} (near : V → V → Bool) (rows : List V) : Prop :=
  rows.Pairwise (fun a b => near a b = false)

/-- A vertex declared as not being on the grid indeed is not. -/
def HonestlyCrafted {V : Type} (near : V → V → Bool) (grid : List V) : Op V → Prop
  | .keep _ => True
  | .add v type => type = .crafted → ∀ r ∈ grid, near r v = false

/-- The requests made for one node, in order. -/
def requestsOf {V : Type} (tasks : List (Nat × Op V)) (node : Nat) : List (Op V) :=
  (tasks.filter (fun t => t.1 == node)).map Prod.snd

/-- The final vertex list `rows` and the index lists `lookup` of the nodes serve the requests: the node's
indices are, in order, those of rows that deliver what was requested for it. -/
def Serves {V : Type} (near : V → V → Bool) (grid : List V) (tasks : List (Nat × Op V)) (rows : List V)
    (lookup : Nat → Option (List Nat)) : Prop :=
  ∀ node, requestsOf tasks node ≠ [] → ∃ idx, lookup node = some idx ∧
    List.Forall₂ (fun i op => ∃ w, rows[i]? = some w ∧ Delivers near grid w op) idx (requestsOf tasks node)

/-- Every row was asked for. -/
def NothingElse {V : Type} (near : V → V → Bool) (grid : List V) (ops : List (Op V)) (rows : List V) : Prop :=
  ∀ w ∈ rows, ∃ op ∈ ops, Delivers near grid w op

/-- `near` is an equivalence relation. -/
structure IsEquiv {V : Type} (near : V → V → Bool) : Prop where
  refl : ∀ a, near a a = true
  symm : ∀ a b, near a b = true → near b a = true
  trans : ∀ a b c, near a b = true → near b c = true → near a c = true

/-- Different threads work on different nodes. -/
def DifferentNodes {V : Type} (jobs : List (List (Nat × Op V))) : Prop :=
  jobs.Pairwise (fun j1 j2 => ∀ t1 ∈ j1, ∀ t2 ∈ j2, t1.1 ≠ t2.1)

end Brille.Spec
