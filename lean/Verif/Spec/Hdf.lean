import Verif.Model.Hdf

/-!
# What saving and loading should do

`Restores sv ld r`: after `sv` has written to the entry `e` of whatever group or file, `ld` finds `r` there, all
other entries and the attributes of the group are as they were.
-/
namespace Brille.Spec
open Brille.Hdf
variable {R X : Type}

/-- saving succeeds, whatever the group and whatever is at the entry; loading from the entry gives `r` (`none`: an
exception); the other entries and the attributes are untouched -/
def Restores (sv : Grp R → String → Option (Grp R)) (ld : Grp R → String → Option X) (r : Option X) : Prop :=
  ∀ g e, ∃ g', sv g e = some g' ∧ ld g' e = r ∧ (∀ e', e' ≠ e → g'.get e' = g.get e') ∧ g'.attrs = g.attrs

/-! What the library's own constructors make of the object when it is loaded -/

/-- a basis has as many types as atoms -/
def GoodBasis (b : Basis R) : Prop := b.types.length = b.positions.length

/-- A lattice that its own constructor leaves alone: sorted point operations and, in exact agreement with the
symmetry operations, atoms. -/
def SettledLattice (env : Env R) (l : Latt R) : Prop :=
  GoodBasis l.basis ∧ env.sort l.point = l.point ∧ env.allOk l.space l.basis = true

def SettledBZ (env : Env R) (z : BZ R) : Prop :=
  SettledLattice env z.inner ∧ SettledLattice env z.outer ∧ SettledLattice env z.first.vertices.lattice ∧
    SettledLattice env z.irreducible.vertices.lattice

/-- the type numbers kept are the ones that `set_cost_info(_, 0)` keeps, and the data passes the checks -/
def SettledInterp {T : Type} (x : Interp R T) : Prop :=
  checkElements x.shape x.elements = some x.elements ∧ x.vectorFun = 0 ∧ ∀ i, x.funtype i = 0

/-- keys in increasing order, as in every `std::map` -/
def GoodTable (t : PTable) : Prop := t.ijmap.Pairwise fun a b => a.1 < b.1

def SettledDual {T S : Type} (d : Dual R T S) : Prop :=
  SettledInterp d.values ∧ SettledInterp d.vectors ∧ GoodTable d.table

/-- as many cubes and polyhedra as there are nodes of these types -/
def GoodNodes (x : Nodes R) : Prop :=
  x.cubes.length = (x.nodes.filter fun n => decide (n.1 = typeCube)).length ∧
    x.polys.length = (x.nodes.filter fun n => decide (n.1 = typePoly)).length

/-- at least one layer, and a connection from each layer to the next -/
def GoodTetTri (x : TetTri R) : Prop := x.layers.length = x.connections.length + 1

def SettledTrellis {T S : Type} (x : Trellis R T S) : Prop := SettledDual x.data ∧ GoodNodes x.nodes

/-! What comes back in general -/

/-- the basis after its constructor -/
def reloadBasis (b : Basis R) : Basis R :=
  if b.types.length = b.positions.length then b else ⟨b.positions, List.range b.positions.length⟩

def reloadLattice (env : Env R) (l : Latt R) : Option (Latt R) :=
  (env.snap l.space (reloadBasis l.basis)).map fun b => { l with point := env.sort l.point, basis := b }

def reloadLVec (env : Env R) (v : LVec R) : Option (LVec R) :=
  (reloadLattice env v.lattice).map fun l => { v with lattice := l }

def reloadPoly {V : Type} (rv : V → Option V) (p : Poly V) : Option (Poly V) :=
  (rv p.vertices).map fun v => { p with vertices := v }

/-- the vector cost function that comes back is the one of the *second* remembered number -/
def reloadInterp {T : Type} (x : Interp R T) : Option (Interp R T) :=
  (checkElements x.shape x.elements).map fun e =>
    { x with elements := e, vectorFun := vectorFunOf (x.funtype 1),
             funtype := fun i => if i = 0 then vectorFunOf (x.funtype 1) else 0 }

def reloadDual {T S : Type} (d : Dual R T S) : Option (Dual R T S) := do
  let v ← reloadInterp d.values
  let w ← reloadInterp d.vectors
  return ⟨v, w, d.table⟩

def reloadBZ (env : Env R) (z : BZ R) : Option (BZ R) := do
  let i ← reloadLattice env z.inner
  let o ← reloadLattice env z.outer
  let f ← reloadPoly (reloadLVec env) z.first
  let w ← reloadPoly (reloadLVec env) z.irreducible
  return { z with inner := i, outer := o, first := f, irreducible := w }

end Brille.Spec
