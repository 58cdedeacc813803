import Verif.Model.PyCreate

/-!
# The documented ways to ask for a zone and a grid

`create_bz(a, b, c, alpha, beta, gamma, spacegroup, ...)`, `create_bz(lens, angs, spacegroup, ...)` and
`create_bz(lattice_vectors, spacegroup, ...)`, each argument by position or by name (utils.py 111-118).
-/

namespace Brille.Spec

open Brille.PyCreate

/-- the numbers of a length or an angle -/
def numberOf : Val → Option ℚ
  | .int n => some n
  | .float x => some x
  | _ => none

/-- the numbers of three lengths or three angles -/
def numbersOf : Triple → Option (List ℚ)
  | .three l => l.mapM numberOf
  | .array (.vec l) => some l
  | _ => none

/-- the request is for a cell with these lengths and angles -/
def NamesParameters (r : BzRequest) (lens angs : List ℚ) : Prop :=
  ∃ l g, r.cell = .parameters l g ∧ numbersOf l = some lens ∧ numbersOf g = some angs

/-- the options and the space group are those of the call -/
def SameOptions (k : BzCall) (s : String) (r : BzRequest) : Prop :=
  r.spacegroup = s ∧ (r.realSpace = true ↔ k.isReciprocal = false) ∧ r.snap = k.snap ∧ r.usePrimitive = k.usePrimitive ∧
    r.searchLength = k.searchLength ∧ r.timeReversal = k.timeReversal ∧ r.wedgeSearch = k.wedgeSearch

/-- the documented ways to give lengths and angles, without the space group, added to the options of a call: numbers by position or by name,
arrays by position or by name, rows or columns by position -/
def parameterCalls (o : BzCall) (a b c x y z : ℚ) : List BzCall :=
  [{ o with args := [.float a, .float b, .float c, .float x, .float y, .float z] },
   { o with
      args := []
      a := some (.float a)
      b := some (.float b)
      c := some (.float c)
      alpha := some (.float x)
      beta := some (.float y)
      gamma := some (.float z) },
   { o with args := [.vec [a, b, c], .vec [x, y, z]] },
   { o with args := [], lens := some (.vec [a, b, c]), angs := some (.vec [x, y, z]) },
   { o with args := [.rows [[a, b, c]], .rows [[x, y, z]]] },
   { o with args := [.rows [[a], [b], [c]], .rows [[x], [y], [z]]] }]

/-- the documented ways to give three vectors -/
def vectorCalls (o : BzCall) (u v w : Fin 3 → ℚ) : List BzCall :=
  [{ o with args := [.rows [List.ofFn u, List.ofFn v, List.ofFn w]] },
   { o with args := [], latticeVectors := some (.rows [List.ofFn u, List.ofFn v, List.ofFn w]) }]

/-- the two ways to give the space group: after everything else that is given by position, or by name -/
def withGroup (k : BzCall) (s : String) : List BzCall :=
  [{ k with args := k.args ++ [.text s] }, { k with spacegroup := some (.text s) }]

/-- nothing of the cell and the group is given -/
def OptionsOnly (o : BzCall) : Prop :=
  o.a = none ∧ o.b = none ∧ o.c = none ∧ o.alpha = none ∧ o.beta = none ∧ o.gamma = none ∧ o.lens = none ∧ o.angs = none ∧
    o.latticeVectors = none ∧ o.spacegroup = none

/-- the names that belong to one kind of grid are used -/
def AsksTrellis (k : GridCall) : Prop := k.nodeVolumeFraction ≠ none ∨ k.alwaysTriangulate ≠ none
def AsksMesh (k : GridCall) : Prop := k.maxSize ≠ none ∨ k.numLevels ≠ none ∨ k.maxPoints ≠ none
def AsksNest (k : GridCall) : Prop := k.maxVolume ≠ none ∨ k.numberDensity ≠ none ∨ k.maxBranchings ≠ none

end Brille.Spec
