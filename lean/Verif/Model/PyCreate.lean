import Mathlib.Data.Rat.Defs
import Mathlib.Data.List.Basic

/-!
# The functions of the Python package that create lattices, zones and grids

`brille/utils.py` (`create_bz`, `create_grid`) and `brille/lattice.py` (`Lattice`): which constructor of the compiled module is called,
and with what.  Python values are numbers, texts, `None`, lists and tables of numbers, in the shapes that matter here; whatever the compiled
constructors raise is not part of this model.
-/

namespace Brille.PyCreate

/-- the Python values that are passed here: whole numbers, other numbers, texts, one dimensional and two dimensional arrays or lists -/
inductive Val where
  | int (n : Int)
  | float (x : Rat)
  | text (s : String)
  | vec (l : List Rat)
  | rows (m : List (List Rat))
  deriving DecidableEq, Repr

/-- exceptions -/
inductive Err where
  | value
  | index
  | type
  deriving DecidableEq, Repr

/-- `np.shape`, for tables whose rows are equally long -/
def Val.shape : Val → List Nat
  | .int _ | .float _ | .text _ => []
  | .vec l => [l.length]
  | .rows m => [m.length, (m.headD []).length]

/-- `np.squeeze(np.array(x))`, utils.py 146-147, for tables with one row or one column; other values as they are -/
def Val.squeeze : Val → Val
  | .rows m => if m.length = 1 ∨ (m.headD []).length = 1 then .vec m.flatten else .rows m
  | v => v

/-- The arguments of `create_bz`, utils.py 64-73: those by position and those by name; a name that is not given has the value `None`.
`other` are further names. -/
structure BzCall where
  args : List Val := []
  a : Option Val := none
  b : Option Val := none
  c : Option Val := none
  alpha : Option Val := none
  beta : Option Val := none
  gamma : Option Val := none
  lens : Option Val := none
  angs : Option Val := none
  latticeVectors : Option Val := none
  spacegroup : Option Val := none
  isReciprocal : Bool := false
  usePrimitive : Bool := true
  searchLength : Nat := 1
  timeReversal : Bool := false
  wedgeSearch : Bool := true
  snap : Bool := true
  other : List (String × Val) := []

/-- three values one after another, or an array -/
inductive Triple where
  | three (l : List Val)
  | array (v : Val)
  deriving DecidableEq, Repr

/-- what the lattice is made from: `Lattice((lens, angs), …)` or `Lattice(lattice_vectors, …)`, utils.py 172-176 -/
inductive Cell where
  | parameters (lens angs : Triple)
  | vectors (v : Val)
  deriving DecidableEq, Repr

/-- the calls of the compiled constructors, utils.py 167-185 -/
structure BzRequest where
  cell : Cell
  spacegroup : String
  realSpace : Bool
  snap : Bool
  usePrimitive : Bool
  searchLength : Nat
  timeReversal : Bool
  wedgeSearch : Bool
  deriving DecidableEq, Repr

/-- utils.py 125-158: the lengths and angles, the vectors, and the place of the space group among the arguments.  `tuple(args[:2])` of a
single argument cannot be taken apart (`ValueError`). -/
def cellOf (k : BzCall) : Except Err (Option (Triple × Triple) × Option Val × Nat) :=
  let noScalars := k.a.isNone || k.b.isNone || k.c.isNone || k.alpha.isNone || k.beta.isNone || k.gamma.isNone
  let noVectors := k.lens.isNone || k.angs.isNone
  let byName : Option (Triple × Triple) :=
    match k.a, k.b, k.c, k.alpha, k.beta, k.gamma, k.lens, k.angs with
    | _, _, _, _, _, _, some l, some g => some (.array l, .array g)
    | some a, some b, some c, some x, some y, some z, _, _ => some (.three [a, b, c], .three [x, y, z])
    | _, _, _, _, _, _, _, _ => none
  if noScalars && noVectors && k.latticeVectors.isNone then
    match k.args with
    | [] => .error .index
    | first :: rest =>
      if first.shape = [] then .ok (some (.three (k.args.take 3), .three ((k.args.drop 3).take 3)), none, 6)
      else if first.shape = [3] then
        match rest with
        | second :: _ => .ok (some (.array first, .array second), none, 2)
        | [] => .error .value
      else if first.shape = [3, 1] ∨ first.shape = [1, 3] then
        match rest with
        | second :: _ => .ok (some (.array first.squeeze, .array second.squeeze), none, 2)
        | [] => .error .value
      else if first.shape = [3, 3] then .ok (none, some first, 1)
      else .error .value
  else .ok (byName, k.latticeVectors, 0)

/-- `create_bz`, utils.py 64-207, up to the calls of the compiled constructors -/
def createBz (k : BzCall) : Except Err BzRequest :=
  match cellOf k with
  | .error e => .error e
  | .ok (params, vectors, place) =>
    let group : Except Err Val := match k.spacegroup with
      | some v => .ok v
      | none => match k.args[place]? with
        | some v => .ok v
        | none => .error .value
    match group with
    | .error e => .error e
    | .ok (.text s) =>
      match vectors, params with
      | some v, _ => .ok ⟨.vectors v, s, !k.isReciprocal, k.snap, k.usePrimitive, k.searchLength, k.timeReversal, k.wedgeSearch⟩
      | none, some (l, g) => .ok ⟨.parameters l g, s, !k.isReciprocal, k.snap, k.usePrimitive, k.searchLength, k.timeReversal, k.wedgeSearch⟩
      | none, none => .error .type
    | .ok _ => .error .value

/-- the types of the numbers in a grid: real (`d`) or complex (`c`) values and vectors -/
structure Numbers where
  complexValues : Bool
  complexVectors : Bool
  deriving DecidableEq, Repr

/-- the arguments of the constructor of a grid after the zone -/
inductive GridArgs where
  | trellis (fraction : Rat) (triangulate : Bool)
  | mesh (maxSize : Rat) (levels points : Int)
  | nestVolume (v : Rat) (branchings : Int)
  | nestDensity (n : Int) (branchings : Int)
  deriving DecidableEq, Repr

/-- The arguments of `create_grid`, utils.py 210-212, of a zone (`isinstance(bz, BrillouinZone)` holds): the optional names. -/
structure GridCall where
  complexValues : Bool := false
  complexVectors : Bool := false
  mesh : Bool := false
  nest : Bool := false
  nodeVolumeFraction : Option Rat := none
  alwaysTriangulate : Option Bool := none
  maxSize : Option Rat := none
  numLevels : Option Int := none
  maxPoints : Option Int := none
  maxVolume : Option Rat := none
  numberDensity : Option Rat := none
  maxBranchings : Option Int := none
  other : List (String × Val) := []

/-- `int` of a number: towards zero -/
def toInt (x : Rat) : Int := if x < 0 then x.ceil else x.floor

/-- `constructor`, utils.py 295-301 -/
def numbers (k : GridCall) : Numbers :=
  if k.complexValues && k.complexVectors then ⟨true, true⟩
  else if k.complexVectors then ⟨false, true⟩
  else ⟨false, false⟩

/-- `create_grid`, utils.py 286-356 -/
def createGrid (k : GridCall) : Except Err (Numbers × GridArgs) :=
  let forTrellis := k.nodeVolumeFraction.isSome || k.alwaysTriangulate.isSome
  let forMesh := k.maxSize.isSome || k.numLevels.isSome || k.maxPoints.isSome
  let forNest := k.maxVolume.isSome || k.maxBranchings.isSome
  if k.nest && k.mesh then .error .value
  else if k.nest then
    if forTrellis then .error .value
    else if forMesh then .error .value
    else match k.maxVolume, k.numberDensity with
      | some v, _ => .ok (numbers k, .nestVolume v (k.maxBranchings.getD 5))
      | none, some n => .ok (numbers k, .nestDensity (toInt n) (k.maxBranchings.getD 5))
      | none, none => .error .value
  else if k.mesh then
    if forTrellis then .error .value
    else if forNest then .error .value
    else .ok (numbers k, .mesh (k.maxSize.getD (-1)) (k.numLevels.getD 3) (k.maxPoints.getD (-1)))
  else
    if forNest then .error .value
    else if forMesh then .error .value
    else .ok (numbers k, .trellis (k.nodeVolumeFraction.getD (1 / 100000)) (k.alwaysTriangulate.getD false))

/-- the space group given to `Lattice`, lattice.py 10: nothing, a text, or several values of which some are texts -/
inductive GroupArg where
  | nothing
  | one (s : String)
  | several (l : List Val)

/-- how the compiled `Lattice` is called, lattice.py 105-130: the values, the texts that name the group, and whether operations and atoms are
passed -/
structure LatticeRequest where
  values : List Val
  group : List String
  symmetry : Bool
  basis : Bool
  deriving DecidableEq, Repr

/-- a text as such -/
def Val.text? : Val → Option String
  | .text s => some s
  | _ => none

/-- `Lattice`, lattice.py 10-130.  `values` is the sequence of what was passed first (for a table of vectors: its rows), `whole` is it as one
value. -/
def lattice (values : List Val) (whole : Val) (spacegroup : GroupArg) (symmetry basis : Bool) : Except Err LatticeRequest :=
  let names : Except Err (List String) := match spacegroup with
    | .nothing => .ok []
    | .one s => .ok [s]
    | .several l => match l.mapM Val.text? with
      | some names => .ok names
      | none => .error .value
  match names with
  | .error e => .error e
  | .ok names =>
    if basis && !symmetry && names.isEmpty then .error .value
    else if symmetry && !names.isEmpty then .error .value
    else .ok ⟨if values.length < 3 then values else [whole], names, symmetry, basis⟩

end Brille.PyCreate
