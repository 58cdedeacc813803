/-
The first Brillouin zone of a centred lattice: `Impl::primitive` of /repo/src/lattice_dual.hpp and the transformations between
the primitive and the conventional lattice in `voro_search` of /repo/src/bz.cpp.  The part in between is `Brille.Zone`.
Coordinates are exact.  The polyhedron is given by Cartesian coordinates; those relative to the conventional lattice, which
are stored, follow from them.
-/
import Verif.Model.Zone
import Verif.Model.IrCheck
import Verif.Model.Primitive

namespace Brille.Zone

open Brille.Tetra Brille.Faces Brille.Neighbours Brille.Prim
open Brille.IrCheck (relative cartesian)

/-- `Impl::primitive`, lattice_dual.hpp 735-770: the reciprocal vectors, here the rows, in the code the columns, of the matrix;
`none`: an exception -/
def primitiveBasis (b : Bravais) (B : Fin 3 → Pt) : Option (Fin 3 → Pt) :=
  if doesNothing b then some B
  else (getInvPt b).map fun m => fun k d => B 0 d * m 0 k + B 1 d * m 1 k + B 2 d * m 2 k

/-- the lattice `_inner`, bz.hpp 105-131, and what it is for the transformations: `cfg.primitive()` is `primitive` -/
def inner (primitive : Bool) (b : Bravais) (B : Fin 3 → Pt) : Option (OnLattice × (Fin 3 → Pt)) :=
  if primitive then (primitiveBasis b B).map fun Bi => (if doesNothing b then .standard else .primitive, Bi) else some (.standard, B)

/-- the integers of a lattice point as coordinates -/
def coordinates (i : ℤ × ℤ × ℤ) : Pt := ![i.1, i.2.1, i.2.2]

/-- `primitive_tau` after sorting, bz.cpp 200-206: the coordinates on the lattice `_inner` -/
def primitiveTau (Bi : Fin 3 → Pt) (extent : ℤ) : List (ℤ × ℤ × ℤ) :=
  (offsets extent).insertionSort fun i j => dot (position Bi i) (position Bi i) ≤ dot (position Bi j) (position Bi j)

/-- `transform_from_primitive(_outer, ...)` of many vectors; the lattice of the result is that of `_outer` -/
def fromPrimitives (b : Bravais) (on : OnLattice) (l : List Pt) : Option (List Pt) :=
  l.mapM fun v => (fromPrimitive b on .inverseAngstrom v).map Prod.snd

/-- `voro_search`, bz.cpp 197-231 -/
def voroSearchCentred (primitive divide : Bool) (b : Bravais) (B : Fin 3 → Pt) (extent : ℤ) : Option (List Pt × List Face) := do
  let (on, Bi) ← inner primitive b B
  let tau := (primitiveTau Bi extent).map coordinates
  if divide then
    let (v, f) ← voroSearch (tau.map (cartesian Bi))
    let w ← fromPrimitives b on (v.map (relative Bi))
    pure (w.map (cartesian B), f)
  else
    let tau ← fromPrimitives b on tau
    voroSearch (tau.map (cartesian B))

/-- the loop of `construct`, bz.hpp 142-159, with this search -/
def constructCentred (near : ℚ → ℚ → Bool) (primitive divide : Bool) (b : Bravais) (B : Fin 3 → Pt) :
    Nat → ℤ → ℚ → Option (List Pt × List Face)
  | 0, _, _ => none
  | turns + 1, extent, old =>
    match voroSearchCentred primitive divide b B extent with
    | none => none
    | some (v, f) =>
      let new := volume f fun i => v.getD i 0
      if near new old then (if near new 0 then none else some (v, f))
      else constructCentred near primitive divide b B turns (extent + 1) new

/-- `get_primitive_vertices`, bz.cpp 100-104: the coordinates of the vertices relative to the primitive lattice; `isprimitive` says whether
the lattices differ -/
def primitiveVertices (primitive : Bool) (b : Bravais) (B : Fin 3 → Pt) (v : List Pt) : Option (List Pt) :=
  if primitive && !doesNothing b then (v.map (relative B)).mapM fun q => (toPrimitive b .standard .inverseAngstrom q).map Prod.snd
  else some (v.map (relative B))

end Brille.Zone
