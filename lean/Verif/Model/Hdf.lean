import Verif.Model.StdMap
import Mathlib.Data.List.OfFn

/-!
# Saving to and loading from HDF5 files

The library writes and reads its objects with HighFive.  Modelled: every `to_hdf`/`from_hdf` pair of the code on
an abstract HDF5 file, a tree of groups (attributes and named links) and datasets (dimensions, cells in row order
and attributes).  `none` stands for an exception.

Not modelled, and trusted: that HDF5 and HighFive give back the numbers, enumeration values and records they were
given; link names are taken as they are (a `/` inside a name is not a path here); reading with another type than
the one written, where HDF5 would convert, is `none`.  What an exception leaves behind in a half written group
is not modelled either.  `R` is the type of the floating point numbers: they are only copied.
-/
namespace Brille.Hdf
variable {R : Type}

/-- `HF_Motion<int,double>`, hdf_interface.hpp 120-136 -/
structure HFMotion (R : Type) where
  xx : ℤ
  xy : ℤ
  xz : ℤ
  yx : ℤ
  yy : ℤ
  yz : ℤ
  zx : ℤ
  zy : ℤ
  zz : ℤ
  x : R
  y : R
  z : R
deriving DecidableEq

/-- `HF_Matrix<int>`, hdf_interface.hpp 139-149 -/
structure HFMatrix where
  xx : ℤ
  xy : ℤ
  xz : ℤ
  yx : ℤ
  yy : ℤ
  yz : ℤ
  zx : ℤ
  zy : ℤ
  zz : ℤ
deriving DecidableEq

/-- A value of one of the enumerations registered in hdf_interface.cpp 6-40: its underlying number. -/
structure EnumVal where
  code : ℕ
deriving DecidableEq

/-- The cells of a dataset or attribute, by type. -/
inductive Cells (R : Type)
  | nat (l : List ℕ)
  | int (l : List ℤ)
  | real (l : List R)
  | cplx (l : List (R × R))
  | enum (l : List EnumVal)
  | motion (l : List (HFMotion R))
  | matrix (l : List HFMatrix)
deriving DecidableEq

/-- The types that HighFive can put into a dataset. -/
class Cell (R T : Type) where
  enc : List T → Cells R
  dec : Cells R → Option (List T)
  dec_enc : ∀ l, dec (enc l) = some l

instance : Cell R ℕ := ⟨.nat, fun | .nat l => some l | _ => none, fun _ => rfl⟩
instance : Cell R ℤ := ⟨.int, fun | .int l => some l | _ => none, fun _ => rfl⟩
instance instReal : Cell R R := ⟨.real, fun | .real l => some l | _ => none, fun _ => rfl⟩
instance : Cell R (R × R) := ⟨.cplx, fun | .cplx l => some l | _ => none, fun _ => rfl⟩
instance : Cell R EnumVal := ⟨.enum, fun | .enum l => some l | _ => none, fun _ => rfl⟩
instance : Cell R (HFMotion R) := ⟨.motion, fun | .motion l => some l | _ => none, fun _ => rfl⟩
instance : Cell R HFMatrix := ⟨.matrix, fun | .matrix l => some l | _ => none, fun _ => rfl⟩

/-- What is stored in a dataset or an attribute: dimensions and cells in row order. -/
structure Data (R : Type) where
  dims : List ℕ
  cells : Cells R
deriving DecidableEq

/-- The objects of a file. -/
inductive Obj (R : Type)
  | data (d : Data R) (attrs : List (String × Data R))
  | group (attrs : List (String × Data R)) (kids : List (String × Obj R))

/-- A group (or file, which is its root group). -/
structure Grp (R : Type) where
  attrs : List (String × Data R)
  kids : List (String × Obj R)

/-- a group just created -/
def Grp.empty : Grp R := ⟨[], []⟩

/-- the object behind a link -/
def Grp.get (g : Grp R) (e : String) : Option (Obj R) := g.kids.lookup e

/-- `obj.exist(entry)` -/
def Grp.exist (g : Grp R) (e : String) : Bool := (g.get e).isSome

/-- `obj.unlink(entry)`; the callers have checked that the link exists -/
def Grp.unlink (g : Grp R) (e : String) : Grp R := { g with kids := g.kids.filter fun k => k.1 != e }

/-- making a new link: an exception if the name is taken -/
def Grp.link (g : Grp R) (e : String) (o : Obj R) : Option (Grp R) :=
  if g.exist e then none else some { g with kids := g.kids ++ [(e, o)] }

/-- `createAttribute(name, value)` on the attributes `as`: an exception if the name is taken -/
def addAttr (as : List (String × Data R)) (n : String) (d : Data R) : Option (List (String × Data R)) :=
  if (as.lookup n).isSome then none else some (as ++ [(n, d)])

/-- `group.createAttribute(name, value)` -/
def Grp.attr (g : Grp R) (n : String) (d : Data R) : Option (Grp R) :=
  (addAttr g.attrs n d).map fun as => { g with attrs := as }

/-- `group.createDataSet(name, value)` -/
def Grp.dataSet (g : Grp R) (n : String) (d : Data R) : Option (Grp R) := g.link n (.data d [])

/-- `group.createGroup(name)` followed by what `fill` does to the new group -/
def Grp.newGroup (g : Grp R) (n : String) (fill : Grp R → Option (Grp R)) : Option (Grp R) := do
  let sub ← fill Grp.empty
  g.link n (.group sub.attrs sub.kids)

/-- `if (obj.exist(entry)) obj.unlink(entry);`, hdf_interface.hpp 21 and 27 -/
def Grp.clear (g : Grp R) (e : String) : Grp R := if g.exist e then g.unlink e else g

/-- `overwrite_group`, hdf_interface.hpp 18-23, and what the caller then does to the new group -/
def overwriteGroup (g : Grp R) (e : String) (fill : Grp R → Option (Grp R)) : Option (Grp R) :=
  (g.clear e).newGroup e fill

/-- `overwrite_data`, hdf_interface.hpp 24-29, and the attributes that the caller then gives to the dataset -/
def overwriteData (g : Grp R) (e : String) (d : Data R) (attrs : List (String × Data R)) : Option (Grp R) :=
  (g.clear e).link e (.data d attrs)

/-- `group.getAttribute(name)` -/
def Grp.getAttr (g : Grp R) (n : String) : Option (Data R) := g.attrs.lookup n

/-- `group.getDataSet(name)` -/
def Grp.getData (g : Grp R) (n : String) : Option (Data R) :=
  match g.get n with
  | some (.data d _) => some d
  | _ => none

/-- `group.getGroup(name)` -/
def Grp.getGroup (g : Grp R) (n : String) : Option (Grp R) :=
  match g.get n with
  | some (.group as ks) => some ⟨as, ks⟩
  | _ => none

/-! Values to and from data -/

/-- a single number, as HighFive stores it -/
def scalar {T : Type} [Cell R T] (x : T) : Data R := ⟨[], Cell.enc [x]⟩

/-- a `std::vector` or `std::array` of numbers -/
def vec {T : Type} [Cell R T] (l : List T) : Data R := ⟨[l.length], Cell.enc l⟩

/-- a `std::vector<std::vector>`: only rectangular ones fit into a dataset -/
def mat {T : Type} [Cell R T] (l : List (List T)) : Option (Data R) :=
  let m := (l.headD []).length
  if l.all fun r => decide (r.length = m) then some ⟨[l.length, m], Cell.enc l.flatten⟩ else none

/-- `.read(x)` into a single number -/
def readScalar {T : Type} [Cell R T] (d : Data R) : Option T :=
  match d.dims, (Cell.dec d.cells : Option (List T)) with
  | [], some [x] => some x
  | _, _ => none

/-- `.read(v)` into a `std::vector` -/
def readVec {T : Type} [Cell R T] (d : Data R) : Option (List T) :=
  match d.dims with
  | [_] => Cell.dec d.cells
  | _ => none

/-- `.read(a)` into a `std::array` of `k` numbers -/
def readArr {T : Type} [Cell R T] (k : ℕ) (d : Data R) : Option (Fin k → T) := do
  let l : List T ← readVec d
  if h : l.length = k then some fun i => l[i.val]'(by omega) else none

/-- `n` rows of `m` cells each -/
def rowsOf {T : Type} (m : ℕ) : ℕ → List T → List (List T)
  | 0, _ => []
  | n + 1, l => l.take m :: rowsOf m n (l.drop m)

/-- `.read(v)` into a `std::vector<std::vector>` -/
def readMat {T : Type} [Cell R T] (d : Data R) : Option (List (List T)) :=
  match d.dims with
  | [n, m] => (Cell.dec d.cells).map (rowsOf m n)
  | _ => none

/-! Lists and maps -/

/-- The loop `for (const auto& x: xs) write(x, group, std::to_string(i++))`. -/
def writeAll {X : Type} (w : X → Grp R → String → Option (Grp R)) : ℕ → List X → Grp R → Option (Grp R)
  | _, [], g => some g
  | i, x :: xs, g => do
    let g ← w x g (Nat.repr i)
    writeAll w (i + 1) xs g

/-- The loop `for (size_t i=0; i<no; ++i) out[i] = read(group, std::to_string(i))`. -/
def readAll {X : Type} (r : Grp R → String → Option X) (no : ℕ) (g : Grp R) : Option (List X) :=
  (List.range no).mapM fun i => r g (Nat.repr i)

/-- `lists_to_hdf`, hdf_interface.hpp 32-46 (and 108-118, for a `std::array` of vectors) -/
def listsTo {T : Type} [Cell R T] (ls : List (List T)) (g : Grp R) (e : String) : Option (Grp R) :=
  overwriteGroup g e fun s => do
    let s ← s.attr "length" (scalar ls.length)
    writeAll (fun l s n => s.dataSet n (vec l)) 0 ls s

/-- `lists_from_hdf`, hdf_interface.hpp 55-68 -/
def listsFrom {T : Type} [Cell R T] (g : Grp R) (e : String) : Option (List (List T)) := do
  let s ← g.getGroup e
  let no : ℕ ← readScalar (← s.getAttr "length")
  readAll (fun s n => do readVec (← s.getData n)) no s

/-- `map_to_hdf`, hdf_interface.hpp 77-92; the map is the list of its entries in key order -/
def mapTo (m : StdMap.Map ℕ) (g : Grp R) (e : String) : Option (Grp R) :=
  overwriteGroup g e fun s => do
    let s ← s.dataSet "keys" (vec (m.map Prod.fst))
    s.dataSet "values" (vec (m.map Prod.snd))

/-- `map_from_hdf`, hdf_interface.hpp 93-106 -/
def mapFrom (g : Grp R) (e : String) : Option (StdMap.Map ℕ) := do
  let s ← g.getGroup e
  let keys : List ℕ ← readVec (← s.getData "keys")
  let values : List ℕ ← readVec (← s.getData "values")
  if keys.length ≠ values.length then none
  else some ((keys.zip values).foldl (fun m kv => StdMap.emplace m kv.1 kv.2) [])

/-! Comparison settings -/

/-- `approx_float::Config`, approx_config.hpp 10-14 -/
structure Config (R : Type) where
  digit : ℤ
  direct : R
  reciprocal : R
deriving DecidableEq

/-- approx_config.hpp 41-48 -/
def Config.to (c : Config R) (g : Grp R) (e : String) : Option (Grp R) :=
  overwriteGroup g e fun s => do
    let s ← s.attr "digit" (scalar c.digit)
    let s ← s.attr "direct" (scalar c.direct)
    s.attr "reciprocal" (scalar c.reciprocal)

/-- approx_config.hpp 49-57 -/
def Config.from (g : Grp R) (e : String) : Option (Config R) := do
  let s ← g.getGroup e
  let d : ℤ ← readScalar (← s.getAttr "digit")
  let dir : R ← readScalar (← s.getAttr "direct")
  let rcp : R ← readScalar (← s.getAttr "reciprocal")
  return ⟨d, dir, rcp⟩

/-! Two-dimensional arrays -/

/-- An `Array2<T>` as its user sees it: shape and values.  (How the values lie in memory is C54's and C55's
matter: saving goes through `val(i, j)` only.) -/
structure A2 (T : Type) where
  n : ℕ
  m : ℕ
  val : Fin n → Fin m → T

/-- `to_hdf`, array2.tpp 1125-1146, with `add_hdf_attributes`, 1117-1123 -/
def A2.to {T : Type} [Cell R T] (a : A2 T) (g : Grp R) (e : String) : Option (Grp R) :=
  let attrs : List (String × Data R) := [("size", scalar (a.n * a.m)), ("shape", vec [a.n, a.m])]
  if a.n * a.m ≠ 0 then do
    overwriteData g e (← mat (List.ofFn fun i => List.ofFn (a.val i))) attrs
  else
    overwriteGroup g e fun s => do
      let s ← s.attr "size" (scalar (a.n * a.m))
      s.attr "shape" (vec [a.n, a.m])

/-- `from_hdf`, array2.hpp 535-567.  The array over the cells read has the strides `{shape[1], 1}`.  An array that
the second half would leave uninitialised is `none`. -/
def A2.from {T : Type} [Cell R T] (g : Grp R) (e : String) : Option (A2 T) :=
  match g.get e with
  | some (.data d _) =>
    match d.dims, (Cell.dec d.cells : Option (List T)) with
    | [a, b], some l =>
      if h : l.length = a * b then
        some ⟨a, b, fun i j => l[i.val * b + j.val]'(by
          have h1 := Nat.mul_le_mul_right b (Nat.succ_le_of_lt i.2)
          have h2 := j.2
          rw [Nat.succ_mul] at h1
          omega)⟩
      else none
    | _, _ => none
  | some (.group as ks) => do
    let s : Grp R := ⟨as, ks⟩
    let no : ℕ ← readScalar (← s.getAttr "size")
    let sh : Fin 2 → ℕ ← readArr 2 (← s.getAttr "shape")
    if 0 < no then none
    else if h : sh 0 * sh 1 = 0 then
      some ⟨sh 0, sh 1, fun i j => absurd h (Nat.mul_pos (Nat.lt_of_le_of_lt (Nat.zero_le _) i.2)
        (Nat.lt_of_le_of_lt (Nat.zero_le _) j.2)).ne'⟩
    else none
  | none => none

/-! Symmetry operations -/

/-- `Motion<int,double>`, motion.hpp 26-28: the nine entries of the matrix, row by row, and the translation -/
structure Motion9 (R : Type) where
  W : Fin 9 → ℤ
  w : Fin 3 → R

/-- `HF_Motion(m, v)`, hdf_interface.hpp 126-128 -/
def HFMotion.of (m : Motion9 R) : HFMotion R :=
  ⟨m.W 0, m.W 1, m.W 2, m.W 3, m.W 4, m.W 5, m.W 6, m.W 7, m.W 8, m.w 0, m.w 1, m.w 2⟩

/-- `tuple()`, hdf_interface.hpp 129-134 -/
def HFMotion.tuple (h : HFMotion R) : Motion9 R :=
  ⟨fun i => [h.xx, h.xy, h.xz, h.yx, h.yy, h.yz, h.zx, h.zy, h.zz][i.val]'i.2,
   fun i => [h.x, h.y, h.z][i.val]'i.2⟩

/-- motion.hpp 120-125 -/
def Motion9.to (m : Motion9 R) (g : Grp R) (e : String) : Option (Grp R) :=
  overwriteData g e (scalar (HFMotion.of m)) []

/-- motion.hpp 126-133 -/
def Motion9.from (g : Grp R) (e : String) : Option (Motion9 R) := do
  let h : HFMotion R ← readScalar (← g.getData e)
  return h.tuple

/-- `Symmetry::to_hdf`, symmetry.hpp 180-187 -/
def symTo (M : List (Motion9 R)) (g : Grp R) (e : String) : Option (Grp R) :=
  overwriteData g e (vec (M.map HFMotion.of)) []

/-- `Symmetry::from_hdf`, symmetry.hpp 188-201 -/
def symFrom (g : Grp R) (e : String) : Option (List (Motion9 R)) := do
  let h : List (HFMotion R) ← readVec (← g.getData e)
  return h.map HFMotion.tuple

/-- `HF_Matrix(m)`, hdf_interface.hpp 144-145 -/
def HFMatrix.of (m : Fin 9 → ℤ) : HFMatrix := ⟨m 0, m 1, m 2, m 3, m 4, m 5, m 6, m 7, m 8⟩

/-- `array()`, hdf_interface.hpp 146-148 -/
def HFMatrix.array (h : HFMatrix) : Fin 9 → ℤ :=
  fun i => [h.xx, h.xy, h.xz, h.yx, h.yy, h.yz, h.zx, h.zy, h.zz][i.val]'i.2

/-! Atoms -/

/-- `Basis`, basis.hpp 41-42 -/
structure Basis (R : Type) where
  positions : List (Fin 3 → R)
  types : List ℕ

/-- The constructor from positions and types, basis.hpp 58-65: types of the wrong number are replaced. -/
def Basis.mk' (p : List (Fin 3 → R)) (t : List ℕ) : Basis R :=
  if t.length = p.length then ⟨p, t⟩ else ⟨p, List.range p.length⟩

/-- What the library does outside the saving and loading, and that loading calls: `std::sort` as `PointSymmetry`
uses it (pointsymmetry.cpp 173-188), whether the image of an atom has an equivalent atom
(`equivalent_after_operation`, basis.hpp 186-190) and where the atom is put if not (basis.hpp 207-222). -/
structure Env (R : Type) where
  sort : List (Fin 9 → ℤ) → List (Fin 9 → ℤ)
  equivalent : Basis R → ℕ → Motion9 R → Bool
  moved : Basis R → List (Motion9 R) → ℕ → (Fin 3 → R)

/-- Does every operation take every atom to an equivalent one?  basis.hpp 197-204 and 224-228 -/
def Env.allOk (env : Env R) (ops : List (Motion9 R)) (b : Basis R) : Bool :=
  (List.range b.positions.length).all fun k => ops.all fun op => env.equivalent b k op

/-- The loop that moves the atoms found wrong, basis.hpp 206-223; later atoms see the earlier ones moved -/
def Env.moveAll (env : Env R) (ops : List (Motion9 R)) (b : Basis R) : Basis R :=
  ((List.range b.positions.length).filter fun k => !(ops.all fun op => env.equivalent b k op)).foldl
    (fun b k => { b with positions := b.positions.set k (env.moved b ops k) }) b

/-- `snap_to`, basis.hpp 191-230, and the exception of `snap_basis_to_symmetry`, lattice_dual.hpp 300-308 -/
def Env.snap (env : Env R) (ops : List (Motion9 R)) (b : Basis R) : Option (Basis R) :=
  if env.allOk ops b then some b
  else
    let b := env.moveAll ops b
    if env.allOk ops b then some b else none

/-- `PointSymmetry::to_hdf`, pointsymmetry.hpp 96-103 -/
def pointTo (M : List (Fin 9 → ℤ)) (g : Grp R) (e : String) : Option (Grp R) :=
  overwriteData g e (vec (M.map HFMatrix.of)) []

/-- `PointSymmetry::from_hdf`, pointsymmetry.hpp 104-113; the constructor (48) sorts -/
def pointFrom (env : Env R) (g : Grp R) (e : String) : Option (List (Fin 9 → ℤ)) := do
  let h : List HFMatrix ← readVec (← g.getData e)
  return env.sort (h.map HFMatrix.array)

/-- basis.hpp 260-277 -/
def Basis.to (b : Basis R) (g : Grp R) (e : String) : Option (Grp R) :=
  overwriteGroup g e fun s => do
    let s ← s.attr "size" (scalar b.positions.length)
    if b.positions.length ≠ 0 then
      let s ← s.dataSet "positions" (← mat (b.positions.map List.ofFn))
      s.dataSet "types" (vec b.types)
    else some s

/-- basis.hpp 279-306 -/
def Basis.from (g : Grp R) (e : String) : Option (Basis R) := do
  let s ← g.getGroup e
  let num : ℕ ← readScalar (← s.getAttr "size")
  if num ≠ 0 then
    let d ← s.getData "positions"
    if d.dims = [num, 3] then
      let rows : List (List R) ← readMat d
      let p ← rows.mapM fun r => if h : r.length = 3 then some (fun i : Fin 3 => r[i.val]'(by omega)) else none
      let t : List ℕ ← readVec (← s.getData "types")
      return Basis.mk' p t
    else none
  else return Basis.mk' [] []

/-! Lattices and vectors -/

/-- `Impl<double>`, lattice_dual.hpp 148-155; a `Lattice` is a pointer to one -/
structure Latt (R : Type) where
  realVectors : Fin 9 → R
  reciprocalVectors : Fin 9 → R
  realMetric : Fin 9 → R
  reciprocalMetric : Fin 9 → R
  bravais : EnumVal
  space : List (Motion9 R)
  point : List (Fin 9 → ℤ)
  basis : Basis R

/-- `to_hdf`, lattice_dual.hpp 703-717 -/
def Latt.to (l : Latt R) (g : Grp R) (e : String) : Option (Grp R) :=
  overwriteGroup g e fun s => do
    let s ← s.attr "real_space_vectors" (vec (List.ofFn l.realVectors))
    let s ← s.attr "reciprocal_space_vectors" (vec (List.ofFn l.reciprocalVectors))
    let s ← s.attr "real_metric" (vec (List.ofFn l.realMetric))
    let s ← s.attr "reciprocal_metric" (vec (List.ofFn l.reciprocalMetric))
    let s ← s.attr "bravais" (scalar l.bravais)
    let s ← symTo l.space s "spacegroup_symmetry"
    let s ← pointTo l.point s "pointgroup_symmetry"
    l.basis.to s "basis"

/-- `from_hdf`, lattice_dual.hpp 718-733, and the constructor, 171-179, whose last argument is left at `true` -/
def Latt.from (env : Env R) (g : Grp R) (e : String) : Option (Latt R) := do
  let s ← g.getGroup e
  let real : Fin 9 → R ← readArr 9 (← s.getAttr "real_space_vectors")
  let reciprocal : Fin 9 → R ← readArr 9 (← s.getAttr "reciprocal_space_vectors")
  let realMetric : Fin 9 → R ← readArr 9 (← s.getAttr "real_metric")
  let reciprocalMetric : Fin 9 → R ← readArr 9 (← s.getAttr "reciprocal_metric")
  let L : EnumVal ← readScalar (← s.getAttr "bravais")
  let spg ← symFrom s "spacegroup_symmetry"
  let ptg ← pointFrom env s "pointgroup_symmetry"
  let bas ← Basis.from s "basis"
  let bas ← env.snap spg bas
  return ⟨real, reciprocal, realMetric, reciprocalMetric, L, spg, ptg, bas⟩

/-- `LVec<double>`, array_lvec.hpp 92-94 -/
structure LVec (R : Type) where
  unit : EnumVal
  lattice : Latt R
  components : A2 R

/-- array_lvec.hpp 197-206 -/
def LVec.to (v : LVec R) (g : Grp R) (e : String) : Option (Grp R) :=
  overwriteGroup g e fun s => do
    let s ← s.attr "length_unit" (scalar v.unit)
    let s ← v.lattice.to s "lattice"
    v.components.to s "components"

/-- array_lvec.hpp 207-216 -/
def LVec.from (env : Env R) (g : Grp R) (e : String) : Option (LVec R) := do
  let s ← g.getGroup e
  let lu : EnumVal ← readScalar (← s.getAttr "length_unit")
  let lat ← Latt.from env s "lattice"
  let val ← A2.from s "components"
  return ⟨lu, lat, val⟩

/-! Polyhedra -/

/-- `Poly<double, A>`, polyhedron_flex.hpp 16-18: vertices of some array type, and the faces -/
structure Poly (V : Type) where
  vertices : V
  faces : List (List ℕ)

/-- polyhedron_flex.hpp 249-255; `Faces::to_hdf`, polyhedron_faces.hpp 521-525, is `lists_to_hdf` -/
def Poly.to {V : Type} (vto : V → Grp R → String → Option (Grp R)) (p : Poly V) (g : Grp R) (e : String) :
    Option (Grp R) :=
  overwriteGroup g e fun s => do
    let s ← vto p.vertices s "vertices"
    listsTo p.faces s "faces"

/-- polyhedron_flex.hpp 260-265; `Faces::from_hdf`, polyhedron_faces.hpp 530-533 -/
def Poly.from {V : Type} (vfrom : Grp R → String → Option V) (g : Grp R) (e : String) : Option (Poly V) := do
  let s ← g.getGroup e
  let v ← vfrom s "vertices"
  let f ← listsFrom s "faces"
  return ⟨v, f⟩

/-- `Polyhedron`, polyhedron.hpp 40-42, as it is saved -/
structure OldPoly (R : Type) where
  vertices : A2 R
  verticesPerFace : List (List ℤ)

/-- polyhedron.hpp 819-826 -/
def OldPoly.to (p : OldPoly R) (g : Grp R) (e : String) : Option (Grp R) :=
  overwriteGroup g e fun s => do
    let s ← p.vertices.to s "vertices"
    listsTo p.verticesPerFace s "vertices_per_face"

/-- polyhedron.hpp 831-837 -/
def OldPoly.from (g : Grp R) (e : String) : Option (OldPoly R) := do
  let s ← g.getGroup e
  let v ← A2.from s "vertices"
  let f ← listsFrom s "vertices_per_face"
  return ⟨v, f⟩

/-! Interpolation data -/

/-- `PermutationTable`, permutation_table.hpp 69-71 -/
structure PTable where
  indexSize : ℕ
  ijmap : StdMap.Map ℕ
  permutations : List (List ℕ)

/-- permutation_table.hpp 237-245 -/
def PTable.to (t : PTable) (g : Grp R) (e : String) : Option (Grp R) :=
  overwriteGroup g e fun s => do
    let s ← s.attr "size" (scalar t.indexSize)
    let s ← mapTo t.ijmap s "map"
    listsTo t.permutations s "permutations"

/-- permutation_table.hpp 251-260, constructor 93-94 -/
def PTable.from (g : Grp R) (e : String) : Option PTable := do
  let s ← g.getGroup e
  let isz : ℕ ← readScalar (← s.getAttr "size")
  let m ← mapFrom s "map"
  let p ← listsFrom s "permutations"
  return ⟨isz, m, p⟩

/-- `Interpolator<T>`, interpolator.hpp 94-103.  `vectorFun` says which of the functions of `set_cost_info` the
vector cost function is (0: `sin²` of the hermitian angle); the scalar cost function is always the same one. -/
structure Interp (R T : Type) where
  data : A2 T
  shape : List ℕ
  elements : Fin 3 → ℕ
  rotlike : EnumVal
  lenunit : EnumVal
  costmult : Fin 3 → R
  funtype : Fin 3 → ℕ
  vectorFun : ℕ

/-- the `switch (vcf)` of `set_cost_info`, interpolator.hpp 257-293 -/
def vectorFunOf (vcf : ℤ) : ℕ :=
  if vcf = 1 then 1 else if vcf = 2 then 2 else if vcf = 3 then 3 else if vcf = 4 then 4 else 0

/-- `set_cost_info(scf, vcf)`, interpolator.hpp 246-294: the type is remembered in `_funtype[0]` -/
def Interp.setCostInfo {T : Type} (x : Interp R T) (_scf vcf : ℤ) : Interp R T :=
  { x with funtype := fun i => if i = 0 then vectorFunOf vcf else 0, vectorFun := vectorFunOf vcf }

/-- `branch_span`, interpolator.hpp 599-601 -/
def branchSpan (e : Fin 3 → ℕ) : ℕ := e 0 + e 1 + e 2

/-- `check_elements`, interpolator.hpp 547-584; the division by zero of line 560 is `none` as well -/
def checkElements (shape : List ℕ) (e : Fin 3 → ℕ) : Option (Fin 3 → ℕ) :=
  let set (k : Fin 3) (v : ℕ) : Fin 3 → ℕ := if branchSpan e = 0 then fun i => if i = k then v else e i else e
  let x (v : ℕ) : ℕ := if branchSpan e = 0 then v else branchSpan e
  match shape with
  | [] => some e
  | [_] => if x 1 > 1 then none else some (set 0 1)
  | [_, b] => if x b = 0 then none else if b % x b ≠ 0 then none else some (set 0 b)
  | [_, _, y] => if y ≠ x y then none else some (set 0 y)
  | [_, _, v, t] => if t ≠ 3 then none else if v * 3 ≠ x (v * 3) then none else some (set 1 (v * 3))
  | [_, _, m, t, u] =>
    if t ≠ 3 ∨ u ≠ 3 then none else if m * 9 ≠ x (m * 9) then none else some (set 2 (m * 9))
  | _ => none

/-- The constructor interpolator.hpp 163-168, which loading calls. -/
def Interp.make {T : Type} (d : A2 T) (sh : List ℕ) (el : Fin 3 → ℕ) (rl lu : EnumVal) (csf cvf : ℤ)
    (wg : Fin 3 → R) : Option (Interp R T) :=
  (checkElements sh el).map fun el =>
    (Interp.mk d sh el rl lu wg (fun _ => 0) 0 : Interp R T).setCostInfo csf cvf

/-- interpolator.hpp 628-640 -/
def Interp.to {T : Type} [Cell R T] (x : Interp R T) (g : Grp R) (e : String) : Option (Grp R) :=
  overwriteGroup g e fun s => do
    let s ← x.data.to s "data"
    let s ← s.dataSet "shape" (vec x.shape)
    let s ← s.dataSet "elements" (vec (List.ofFn x.elements))
    let s ← s.dataSet "rotlike" (scalar x.rotlike)
    let s ← s.dataSet "lenunit" (scalar x.lenunit)
    let s ← s.dataSet "costmult" (vec (List.ofFn x.costmult))
    s.dataSet "funtype" (vec (List.ofFn x.funtype))

/-- interpolator.hpp 645-664 -/
def Interp.from {T : Type} [Cell R T] (g : Grp R) (e : String) : Option (Interp R T) := do
  let s ← g.getGroup e
  let d : A2 T ← A2.from s "data"
  let sh : List ℕ ← readVec (← s.getData "shape")
  let el : Fin 3 → ℕ ← readArr 3 (← s.getData "elements")
  let rl : EnumVal ← readScalar (← s.getData "rotlike")
  let lu : EnumVal ← readScalar (← s.getData "lenunit")
  let c : Fin 3 → R ← readArr 3 (← s.getData "costmult")
  let f : Fin 3 → ℕ ← readArr 3 (← s.getData "funtype")
  Interp.make d sh el rl lu (f 0) (f 1) c

/-- `DualInterpolator<T,S>`, interpolatordual.hpp 74-77 -/
structure Dual (R T S : Type) where
  values : Interp R T
  vectors : Interp R S
  table : PTable

/-- interpolatordual.hpp 301-309 -/
def Dual.to {T S : Type} [Cell R T] [Cell R S] (x : Dual R T S) (g : Grp R) (e : String) : Option (Grp R) :=
  overwriteGroup g e fun s => do
    let s ← x.values.to s "values"
    let s ← x.vectors.to s "vectors"
    x.table.to s "permutation_table"

/-- interpolatordual.hpp 315-323 -/
def Dual.from {T S : Type} [Cell R T] [Cell R S] (g : Grp R) (e : String) : Option (Dual R T S) := do
  let s ← g.getGroup e
  let val ← Interp.from s "values"
  let vec ← Interp.from s "vectors"
  let pt ← PTable.from s "permutation_table"
  return ⟨val, vec, pt⟩

/-! Trellis -/

/-- `CubeNode::to_hdf`, trellis_node.hpp 175-182; a cube node is its eight vertex indices -/
def cubeTo (c : Fin 8 → ℕ) (g : Grp R) (e : String) : Option (Grp R) :=
  overwriteGroup g e fun s => s.dataSet "vertex_indices" (vec (List.ofFn c))

/-- `CubeNode::from_hdf`, trellis_node.hpp 183-192 -/
def cubeFrom (g : Grp R) (e : String) : Option (Fin 8 → ℕ) := do
  readArr 8 (← (← g.getGroup e).getData "vertex_indices")

/-- `PolyNode`, trellis_node.hpp 208-212 -/
structure PolyNode (R : Type) where
  vi : List (Fin 4 → ℕ)
  ci : List (Fin 4 → R)
  vol : List R

/-- trellis_node.hpp 373-399 -/
def PolyNode.to (p : PolyNode R) (g : Grp R) (e : String) : Option (Grp R) :=
  overwriteGroup g e fun s => do
    let s ← s.dataSet "vi_t" (← mat (p.vi.map List.ofFn))
    let s ← s.dataSet "ci_t" (← mat (p.ci.map List.ofFn))
    s.dataSet "vol_t" (vec p.vol)

/-- `std::array<T,4>({v[0], v[1], v[2], v[3]})`; reading outside of `v` is `none` -/
def four {T : Type} (l : List T) : Option (Fin 4 → T) :=
  if h : 4 ≤ l.length then some fun i => l[i.val]'(by omega) else none

/-- trellis_node.hpp 400-425 -/
def PolyNode.from (g : Grp R) (e : String) : Option (PolyNode R) := do
  let s ← g.getGroup e
  let dv : List (List ℕ) ← readMat (← s.getData "vi_t")
  let dc : List (List R) ← readMat (← s.getData "ci_t")
  let vol : List R ← readVec (← s.getData "vol_t")
  let vi ← dv.mapM four
  let ci ← dc.mapM four
  return ⟨vi, ci, vol⟩

/-- `NodeType::cube` and `NodeType::poly`, enums.hpp -/
def typeCube : EnumVal := ⟨3⟩
def typePoly : EnumVal := ⟨4⟩

/-- `NodeContainer`, trellis_node.hpp 440-443 -/
structure Nodes (R : Type) where
  nodes : List (EnumVal × ℕ)
  cubes : List (Fin 8 → ℕ)
  polys : List (PolyNode R)

/-- trellis_node.hpp 648-670 -/
def Nodes.to (x : Nodes R) (g : Grp R) (e : String) : Option (Grp R) :=
  overwriteGroup g e fun s => do
    let s ← s.dataSet "types" (vec (x.nodes.map Prod.fst))
    let s ← s.dataSet "index" (vec (x.nodes.map Prod.snd))
    let s ← s.newGroup "cube_nodes" fun c => do
      let c ← c.attr "length" (scalar x.cubes.length)
      writeAll cubeTo 0 x.cubes c
    s.newGroup "poly_nodes" fun p => do
      let p ← p.attr "length" (scalar x.polys.length)
      writeAll PolyNode.to 0 x.polys p

/-- trellis_node.hpp 671-702 -/
def Nodes.from (g : Grp R) (e : String) : Option (Nodes R) := do
  let s ← g.getGroup e
  let nt : List EnumVal ← readVec (← s.getData "types")
  let idx : List ℕ ← readVec (← s.getData "index")
  if nt.length ≠ idx.length then none
  else do
    let nc := nt.countP fun t => decide (t = typeCube)
    let np := nt.countP fun t => decide (t = typePoly)
    let cg ← s.getGroup "cube_nodes"
    let res : ℕ ← readScalar (← cg.getAttr "length")
    if res ≠ nc then none
    else do
      let cubes ← readAll cubeFrom nc cg
      let pg ← s.getGroup "poly_nodes"
      let res : ℕ ← readScalar (← pg.getAttr "length")
      if res ≠ np then none
      else do
        let polys ← readAll PolyNode.from np pg
        return ⟨nt.zip idx, cubes, polys⟩

/-- `PolyTrellis<T,S,double,Array2>`, trellis_poly.hpp 124-129 -/
structure Trellis (R T S : Type) where
  boundary : List (List ℕ)
  data : Dual R T S
  vertices : A2 R
  nodes : Nodes R
  knots : Fin 3 → List R
  approx : Config R

/-- trellis_poly.hpp 666-677 -/
def Trellis.to {T S : Type} [Cell R T] [Cell R S] (x : Trellis R T S) (g : Grp R) (e : String) :
    Option (Grp R) :=
  overwriteGroup g e fun s => do
    let s ← listsTo x.boundary s "boundary"
    let s ← x.data.to s "data"
    let s ← x.vertices.to s "vertices"
    let s ← x.nodes.to s "container"
    let s ← listsTo (List.ofFn x.knots) s "knots"
    x.approx.to s "approx"

/-- trellis_poly.hpp 678-694 -/
def Trellis.from {T S : Type} [Cell R T] [Cell R S] (g : Grp R) (e : String) : Option (Trellis R T S) := do
  let s ← g.getGroup e
  let p ← listsFrom s "boundary"
  let d ← Dual.from s "data"
  let v ← A2.from s "vertices"
  let n ← Nodes.from s "container"
  let bl : List (List R) ← listsFrom s "knots"
  if h : bl.length = 3 then do
    let cfg ← Config.from s "approx"
    return ⟨p, d, v, n, fun i => bl[i.val]'(by omega), cfg⟩
  else none

/-! Brillouin zones -/

/-- `BrillouinZone`, bz.hpp 53-70 -/
structure BZ (R : Type) where
  inner : Latt R
  outer : Latt R
  first : Poly (LVec R)
  irreducible : Poly (LVec R)
  wedgeNormals : A2 R
  timeReversal : Bool
  hasInversion : Bool
  isPrimitive : Bool
  noIrMirroring : Bool
  approxTolerance : ℤ
  floatTolerance : R

/-- `flag ? 1 : 0` -/
def flag (b : Bool) : Data R := scalar (if b then (1 : ℤ) else 0)

/-- `.read(i); i > 0` -/
def readFlag (d : Data R) : Option Bool := do
  let i : ℤ ← readScalar d
  return decide (i > 0)

/-- bz.hpp 797-814 -/
def BZ.to (x : BZ R) (g : Grp R) (e : String) : Option (Grp R) :=
  overwriteGroup g e fun s => do
    let s ← x.inner.to s "inner"
    let s ← x.outer.to s "outer"
    let s ← x.first.to LVec.to s "first"
    let s ← x.irreducible.to LVec.to s "irreducible"
    let s ← x.wedgeNormals.to s "ir_wedge_normals"
    let s ← s.attr "time_reversal" (flag x.timeReversal)
    let s ← s.attr "has_inversion" (flag x.hasInversion)
    let s ← s.attr "is_primitive" (flag x.isPrimitive)
    let s ← s.attr "no_ir_mirroring" (flag x.noIrMirroring)
    let s ← s.attr "approx_tolerance" (scalar x.approxTolerance)
    s.attr "float_tolerance" (scalar x.floatTolerance)

/-- bz.hpp 816-834, constructor 86-93 -/
def BZ.from (env : Env R) (g : Grp R) (e : String) : Option (BZ R) := do
  let s ← g.getGroup e
  let lat ← Latt.from env s "inner"
  let olat ← Latt.from env s "outer"
  let poly ← Poly.from (LVec.from env) s "first"
  let irp ← Poly.from (LVec.from env) s "irreducible"
  let irw ← A2.from s "ir_wedge_normals"
  let tr ← readFlag (← s.getAttr "time_reversal")
  let hi ← readFlag (← s.getAttr "has_inversion")
  let ip ← readFlag (← s.getAttr "is_primitive")
  let nim ← readFlag (← s.getAttr "no_ir_mirroring")
  let tol : ℤ ← readScalar (← s.getAttr "approx_tolerance")
  let ftol : R ← readScalar (← s.getAttr "float_tolerance")
  return ⟨lat, olat, poly, irp, irw, tr, hi, ip, nim, tol, ftol⟩

/-- `BrillouinZoneTrellis3`, bz_trellis.hpp 38-45 -/
structure BZTrellis (R T S : Type) where
  trellis : Trellis R T S
  bz : BZ R

/-- bz_trellis.hpp 198-206 -/
def BZTrellis.to {T S : Type} [Cell R T] [Cell R S] (x : BZTrellis R T S) (g : Grp R) (e : String) :
    Option (Grp R) :=
  overwriteGroup g e fun s => do
    let s ← x.trellis.to s "trellis"
    x.bz.to s "bz_"

/-- bz_trellis.hpp 207-215 -/
def BZTrellis.from {T S : Type} [Cell R T] [Cell R S] (env : Env R) (g : Grp R) (e : String) :
    Option (BZTrellis R T S) := do
  let s ← g.getGroup e
  let t ← Trellis.from s "trellis"
  let b ← BZ.from env s "bz_"
  return ⟨t, b⟩

/-! Meshes -/

/-- `TetTriLayer`, triangulation_layers.hpp 48-55 -/
structure Layer (R : Type) where
  nVertices : ℕ
  nTetrahedra : ℕ
  positions : A2 R
  tetrahedra : A2 ℕ
  tetsPerVertex : List (List ℕ)
  neighbours : List (List ℕ)
  centres : A2 R
  radii : List R

/-- triangulation_layers.hpp 313-327 -/
def Layer.to (x : Layer R) (g : Grp R) (e : String) : Option (Grp R) :=
  overwriteGroup g e fun s => do
    let s ← s.attr "vertices" (scalar x.nVertices)
    let s ← s.attr "tetrahedra" (scalar x.nTetrahedra)
    let s ← x.positions.to s "positions"
    let s ← x.tetrahedra.to s "vertices_per_tetrahedron"
    let s ← listsTo x.tetsPerVertex s "tetrahedra_per_vertex"
    let s ← listsTo x.neighbours s "neighbours_per_tetrahedron"
    let s ← x.centres.to s "circumsphere_centers"
    s.dataSet "circumsphere_radii" (vec x.radii)

/-- triangulation_layers.hpp 328-345, constructor 71-82 -/
def Layer.from (g : Grp R) (e : String) : Option (Layer R) := do
  let s ← g.getGroup e
  let nV : ℕ ← readScalar (← s.getAttr "vertices")
  let nT : ℕ ← readScalar (← s.getAttr "tetrahedra")
  let vp ← A2.from s "positions"
  let vt ← A2.from s "vertices_per_tetrahedron"
  let tv ← listsFrom s "tetrahedra_per_vertex"
  let nt ← listsFrom s "neighbours_per_tetrahedron"
  let cc ← A2.from s "circumsphere_centers"
  let cr : List R ← readVec (← s.getData "circumsphere_radii")
  return ⟨nV, nT, vp, vt, tv, nt, cc, cr⟩

/-- `TetTri`, triangulation_layers.hpp 366-368 -/
structure TetTri (R : Type) where
  layers : List (Layer R)
  connections : List (List (List ℕ))

/-- triangulation_layers.hpp 497-512 -/
def TetTri.to (x : TetTri R) (g : Grp R) (e : String) : Option (Grp R) :=
  overwriteGroup g e fun s => do
    let s ← s.attr "layers" (scalar x.layers.length)
    let s ← s.newGroup "layers" fun l => do
      let l ← writeAll Layer.to 0 x.layers l
      l.attr "length" (scalar x.layers.length)
    s.newGroup "connections" fun c => do
      let c ← writeAll listsTo 0 x.connections c
      c.attr "length" (scalar x.connections.length)

/-- triangulation_layers.hpp 513-537.  For no layers `layer_no - 1u` wraps around to the largest number (`2⁶⁴-1`),
which is the `none` of `layer_no = 0` here: no list is that long. -/
def TetTri.from (g : Grp R) (e : String) : Option (TetTri R) := do
  let s ← g.getGroup e
  let no : ℕ ← readScalar (← s.getAttr "layers")
  let lg ← s.getGroup "layers"
  let cg ← s.getGroup "connections"
  let length : ℕ ← readScalar (← lg.getAttr "length")
  if length ≠ no then none
  else do
    let length : ℕ ← readScalar (← cg.getAttr "length")
    if no = 0 ∨ length ≠ no - 1 then none
    else do
      let layers ← readAll Layer.from no lg
      let connections ← readAll listsFrom (no - 1) cg
      return ⟨layers, connections⟩

/-- `Mesh3<T,S,double,Array2>`, mesh.hpp 72-75 -/
structure Mesh (R T S : Type) where
  mesh : TetTri R
  data : Dual R T S
  approx : Config R

/-- mesh.hpp 195-204 -/
def Mesh.to {T S : Type} [Cell R T] [Cell R S] (x : Mesh R T S) (g : Grp R) (e : String) : Option (Grp R) :=
  overwriteGroup g e fun s => do
    let s ← x.mesh.to s "triangulation"
    let s ← x.data.to s "data"
    x.approx.to s "approx"

/-- mesh.hpp 205-214 -/
def Mesh.from {T S : Type} [Cell R T] [Cell R S] (g : Grp R) (e : String) : Option (Mesh R T S) := do
  let s ← g.getGroup e
  let m ← TetTri.from s "triangulation"
  let d ← Dual.from s "data"
  let a ← Config.from s "approx"
  return ⟨m, d, a⟩

/-- The copy constructor of `Mesh3`, mesh.hpp 85-88: the settings are not copied, those of the copy are the
default ones (`dflt`, approx_config.hpp 17). -/
def Mesh.copy {T S : Type} (dflt : Config R) (x : Mesh R T S) : Mesh R T S := { x with approx := dflt }

/-- `BrillouinZoneMesh3`, bz_mesh.hpp 36-44 -/
structure BZMesh (R T S : Type) where
  mesh : Mesh R T S
  bz : BZ R

/-- bz_mesh.hpp 137-145 -/
def BZMesh.to {T S : Type} [Cell R T] [Cell R S] (x : BZMesh R T S) (g : Grp R) (e : String) :
    Option (Grp R) :=
  overwriteGroup g e fun s => do
    let s ← x.mesh.to s "mesh"
    x.bz.to s "bz_"

/-- bz_mesh.hpp 146-154: `return {mesh, bz}` copies the mesh by the constructor of line 45 -/
def BZMesh.from {T S : Type} [Cell R T] [Cell R S] (env : Env R) (dflt : Config R) (g : Grp R) (e : String) :
    Option (BZMesh R T S) := do
  let s ← g.getGroup e
  let m ← Mesh.from s "mesh"
  let b ← BZ.from env s "bz_"
  return ⟨m.copy dflt, b⟩

/-! Files -/

/-- How a file is opened: `HighFive::File::ReadOnly`, `ReadWrite`, `Truncate` and `OpenOrCreate`. -/
inductive Mode
  | readOnly | readWrite | truncate | openOrCreate

/-- The files of a file system, by name. -/
abbrev Files (R : Type) := String → Option (Grp R)

/-- `HighFive::File file(filename, perm)`: the root group of the open file -/
def openFile (fs : Files R) (name : String) : Mode → Option (Grp R)
  | .readOnly => fs name
  | .readWrite => fs name
  | .truncate => some Grp.empty
  | .openOrCreate => some ((fs name).getD Grp.empty)

/-- `to_hdf(filename, entry, perm)`, e.g. trellis_poly.hpp 695-698, bz.hpp 836-841, array2.tpp 1148-1153: open,
write, and close at the end of the scope.  A file that is only open for reading can not be written. -/
def saveFile (w : Grp R → String → Option (Grp R)) (fs : Files R) (name entry : String) (m : Mode) :
    Option (Files R) := do
  let root ← openFile fs name m
  match m with
  | .readOnly => none
  | _ => do
    let root ← w root entry
    return fun n => if n = name then some root else fs n

/-- `from_hdf(filename, entry)`, e.g. trellis_poly.hpp 699-702, bz.hpp 842-846, array2.hpp 568-572 -/
def loadFile {X : Type} (r : Grp R → String → Option X) (fs : Files R) (name entry : String) : Option X := do
  r (← openFile fs name .readOnly) entry

end Brille.Hdf
