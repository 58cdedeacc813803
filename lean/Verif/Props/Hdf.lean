import Verif.Proofs.HdfObjects
import Mathlib.Data.Fin.VecNotation
import Mathlib.Data.Rat.Defs
import Mathlib.Data.Fintype.Basic
import Mathlib.Data.List.Sort

/-!
# C39: what is saved to a file is what is loaded from it

`Restores sv ld r` (Spec/Hdf.lean): for every group and every entry name, whether or not something is at the entry
already, saving succeeds, loading from the entry gives `r`, and everything else in the group is untouched.
-/
namespace Brille.Props
open Brille.Spec Brille.Hdf
variable {R : Type}

theorem restores_of_saves {X : Type} {sv : Grp R → String → Option (Grp R)} {ld : Grp R → String → Option X}
    {r : Option X} (h : Saves sv ld r) : Restores sv ld r := by
  obtain ⟨o, hw, hr⟩ := h
  exact fun g e => ⟨_, hw g e, hr _ _ (by simp), fun e' he => by simp [he], rfl⟩

/-! ## Classes that come back exactly -/

/-- **C39**: lists of lists (and with them the faces of a polyhedron and the knots of a trellis) -/
theorem C39_lists {T : Type} [Cell R T] (ls : List (List T)) :
    Restores (R := R) (listsTo ls) listsFrom (some ls) := restores_of_saves (saves_lists ls)

/-- **C39**: maps; a `std::map` has its keys in increasing order -/
theorem C39_map (m : StdMap.Map ℕ) (h : m.Pairwise fun a b => a.1 < b.1) :
    Restores (R := R) (mapTo m) mapFrom (some m) := restores_of_saves (saves_map m h)

example : ([(2, 7), (5, 0)] : StdMap.Map ℕ).Pairwise fun a b => a.1 < b.1 := by decide

/-- **C39**: arrays of any shape, those without elements too -/
theorem C39_array {T : Type} [Cell R T] (a : A2 T) : Restores (R := R) a.to A2.from (some a) :=
  restores_of_saves (saves_a2 a)

theorem C39_config (c : Config R) : Restores (R := R) c.to Config.from (some c) :=
  restores_of_saves (saves_config c)

theorem C39_motion (m : Motion9 R) : Restores (R := R) m.to Motion9.from (some m) :=
  restores_of_saves (saves_motion m)

theorem C39_symmetry (M : List (Motion9 R)) : Restores (R := R) (symTo M) symFrom (some M) :=
  restores_of_saves (saves_sym M)

theorem C39_basis (b : Basis R) (h : GoodBasis b) : Restores (R := R) b.to Basis.from (some b) := by
  have := restores_of_saves (saves_basis b)
  rwa [show reloadBasis b = b from if_pos h] at this

theorem C39_permutation_table (t : PTable) (h : GoodTable t) : Restores (R := R) t.to PTable.from (some t) :=
  restores_of_saves (saves_table t h)

/-- **C39**: polyhedra whose vertices are plain arrays -/
theorem C39_poly (p : Poly (A2 R)) : Restores (R := R) (p.to A2.to) (Poly.from A2.from) (some p) :=
  restores_of_saves (saves_poly (rv := some) p (saves_a2 _))

theorem C39_polyhedron (p : OldPoly R) : Restores (R := R) p.to OldPoly.from (some p) :=
  restores_of_saves (saves_oldPoly p)

theorem C39_cube_node (c : Fin 8 → ℕ) : Restores (R := R) (cubeTo c) cubeFrom (some c) :=
  restores_of_saves (saves_cube c)

theorem C39_poly_node (p : PolyNode R) : Restores (R := R) p.to PolyNode.from (some p) :=
  restores_of_saves (saves_polyNode p)

theorem C39_nodes (x : Nodes R) (h : GoodNodes x) : Restores (R := R) x.to Nodes.from (some x) :=
  restores_of_saves (saves_nodes x h)

theorem C39_layer (x : Layer R) : Restores (R := R) x.to Layer.from (some x) := restores_of_saves (saves_layer x)

theorem C39_triangulation (x : TetTri R) (h : GoodTetTri x) : Restores (R := R) x.to TetTri.from (some x) :=
  restores_of_saves (saves_tetTri x h)

/-! ## Point symmetry operations: sorted on loading -/

/-- **C39**: the same operations come back, in the order of `sort` -/
theorem C39_point_symmetry_partial (env : Env R) (M : List (Fin 9 → ℤ)) (hs : (env.sort M).Perm M) :
    ∃ M', Restores (R := R) (pointTo M) (pointFrom env) (some M') ∧ M'.Perm M :=
  ⟨_, restores_of_saves (saves_point env M), hs⟩

/-- **C39**: operations that `sort` leaves where they are come back as they are -/
theorem C39_point_symmetry_sorted (env : Env R) (M : List (Fin 9 → ℤ)) (hs : env.sort M = M) :
    Restores (R := R) (pointTo M) (pointFrom env) (some M) := by
  have := restores_of_saves (saves_point env M)
  rwa [hs] at this

/-- A stand-in for the rest of the library: operations are sorted by their first entry, an atom is never moved. -/
def plainEnv (ok : Bool) : Env ℚ where
  sort M := M.insertionSort fun a b => a 0 ≤ b 0
  equivalent _ _ _ := ok
  moved b _ k := (b.positions[k]?).getD fun _ => 0

/-- **C39, a limit**: operations out of order, as `PointSymmetry(n)`, `set` and `permute` can make them, come back in
another order. -/
theorem C39_point_symmetry_counterexample :
    ∃ M M', Restores (R := ℚ) (pointTo M) (pointFrom (plainEnv true)) (some M') ∧ M' ≠ M := by
  refine ⟨[fun _ => 1, fun _ => 0], _, restores_of_saves (saves_point _ _), ?_⟩
  intro h
  have h2 := congrArg (fun l : List (Fin 9 → ℤ) => l.map fun f => f 0) h
  revert h2
  decide

/-! ## Lattices: atoms are snapped to the symmetry on loading -/

/-- **C39**: a lattice whose operations are in order and whose atoms agree with its symmetry comes back as it is -/
theorem C39_lattice_partial (env : Env R) (l : Latt R) (h : SettledLattice env l) :
    Restores (R := R) l.to (Latt.from env) (some l) := by
  have := restores_of_saves (saves_latt env l)
  rwa [reloadLattice_settled env l h] at this

/-- **C39**: every lattice: everything but the order of the point operations and the atoms comes back as it was; the
atoms come back snapped; a basis that can not be snapped can be saved, but not loaded again. -/
theorem C39_lattice (env : Env R) (l : Latt R) (h : GoodBasis l.basis) :
    Restores (R := R) l.to (Latt.from env)
      (match env.snap l.space l.basis with
       | some b => some { l with point := env.sort l.point, basis := b }
       | none => none) := by
  have := restores_of_saves (saves_latt env l)
  unfold reloadLattice at this
  rw [show reloadBasis l.basis = l.basis from if_pos h] at this
  revert this
  cases env.snap l.space l.basis <;> exact id

/-- **C39**: what the constructor has snapped and sorted, it leaves alone: a lattice that has been loaded, or built
with snapping, is a settled one. -/
theorem C39_lattice_again (env : Env R) (hs : ∀ M, env.sort (env.sort M) = env.sort M) (l l' : Latt R)
    (h : reloadLattice env l = some l') : SettledLattice env l' :=
  settled_of_reload env hs l l' h

/-- **C39, a limit**: a lattice made without snapping, with an atom that does not agree with the symmetry, is saved
without complaint, and can not be loaded. -/
theorem C39_lattice_counterexample :
    ∃ l : Latt ℚ, GoodBasis l.basis ∧ Restores (R := ℚ) l.to (Latt.from (plainEnv false)) none := by
  refine ⟨⟨fun _ => 0, fun _ => 0, fun _ => 0, fun _ => 0, ⟨0⟩, [⟨fun _ => 0, fun _ => 0⟩], [],
    ⟨[fun _ => 0], [0]⟩⟩, rfl, ?_⟩
  have := C39_lattice (plainEnv false) ⟨fun _ => 0, fun _ => 0, fun _ => 0, fun _ => 0, ⟨0⟩,
    [⟨fun _ => 0, fun _ => 0⟩], [], ⟨[fun _ => 0], [0]⟩⟩ rfl
  rw [show (plainEnv false).snap _ _ = none from ?_] at this
  · exact this
  · simp [Env.snap, Env.allOk, Env.moveAll, plainEnv]

/-- **C39**: vectors in lattice units -/
theorem C39_lattice_vectors_partial (env : Env R) (v : LVec R) (h : SettledLattice env v.lattice) :
    Restores (R := R) v.to (LVec.from env) (some v) := by
  have := restores_of_saves (saves_lvec env v)
  rwa [reloadLVec, reloadLattice_settled env _ h] at this

/-- **C39**: a Brillouin zone over settled lattices comes back as it is -/
theorem C39_brillouin_zone_partial (env : Env R) (z : BZ R) (h : SettledBZ env z) :
    Restores (R := R) z.to (BZ.from env) (some z) := by
  have := restores_of_saves (saves_bz env z)
  rwa [reloadBZ_settled env z h] at this

/-! ## Interpolation data: the vector cost function is lost -/

/-- **C39**: Data whose vector cost function is the default one comes back as it is.  `x` is whatever the constructor
makes of its arguments. -/
theorem C39_interpolator_partial {T : Type} [Cell R T] (d : A2 T) (sh : List ℕ) (el : Fin 3 → ℕ)
    (rl lu : EnumVal) (csf cvf : ℤ) (wg : Fin 3 → R) (x : Interp R T)
    (hx : Interp.make d sh el rl lu csf cvf wg = some x) (h : cvf < 1 ∨ 4 < cvf) :
    Restores (R := R) x.to Interp.from (some x) := by
  have := restores_of_saves (saves_interp (R := R) x)
  rwa [reloadInterp_settled x (settled_of_make hx (vectorFunOf_zero h))] at this

/-- **C39**: In any case everything but the cost function comes back; the cost function that comes back is the
default one. -/
theorem C39_interpolator_cost {T : Type} [Cell R T] (d : A2 T) (sh : List ℕ) (el : Fin 3 → ℕ)
    (rl lu : EnumVal) (csf cvf : ℤ) (wg : Fin 3 → R) (x : Interp R T)
    (hx : Interp.make d sh el rl lu csf cvf wg = some x) :
    Restores (R := R) x.to Interp.from (some { x with vectorFun := 0, funtype := fun _ => 0 }) := by
  have := restores_of_saves (saves_interp (R := R) x)
  rwa [reloadInterp_make hx] at this

/-- two values per point, saved with the hermitian angle (4) as the vector cost function -/
def exInterp (cvf : ℤ) : Option (Interp ℚ ℚ) :=
  Interp.make ⟨2, 2, fun i j => i.val + 10 * j.val⟩ [2, 2] (fun _ => 0) ⟨0⟩ ⟨3⟩ 0 cvf fun _ => 1

example : (exInterp 4).isSome ∧ (exInterp 0).isSome := by decide

/-- **C39, a limit**: for every non-default vector cost function, whatever the data, what comes back is not what was
saved. -/
theorem C39_interpolator_counterexample {T : Type} [Cell R T] (d : A2 T) (sh : List ℕ) (el : Fin 3 → ℕ)
    (rl lu : EnumVal) (csf cvf : ℤ) (wg : Fin 3 → R) (x : Interp R T)
    (hx : Interp.make d sh el rl lu csf cvf wg = some x) (h : 1 ≤ cvf ∧ cvf ≤ 4) :
    ¬ Restores (R := R) x.to Interp.from (some x) := by
  intro hr
  obtain ⟨g1, a1, b1, -⟩ := hr Grp.empty ""
  obtain ⟨g2, a2, b2, -⟩ := C39_interpolator_cost d sh el rl lu csf cvf wg x hx Grp.empty ""
  obtain rfl : g1 = g2 := Option.some.inj (a1.symm.trans a2)
  have := congrArg Interp.vectorFun (Option.some.inj (b1.symm.trans b2))
  exact vectorFun_make_ne hx h this

/-- **C39**: pairs of values and vectors -/
theorem C39_dual_partial {T S : Type} [Cell R T] [Cell R S] (x : Dual R T S) (h : SettledDual x) :
    Restores (R := R) x.to Dual.from (some x) := by
  have := restores_of_saves (saves_dual x h.2.2)
  rwa [reloadDual_settled x h] at this

/-! ## Trellis and mesh -/

/-- **C39**: a trellis with data of the default cost function comes back as it is -/
theorem C39_trellis_partial {T S : Type} [Cell R T] [Cell R S] (x : Trellis R T S) (h : SettledTrellis x) :
    Restores (R := R) x.to Trellis.from (some x) := by
  have := restores_of_saves (saves_trellis x h.1.2.2 h.2)
  rwa [reloadDual_settled x.data h.1] at this

/-- **C39**: a trellis in a Brillouin zone -/
theorem C39_bz_trellis_partial {T S : Type} [Cell R T] [Cell R S] (env : Env R) (x : BZTrellis R T S)
    (ht : SettledTrellis x.trellis) (hz : SettledBZ env x.bz) :
    Restores (R := R) x.to (BZTrellis.from env) (some x) := by
  have := restores_of_saves (saves_bzTrellis env x ht.1.2.2 ht.2)
  rw [reloadDual_settled x.trellis.data ht.1, reloadBZ_settled env x.bz hz] at this
  exact this

/-- **C39**: a mesh -/
theorem C39_mesh_partial {T S : Type} [Cell R T] [Cell R S] (x : Mesh R T S) (hd : SettledDual x.data)
    (hm : GoodTetTri x.mesh) : Restores (R := R) x.to Mesh.from (some x) := by
  have := restores_of_saves (saves_mesh x hd.2.2 hm)
  rwa [reloadDual_settled x.data hd] at this

/-- **C39**: a mesh in a Brillouin zone comes back with the default comparison settings in place of its own -/
theorem C39_bz_mesh_partial {T S : Type} [Cell R T] [Cell R S] (env : Env R) (dflt : Config R)
    (x : BZMesh R T S) (hd : SettledDual x.mesh.data) (hm : GoodTetTri x.mesh.mesh) (hz : SettledBZ env x.bz) :
    Restores (R := R) x.to (BZMesh.from env dflt) (some { x with mesh := { x.mesh with approx := dflt } }) := by
  have := restores_of_saves (saves_bzMesh env dflt x hd.2.2 hm)
  rw [reloadDual_settled x.mesh.data hd, reloadBZ_settled env x.bz hz] at this
  exact this

/-- **C39, a limit**: every mesh in a Brillouin zone with settings of its own loses them. -/
theorem C39_bz_mesh_counterexample {T S : Type} [Cell R T] [Cell R S] (env : Env R) (dflt : Config R)
    (x : BZMesh R T S) (hd : SettledDual x.mesh.data) (hm : GoodTetTri x.mesh.mesh) (hz : SettledBZ env x.bz)
    (ha : x.mesh.approx ≠ dflt) : ¬ Restores (R := R) x.to (BZMesh.from env dflt) (some x) := by
  intro hr
  obtain ⟨g1, a1, b1, -⟩ := hr Grp.empty ""
  obtain ⟨g2, a2, b2, -⟩ := C39_bz_mesh_partial env dflt x hd hm hz Grp.empty ""
  obtain rfl : g1 = g2 := Option.some.inj (a1.symm.trans a2)
  exact ha (congrArg (fun y => y.mesh.approx) (Option.some.inj (b1.symm.trans b2)))

/-! ## Files -/

/-- **C39**: Saving to a file by name, for every one of the classes above: the file is created if it is missing
(`openOrCreate`), every other file is untouched, every other entry of the file is untouched unless the file was to
be truncated, and loading from the file by name gives what loading from the entry gives. -/
theorem C39_file {X : Type} {sv : Grp R → String → Option (Grp R)} {ld : Grp R → String → Option X}
    {r : Option X} (h : Restores sv ld r) (fs : Files R) (name entry : String) (m : Mode)
    (hm : m = .openOrCreate ∨ m = .truncate ∨ (m = .readWrite ∧ (fs name).isSome)) :
    ∃ fs', saveFile sv fs name entry m = some fs' ∧ loadFile ld fs' name entry = r ∧
      (∀ n, n ≠ name → fs' n = fs n) ∧
      (m ≠ .truncate → ∀ root, fs name = some root →
        ∃ root', fs' name = some root' ∧ ∀ e', e' ≠ entry → root'.get e' = root.get e') := by
  obtain ⟨root, hroot, hnt⟩ : ∃ root, openFile fs name m = some root ∧
      (m ≠ .truncate → ∀ r, fs name = some r → root = r) := by
    rcases hm with rfl | rfl | ⟨rfl, h'⟩
    · exact ⟨_, rfl, fun _ r hr => by simp [hr]⟩
    · exact ⟨_, rfl, fun hc => absurd rfl hc⟩
    · obtain ⟨r, hr⟩ := Option.isSome_iff_exists.mp h'
      exact ⟨r, hr, fun _ r' hr' => Option.some.inj (hr.symm.trans hr')⟩
  obtain ⟨g', hs, hl, ho, -⟩ := h root entry
  refine ⟨fun n => if n = name then some g' else fs n, ?_, ?_, fun n hn => if_neg hn, ?_⟩
  · unfold saveFile
    rw [hroot]
    rcases hm with rfl | rfl | ⟨rfl, h'⟩ <;> simp [hs]
  · simp [loadFile, openFile, hl]
  · intro hm' r hr
    exact ⟨g', if_pos rfl, fun e' he => by rw [ho e' he, hnt hm' r hr]⟩

/-- **C39**: a file that is only opened for reading, or that has to be there and is not, is not written -/
theorem C39_file_readonly (sv : Grp R → String → Option (Grp R)) (fs : Files R) (name entry : String) :
    saveFile sv fs name entry .readOnly = none ∧ (fs name = none → saveFile sv fs name entry .readWrite = none) := by
  constructor
  · unfold saveFile
    cases openFile fs name .readOnly <;> rfl
  · intro h
    simp [saveFile, openFile, h]

/-! ## The hypotheses can be met -/

/-- a trellis of one cube and one polyhedron (two tetrahedra) over nine points, with one value per point, two
comparison settings and one permutation -/
def exTrellis : Trellis ℚ ℚ (ℚ × ℚ) where
  boundary := [[0, 1, 2], [2, 1, 3, 0]]
  data :=
    { values := ⟨⟨9, 1, fun i _ => i.val⟩, [9, 1], ![1, 0, 0], ⟨0⟩, ⟨3⟩, fun _ => 1, fun _ => 0, 0⟩
      vectors := ⟨⟨9, 3, fun i j => (i.val, j.val)⟩, [9, 1, 3], ![0, 3, 0], ⟨0⟩, ⟨3⟩, fun _ => 2, fun _ => 0, 0⟩
      table := ⟨9, [(0, 1), (12, 1)], [[0]]⟩ }
  vertices := ⟨9, 3, fun i j => i.val - j.val⟩
  nodes := ⟨[(typeCube, 0), (⟨2⟩, 0), (typePoly, 0)], [fun i => i.val],
    [⟨[![0, 1, 2, 8], ![1, 2, 3, 8]], [![0, 0, 0, 1], ![1, 0, 0, 1]], [1, 2]⟩]⟩
  knots := fun i => [0, i.val]
  approx := ⟨1000, 1, 2⟩

example : SettledTrellis exTrellis :=
  ⟨⟨⟨by decide, rfl, fun _ => rfl⟩, ⟨by decide, rfl, fun _ => rfl⟩, by unfold GoodTable; decide⟩, by decide, by decide⟩

def exLatt : Latt ℚ :=
  ⟨![1, 0, 0, 0, 1, 0, 0, 0, 1], ![1, 0, 0, 0, 1, 0, 0, 0, 1], ![1, 0, 0, 0, 1, 0, 0, 0, 1],
    ![1, 0, 0, 0, 1, 0, 0, 0, 1], ⟨1⟩, [⟨![1, 0, 0, 0, 1, 0, 0, 0, 1], fun _ => 1 / 2⟩],
    [![-1, 0, 0, 0, -1, 0, 0, 0, -1], ![1, 0, 0, 0, 1, 0, 0, 0, 1]], ⟨[![0, 1, 2], ![1, 2, 0]], [4, 4]⟩⟩

theorem exLatt_settled : SettledLattice (plainEnv true) exLatt := by
  refine ⟨rfl, ?_, by decide⟩
  apply List.Pairwise.insertionSort_eq
  simp [exLatt]

def exBZ : BZ ℚ :=
  { inner := exLatt, outer := exLatt, first := ⟨⟨⟨4⟩, exLatt, ⟨2, 3, fun i j => i.val * j.val⟩⟩, [[0, 1]]⟩
    irreducible := ⟨⟨⟨4⟩, exLatt, ⟨0, 3, fun i _ => i.elim0⟩⟩, []⟩, wedgeNormals := ⟨0, 3, fun i _ => i.elim0⟩
    timeReversal := true, hasInversion := false, isPrimitive := true, noIrMirroring := false
    approxTolerance := 1000, floatTolerance := 1 / 10 }

example : SettledBZ (plainEnv true) exBZ := ⟨exLatt_settled, exLatt_settled, exLatt_settled, exLatt_settled⟩

example : GoodTetTri (⟨[⟨1, 2, ⟨1, 3, fun _ _ => 0⟩, ⟨2, 4, fun _ _ => 0⟩, [[0, 1]], [[1], [0]],
    ⟨2, 3, fun _ _ => 0⟩, [1, 2]⟩], []⟩ : TetTri ℚ) := rfl

/-- a mesh in a Brillouin zone with settings other than the default ones -/
example : ∃ x : BZMesh ℚ ℚ (ℚ × ℚ), SettledDual x.mesh.data ∧ GoodTetTri x.mesh.mesh ∧
    SettledBZ (plainEnv true) x.bz ∧ x.mesh.approx ≠ ⟨1000, 1, 1⟩ :=
  ⟨⟨⟨⟨[⟨1, 2, ⟨1, 3, fun _ _ => 0⟩, ⟨2, 4, fun _ _ => 0⟩, [[0, 1]], [[1], [0]], ⟨2, 3, fun _ _ => 0⟩, [1, 2]⟩], []⟩,
    exTrellis.data, exTrellis.approx⟩, exBZ⟩,
    ⟨⟨by decide, rfl, fun _ => rfl⟩, ⟨by decide, rfl, fun _ => rfl⟩, by unfold GoodTable; decide⟩, rfl,
    ⟨exLatt_settled, exLatt_settled, exLatt_settled, exLatt_settled⟩, by decide⟩

end Brille.Props
