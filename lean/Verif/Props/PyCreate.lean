import Verif.Spec.PyCreate
import Mathlib.Tactic

/-!
# C83: what is asked for in Python is what is made
-/

namespace Brille.Props

open Brille.PyCreate Brille.Spec

/-- **C83 (parameters).** All documented ways to give three lengths, three angles and a space group ask for the same: a lattice with these
lengths, angles and space group, and a zone with the options of the call. -/
theorem C83_parameters (o : BzCall) (ho : OptionsOnly o) (a b c x y z : ℚ) (s : String) :
    ∀ k ∈ parameterCalls o a b c x y z, ∀ k' ∈ withGroup k s, ∃ r, createBz k' = .ok r ∧ NamesParameters r [a, b, c] [x, y, z] ∧ SameOptions o s r := by
  obtain ⟨h1, h2, h3, h4, h5, h6, h7, h8, h9, h10⟩ := ho
  intro k hk k' hk'
  simp only [parameterCalls, withGroup, List.mem_cons, List.not_mem_nil, or_false] at hk hk'
  rcases hk with rfl | rfl | rfl | rfl | rfl | rfl <;> rcases hk' with rfl | rfl <;>
    simp [createBz, cellOf, h1, h2, h3, h4, h5, h6, h7, h8, h9, h10, Val.shape, Val.squeeze, NamesParameters, SameOptions, numbersOf, numberOf]

/-- **C83 (vectors).** The same for three vectors. -/
theorem C83_vectors (o : BzCall) (ho : OptionsOnly o) (u v w : Fin 3 → ℚ) (s : String) :
    ∀ k ∈ vectorCalls o u v w, ∀ k' ∈ withGroup k s, ∃ r, createBz k' = .ok r ∧
      r.cell = .vectors (.rows [List.ofFn u, List.ofFn v, List.ofFn w]) ∧ SameOptions o s r := by
  obtain ⟨h1, h2, h3, h4, h5, h6, h7, h8, h9, h10⟩ := ho
  intro k hk k' hk'
  simp only [vectorCalls, withGroup, List.mem_cons, List.not_mem_nil, or_false] at hk hk'
  rcases hk with rfl | rfl <;> rcases hk' with rfl | rfl <;>
    simp [createBz, cellOf, h1, h2, h3, h4, h5, h6, h7, h8, h9, h10, Val.shape, SameOptions]

/-- **C83 (names first).** Lengths, angles, vectors and group given by name are taken, whatever is given by position. -/
theorem C83_names (k : BzCall) (s : String) (hs : k.spacegroup = some (.text s)) :
    (∀ v, k.latticeVectors = some v → ∃ r, createBz k = .ok r ∧ r.cell = .vectors v ∧ SameOptions k s r) ∧
    (∀ l g, k.latticeVectors = none → k.lens = some l → k.angs = some g →
      ∃ r, createBz k = .ok r ∧ r.cell = .parameters (.array l) (.array g) ∧ SameOptions k s r) := by
  constructor
  · intro v hv
    simp [createBz, cellOf, hv, hs, SameOptions]
  · intro l g hv hl hg
    simp [createBz, cellOf, hv, hs, hl, hg, SameOptions]

/-- **C83 (only texts).** A zone is only made for a group that is a text which was given, by name or else by position, and with the options
of the call. -/
theorem C83_group (k : BzCall) (r : BzRequest) (h : createBz k = .ok r) :
    (k.spacegroup = some (.text r.spacegroup) ∨ k.spacegroup = none ∧ .text r.spacegroup ∈ k.args) ∧ SameOptions k r.spacegroup r := by
  unfold createBz at h
  split at h
  · cases h
  · rename_i params vectors place hc
    simp only at h
    split at h
    · cases h
    · rename_i s hg
      have hs : k.spacegroup = some (.text s) ∨ k.spacegroup = none ∧ .text s ∈ k.args := by
        split at hg
        · rename_i v hv
          cases hg
          exact Or.inl hv
        · rename_i hn
          split at hg
          · rename_i v hv
            cases hg
            exact Or.inr ⟨hn, List.mem_of_getElem? hv⟩
          · cases hg
      split at h
      · cases h; exact ⟨hs, by simp [SameOptions]⟩
      · cases h; exact ⟨hs, by simp [SameOptions]⟩
      · cases h
    · cases h

/-- A Hall number, which the documentation allows, is refused. -/
theorem C83_hall_number_counterexample (k : BzCall) (n : Int) (h : k.spacegroup = some (.int n)) : ∀ r, createBz k ≠ .ok r := by
  intro r hr
  rcases (C83_group k r hr).1 with e | e
  · rw [h] at e; cases e
  · rw [h] at e; cases e.1

/-- **C83 (not a text).** With lengths and angles or vectors that can be read, a group that is not a text, or none at all, is a `ValueError`. -/
theorem C83_not_text (k : BzCall) (params : Option (Triple × Triple)) (vectors : Option Val) (place : Nat)
    (hc : cellOf k = .ok (params, vectors, place)) :
    (∀ v, k.spacegroup = some v → (∀ s, v ≠ .text s) → createBz k = .error .value) ∧
    (∀ v, k.spacegroup = none → k.args[place]? = some v → (∀ s, v ≠ .text s) → createBz k = .error .value) ∧
    (k.spacegroup = none → k.args[place]? = none → createBz k = .error .value) := by
  unfold createBz
  simp only [hc]
  refine ⟨fun v hv hn => ?_, fun v h0 hv hn => ?_, fun h0 hv => ?_⟩
  · rw [hv]
    cases v <;> first | rfl | exact absurd rfl (hn _)
  · rw [h0, hv]
    cases v <;> first | rfl | exact absurd rfl (hn _)
  · rw [h0, hv]

example : createBz { args := [.int 4, .int 4, .int 4, .int 90, .int 90, .int 90, .int 225] } = .error .value :=
  (C83_not_text _ _ _ 6 rfl).2.1 (.int 225) rfl rfl (by simp)

/-- A misspelt option is not refused: nothing depends on names that are not known. -/
theorem C83_misspelt_counterexample (k : BzCall) (o : List (String × Val)) : createBz { k with other := o } = createBz k := rfl

example : (createBz { args := [.float 4, .float 4, .float 4, .int 90, .int 90, .int 90, .text "P 1"], other := [("serch_length", .int 3)] }).toOption.map
    (fun r => (r.searchLength, numbersOf (match r.cell with | .parameters _ g => g | _ => .three []))) = some (1, some [90, 90, 90]) := by
  decide +kernel

/-- **C83 (grid).** A grid is made exactly if not both other kinds are asked for, no names of another kind are used (but a density may be given for
any kind) and, for a nested grid, a volume or a density is given.  It is of the kind that was asked for, with the given or the documented
parameters; a volume has precedence over a density. -/
theorem C83_grid_partial (k : GridCall) :
    ((∃ r, createGrid k = .ok r) ↔ ¬ (k.nest = true ∧ k.mesh = true) ∧
      (k.nest = true → ¬ AsksTrellis k ∧ ¬ AsksMesh k ∧ (k.maxVolume ≠ none ∨ k.numberDensity ≠ none)) ∧
      (k.mesh = true → ¬ AsksTrellis k ∧ k.maxVolume = none ∧ k.maxBranchings = none) ∧
      (k.mesh = false → k.nest = false → ¬ AsksMesh k ∧ k.maxVolume = none ∧ k.maxBranchings = none)) ∧
    ∀ n g, createGrid k = .ok (n, g) → n = numbers k ∧
      (k.nest = true → (∀ v, k.maxVolume = some v → g = .nestVolume v (k.maxBranchings.getD 5)) ∧
        (k.maxVolume = none → ∀ d, k.numberDensity = some d → g = .nestDensity (toInt d) (k.maxBranchings.getD 5))) ∧
      (k.mesh = true → g = .mesh (k.maxSize.getD (-1)) (k.numLevels.getD 3) (k.maxPoints.getD (-1))) ∧
      (k.mesh = false → k.nest = false → g = .trellis (k.nodeVolumeFraction.getD (1 / 100000)) (k.alwaysTriangulate.getD false)) := by
  obtain ⟨cv, cw, mesh, nest, nvf, tri, ms, nl, mp, mv, nd, mb, other⟩ := k
  constructor
  · cases mesh <;> cases nest <;> cases nvf <;> cases tri <;> cases ms <;> cases nl <;> cases mp <;> cases mv <;> cases nd <;> cases mb <;>
      simp [createGrid, AsksTrellis, AsksMesh]
  · intro n g h
    cases mesh <;> cases nest <;> cases nvf <;> cases tri <;> cases ms <;> cases nl <;> cases mp <;> cases mv <;> cases nd <;> cases mb <;>
      simp_all [createGrid, eq_comm]

/-- **C83 (numbers).** The vectors of the grid are complex exactly if that was asked for; the values are, unless complex values with real vectors
are asked for. -/
theorem C83_numbers_partial (k : GridCall) : (numbers k).complexVectors = k.complexVectors ∧
    ((k.complexValues = true → k.complexVectors = true) → (numbers k).complexValues = k.complexValues) := by
  obtain ⟨cv, cw, _⟩ := k
  cases cv <;> cases cw <;> simp [numbers]

/-- Complex values with real vectors: the grid that is made has real values, without an error. -/
theorem C83_complex_counterexample : ∃ (k : GridCall) (n : Numbers) (g : GridArgs), k.complexValues = true ∧ createGrid k = .ok (n, g) ∧ n.complexValues = false :=
  ⟨{ complexValues := true }, _, _, rfl, rfl, rfl⟩

/-- A density, documented as a number like any other, loses its fraction: less than one point becomes no point. -/
theorem C83_density_counterexample : ∃ d : ℚ, 0 < d ∧ createGrid { nest := true, numberDensity := some d } = .ok (⟨false, false⟩, .nestDensity 0 5) :=
  ⟨1 / 2, by norm_num, by decide +kernel⟩

/-- A density given with another kind of grid is not refused, as other names of nested grids are, but lost. -/
theorem C83_lost_density_counterexample (d : ℚ) :
    createGrid { numberDensity := some d } = createGrid {} ∧ createGrid { maxVolume := some d } = .error .value := ⟨rfl, rfl⟩

example : createGrid { complexVectors := true, nodeVolumeFraction := some (1 / 1000) } = .ok (⟨false, true⟩, .trellis (1 / 1000) false) := rfl
example : createGrid { mesh := true, nodeVolumeFraction := some (1 / 1000) } = .error .value := rfl

/-- **C83 (lattice).** `Lattice` refuses texts mixed with other values for the group, atoms without any symmetry, and group and operations
together, and nothing else; it passes on all that it was given: two values as lengths and angles, one as it is, three as one table. -/
theorem C83_lattice (values : List Val) (whole : Val) (group : GroupArg) (symmetry basis : Bool) (r : LatticeRequest) :
    lattice values whole group symmetry basis = .ok r ↔
      (match group with
        | .nothing => r.group = []
        | .one s => r.group = [s]
        | .several l => l = r.group.map Val.text) ∧
      (basis = true → symmetry = true ∨ r.group ≠ []) ∧ (symmetry = true → r.group = []) ∧
      r.symmetry = symmetry ∧ r.basis = basis ∧ ((values.length < 3 → r.values = values) ∧ (3 ≤ values.length → r.values = [whole])) := by
  have key : ∀ (l : List Val) (g : List String), l.mapM Val.text? = some g ↔ l = g.map Val.text := by
    intro l
    induction l with
    | nil => intro g; cases g <;> simp
    | cons v l ih =>
      intro g
      rw [List.mapM_cons]
      cases v <;> cases g <;> simp [Val.text?, Option.bind_eq_some_iff, ih, and_comm]
  have fin : ∀ names : List String, (if basis && !symmetry && names.isEmpty then Except.error Err.value
      else if symmetry && !names.isEmpty then .error .value
      else .ok ⟨if values.length < 3 then values else [whole], names, symmetry, basis⟩) = Except.ok r ↔
      r.group = names ∧ (basis = true → symmetry = true ∨ r.group ≠ []) ∧ (symmetry = true → r.group = []) ∧
      r.symmetry = symmetry ∧ r.basis = basis ∧ ((values.length < 3 → r.values = values) ∧ (3 ≤ values.length → r.values = [whole])) := by
    intro names
    obtain ⟨rv, rg, rs, rb⟩ := r
    rcases Nat.lt_or_ge values.length 3 with h | h
    · cases basis <;> cases symmetry <;> cases names <;> simp [h, eq_comm] <;> first | omega | aesop
    · cases basis <;> cases symmetry <;> cases names <;> simp [h, eq_comm, Nat.not_lt.mpr h] <;> first | omega | aesop
  unfold lattice
  cases group with
  | nothing => exact fin []
  | one s => exact fin [s]
  | several l =>
    simp only
    cases hm : l.mapM Val.text? with
    | none =>
      simp only
      constructor
      · intro h; cases h
      · intro h
        rw [(key l r.group).mpr h.1] at hm
        cases hm
    | some names =>
      simp only
      rw [fin names]
      have e := (key l names).mp hm
      constructor
      · rintro ⟨rfl, h⟩; exact ⟨e, h⟩
      · rintro ⟨h1, h⟩
        refine ⟨?_, h⟩
        rw [(key l r.group).mpr h1] at hm
        exact Option.some.inj hm

example : lattice [.vec [4, 4, 4], .vec [90, 90, 90]] (.text "") (.several [.text "P 4", .text "1"]) false true =
    .ok ⟨[.vec [4, 4, 4], .vec [90, 90, 90]], ["P 4", "1"], false, true⟩ := rfl

end Brille.Props
