/-
Model of `/repo/src/permutation_table.hpp`.

Simplifications: `size_t`/`ind_t` are `ℕ`; a `std::map<size_t,size_t>` is a function
`ℕ → Option ℕ` (its observable part: which key is present with which value); a
`std::set<size_t>` argument is a list; `info_update` logging is dropped.
-/
namespace Brille.PermTable

/-- `class PermutationTable`, permutation_table.hpp:63-71; `offset` (line 68) is the literal 1. -/
structure Table where
  indexSize : Nat
  ijmap : Nat → Option Nat
  permutations : List (List Nat)

/-- `offset`, permutation_table.hpp:68. -/
def offset : Nat := 1

/-- assignment `ijmap[k] = v` / `emplace` of an absent key. -/
def mapSet (m : Nat → Option Nat) (k v : Nat) : Nat → Option Nat :=
  fun x => if x = k then some v else m x

/-- `add_zeroth`, permutation_table.hpp:228-234: entry 0 is the identity permutation and key 0
points to it. -/
def addZeroth (t : Table) (branches : Nat) : Table :=
  { t with
    permutations := List.range branches :: t.permutations.drop 1
    ijmap := mapSet t.ijmap 0 (0 + offset) }

/-- `PermutationTable(ni, branches)`, permutation_table.hpp:95-97. -/
def mk0 (ni branches : Nat) : Table := addZeroth ⟨ni, fun _ => none, []⟩ branches

/-- Insert keys with the invalid value 0, skipping existing ones: lines 100 and 206-212
(`emplace` never replaces). -/
def insertKeys (t : Table) : List Nat → Table
  | [] => t
  | k :: ks => insertKeys
      (match t.ijmap k with
        | some _ => t
        | none => { t with ijmap := mapSet t.ijmap k 0 }) ks

/-- `PermutationTable(ni, branches, keys)`, permutation_table.hpp:98-101. -/
def mkKeys (ni branches : Nat) (keys : List Nat) : Table := insertKeys (mk0 ni branches) keys

/-- `refresh`, permutation_table.hpp:115-129.  `permutations[0]` of an empty list is undefined
behaviour (`none`).  The Boolean result is the "invalidated" flag. -/
def refresh (t : Table) (ni br : Nat) : Option (Table × Bool) :=
  let invalidated := ni != t.indexSize
  let t1 : Table := if ni != t.indexSize then { t with ijmap := fun _ => none, indexSize := ni } else t
  match t1.permutations with
  | [] => none
  | p0 :: _ =>
    if br != p0.length then
      some (addZeroth { t1 with ijmap := fun k => (t1.ijmap k).map fun _ => 0, permutations := [] } br,
        invalidated)
    else some (t1, invalidated)

/-- `ij2key`, permutation_table.hpp:214. -/
def ij2key (t : Table) (i j : Nat) : Nat := if i = j then 0 else i * t.indexSize + j

/-- `has`, permutation_table.hpp:136-139. -/
def has (t : Table) (i j : Nat) : Bool :=
  match t.ijmap (ij2key t i j) with
  | some v => decide (v ≥ offset)
  | none => false

/-- `value_needed`, permutation_table.hpp:141-144. -/
def valueNeeded (t : Table) (i j : Nat) : Bool :=
  match t.ijmap (ij2key t i j) with
  | some v => decide (v < offset)
  | none => false

/-- `find_permutation`, permutation_table.hpp:216-227: position of the first equal permutation, or
the number of permutations. -/
def findPermutation (ps : List (List Nat)) (v : List Nat) : Bool × Nat :=
  match ps with
  | [] => (false, 0)
  | p :: ps => if p = v then (true, 0) else ((findPermutation ps v).1, (findPermutation ps v).2 + 1)

/-- `set`, permutation_table.hpp:147-162; the second component is the returned index. -/
def set (t : Table) (i j : Nat) (v : List Nat) : Table × Nat :=
  match t.ijmap (ij2key t i j) with
  | some x => (t, x)
  | none =>
    let (contains, idx) := findPermutation t.permutations v
    ({ t with
        permutations := if contains then t.permutations else t.permutations ++ [v]
        ijmap := mapSet t.ijmap (ij2key t i j) (idx + offset) }, idx)

/-- `overwrite(i,j,idx)`, permutation_table.hpp:164-170; `none` is the exception. -/
def overwriteIdx (t : Table) (i j idx : Nat) : Option (Table × Nat) :=
  match t.ijmap (ij2key t i j) with
  | none => none
  | some _ => some ({ t with ijmap := mapSet t.ijmap (ij2key t i j) (idx + offset) }, idx)

/-- `overwrite(i,j,vector)`, permutation_table.hpp:173-184; `none` is the exception. -/
def overwrite (t : Table) (i j : Nat) (v : List Nat) : Option (Table × Nat) :=
  match t.ijmap (ij2key t i j) with
  | none => none
  | some _ =>
    let (contains, idx) := findPermutation t.permutations v
    some ({ t with
        permutations := if contains then t.permutations else t.permutations ++ [v]
        ijmap := mapSet t.ijmap (ij2key t i j) (idx + offset) }, idx)

/-- `safe_get`, permutation_table.hpp:193-198; an out-of-range `permutations[...]` is `none`. -/
def safeGet (t : Table) (i j : Nat) : Option (List Nat) :=
  match t.ijmap (ij2key t i j) with
  | some v => if v ≥ offset then t.permutations[v - offset]? else t.permutations[0]?
  | none => t.permutations[0]?

/-- `permutation_table_keys_from_indicies`, permutation_table.hpp:283-292 (insertion order instead of
set order; a `std::set` keeps one copy, here duplicates are possible). -/
def keysFromIndices (n : Nat) : List Nat → List Nat
  | [] => []
  | j :: rest =>
    (rest.flatMap fun k => if j ≠ k then [j * n + k, j + k * n] else []) ++ keysFromIndices n rest

end Brille.PermTable
