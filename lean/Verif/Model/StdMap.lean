/-
`std::map<ind_t, X>` as an association list with strictly increasing keys.  This is the abstraction
of the C++ standard library used by the models of /repo/src/vertex_map_set.h,
/repo/src/vertex_index_map.h and /repo/src/vertex_map_knit.h.
-/
import Mathlib.Data.List.Basic

namespace Brille.StdMap

/-- `std::map<ind_t, α>` (e.g. vertex_map_set.h 29, vertex_index_map.h 16): key order. -/
abbrev Map (α : Type) := List (Nat × α)

/-- `m.find(k)` (e.g. vertex_map_set.h 92). -/
def find {α : Type} : Map α → Nat → Option α
  | [], _ => none
  | (k', v) :: m, k => if k = k' then some v else find m k

/-- `m[k] = v` (e.g. vertex_map_set.h 128): overwrites, or inserts in key order. -/
def set {α : Type} : Map α → Nat → α → Map α
  | [], k, v => [(k, v)]
  | (k', v') :: m, k, v =>
    if k < k' then (k, v) :: (k', v') :: m
    else if k = k' then (k, v) :: m
    else (k', v') :: set m k v

/-- `m.emplace(k, v)` (e.g. vertex_map_knit.h 48): inserts unless the key is present. -/
def emplace {α : Type} (m : Map α) (k : Nat) (v : α) : Map α :=
  match find m k with
  | some _ => m
  | none => set m k v

end Brille.StdMap
