/-
Small utilities on `std::vector`s: /repo/src/utilities.hpp 629-816.  Vectors are lists; `none` stands for an
exception or for undefined behaviour.
-/
import Mathlib.Data.List.Basic

namespace Brille.ListUtil

variable {α : Type*} [DecidableEq α]

/-- `add_if_missing`, utilities.hpp 631-638: the vector afterwards and the returned flag -/
def addIfMissing (v : List α) (x : α) : List α × Bool :=
  if x ∈ v then (v, false) else (v ++ [x], true)

/-- `add_between_if_missing`, utilities.hpp 640-653.  `itr` is the position of the first `preceeding`; `++itr` is the
place of insertion.  `none`: one of the two exceptions. -/
def addBetweenIfMissing (v : List α) (preceeding following x : α) : Option (List α × Bool) :=
  if x ∈ v then some (v, false)
  else
    let itr := v.idxOf preceeding
    if itr = v.length then none
    else if (if itr + 1 = v.length then v[0]? else v[itr + 1]?) = some following then
      some (v.take (itr + 1) ++ x :: v.drop (itr + 1), true)
    else none

/-- the maximum found by the first loop of `all_present`, utilities.hpp 657-658 -/
def maximum (lists : List (List Nat)) : Nat :=
  lists.foldl (fun m l => l.foldl (fun m v => if m < v then v else m) m) 0

/-- `all_present`, utilities.hpp 655-672 -/
def allPresent (lists : List (List Nat)) : Bool × Nat :=
  ((List.range (maximum lists + 1)).all fun index => lists.any fun l => l.any fun v => v == index, maximum lists)

/-- the row `one` for one index, utilities.hpp 683-689 -/
def invertRow (lists : List (List Nat)) (index : Nat) : List Nat :=
  (List.range lists.length).filter fun j => decide (index ∈ lists.getD j [])

/-- `invert_lists`, utilities.hpp 674-693; its assertion is the hypothesis `(allPresent lists).1` of the theorems. -/
def invertLists (lists : List (List Nat)) : List (List Nat) :=
  (List.range ((allPresent lists).2 + 1)).map (invertRow lists)

/-- the inner loop of `unordered_list_in_lists`, utilities.hpp 701-710 -/
def matchAndErase : List α → List α → Bool
  | [], _ => true
  | y :: ys, x => if y ∈ x then matchAndErase ys (x.erase y) else false

/-- `unordered_list_in_lists`, utilities.hpp 695-714 -/
def unorderedListInLists (l : List α) (lists : List (List α)) : Bool :=
  lists.any fun li => decide (li.length = l.length) && matchAndErase l li

/-- `subscript_ok` for vectors, utilities.hpp 745-753 -/
def subscriptOk (subscript shape : List Nat) : Bool :=
  decide (subscript.length = shape.length) &&
    (List.range shape.length).all fun i => decide (subscript.getD i 0 < shape.getD i 0)

/-- the loop of `reverse` with `i` elements left, utilities.hpp 764-766 -/
def reverseFrom (x : List α) : Nat → List α → List α
  | 0, r => r
  | i + 1, r => reverseFrom x i (match x[i]? with | some v => r ++ [v] | none => r)

/-- `reverse`, utilities.hpp 762-767 -/
def reverse (x : List α) : List α := reverseFrom x x.length []

/-- `reverse_each`, utilities.hpp 770-776 -/
def reverseEach (x : List (List α)) : List (List α) := x.map reverse

/-- `unique`, utilities.hpp 779-787: reading `x[0]` of an empty vector is undefined behaviour. -/
def unique (x : List α) : Option (List α) :=
  match x[0]? with
  | none => none
  | some x0 => some (x.foldl (fun out v => if v ∈ out then out else out ++ [v]) [x0])

/-- one comparison loop of `is_positive_permutation`, utilities.hpp 794-800 -/
def agreesFrom (a b : List α) (i : Nat) : Bool :=
  (List.range a.length).all fun j => decide (a[(i + j) % a.length]? = b[j]?)

/-- `is_positive_permutation`, utilities.hpp 789-804 -/
def isPositivePermutation (a b : List α) : Bool :=
  decide (a.length = b.length) && (List.range a.length).any (agreesFrom a b)

/-- `find_first`, utilities.tpp 784-789 -/
def findFirst (x : List α) (val : α) : Option Nat :=
  if x.idxOf val = x.length then none else some (x.idxOf val)

end Brille.ListUtil
