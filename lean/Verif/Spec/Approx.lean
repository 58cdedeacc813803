/-
Specification of the array reductions: what a user means by "the first n elements".
-/
namespace Brille.Spec

/-- The elements a reduction looks at: the first `n`, or all of them when no limit (0) is given. -/
def considered {α : Type} (data : List α) (n : Nat) : List α := if n = 0 then data else data.take n

/-- `k` is the position of the first element of `l` passing `test`. -/
def IsFirst {α : Type} (test : α → Bool) (l : List α) (k : Nat) : Prop :=
  ∃ x, l[k]? = some x ∧ test x = true ∧ ∀ j y, j < k → l[j]? = some y → test y = false

/-- `k` is the position of the last element of `l` passing `test`. -/
def IsLast {α : Type} (test : α → Bool) (l : List α) (k : Nat) : Prop :=
  ∃ x, l[k]? = some x ∧ test x = true ∧ ∀ j y, k < j → l[j]? = some y → test y = false

end Brille.Spec
