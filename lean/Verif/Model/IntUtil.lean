/-
Integer helpers of /repo/src/utilities.tpp.  `unsigned long long` is taken to have 64 bits.
-/
import Mathlib.Data.Nat.Basic

namespace Brille.IntUtil

/-- `gcd`, utilities.tpp 664-676 (the version for compilers without `std::gcd`) -/
def gcd (a b : Nat) : Nat := if h : b = 0 then a else gcd b (a % b)
termination_by b
decreasing_by exact Nat.mod_lt _ (Nat.pos_of_ne_zero h)

/-- The values of an `unsigned long long` are the numbers below this one. -/
def word : Nat := 2 ^ 64

/-- How `binomial_coefficient` ends: with an exact quotient, or with the floating point product (`approximate`), which
is not modelled further. -/
inductive Result
  | exact (n : Nat)
  | approximate
deriving DecidableEq, Repr

/-- The loop of `binomial_coefficient`, utilities.tpp 703-719.  `i` is the loop variable; `--i` followed by `++i` is:
the same `i` again.  `none`: out of fuel. -/
def binomialLoop (n m : Nat) : Nat → Nat → Nat → Nat → Option Result
  | 0, _, _, _ => none
  | fuel + 1, i, lastnum, lastden =>
    if i < m then
      let num := lastnum * (n - i) % word
      let den := lastden * (i + 1) % word
      if num < lastnum ∨ den < lastden then
        let comdiv := gcd lastnum lastden
        if 1 < comdiv then binomialLoop n m fuel i (lastnum / comdiv) (lastden / comdiv)
        else some .approximate
      else binomialLoop n m fuel (i + 1) num den
    else some (.exact (lastnum / lastden))

/-- `m`, utilities.tpp 701 -/
def fewer (n k : Nat) : Nat := if n - k < k then n - k else k

/-- `binomial_coefficient`, utilities.tpp 689-727.  `none`: the exception. -/
def binomialCoefficient (n k : Nat) : Option Result :=
  if n < k then none else binomialLoop n (fewer n k) (2 * fewer n k + 1) 0 1 1

/-- `u2s<S,U>`, utilities.tpp 730-741, for a signed type of `ws` bits and an unsigned type of `wu` bits.  `none`: the
exception. -/
def u2s (ws wu : Nat) (u : Nat) : Option Int :=
  if (2 ^ (ws - 1) - 1) % 2 ^ wu < u then none else some u

/-- `s2u<U,S>`, utilities.tpp 743-755, for an unsigned type of `wu` bits -/
def s2u (wu : Nat) (s : Int) : Option Nat :=
  if s < 0 then none else some (s.toNat % 2 ^ wu)

end Brille.IntUtil
