/-
Specification of the permutation table: a map from ordered pairs of indices to permutations, each
entry absent, requested-but-not-filled, or holding a permutation.
-/
namespace Brille.Spec

inductive Entry
  | absent
  | pending
  | stored (p : List Nat)
deriving DecidableEq, Repr

/-- The abstract table: how many indices there are, the number of modes, and the entry of each pair. -/
structure PairMap where
  n : Nat
  modes : Nat
  entry : Nat → Nat → Entry

/-- Operations offered to a user. -/
inductive TableOp
  | set (i j : Nat) (p : List Nat)
  | overwrite (i j : Nat) (p : List Nat)
  | insertKeys (ks : List Nat)
  | refresh (n modes : Nat)

/-- change the entry of one pair -/
def PairMap.put (m : PairMap) (i j : Nat) (e : Entry) : PairMap :=
  { m with entry := fun a b => if a = i ∧ b = j then e else m.entry a b }

/-- The abstract effect of an operation; `none` when it must throw. -/
def PairMap.step (m : PairMap) : TableOp → Option PairMap
  | .set i j p =>
    match m.entry i j with
    | .absent => some (m.put i j (.stored p))
    | _ => some m
  | .overwrite i j p =>
    match m.entry i j with
    | .absent => none
    | _ => some (m.put i j (.stored p))
  | .insertKeys ks =>
    some { m with entry := fun a b =>
      match m.entry a b with
      | .absent => if a * m.n + b ∈ ks then .pending else .absent
      | e => e }
  | .refresh n modes =>
    let cleared : PairMap := if n = m.n then m else { m with n := n, entry := fun _ _ => .absent }
    some (if modes = m.modes then cleared else
      { cleared with modes := modes, entry := fun a b =>
        match cleared.entry a b with
        | .absent => .absent
        | _ => .pending })

/-- what a lookup must return -/
def PairMap.get (m : PairMap) (i j : Nat) : List Nat :=
  match m.entry i j with
  | .stored p => p
  | _ => List.range m.modes

/-- the empty table -/
def PairMap.empty (n modes : Nat) : PairMap := ⟨n, modes, fun _ _ => .absent⟩

/-- run a whole history -/
def PairMap.run (m : PairMap) : List TableOp → Option PairMap
  | [] => some m
  | o :: os => (m.step o).bind (·.run os)

/-- an operation whose indices are distinct and within the table -/
def OpOk (n : Nat) : TableOp → Prop
  | .set i j _ => i < n ∧ j < n ∧ i ≠ j
  | .overwrite i j _ => i < n ∧ j < n ∧ i ≠ j
  | _ => True

/-- every operation of the history uses distinct indices within the table as it is at that moment -/
def ValidHistory (m : PairMap) : List TableOp → Prop
  | [] => True
  | o :: os => OpOk m.n o ∧ ∀ m', m.step o = some m' → ValidHistory m' os

end Brille.Spec
