/-
Lookups in the table of space groups, `/repo/src/spg_database.cpp` 612-667.
-/
import Verif.Model.SpgTable

namespace Brille.Spg

/-- `hall_number_ok`, spg_database.cpp 612 -/
def hallNumberOk (h : Int) : Bool := decide (0 < h) && decide (h < 531)

/-- The loop `for (int i=1; i<531; i++) { Spacegroup spg(ALL_SPACEGROUPS[i]); if (…) return i; }` shared by the
three lookups; `none` when it runs to its end.  `rows` is what remains of the table from the index `i`. -/
def scan (p : Row → Bool) : Nat → List Row → Option Nat
  | _, [] => none
  | i, r :: rows => if p r then some i else scan p (i + 1) rows

/-- The loop over all but the first row of the table. -/
def search (p : Row → Bool) : Option Nat := scan p 1 table.tail

/-- `international_number_to_hall_number`, spg_database.cpp 614-620 -/
def internationalNumberToHallNumber (n : Int) (c : String) : Int :=
  if decide (n ≥ 0) && decide (n < 230) then
    match search fun r => decide (n = r.number) && (decide (c.length = 0) || decide (c = r.choice)) with
    | some i => i
    | none => -1
  else -1

/-- `international_string_to_hall_number`, spg_database.cpp 622-633 -/
def internationalStringToHallNumber (n c : String) : Nat :=
  match search fun r => (decide (c.length = 0) || decide (c = r.choice)) &&
      (decide (n = r.international) || decide (n = r.full) || decide (n = r.short)) with
  | some i => i
  | none => 0

/-- `hall_symbol_to_hall_number`, spg_database.cpp 635-642 -/
def hallSymbolToHallNumber (s : String) : Nat :=
  match search fun r => decide (s = r.hallSymbol) with
  | some i => i
  | none => 0

/-- `string_to_hall_number`, spg_database.cpp 646-650 -/
def stringToHallNumber (s c : String) : Nat :=
  let tmp := hallSymbolToHallNumber s
  if tmp = 0 then internationalStringToHallNumber s c else tmp

/-- `ALL_SPACEGROUPS[i]`; the empty row stands for an index past the end, which the code never uses. -/
def row (i : Nat) : Row := table.getD i ⟨0, "", "", "", "", "", "", .none, 0, 0⟩

/-- `Spacegroup(int)` by `set_from_hall_number`, spg_database.cpp 652-664 -/
def ofHallNumber (h : Int) : Row := row (if hallNumberOk h then h.toNat else 0)

end Brille.Spg
