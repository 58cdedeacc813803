/-
Model of `/repo/src/sorting_status.hpp` with the 32-bit status word kept as `BitVec 32`
(`unsigned int`), arithmetic modulo 2^32 as in C++.
-/
namespace Brille.Sorting

/-- `status_t`, sorting_status.hpp:36. -/
abbrev Word := BitVec 32

/-- the masks, sorting_status.hpp:39-44. -/
def sMask : Word := 1
def lMask : Word := 2
def qMask : Word := 4
def cMask : Word := 8
/-- `static_cast<status_t>(-1)^15u`, sorting_status.hpp:43. -/
def vMask : Word := (BitVec.allOnes 32) ^^^ 15

/-- getters, sorting_status.hpp:52-57. -/
def sorted (w : Word) : Bool := (w &&& sMask) != 0
def locked (w : Word) : Bool := (w &&& lMask) != 0
def queued (w : Word) : Bool := (w &&& qMask) != 0
def claimed (w : Word) : Bool := (w &&& cMask) != 0
def visited (w : Word) : Bool := decide (w &&& vMask > 0)
/-- `visits()`, sorting_status.hpp:57. -/
def visits (w : Word) : Word := w >>> 4

/-- `sorted(bool)`, sorting_status.hpp:58-64. -/
def setSorted (w : Word) (b : Bool) : Word :=
  if sorted w != b then (w &&& (lMask + qMask + cMask + vMask)) + (if b then sMask else 0) else w
/-- `locked(bool)`, sorting_status.hpp:65-71. -/
def setLocked (w : Word) (b : Bool) : Word :=
  if locked w != b then (w &&& (sMask + qMask + cMask + vMask)) + (if b then lMask else 0) else w
/-- `queued(bool)`, sorting_status.hpp:72-78. -/
def setQueued (w : Word) (b : Bool) : Word :=
  if queued w != b then (w &&& (sMask + lMask + cMask + vMask)) + (if b then qMask else 0) else w
/-- `claimed(bool)`, sorting_status.hpp:79-85. -/
def setClaimed (w : Word) (b : Bool) : Word :=
  if claimed w != b then (w &&& (sMask + lMask + qMask + vMask)) + (if b then cMask else 0) else w

/-- `visits(v)`, sorting_status.hpp:87-95, with `T = unsigned`; `none` is `std::overflow_error`.
Note the `^=` on line 89. -/
def setVisits (w : Word) (v : Word) : Option Word :=
  if v ≤ (BitVec.allOnes 32) >>> 4 then some ((w ^^^ vMask) + (v <<< 4)) else none

/-- `addvisit()`, sorting_status.hpp:96-102. -/
def addVisit (w : Word) : Option Word :=
  if w < vMask then some (w + 16) else none

/-- `addvisit(max)`, sorting_status.hpp:103-108. -/
def addVisitMax (w max : Word) : Option Word :=
  if visits w < max then addVisit w else some (setLocked w true)

/-- `unlocked_addvisit_unsorted`, sorting_status.hpp:109-115: new word and result. -/
def unlockedAddvisitUnsorted (w max : Word) : Option (Word × Bool) :=
  if locked w then some (w, false)
  else (addVisitMax w max).map fun w' => (w', !sorted w')

/-- `is_queable`, sorting_status.hpp:129-134. -/
def isQueable (w : Word) : Bool := !(locked w || sorted w || queued w || claimed w)

/-- `SortingStatus(bool,bool,unsigned)`, sorting_status.hpp:47-51. -/
def mk (s f : Bool) (v : Word) : Option Word := setVisits (setLocked (setSorted 0 s) f) v

end Brille.Sorting
