/-
Hall symbols: `/repo/src/hall_symbol.hpp`, `/repo/src/hall_symbol.cpp`.

Strings are lists of characters (the bytes of the C++ string); `none` stands for an exception.
-/
import Verif.Model.SpgTable
import Verif.Model.MotionText
import Verif.Model.Symmetry

namespace Brille.Hall
open Brille.Mot Brille.Spg

/-- the bytes of a string -/
def bytes (s : String) : List Char := s.toByteArray.data.toList.map fun b => Char.ofNat b.toNat

/-- `std::strchr(set, c)` as a truth value: the terminating zero is found, too. -/
def strchr (set : List Char) (c : Char) : Bool := set.contains c || c == Char.ofNat 0

/-- "PABCIRF" -/
def lattices : List Char := ['P', 'A', 'B', 'C', 'I', 'R', 'F']
/-- "abcnuvwd12345" -/
def trans : List Char := ['a', 'b', 'c', 'n', 'u', 'v', 'w', 'd', '1', '2', '3', '4', '5']
/-- "xyz'\"*" -/
def axes : List Char := ['x', 'y', 'z', '\'', '"', '*']
/-- "12346" -/
def orders : List Char := ['1', '2', '3', '4', '6']

/-- `class SeitzSymbol`, hall_symbol.hpp 64-67 -/
structure Seitz where
  N : Int
  T : List Char
  A : List Char
  deriving DecidableEq

/-- `class HallSymbol`, hall_symbol.hpp 170-174 -/
structure Symbol where
  L : Bravais
  cs : Bool
  symbols : List Seitz
  V : Motion

/-- the default members, hall_symbol.hpp 171-174 -/
def Symbol.empty : Symbol := ⟨.none, false, [], ofTranslation fun _ => 0⟩

/-- `setl(char, bool)`, hall_symbol.hpp 201-213 -/
def letter (c : Char) : Bravais :=
  if c = 'P' then .P else if c = 'A' then .A else if c = 'B' then .B else if c = 'C' then .C
  else if c = 'I' then .I else if c = 'R' then .R else if c = 'F' then .F else .none

/-- `addsymbol(ssym)` if its order is not zero -/
def Symbol.store (h : Symbol) (s : Seitz) : Symbol :=
  if s.N = 0 then h else { h with symbols := h.symbols ++ [s] }

/-- `SeitzSymbol((isneg?-1:1)*(c-'0'))` -/
def start (neg : Bool) (c : Char) : Seitz := ⟨(if neg then -1 else 1) * ((c.toNat : Int) - 48), [], []⟩

/-- the local variables of `from_ascii`, hall_symbol.cpp 30-31 -/
structure Loc where
  neg : Bool
  sup : Bool
  sub : Bool
  s : Seitz

/-- the value of `char(stream.get())` past the end -/
def eof : Char := Char.ofNat 255

/-- the next character and what remains -/
def next : List Char → Char × List Char
  | [] => (eof, [])
  | c :: l => (c, l)

/-- hall_symbol.cpp 54-71: the part for strings with `^` or `_`; the characters after those are read here. -/
def subsup (h : Symbol) (v : Loc) (c : Char) (l : List Char) : Symbol × Loc × Char × List Char :=
  let (v, c, l) := if '^' = c then ({ v with sup := true }, next l) else (v, c, l)
  let (v, c, l) := if '_' = c then ({ v with sub := true }, next l) else (v, c, l)
  let (h, v) :=
    if v.sub && strchr trans c then (h, { v with s := { v.s with T := v.s.T ++ [c] }, sub := false })
    else if strchr orders c then (h.store v.s, { v with s := start v.neg c, neg := false, sup := false })
    else (h, v)
  let v := if v.sup && strchr axes c then { v with s := { v.s with A := v.s.A ++ [c] }, sup := false } else v
  (h, v, c, l)

/-- hall_symbol.cpp 72-80: the part for strings without. -/
def plain (v : Loc) (c : Char) : Loc :=
  if v.s.N ≠ 0 then
    let s := if strchr trans c then { v.s with T := v.s.T ++ [c] } else v.s
    let s := if strchr axes c then { s with A := s.A ++ [c] } else s
    { v with s := s }
  else if strchr orders c then { v with s := start v.neg c, neg := false }
  else v

/-- The loop of `from_ascii`, hall_symbol.cpp 33-99.  Each turn reads a character, so `fuel` = the number of
characters suffices.  The turn that reads past the end does nothing. -/
def loop (hassubsup : Bool) : Nat → List Char → Symbol → Loc → Option (Symbol × Loc)
  | 0, _, h, v => some (h, v)
  | _ + 1, [], h, v => some (h, v)
  | fuel + 1, c :: l, h, v =>
    let (h, v, c, l) :=
      if strchr lattices c then
        let h := { h with L := letter c, cs := v.neg }
        let (c, l) := if l.head? = some ' ' then (' ', l.tail) else (c, l)
        (h, { v with neg := false }, c, l)
      else (h, v, c, l)
    let (h, v, c, l) := if hassubsup then subsup h v c l else (h, plain v c, c, l)
    let v := if '-' = c then { v with neg := true } else v
    let (h, v) := if ' ' = c then (h.store v.s, ⟨false, false, false, ⟨0, [], []⟩⟩) else (h, v)
    if '(' = c then
      match MotText.fromAscii true true (l.takeWhile fun d => d != ')') with
      | some V => loop hassubsup fuel ((l.dropWhile fun d => d != ')').drop 1) { h with V := V } v
      | none => none
    else loop hassubsup fuel l h v

/-- `HallSymbol(const std::string&)`, i.e. `from_ascii` of a fresh object, hall_symbol.cpp 22-103 (the returned
truth value is `validate` below) -/
def fromAscii (s : List Char) : Option Symbol :=
  (loop (s.contains '^' || s.contains '_') s.length s Symbol.empty ⟨false, false, false, ⟨0, [], []⟩⟩).map
    fun (h, v) => h.store v.s

/-- the loop over the axis characters in `SeitzSymbol::validate`, hall_symbol.cpp 180-190: number of primes, and
whether x, y or z was met -/
def axesOk : List Char → Nat → Bool → Option Nat
  | [], primes, _ => some primes
  | c :: l, primes, xyz =>
    if c = '*' then if xyz then none else axesOk l (primes + 3) xyz
    else if c = '"' then if xyz then none else axesOk l (primes + 2) xyz
    else if c = '\'' then if xyz then none else axesOk l (primes + 1) xyz
    else if c = 'x' ∨ c = 'y' ∨ c = 'z' then if primes ≠ 0 ∨ xyz then none else axesOk l primes true
    else none

/-- `SeitzSymbol::validate`, hall_symbol.cpp 175-206: the truth value.  It also rewrites the axis of the object
it is called on; `HallSymbol::validate` calls it on copies. -/
def Seitz.validate (s : Seitz) : Bool :=
  if s.N = 0 ∨ s.N < -6 ∨ s.N > 6 ∨ s.N = -5 ∨ s.N = 5 then false
  else match axesOk s.A 0 false with
    | none => false
    | some primes => decide (primes ≤ 3) && trans.all fun c => decide (s.T.count c ≤ 1)

/-- `HallSymbol::validate`, hall_symbol.cpp 105-111 -/
def Symbol.validate (h : Symbol) : Bool := decide (h.L ≠ .none) && h.symbols.all Seitz.validate

/-- `implicit_axis()`, hall_symbol.hpp 119 -/
def Seitz.axis0 (s : Seitz) : Char := s.A.headD 'z'

/-- `implicit_axis(pre)`, hall_symbol.hpp 137-151 -/
def Seitz.axis (s pre : Seitz) : Char :=
  match s.A with
  | a :: _ => a
  | [] =>
    if s.N.natAbs = 2 then
      if pre.N.natAbs = 2 ∨ pre.N.natAbs = 4 then 'x' else if pre.N.natAbs = 3 ∨ pre.N.natAbs = 6 then '?' else '!'
    else if s.N.natAbs = 3 then '*' else '!'

/-- a matrix from its nine entries -/
def m9 (a b c d e f g h i : ℤ) : Fin 3 → Fin 3 → ℤ := ![![a, b, c], ![d, e, f], ![g, h, i]]

/-- the switch statements of `inner_getr`, hall_symbol.cpp 216-255, before the inversion -/
def rotation (n : Nat) (ax pax : Char) : Option (Fin 3 → Fin 3 → ℤ) :=
  let zero := m9 0 0 0 0 0 0 0 0 0
  if n = 1 then some (m9 1 0 0 0 1 0 0 0 1)
  else if n = 2 then
    if ax = 'x' then some (m9 1 0 0 0 (-1) 0 0 0 (-1))
    else if ax = 'y' then some (m9 (-1) 0 0 0 1 0 0 0 (-1))
    else if ax = 'z' then some (m9 (-1) 0 0 0 (-1) 0 0 0 1)
    else if ax = '?' then some (m9 0 (-1) 0 (-1) 0 0 0 0 (-1))
    else if ax = '\'' then
      if pax = 'x' then some (m9 (-1) 0 0 0 0 (-1) 0 (-1) 0)
      else if pax = 'y' then some (m9 0 0 (-1) 0 (-1) 0 (-1) 0 0)
      else if pax = 'z' then some (m9 0 (-1) 0 (-1) 0 0 0 0 (-1))
      else none
    else if ax = '"' then
      if pax = 'x' then some (m9 (-1) 0 0 0 0 1 0 1 0)
      else if pax = 'y' then some (m9 0 0 1 0 (-1) 0 1 0 0)
      else if pax = 'z' then some (m9 0 1 0 1 0 0 0 0 (-1))
      else none
    else some zero
  else if n = 3 then
    if ax = 'x' then some (m9 1 0 0 0 0 (-1) 0 1 (-1))
    else if ax = 'y' then some (m9 (-1) 0 1 0 1 0 (-1) 0 0)
    else if ax = 'z' then some (m9 0 (-1) 0 1 (-1) 0 0 0 1)
    else if ax = '*' then some (m9 0 0 1 1 0 0 0 1 0)
    else some zero
  else if n = 4 then
    if ax = 'x' then some (m9 1 0 0 0 0 (-1) 0 1 0)
    else if ax = 'y' then some (m9 0 0 1 0 1 0 (-1) 0 0)
    else if ax = 'z' then some (m9 0 (-1) 0 1 0 0 0 0 1)
    else some zero
  else if n = 6 then
    if ax = 'x' then some (m9 1 0 0 0 1 (-1) 0 1 0)
    else if ax = 'y' then some (m9 0 0 1 0 1 0 (-1) 0 1)
    else if ax = 'z' then some (m9 1 (-1) 0 1 0 0 0 0 1)
    else some zero
  else none

/-- `inner_getr`, hall_symbol.cpp 215-259 -/
def Seitz.innerR (s : Seitz) (ax pax : Char) : Option (Fin 3 → Fin 3 → ℤ) :=
  (rotation s.N.natAbs ax pax).map fun W => if s.N < 0 then fun i j => W i j * (-1) else W

/-- the vector `a` of `inner_gett`, hall_symbol.cpp 269-287 -/
def direction (T : List Char) (ax pax : Char) : Fin 3 → ℚ :=
  if T.any (strchr ['1', '2', '3', '4', '5']) then
    if ax = 'x' then ![1, 0, 0]
    else if ax = 'y' then ![0, 1, 0]
    else if ax = 'z' then ![0, 0, 1]
    else if ax = '*' then ![1, 1, 1]
    else if ax = '\'' then
      if pax = 'x' then ![0, 1, -1] else if pax = 'y' then ![1, 0, -1] else if pax = 'z' then ![1, -1, 0] else ![0, 0, 0]
    else if ax = '"' then
      if pax = 'x' then ![0, 1, 1] else if pax = 'y' then ![1, 0, 1] else if pax = 'z' then ![1, 1, 0] else ![0, 0, 0]
    else ![0, 0, 0]
  else ![0, 0, 0]

/-- what one character of the translation part adds, hall_symbol.cpp 289-303 -/
def shift (a : Fin 3 → ℚ) (an : Nat) (c : Char) : Fin 3 → ℚ :=
  if c = 'a' then ![1 / 2, 0, 0]
  else if c = 'b' then ![0, 1 / 2, 0]
  else if c = 'c' then ![0, 0, 1 / 2]
  else if c = 'n' then ![1 / 2, 1 / 2, 1 / 2]
  else if c = 'u' then ![1 / 4, 0, 0]
  else if c = 'v' then ![0, 1 / 4, 0]
  else if c = 'w' then ![0, 0, 1 / 4]
  else if c = 'd' then ![1 / 4, 1 / 4, 1 / 4]
  else if c = '1' then fun i => a i / an
  else if c = '2' then fun i => 2 * a i / an
  else if c = '3' then fun i => 3 * a i / an
  else if c = '4' then fun i => 4 * a i / an
  else if c = '5' then fun i => 5 * a i / an
  else ![0, 0, 0]

/-- `inner_gett`, hall_symbol.cpp 268-307 -/
def innerT (T : List Char) (an : Nat) (ax pax : Char) : Fin 3 → ℚ :=
  let a := direction T ax pax
  let t := T.foldl (fun t c i => t i + shift a an c i) fun _ => 0
  fun i => t i - ⌊t i⌋

/-- `getr()` and `gett()`, hall_symbol.cpp 209-211, 261-263 -/
def Seitz.motion0 (s : Seitz) : Option Motion :=
  (s.innerR s.axis0 '!').map fun W => ⟨W, innerT s.T s.N.natAbs s.axis0 '!'⟩

/-- `getr(pre)` and `gett(pre)`, hall_symbol.cpp 212-214, 264-266 -/
def Seitz.motion (s pre : Seitz) : Option Motion :=
  (s.innerR (s.axis pre) pre.axis0).map fun W => ⟨W, innerT s.T s.N.natAbs (s.axis pre) pre.axis0⟩

/-- the symbols with their axes made explicit, hall_symbol.cpp 136-141: `pre` is the one before, made explicit -/
def explicitFrom : Seitz → List Seitz → List Seitz
  | _, [] => []
  | pre, s :: l =>
    let s' : Seitz := { s with A := [s.axis pre] }
    s' :: explicitFrom s' l

def explicit : List Seitz → List Seitz
  | [] => []
  | s :: l =>
    let s' : Seitz := { s with A := [s.axis0] }
    s' :: explicitFrom s' l

/-- `gen.add(expsym[i].getr(expsym[i-1]), …)`, hall_symbol.cpp 145-146 -/
def motionsFrom : Seitz → List Seitz → Option (List Motion)
  | _, [] => some []
  | pre, s :: l =>
    match s.motion pre, motionsFrom s l with
    | some m, some ms => some (m :: ms)
    | _, _ => none

/-- the loop over the explicit symbols, hall_symbol.cpp 143-147 -/
def motions : List Seitz → Option (List Motion)
  | [] => some []
  | s :: l =>
    match s.motion0, motionsFrom s l with
    | some m, some ms => some (m :: ms)
    | _, _ => none

/-- the centring translations, hall_symbol.cpp 117-127 -/
def centrings : Bravais → Option (List (Fin 3 → ℚ))
  | .P => some [![0, 0, 0]]
  | .A => some [![0, 0, 0], ![0, 1 / 2, 1 / 2]]
  | .B => some [![0, 0, 0], ![1 / 2, 0, 1 / 2]]
  | .C => some [![0, 0, 0], ![1 / 2, 1 / 2, 0]]
  | .I => some [![0, 0, 0], ![1 / 2, 1 / 2, 1 / 2]]
  | .R => some [![0, 0, 0], ![1 / 3, 2 / 3, 2 / 3], ![2 / 3, 1 / 3, 1 / 3]]
  | .F => some [![0, 0, 0], ![0, 1 / 2, 1 / 2], ![1 / 2, 0, 1 / 2], ![1 / 2, 1 / 2, 0]]
  | .none => none

/-- `get_generators`, hall_symbol.cpp 113-159 -/
def Symbol.generators (h : Symbol) : Option (List Motion) :=
  match centrings h.L, motions (explicit h.symbols) with
  | some ts, some ms =>
    let gen := ts.map (fun t => (⟨idMat, t⟩ : Motion)) ++
      (if h.cs then ts.map fun t => ⟨Sym.inversion, t⟩ else []) ++ ms
    if !hasIdentityRotation h.V then none
    else if !hasIdentityTranslation h.V then
      some (gen.map fun m => mul (ofTranslation h.V.w) (mul m (ofTranslation fun i => h.V.w i * (-1))))
    else some gen
  | _, _ => none

/-- `std::to_string(int)` -/
def intText (n : Int) : List Char := bytes (toString n)

/-- `SeitzSymbol::to_ascii`, hall_symbol.cpp 170-173 -/
def Seitz.toAscii (s : Seitz) : List Char := intText s.N ++ s.A ++ s.T

/-- `bravais_letter`, bravais.cpp 39-51 -/
def letterChar : Bravais → Char
  | .none => '!' | .P => 'P' | .A => 'A' | .B => 'B' | .C => 'C' | .I => 'I' | .F => 'F' | .R => 'R'

/-- `HallSymbol::to_ascii`, hall_symbol.cpp 162-168 -/
def Symbol.toAscii (h : Symbol) : List Char :=
  (if h.cs then ['-'] else []) ++ [letterChar h.L] ++ h.symbols.flatMap fun s => ' ' :: s.toAscii

/-- `Spacegroup::get_spacegroup_symmetry`, spg_database.cpp 665-670 -/
def spacegroupSymmetry (r : Row) : Option (List Motion) :=
  ((fromAscii (bytes r.hallSymbol)).bind Symbol.generators).map (Sym.generate Sym.motionOps)

end Brille.Hall
