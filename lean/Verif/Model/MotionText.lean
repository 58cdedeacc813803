/-
Text form of motions: `Motion::to_ascii` and `Motion::from_ascii`, `/repo/src/motion.hpp` 140-253.

Strings are lists of characters (the bytes of the C++ string).  Numbers are exact.  `none` stands for an exception
or for a write past the end of an array.
-/
import Verif.Model.Motion

namespace Brille.MotText
open Brille.Mot

/-- "0123456789", motion.hpp 185 -/
def isDigit (c : Char) : Bool := decide ('0' ≤ c) && decide (c ≤ '9')

/-- the number that a character stands for, `c - '0'` -/
def digitVal (c : Char) : Nat := c.toNat - 48

/-- the value of a string of decimal digits, `acc` so far; what follows the digits is returned as well -/
def readNat : Nat → List Char → Nat × List Char
  | acc, [] => (acc, [])
  | acc, c :: l => if isDigit c then readNat (acc * 10 + digitVal c) l else (acc, c :: l)

/-- an optional sign -/
def readSign : List Char → Bool × List Char
  | '-' :: l => (true, l)
  | '+' :: l => (false, l)
  | l => (false, l)

/-- `std::stoi` and `tmp >> i`: an optional sign and at least one digit.  What follows is not looked at.  Overflow
and leading white space are not modelled. -/
def readInt (l : List Char) : Option Int :=
  match readSign l with
  | (neg, l') =>
    match l' with
    | [] => none
    | c :: _ => if isDigit c then some ((if neg then -1 else 1) * ((readNat 0 l').1 : Int)) else none

/-- `tmp >> f`: optional sign, digits, point, digits; an exponent is not modelled. -/
def readDecimal (l : List Char) : ℚ :=
  let (neg, l') := readSign l
  let (whole, r) := readNat 0 l'
  let v : ℚ := match r with
    | '.' :: r' =>
      let k := (r'.takeWhile isDigit).length
      whole + ((readNat 0 r').1 : ℚ) / ((10 : ℚ) ^ k)
    | _ => whole
  if neg then -v else v

/-- the parts between slashes, as `std::getline(tmp, a, '/')` finds them: there is no part after a slash that ends
the string -/
def splitSlash : List Char → List Char → List (List Char)
  | [], [] => []
  | acc, [] => [acc]
  | acc, '/' :: l => acc :: splitSlash [] l
  | acc, c :: l => splitSlash (acc ++ [c]) l

/-- the variables of the loop of `from_ascii`, motion.hpp 170-182 -/
structure St where
  W : Fin 3 → Fin 3 → ℤ
  w : Fin 3 → ℚ
  n : Nat
  i : ℤ
  f : ℚ

/-- `this->w[n++] = x`; past the end of the array there is nothing to write to. -/
def St.put (s : St) (x : ℚ) : Option St :=
  if h : s.n < 3 then some { s with w := fun k => if k = ⟨s.n, h⟩ then x else s.w k, n := s.n + 1 } else none

/-- `this->W[n*3+k] = i; i = 1` -/
def St.coef (s : St) (k : Fin 3) : Option St :=
  if h : s.n < 3 then
    some { s with W := fun a b => if a = ⟨s.n, h⟩ ∧ b = k then s.i else s.W a b, i := 1 }
  else none

/-- what is done with a token `t`, motion.hpp 229-247.  Of its first character it is only asked whether it is a
digit.  A zero denominator, which gives an infinity or not-a-number, is an error here. -/
def St.token (s : St) (t : List Char) : Option St :=
  let hasdigit := t.any isDigit
  let hasslash := (t.drop 1).contains '/'
  let haspoint := (t.drop 1).contains '.'
  if haspoint && hasslash then none
  else if haspoint then some { s with f := readDecimal t }
  else if hasslash then
    match splitSlash [] t with
    | [a, b] =>
      match readInt a, readInt b with
      | some p, some q => if q = 0 then none else some { s with f := (p : ℚ) / (q : ℚ) }
      | _, _ => none
    | _ => none
  else some { s with i := (readInt (if hasdigit then t else t ++ ['1'])).getD 0 }

/-- ";,xyz-+", or "-+ " for the special form of a change of basis, motion.hpp 184 -/
def noSearch (special : Bool) : List Char := if special then ['-', '+', ' '] else [';', ',', 'x', 'y', 'z', '-', '+']

/-- The loop of `from_ascii`, motion.hpp 186-250.  When a token reaches the end of the string, the character that
ends a component is put back in its place (230), so that it is what is read next.  One unit of `fuel` per turn:
each turn consumes a character, and a character is put back at most once. -/
def loop (special : Bool) : Nat → List Char → St → Option St
  | 0, _, s => some s
  | _ + 1, [], s => if s.n = 2 then some { s with w := fun k => if k = 2 then s.f else s.w k } else some s
  | fuel + 1, c :: l, s =>
    if c = ' ' then
      if special then (s.put ((s.i : ℚ) / 12)).bind (loop special fuel l) else loop special fuel l s
    else if c = ';' ∨ c = ',' then
      (St.put { s with i := 1 } s.f).bind fun s' => loop special fuel l { s' with f := 0 }
    else if c = 'x' then (s.coef 0).bind (loop special fuel l)
    else if c = 'y' then (s.coef 1).bind (loop special fuel l)
    else if c = 'z' then (s.coef 2).bind (loop special fuel l)
    else
      let t := c :: l.takeWhile fun d => !(noSearch special).contains d
      let l' := l.dropWhile fun d => !(noSearch special).contains d
      let l'' := if l'.isEmpty then [if special then ' ' else ';'] else l'
      (s.token t).bind (loop special fuel l'')

/-- `Motion<R,T>::from_ascii(s, cob)`, motion.hpp 166-253; `same` is `std::is_same<R,T>`.  The matrix has integer
entries in either case: a number with a point or a slash is taken as a translation. -/
def fromAscii (same : Bool) (cob : Bool) (s : List Char) : Option Motion :=
  let special := cob && same && !s.contains ','
  (loop special (2 * s.length + 2) s
    ⟨if special then idMat else fun _ _ => 0, fun _ => 0, 0, 1, 0⟩).map fun st => ⟨st.W, st.w⟩

end Brille.MotText
