import Verif.Model.ArrayMem
import Verif.Spec.Subscript
/-
What a caller can observe of array objects: their shape and the value at a subscript.
-/
namespace Brille.Spec
open Brille.Arr

/-- The value seen through array object `i` at subscript `x` (`a[x]` without the assignment);
nothing if there is no such object, its memory is gone or the address lies outside it. -/
def elem {T} (s : Store T) (i : Nat) (x : List Nat) : Option T :=
  (s.arr i).bind fun h => h.data.bind fun p => (s.block p).bind fun b =>
    (h.addr x).bind fun a => b[a]?

/-- The shape of array object `i`. -/
def shapeOf {T} (s : Store T) (i : Nat) : Option (List Nat) := (s.arr i).map (·.shape)

/-- Every subscript allowed by the shape addresses an element of the array's memory. -/
def AllReadable {T} (s : Store T) (i : Nat) (shape : List Nat) : Prop :=
  ∀ x, InRange shape x → ∃ v, elem s i x = some v

/-- `s` is the state after some program of array calls. -/
def Reachable {T} [Inhabited T] (k : Kind) (s : Store T) : Prop :=
  ∃ l : List (Op T), run k l (Store.empty T) = .ok s

/-- Strides which give every subscript its own element of a buffer of `n` elements. -/
def GoodStrides (shape stride : List Nat) (n : Nat) : Prop :=
  (∀ x, InRange shape x → ∃ a, Subscript.sub2lin x stride = some a ∧ a < n) ∧
  ∀ x y, InRange shape x → InRange shape y →
    Subscript.sub2lin x stride = Subscript.sub2lin y stride → x = y

/-- Calls in which a caller who chooses strides chooses good ones; all other calls are free. -/
def PlainOp {T} : Op T → Prop
  | .newStrided shape stride _ => GoodStrides shape stride (Arr.sizeOf shape)
  | .wrap b shape stride _ => GoodStrides shape stride b.length
  | _ => True

/-- `s` is the state after some program of array calls with good strides. -/
def PlainReachable {T} [Inhabited T] (k : Kind) (s : Store T) : Prop :=
  ∃ l : List (Op T), (∀ o ∈ l, PlainOp o) ∧ run k l (Store.empty T) = .ok s

/-- The memory of array object `i` was handed in by the caller, or `i` is not mutable, or another array
object shares it: what `decouple` takes as the reason to copy. -/
def Borrowed {T} (s : Store T) (i : Nat) : Prop :=
  ∃ h, s.arr i = some h ∧ (h.own = false ∨ h.mutable = false ∨
    ∃ j g r, j ≠ i ∧ s.arr j = some g ∧ g.ref = some r ∧ h.ref = some r)

/-- Array objects `i` and `j` use different memory: an assignment through one is never seen through
the other. -/
def Apart {T} [Inhabited T] (k : Kind) (s : Store T) (i j : Nat) : Prop :=
  (∀ x v s', step k s (.write i x v) = .ok s' → ∀ y, elem s' j y = elem s j y) ∧
  (∀ x v s', step k s (.write j x v) = .ok s' → ∀ y, elem s' i y = elem s i y)

/-- Array object `n` of `s'`, made by a call in state `s`, is a window on array object `i`: subscript `x`
of the window is subscript `tr x` of `i`, for reading and for writing, and nothing else has changed. -/
structure Window {T} [Inhabited T] (k : Kind) (s s' : Store T) (i n : Nat) (shape : List Nat)
    (tr : List Nat → List Nat) : Prop where
  shape_eq : shapeOf s' n = some shape
  inside : ∀ x, InRange shape x → ∃ sh, shapeOf s i = some sh ∧ InRange sh (tr x)
  read : ∀ x, InRange shape x → elem s' n x = elem s i (tr x)
  write : ∀ x v, InRange shape x → step k s' (.write n x v) = step k s' (.write i (tr x) v)
  rest : ∀ j, j ≠ n → s'.arr j = s.arr j ∧ ∀ x, elem s' j x = elem s j x

/-- Array object `n` of `s'`, made by a call in state `s`, is an independent copy of array object `i`. -/
structure FreshCopy {T} [Inhabited T] (k : Kind) (s s' : Store T) (i n : Nat) (shape : List Nat)
    (tr : List Nat → List Nat) : Prop where
  shape_eq : shapeOf s' n = some shape
  read : ∀ x, InRange shape x → elem s' n x = elem s i (tr x)
  rest : ∀ j, j ≠ n → s'.arr j = s.arr j ∧ ∀ x, elem s' j x = elem s j x
  apart : ∀ j, j ≠ n → Apart k s' n j

/-- No call of the program is one of the calls that lose memory: `resize`/`append` on an array whose
origin is shifted, construction with the wrong number of strides, or assignment from an array of
another element type. -/
def Thrifty {T} [Inhabited T] (k : Kind) : List (Op T) → Store T → Prop
  | [], _ => True
  | o :: l, s =>
    (match o with
      | .newStrided shape stride _ => shape.length = stride.length
      | .resize i _ _ => ∀ h, s.arr i = some h → h.shift = 0
      | .append i _ _ => ∀ h, s.arr i = some h → h.shift = 0
      | .convertAssign _ _ => False
      | _ => True) ∧
    match step k s o with
    | .ok s' => Thrifty k l s'
    | .threw s' => Thrifty k l s'
    | .ub _ => True

end Brille.Spec
