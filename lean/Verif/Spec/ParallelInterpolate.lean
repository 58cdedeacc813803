/-
Words used in the statements about threaded interpolation.
-/
import Verif.Model.ParallelInterpolate

namespace Brille.Spec

open Brille.ParInterp (Outcome)

/-- the point was not found -/
def isMissing {K : Type} : Outcome K → Bool
  | .missing => true
  | _ => false

/-- the text of the exception, if the point threw one -/
def textOf {K : Type} : Outcome K → Option String
  | .threw w => some w
  | _ => none

/-- several texts, one per line -/
def lines : List String → String
  | [] => ""
  | w :: ws => ws.foldl (fun a x => a ++ "\n" ++ x) w

end Brille.Spec
