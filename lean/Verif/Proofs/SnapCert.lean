/-
A condition on a list of matrices, quick to compute, under which adjusting a lattice to its symmetry leaves a lattice
alone that has the symmetry.  `Verif.Proofs.Snap` proves this, `Verif.Proofs.HallTable` computes it for all tabulated
settings.
-/
import Verif.Model.Motion

namespace Brille.Snap

/-- column `i` is `s` times the unit vector `k` -/
def isCol (R : Fin 3 → Fin 3 → ℤ) (i k : Fin 3) (s : ℤ) : Bool := R k i == s && R (k + 1) i == 0 && R (k + 2) i == 0

/-- row `i` is `s` times the unit vector `k` -/
def isRow (R : Fin 3 → Fin 3 → ℤ) (i k : Fin 3) (s : ℤ) : Bool := R i k == s && R i (k + 1) == 0 && R i (k + 2) == 0

/-- a matrix takes the unit vectors `a`, `b` to `c`, `d` or to their opposites, in some order -/
def eqC (S : List (Fin 3 → Fin 3 → ℤ)) (a b c d : Fin 3) : Bool := S.any fun R =>
  (isCol R a c 1 && isCol R b d 1) || (isCol R a c (-1) && isCol R b d (-1)) ||
    (isCol R a d 1 && isCol R b c 1) || (isCol R a d (-1) && isCol R b c (-1))

/-- a matrix keeps one of the unit vectors `a`, `b` and reverses the other -/
def zC (S : List (Fin 3 → Fin 3 → ℤ)) (a b : Fin 3) : Bool := S.any fun R =>
  (isCol R a a 1 && isCol R b b (-1)) || (isCol R a a (-1) && isCol R b b 1)

/-- a matrix that forces the angle between `i` and `i + 1` to be 120° or 60° -/
def hexC (S : List (Fin 3 → Fin 3 → ℤ)) (i : Fin 3) (real : Bool) : Bool := S.any fun R =>
  let j := i + 1
  let k := i + 2
  let s := R i i * R i j + R j i * R j j
  let r := R i i * R j j + R j i * R i j
  R k i == 0 && R k j == 0 && r != 1 && 2 * s == (if real then r - 1 else 1 - r)

/-- a matrix that forces `i + 2` to be perpendicular to `i` and `i + 1` -/
def zPair (S : List (Fin 3 → Fin 3 → ℤ)) (i : Fin 3) : Bool := S.any fun R =>
  let j := i + 1
  let k := i + 2
  R k i == 0 && R k j == 0 && R i k == 0 && R j k == 0 && (R k k == 1 || R k k == -1) &&
    (1 - R k k * R i i) * (1 - R k k * R j j) - R j i * R i j != 0

def eqAng (S : List (Fin 3 → Fin 3 → ℤ)) (i j : Fin 3) : Bool := eqC S (i + 1) (i + 2) (j + 1) (j + 2)
def zAng (S : List (Fin 3 → Fin 3 → ℤ)) (i : Fin 3) : Bool := zC S (i + 1) (i + 2)

def mainF (S : List (Fin 3 → Fin 3 → ℤ)) (i : Fin 3) : Bool := S.any fun R => isCol R i (i + 1) 1
def dualF (S : List (Fin 3 → Fin 3 → ℤ)) (i : Fin 3) : Bool := S.any fun R => isRow R i (i + 1) 1

def implies (a b : Bool) : Bool := bif a then b else true

/-- the condition for one `i` with `main i` -/
def certMain (S : List (Fin 3 → Fin 3 → ℤ)) (isP isR real : Bool) (d : Fin 3 → Bool) (i : Fin 3) : Bool :=
  !(d 0 && d 1) && !((d 0 && decide (i ≠ 0)) || (d 1 && decide (i ≠ 1)) || (d 2 && decide (i ≠ 2))) &&
    implies (d i) (implies isR (hexC S i real) &&
      bif isP then eqAng S i (i + 1) || zPair S i else zPair S i)

/-- the condition; the matrices act on the basis vectors whose lengths and angles are adjusted -/
def certS (S : List (Fin 3 → Fin 3 → ℤ)) (isP isR real : Bool) : Bool :=
  let m := mainF S
  let d := dualF S
  bif m 0 && m 1 then
    bif d 0 && d 1 then
      bif isP then eqAng S 0 1 && eqAng S 1 2 else zAng S 0 && zAng S 1 && zAng S 2
    else
      let c := fun i => implies (d i) (bif isP || isR then eqAng S i (i + 1) else zAng S i && zAng S (i + 1))
      c 0 && c 1 && c 2
  else
    implies (m 0) (certMain S isP isR real d 0) && implies (m 1) (certMain S isP isR real d 1) &&
      implies (m 2) (certMain S isP isR real d 2)

theorem certS_congr {S T : List (Fin 3 → Fin 3 → ℤ)} (h : ∀ R, R ∈ S ↔ R ∈ T) (isP isR real : Bool) :
    certS S isP isR real = certS T isP isR real := by
  have key : ∀ f : (Fin 3 → Fin 3 → ℤ) → Bool, S.any f = T.any f := by
    intro f
    rw [Bool.eq_iff_iff, List.any_eq_true, List.any_eq_true]
    simp only [h]
  have k1 : ∀ i, mainF S i = mainF T i := fun i => key _
  have k2 : ∀ i, dualF S i = dualF T i := fun i => key _
  have k3 : ∀ i j, eqAng S i j = eqAng T i j := fun i j => key _
  have k4 : ∀ i, zAng S i = zAng T i := fun i => key _
  have k5 : ∀ i, zPair S i = zPair T i := fun i => key _
  have k6 : ∀ i b, hexC S i b = hexC T i b := fun i b => key _
  unfold certS certMain
  simp only [funext k1, funext k2, k3, k4, k5, k6]

end Brille.Snap
