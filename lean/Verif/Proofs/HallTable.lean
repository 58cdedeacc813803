/-
The certificate for every row of the table of space groups, checked by the kernel.
-/
import Verif.Proofs.HallCode
import Verif.Proofs.SpgDb
import Verif.Proofs.PointGroup
import Verif.Proofs.SnapCert

namespace Brille.Hall
open Brille.Mot Brille.Sym Brille.Spg

/-- the rotation part -/
def Mo.rot (p : Mo) : Mo := { p with x := 0, y := 0, z := 0 }

/-- the rotation parts, without repetition -/
def rots : List Mo → List Mo → List Mo
  | [], acc => acc
  | p :: l, acc => rots l (bif mem p.rot acc then acc else p.rot :: acc)

/-- the centring translations as codes -/
def centringCodes (L : Bravais) : Option (List Mo) :=
  match centrings L with
  | none => none
  | some ts => codes (ts.map fun t => (⟨idMat, t⟩ : Motion))

/-- the condition of `Verif.Proofs.SnapCert` for real and reciprocal basis vectors -/
def certSnap (L : Bravais) (S : List (Fin 3 → Fin 3 → ℤ)) : Bool :=
  let isP := decide (L = .P)
  let isR := decide (L = .R)
  Snap.certS S isP isR true && Snap.certS (S.map Mat.transpose) isP isR false

def certGroup (pg : Nat) (L : Bravais) (T K : List Mo) : Bool :=
  (K.all fun k => bif k.rot.eq Mo.one then mem k T else true) &&
    (T.all fun t => mem t K) &&
    (Nat.beq (PG.pointgroupNumber ((rots K []).map fun k => k.motion.W)) pg &&
      certSnap L ((rots K []).map fun k => k.motion.W))

def cert (r : Row) : Bool :=
  match fromAscii (bytes r.hallSymbol) with
  | none => false
  | some h =>
    h.validate &&
    match centringCodes h.L, h.generators with
    | some T, some gs =>
      match codes gs with
      | none => false
      | some cs =>
        match group [Mo.one] cs with
        | none => false
        | some K => certGroup r.pointgroup h.L T K
    | _, _ => false

theorem cert0 : ((table.drop 1).take 199).all cert = true := by decide +kernel

theorem cert1 : ((table.drop 200).take 200).all cert = true := by decide +kernel

theorem cert2 : ((table.drop 400).take 70).all cert = true := by decide +kernel

theorem cert3 : ((table.drop 470).take 30).all cert = true := by decide +kernel

theorem cert4 : ((table.drop 500).take 31).all cert = true := by decide +kernel

theorem cert_all : ∀ r ∈ table.tail, cert r = true := by
  have e : table.tail = (table.drop 1).take 199 ++ ((table.drop 200).take 200 ++ ((table.drop 400).take 70 ++
      ((table.drop 470).take 30 ++ (table.drop 500).take 31))) := by
    have key : ∀ (a n : Nat) (l : List Row), (l.drop a).take n ++ l.drop (a + n) = l.drop a := by
      intro a n l
      rw [← List.drop_drop]
      exact List.take_append_drop n _
    have last : (table.drop 500).take 31 = table.drop 500 := by
      apply List.take_of_length_le
      rw [List.length_drop, table_length]
    rw [last, key 470 30, key 400 70, key 200 200, key 1 199, List.drop_one]
  intro r hr
  rw [e] at hr
  simp only [List.mem_append] at hr
  rcases hr with h | h | h | h | h
  · exact List.all_eq_true.mp cert0 r h
  · exact List.all_eq_true.mp cert1 r h
  · exact List.all_eq_true.mp cert2 r h
  · exact List.all_eq_true.mp cert3 r h
  · exact List.all_eq_true.mp cert4 r h

end Brille.Hall
