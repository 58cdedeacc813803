/- Sums over the triangles of faces: volume and centroid. -/
import Verif.Model.Faces
import Verif.Spec.Polyhedron
import Verif.Proofs.FacesEq
import Verif.Props.ListUtil
import Mathlib.Tactic.Ring
import Mathlib.Tactic.Linarith
import Mathlib.Tactic.LinearCombination
import Mathlib.Algebra.BigOperators.Ring.List

namespace Brille.Faces

open Brille.Tetra

/-- the sum over the triangles with first vertex `a` -/
def fanL (g : Pt → Pt → Pt → ℚ) (a : Pt) : List Pt → ℚ
  | b :: c :: l => g a b c + fanL g a (c :: l)
  | _ => 0

/-- `fanSum` by recursion -/
def fan (g : Pt → Pt → Pt → ℚ) : List Pt → ℚ
  | [] => 0
  | a :: l => fanL g a l

theorem fanL_eq (g : Pt → Pt → Pt → ℚ) (a : Pt) (x : Nat → Pt) : ∀ l : List Nat,
    fanL g a (l.map x) = ((List.range (l.length - 1)).map fun i => g a (x (l.getD i 0)) (x (l.getD (i + 1) 0))).sum
  | [] => by simp [fanL]
  | [b] => by simp [fanL]
  | b :: c :: l => by
    have ih := fanL_eq g a x (c :: l)
    simp only [List.map_cons] at ih
    simp only [List.map_cons, fanL, ih]
    simp [List.range_succ_eq_map, Function.comp_def]

theorem fanSum_eq (g : Pt → Pt → Pt → ℚ) (x : Nat → Pt) (f : Face) : fanSum g x f = fan g (f.map x) := by
  unfold fanSum
  cases f with
  | nil => simp [fan]
  | cons a l =>
    simp only [List.map_cons, fan, fanL_eq]
    have : (a :: l).length - 2 = l.length - 1 := by simp
    rw [this, List.range'_eq_map_range, List.map_map]
    congr 1
    apply List.map_congr_left
    intro i _
    simp [Function.comp, Nat.add_comm 1 i]

/-- the sum over the edges of a path -/
def path (f : Pt → Pt → ℚ) : List Pt → ℚ
  | b :: c :: l => f b c + path f (c :: l)
  | _ => 0

theorem zip_sum (f : Pt → Pt → ℚ) (x : Nat → Pt) (z : Nat) : ∀ (l : List Nat) (a : Nat),
    (((a :: l).zip (l ++ [z])).map fun e => f (x e.1) (x e.2)).sum =
      path f ((a :: l).map x) + f (x ((a :: l).getLast (by simp))) (x z)
  | [], a => by simp [path]
  | b :: l, a => by
    have ih := zip_sum f x z l b
    simp only [List.map_cons] at ih
    simp only [List.cons_append, List.zip_cons_cons, List.map_cons, List.sum_cons, path]
    rw [ih, List.getLast_cons_cons]
    ring

theorem steps_cons (a : Nat) (l : List Nat) : Spec.steps (a :: l) = (a :: l).zip (l ++ [a]) := by
  unfold Spec.steps
  simp

theorem faceEdges_eq (f : Face) : faceEdges f = Spec.steps f := by
  unfold faceEdges Spec.steps
  apply List.ext_getElem
  · simp
  · intro i h1 h2
    have hi : i < f.length := by simpa using h1
    have hp : (i + 1) % f.length < f.length := Nat.mod_lt _ (by omega)
    simp [List.getElem_rotate, List.getD_eq_getElem?_getD, List.getElem?_eq_getElem hp,
      List.getElem?_eq_getElem hi]

/-- the sum over the steps around a polygon -/
def around (f : Pt → Pt → ℚ) (x : Nat → Pt) (face : Face) : ℚ :=
  ((Spec.steps face).map fun e => f (x e.1) (x e.2)).sum

/-- an exact form: the sum over the triangles is a sum over the boundary -/
theorem fanL_boundary (g : Pt → Pt → Pt → ℚ) (f : Pt → Pt → ℚ) (anti : ∀ u v, f v u = -f u v)
    (hg : ∀ a b c, g a b c = f a b + f b c + f c a) (a : Pt) : ∀ (l : List Pt) (b : Pt),
    fanL g a (b :: l) = f a b + path f (b :: l) + f ((b :: l).getLast (by simp)) a
  | [], b => by simp [fanL, path, anti a b]
  | c :: l, b => by
    have ih := fanL_boundary g f anti hg a l c
    simp only [fanL, path, ih, hg, List.getLast_cons_cons]
    rw [anti a c]
    ring

theorem fan_boundary (g : Pt → Pt → Pt → ℚ) (f : Pt → Pt → ℚ) (anti : ∀ u v, f v u = -f u v)
    (hg : ∀ a b c, g a b c = f a b + f b c + f c a) (x : Nat → Pt) (face : Face) :
    fan g (face.map x) = around f x face := by
  unfold around
  cases face with
  | nil => simp [fan, Spec.steps]
  | cons a l =>
    rw [steps_cons, zip_sum]
    cases l with
    | nil =>
      have := anti (x a) (x a)
      simp [fan, fanL, path]
      linarith
    | cons b l =>
      simp only [List.map_cons, fan]
      rw [fanL_boundary g f anti hg]
      simp only [path, List.getLast_cons_cons]
      congr 1
      congr 1
      have : (x b :: List.map x l) = List.map x (b :: l) := rfl
      simp only [this, List.getLast_map]

/-- around a closed surface every antisymmetric edge sum vanishes -/
theorem closed_sum (faces : List Face) (hc : Spec.Closed faces) (f : Pt → Pt → ℚ) (anti : ∀ u v, f v u = -f u v)
    (x : Nat → Pt) : (faces.map (around f x)).sum = 0 := by
  have h1 : (faces.map (around f x)).sum =
      ((faces.flatMap Spec.steps).map fun e => f (x e.1) (x e.2)).sum := by
    induction faces with
    | nil => simp
    | cons a l ih =>
      have : ∀ l : List Face, (l.map (around f x)).sum =
          ((l.flatMap Spec.steps).map fun e => f (x e.1) (x e.2)).sum := by
        intro l
        induction l with
        | nil => simp
        | cons a l ih => simp [ih, around]
      exact this _
  rw [h1]
  have hp : (faces.flatMap Spec.steps).Perm ((faces.flatMap Spec.steps).map Prod.swap) := by
    rw [List.perm_iff_count]
    rintro ⟨a, b⟩
    have : ((a, b) : Nat × Nat) = Prod.swap (b, a) := rfl
    rw [hc a b, this, List.count_map_of_injective _ _ Prod.swap_injective]
  have h2 := (hp.map fun e => f (x e.1) (x e.2)).sum_eq
  rw [List.map_map] at h2
  have h3 : ((faces.flatMap Spec.steps).map ((fun e => f (x e.1) (x e.2)) ∘ Prod.swap)).sum =
      -((faces.flatMap Spec.steps).map fun e => f (x e.1) (x e.2)).sum := by
    generalize faces.flatMap Spec.steps = L
    induction L with
    | nil => simp
    | cons e L ih =>
      simp only [List.map_cons, List.sum_cons, ih, Function.comp, Prod.fst_swap, Prod.snd_swap]
      rw [anti (x e.1) (x e.2)]
      ring
  rw [h3] at h2
  linarith

theorem fanL_congr {g g' : Pt → Pt → Pt → ℚ} (a : Pt) : ∀ l : List Pt,
    (∀ b ∈ l, ∀ c ∈ l, g a b c = g' a b c) → fanL g a l = fanL g' a l
  | [], _ => rfl
  | [_], _ => rfl
  | b :: c :: l, h => by
    simp only [fanL]
    rw [h b (by simp) c (by simp), fanL_congr a (c :: l) (fun u hu v hv => h u (by simp [hu]) v (by simp [hv]))]

theorem fan_congr {g g' : Pt → Pt → Pt → ℚ} (l : List Pt)
    (h : ∀ a ∈ l, ∀ b ∈ l, ∀ c ∈ l, g a b c = g' a b c) : fan g l = fan g' l := by
  cases l with
  | nil => rfl
  | cons a l => exact fanL_congr a l fun b hb c hc => h a (by simp) b (by simp [hb]) c (by simp [hc])

theorem fanL_linear (g g' : Pt → Pt → Pt → ℚ) (r s : ℚ) (a : Pt) : ∀ l : List Pt,
    fanL (fun a b c => r * g a b c + s * g' a b c) a l = r * fanL g a l + s * fanL g' a l
  | [] => by simp [fanL]
  | [_] => by simp [fanL]
  | b :: c :: l => by
    simp only [fanL, fanL_linear g g' r s a (c :: l)]
    ring

theorem fan_linear (g g' : Pt → Pt → Pt → ℚ) (r s : ℚ) (l : List Pt) :
    fan (fun a b c => r * g a b c + s * g' a b c) l = r * fan g l + s * fan g' l := by
  cases l with
  | nil => simp [fan]
  | cons a l => exact fanL_linear g g' r s a l

theorem fanL_map (g : Pt → Pt → Pt → ℚ) (T : Pt → Pt) (a : Pt) : ∀ l : List Pt,
    fanL g (T a) (l.map T) = fanL (fun a b c => g (T a) (T b) (T c)) a l
  | [] => by simp [fanL]
  | [_] => by simp [fanL]
  | b :: c :: l => by
    have := fanL_map g T a (c :: l)
    simp only [List.map_cons] at this
    simp only [List.map_cons, fanL, this]

theorem fan_map (g : Pt → Pt → Pt → ℚ) (T : Pt → Pt) (l : List Pt) :
    fan g (l.map T) = fan (fun a b c => g (T a) (T b) (T c)) l := by
  cases l with
  | nil => simp [fan]
  | cons a l => exact fanL_map g T a l

/-- total of a triangle sum over the faces -/
def total (g : Pt → Pt → Pt → ℚ) (faces : List Face) (x : Nat → Pt) : ℚ := (faces.map (fanSum g x)).sum

theorem total_eq (g : Pt → Pt → Pt → ℚ) (faces : List Face) (x : Nat → Pt) :
    total g faces x = (faces.map fun f => fan g (f.map x)).sum := by
  unfold total
  congr 1
  exact List.map_congr_left fun f _ => fanSum_eq g x f

theorem total_linear (g g' : Pt → Pt → Pt → ℚ) (r s : ℚ) (faces : List Face) (x : Nat → Pt) :
    total (fun a b c => r * g a b c + s * g' a b c) faces x = r * total g faces x + s * total g' faces x := by
  simp only [total_eq, fan_linear]
  induction faces with
  | nil => simp
  | cons f l ih => simp only [List.map_cons, List.sum_cons, ih]; ring

theorem total_map (g : Pt → Pt → Pt → ℚ) (T : Pt → Pt) (faces : List Face) (x : Nat → Pt) :
    total g faces (fun i => T (x i)) = total (fun a b c => g (T a) (T b) (T c)) faces x := by
  simp only [total_eq, ← fan_map, List.map_map, Function.comp_def]

theorem total_closed (g : Pt → Pt → Pt → ℚ) (f : Pt → Pt → ℚ) (anti : ∀ u v, f v u = -f u v)
    (hg : ∀ a b c, g a b c = f a b + f b c + f c a) (faces : List Face) (hc : Spec.Closed faces) (x : Nat → Pt) :
    total g faces x = 0 := by
  rw [total_eq]
  simp only [fan_boundary g f anti hg]
  exact closed_sum faces hc f anti x

theorem volume_total (faces : List Face) (x : Nat → Pt) : volume faces x = total volumeTerm faces x / 6 := rfl

theorem centroid_total (faces : List Face) (x : Nat → Pt) (j : Fin 3) :
    centroid faces x j = total (centroidTerm j) faces x / (48 * volume faces x) := rfl

/-- twice the oriented area of a triangle, seen along `t` -/
def areaTerm (t a b c : Pt) : ℚ := dot (cross (diff b a) (diff c a)) t

theorem area_exact (t a b c : Pt) :
    areaTerm t a b c = dot (cross a b) t + dot (cross b c) t + dot (cross c a) t := by
  simp only [areaTerm, dot, cross, diff, Matrix.cons_val_zero, Matrix.cons_val_one, Matrix.cons_val]
  ring

theorem area_anti (t u v : Pt) : dot (cross v u) t = -dot (cross u v) t := by
  simp only [dot, cross, Matrix.cons_val_zero, Matrix.cons_val_one, Matrix.cons_val]
  ring

theorem area_closed (t : Pt) (faces : List Face) (hc : Spec.Closed faces) (x : Nat → Pt) :
    total (areaTerm t) faces x = 0 :=
  total_closed _ (fun u v => dot (cross u v) t) (area_anti t) (area_exact t) faces hc x

/-- the edge form whose boundary sum is the difference of the two ways to find the volume by flux -/
def seg (p q r : Fin 3) (u v : Pt) : ℚ :=
  (v r - u r) * (2 * u p * u q + u p * v q + v p * u q + 2 * v p * v q) / 6

theorem seg_anti (p q r : Fin 3) (u v : Pt) : seg p q r v u = -seg p q r u v := by unfold seg; ring

def fluxTerm (j : Fin 3) (a b c : Pt) : ℚ :=
  cross (diff b a) (diff c a) j * (a j + b j + c j) - volumeTerm a b c

theorem flux_exact0 (a b c : Pt) : fluxTerm 0 a b c =
    2 * (seg 0 1 2 a b - seg 0 2 1 a b) + 2 * (seg 0 1 2 b c - seg 0 2 1 b c) +
      2 * (seg 0 1 2 c a - seg 0 2 1 c a) := by
  simp only [fluxTerm, seg, volumeTerm, dot, cross, diff, Matrix.cons_val_zero, Matrix.cons_val_one, Matrix.cons_val]
  ring

theorem flux_exact1 (a b c : Pt) : fluxTerm 1 a b c =
    2 * (seg 1 2 0 a b - seg 1 0 2 a b) + 2 * (seg 1 2 0 b c - seg 1 0 2 b c) +
      2 * (seg 1 2 0 c a - seg 1 0 2 c a) := by
  simp only [fluxTerm, seg, volumeTerm, dot, cross, diff, Matrix.cons_val_zero, Matrix.cons_val_one, Matrix.cons_val]
  ring

theorem flux_exact2 (a b c : Pt) : fluxTerm 2 a b c =
    2 * (seg 2 0 1 a b - seg 2 1 0 a b) + 2 * (seg 2 0 1 b c - seg 2 1 0 b c) +
      2 * (seg 2 0 1 c a - seg 2 1 0 c a) := by
  simp only [fluxTerm, seg, volumeTerm, dot, cross, diff, Matrix.cons_val_zero, Matrix.cons_val_one, Matrix.cons_val]
  ring

theorem flux_closed (j : Fin 3) (faces : List Face) (hc : Spec.Closed faces) (x : Nat → Pt) :
    total (fluxTerm j) faces x = 0 := by
  match j with
  | 0 => exact total_closed _ (fun u v => 2 * (seg 0 1 2 u v - seg 0 2 1 u v))
          (fun u v => by rw [seg_anti 0 1 2 u v, seg_anti 0 2 1 u v]; ring) flux_exact0 faces hc x
  | 1 => exact total_closed _ (fun u v => 2 * (seg 1 2 0 u v - seg 1 0 2 u v))
          (fun u v => by rw [seg_anti 1 2 0 u v, seg_anti 1 0 2 u v]; ring) flux_exact1 faces hc x
  | 2 => exact total_closed _ (fun u v => 2 * (seg 2 0 1 u v - seg 2 1 0 u v))
          (fun u v => by rw [seg_anti 2 0 1 u v, seg_anti 2 1 0 u v]; ring) flux_exact2 faces hc x

end Brille.Faces
