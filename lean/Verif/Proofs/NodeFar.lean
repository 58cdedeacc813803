/-
The nodes that are assumed to be null are too far away from the polyhedron.
-/
import Verif.Proofs.NodeBox
import Verif.Proofs.Knots
import Mathlib.Analysis.Real.Sqrt

namespace Brille.Props

open Brille.TrellisBuild Brille.Spec Brille.Tetra Brille.Cut
open Brille.IrCheck (Poly)
open Brille.Trellis hiding Pt

/-- `farther` is the comparison of the distance with the sum of two radii that the code makes -/
theorem farther_iff (d2 a2 b2 : ℚ) (hd : 0 ≤ d2) (ha : 0 ≤ a2) (hb : 0 ≤ b2) :
    farther d2 a2 b2 = true ↔ Real.sqrt a2 + Real.sqrt b2 < Real.sqrt d2 := by
  have ha' : (0 : ℝ) ≤ a2 := by exact_mod_cast ha
  have hb' : (0 : ℝ) ≤ b2 := by exact_mod_cast hb
  have hd' : (0 : ℝ) ≤ d2 := by exact_mod_cast hd
  have sa := Real.sqrt_nonneg (a2 : ℝ)
  have sb := Real.sqrt_nonneg (b2 : ℝ)
  have qa := Real.sq_sqrt ha'
  have qb := Real.sq_sqrt hb'
  have e : farther d2 a2 b2 = true ↔ (0 : ℝ) < d2 - a2 - b2 ∧ 4 * (a2 : ℝ) * b2 < (d2 - a2 - b2) * (d2 - a2 - b2) := by
    unfold farther
    rw [decide_eq_true_eq]
    constructor
    · rintro ⟨h1, h2⟩; exact ⟨by exact_mod_cast h1, by exact_mod_cast h2⟩
    · rintro ⟨h1, h2⟩; exact ⟨by exact_mod_cast h1, by exact_mod_cast h2⟩
  rw [e, Real.lt_sqrt (by positivity)]
  set x := Real.sqrt (a2 : ℝ)
  set y := Real.sqrt (b2 : ℝ)
  rw [← qa, ← qb]
  set w := (d2 : ℝ) - x ^ 2 - y ^ 2 with hw
  have hxy : 0 ≤ 2 * (x * y) := by positivity
  have h4 : 4 * x ^ 2 * y ^ 2 = (2 * (x * y)) * (2 * (x * y)) := by ring
  rw [h4]
  have hs : (x + y) ^ 2 < (d2 : ℝ) ↔ 2 * (x * y) < w := by
    rw [hw]; constructor <;> intro h <;> nlinarith
  rw [hs]
  constructor
  · rintro ⟨h1, h2⟩; exact lt_of_mul_self_lt_mul_self₀ h1.le h2
  · intro h; exact ⟨lt_of_le_of_lt hxy h, mul_self_lt_mul_self hxy h⟩

/-- the square of the distance of two points -/
def sq (x y : Fin 3 → ℝ) : ℝ := (x 0 - y 0) ^ 2 + (x 1 - y 1) ^ 2 + (x 2 - y 2) ^ 2

theorem sq_real (p q : Pt) : sq (real p) (real q) = ((dist2 p q : ℚ) : ℝ) := by
  simp only [sq, real, TrellisBuild.dist2, dot, diff]; push_cast; ring

theorem ball_convex (c : Fin 3 → ℝ) (r : ℝ) : Convex ℝ {x | sq x c ≤ r} := by
  intro x hx y hy s t hs ht hst
  simp only [Set.mem_ofPred_eq] at hx hy ⊢
  have e : sq (s • x + t • y) c = s * sq x c + t * sq y c - s * t * sq x y := by
    have : t = 1 - s := by linarith
    subst this
    simp only [sq, Pi.add_apply, Pi.smul_apply, smul_eq_mul]; ring
  have h0 : 0 ≤ sq x y := by unfold sq; positivity
  rw [e]
  have h1 := mul_le_mul_of_nonneg_left hx hs
  have h2 := mul_le_mul_of_nonneg_left hy ht
  have h3 := mul_nonneg (mul_nonneg hs ht) h0
  have : s * r + t * r = r := by rw [← add_mul, hst, one_mul]
  linarith

theorem poly_ball (P : Poly) (x : Fin 3 → ℝ) (hx : x ∈ Hull (· ∈ P.1)) :
    sq x (real (Faces.centroid P.2 fun i => P.1.getD i 0)) ≤ (polyRadius2 P : ℝ) := by
  refine convexHull_min ?_ (ball_convex _ _) hx
  rintro _ ⟨p, hp, rfl⟩
  show sq _ _ ≤ _
  rw [sq_real]
  have : dist2 p (Faces.centroid P.2 fun i => P.1.getD i 0) ≤ polyRadius2 P := by
    unfold polyRadius2
    have key : ∀ (l : List ℚ) (a : ℚ), a ≤ l.foldl max a ∧ ∀ x ∈ l, x ≤ l.foldl max a := by
      intro l
      induction l with
      | nil => simp
      | cons b l ih =>
        intro a
        obtain ⟨h1, h2⟩ := ih (max a b)
        simp only [List.foldl_cons, List.mem_cons, forall_eq_or_imp]
        exact ⟨(le_max_left _ _).trans h1, (le_max_right _ _).trans h1, h2⟩
    exact (key _ _).2 _ (List.mem_map.mpr ⟨p, hp, rfl⟩)
  exact_mod_cast this

/-- two balls that share a point are not farther apart than the sum of their radii -/
theorem not_farther (c e : Pt) (x : Fin 3 → ℝ) (a2 b2 : ℚ) (ha : sq x (real c) ≤ a2) (hb : sq x (real e) ≤ b2) :
    farther (dist2 c e) a2 b2 = false := by
  rw [← Bool.not_eq_true]
  intro h
  unfold farther at h
  rw [decide_eq_true_eq] at h
  have h1 : (0 : ℝ) < sq (real c) (real e) - a2 - b2 := by rw [sq_real]; exact_mod_cast h.1
  have h2 : 4 * (a2 : ℝ) * b2 < (sq (real c) (real e) - a2 - b2) * (sq (real c) (real e) - a2 - b2) := by
    rw [sq_real]; exact_mod_cast h.2
  -- the product of the vectors from `x`
  set u : Fin 3 → ℝ := fun d => real c d - x d
  set w : Fin 3 → ℝ := fun d => x d - real e d
  set m := u 0 * w 0 + u 1 * w 1 + u 2 * w 2 with hm
  have eD : sq (real c) (real e) = sq x (real c) + sq x (real e) + 2 * m := by
    simp only [sq, hm, u, w]; ring
  have cs : m * m ≤ sq x (real c) * sq x (real e) := by
    have : sq x (real c) * sq x (real e) - m * m = (u 0 * w 1 - u 1 * w 0) ^ 2 + (u 1 * w 2 - u 2 * w 1) ^ 2 + (u 0 * w 2 - u 2 * w 0) ^ 2 := by
      simp only [sq, hm, u, w]; ring
    nlinarith [sq_nonneg (u 0 * w 1 - u 1 * w 0), sq_nonneg (u 1 * w 2 - u 2 * w 1), sq_nonneg (u 0 * w 2 - u 2 * w 0)]
  have n1 : 0 ≤ sq x (real c) := by unfold sq; positivity
  have n2 : 0 ≤ sq x (real e) := by unfold sq; positivity
  have le : sq (real c) (real e) - a2 - b2 ≤ 2 * m := by linarith
  have h3 : (sq (real c) (real e) - a2 - b2) * (sq (real c) (real e) - a2 - b2) ≤ (2 * m) * (2 * m) :=
    mul_self_le_mul_self h1.le le
  have h4 : sq x (real c) * sq x (real e) ≤ (a2 : ℝ) * b2 := mul_le_mul ha hb n2 (n1.trans ha)
  nlinarith

theorem equal_spacing {longest : ℚ} {values knots : List ℚ} (h : EqualKnots longest values knots) {j : Nat} {a b : ℚ}
    (ha : knots[j]? = some a) (hb : knots[j + 1]? = some b) : b - a = knots.getD 1 0 - knots.getD 0 0 := by
  obtain ⟨st, -, hs⟩ := h.steps
  have l := h.enough
  rw [hs j a b ha hb, hs 0 (knots.getD 0 0) (knots.getD 1 0) (by rw [List.getD_eq_getElem?_getD, List.getElem?_eq_getElem (by omega)]; rfl)
    (by rw [List.getD_eq_getElem?_getD, List.getElem?_eq_getElem (by omega)]; rfl)]

theorem node_centre {t : Grid} {i : Nat} (hi : i < t.nodeCount) {lo hi' : Pt}
    (h : ∀ d, (t.knots d)[t.idx2sub i d]? = some (lo d) ∧ (t.knots d)[t.idx2sub i d + 1]? = some (hi' d)) :
    t.centres.getD i 0 = fun d => (lo d + hi' d) / 2 := by
  obtain ⟨e, hs⟩ := sub2idx_idx2sub t i hi
  obtain ⟨c, hc, hcd⟩ := (C28_centres t).2 (t.idx2sub i) hs
  rw [e] at hc
  rw [List.getD_eq_getElem?_getD, hc, Option.getD_some]
  funext d
  obtain ⟨a, b, ha, hb, hab⟩ := hcd d
  obtain ⟨h1, h2⟩ := h d
  rw [ha] at h1; rw [hb] at h2
  rw [hab, Option.some.inj h1, Option.some.inj h2]

/-- a node assumed to be null has no point in common with the polyhedron -/
theorem assumed_apart {P : Poly} {t : Grid} {i : Nat} (hi : i < t.nodeCount) {longest : ℚ} {values : Fin 3 → List ℚ}
    (hk : ∀ d, EqualKnots longest (values d) (t.knots d)) {lo hi' : Pt}
    (h : ∀ d, (t.knots d)[t.idx2sub i d]? = some (lo d) ∧ (t.knots d)[t.idx2sub i d + 1]? = some (hi' d))
    (ha : assumedNull P t i = true) : Hull (· ∈ P.1) ∩ Box lo hi' = ∅ := by
  rw [Set.eq_empty_iff_forall_notMem]
  rintro x ⟨hx, hb⟩
  unfold assumedNull at ha
  rw [node_centre hi h] at ha
  have := not_farther (fun d => (lo d + hi' d) / 2) (Faces.centroid P.2 fun i => P.1.getD i 0) x (nodeRadius2 t) (polyRadius2 P) ?_ (poly_ball P x hx)
  · rw [this] at ha; exact absurd ha (by simp)
  · have hq : ∀ d, (x d - real (fun d => (lo d + hi' d) / 2) d) ^ 2 ≤ (((t.knots d).getD 1 0 - (t.knots d).getD 0 0 : ℚ) : ℝ) ^ 2 / 4 := by
      intro d
      rw [← equal_spacing (hk d) (h d).1 (h d).2]
      obtain ⟨b1, b2⟩ := hb d
      simp only [real]
      push_cast
      nlinarith
    have : (nodeRadius2 t : ℝ) = (((t.knots 0).getD 1 0 - (t.knots 0).getD 0 0 : ℚ) : ℝ) ^ 2 / 4 +
        (((t.knots 1).getD 1 0 - (t.knots 1).getD 0 0 : ℚ) : ℝ) ^ 2 / 4 + (((t.knots 2).getD 1 0 - (t.knots 2).getD 0 0 : ℚ) : ℝ) ^ 2 / 4 := by
      unfold nodeRadius2; push_cast; ring
    rw [this]
    have h0 := hq 0; have h1 := hq 1; have h2 := hq 2
    unfold sq
    linarith

end Brille.Props
