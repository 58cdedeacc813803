/-
C68 for centred lattices: the first Brillouin zone is bounded by the planes in the middle between the origin and the reflections that
the centring allows, whichever of the two lattices the search works with.
-/
import Verif.Model.ZoneCentred
import Verif.Props.ZoneVolume
import Verif.Props.Primitive
import Verif.Proofs.IrCheck

namespace Brille.Props

open Brille.Spec Brille.Tetra Brille.Faces Brille.Cut Brille.Convex Brille.Zone Brille.Neighbours Brille.Prim MeasureTheory
open Brille.IrCheck (relative cartesian)

/-- the reflections that are lattice points: all if the primitive lattice is not asked for -/
def Allowed (primitive : Bool) (c : Centring) (i : Fin 3 → ℤ) : Prop := primitive = true → reflectionCondition c (i 0) (i 1) (i 2)

/-- the first zone of the lattice which has the given reciprocal basis and centring -/
def CentredZone (primitive : Bool) (c : Centring) (B : Matrix (Fin 3) (Fin 3) ℚ) : Set (Fin 3 → ℝ) := Nearest B (Allowed primitive c)

/-- the number of lattice points in the conventional cell -/
def multiplicity (primitive : Bool) (c : Centring) : ℕ := if primitive then 1 + (centringVectors c).length else 1

/-- the transformation, with the integers of the matrix -/
def backMatrix (primitive : Bool) (c : Centring) : IMat := if primitive then (getInvPt (letter c)).getD 0 else m9 1 0 0 0 1 0 0 0 1

/-- the basis of the lattice that is used -/
def innerBasis (primitive : Bool) (c : Centring) (B : Fin 3 → Pt) : Fin 3 → Pt := fun k d =>
  B 0 d * backMatrix primitive c 0 k + B 1 d * backMatrix primitive c 1 k + B 2 d * backMatrix primitive c 2 k

theorem inner_eq (primitive : Bool) (c : Centring) (B : Fin 3 → Pt) : ∃ on, Zone.inner primitive (letter c) B = some (on, innerBasis primitive c B) ∧
    ∀ v, (fromPrimitive (letter c) on .inverseAngstrom v).map Prod.snd = some (applyQ (backMatrix primitive c) v) := by
  have one : ∀ v : Fin 3 → ℚ, v = applyQ (m9 1 0 0 0 1 0 0 0 1) v := by
    intro v
    funext i
    rw [applyQ3]
    fin_cases i <;> simp [m9]
  have basis : B = fun k d => B 0 d * m9 1 0 0 0 1 0 0 0 1 0 k + B 1 d * m9 1 0 0 0 1 0 0 0 1 1 k + B 2 d * m9 1 0 0 0 1 0 0 0 1 2 k := by
    funext k d
    fin_cases k <;> simp [m9]
  have tr : Mat.transpose (m9 1 0 0 0 1 0 0 0 1) = m9 1 0 0 0 1 0 0 0 1 := by
    funext i j
    fin_cases i <;> fin_cases j <;> rfl
  cases primitive
  · refine ⟨.standard, ?_, fun v => ?_⟩
    · simp only [Zone.inner, Bool.false_eq_true, if_false]
      congr 2
    · simp only [fromPrimitive, if_true, Option.map_some]
      exact congrArg some (one v)
  · by_cases hc : c = .P
    · subst hc
      refine ⟨.standard, ?_, fun v => ?_⟩
      · simp only [Zone.inner, if_true, primitiveBasis, letter, doesNothing, decide_true, Option.map_some]
        congr 2
        unfold innerBasis
        rw [show backMatrix true .P = m9 1 0 0 0 1 0 0 0 1 from tr]
        exact basis
      · simp only [fromPrimitive, if_true, Option.map_some]
        rw [show backMatrix true .P = m9 1 0 0 0 1 0 0 0 1 from tr]
        exact congrArg some (one v)
    · refine ⟨.primitive, ?_, fun v => ?_⟩
      · cases c <;> first | exact absurd rfl hc | rfl
      · cases c <;> first | exact absurd rfl hc | rfl

theorem applyQ_cartesian (primitive : Bool) (c : Centring) (B : Fin 3 → Pt) (v : Pt) :
    cartesian B (applyQ (backMatrix primitive c) v) = cartesian (innerBasis primitive c B) v := by
  funext d
  simp only [cartesian, applyQ3, innerBasis]
  ring

theorem inner_det (primitive : Bool) (c : Centring) (B : Matrix (Fin 3) (Fin 3) ℚ) :
    (Matrix.of (innerBasis primitive c B)).det = multiplicity primitive c * B.det := by
  simp only [Matrix.det_fin_three, Matrix.of_apply, innerBasis]
  cases primitive <;> cases c <;>
    simp [backMatrix, multiplicity, letter, getInvPt, getInvP, Mat.transpose, m9, centringVectors] <;> ring

theorem inner_det_ne (primitive : Bool) (c : Centring) (B : Matrix (Fin 3) (Fin 3) ℚ) (hB : B.det ≠ 0) :
    (Matrix.of (innerBasis primitive c B)).det ≠ 0 := by
  rw [inner_det]
  refine mul_ne_zero ?_ hB
  unfold multiplicity
  split <;> positivity

theorem coordinates_position (B : Fin 3 → Pt) (i : ℤ × ℤ × ℤ) : cartesian B (coordinates i) = position B i := by
  funext d
  simp [cartesian, coordinates, position]

theorem primitiveTau_map (B : Fin 3 → Pt) (e : ℤ) : (primitiveTau B e).map (position B) = tau B e := by
  unfold primitiveTau tau
  exact List.map_insertionSort _ _ (position B) _ fun a _ b _ => Iff.rfl

theorem mapM_some_of {α β : Type} (f : α → Option β) (g : α → β) (h : ∀ a, f a = some (g a)) (l : List α) : l.mapM f = some (l.map g) := by
  rw [show f = fun a => some (g a) from funext h]
  induction l with
  | nil => rfl
  | cons a l ih => simp [List.mapM_cons, ih]

theorem cartesian_of_relative (B : Fin 3 → Pt) (hB : (Matrix.of B).det ≠ 0) (x : Pt) : cartesian B (relative B x) = x := by
  have hu : IsUnit (Matrix.of B).transpose.det := by rw [Matrix.det_transpose]; exact hB.isUnit
  rw [Convex.cartesian_eq, Convex.relative_eq B hB, Matrix.mulVec_mulVec, Matrix.mul_nonsing_inv _ hu, Matrix.one_mulVec]

theorem search_centred (primitive divide : Bool) (c : Centring) (B : Matrix (Fin 3) (Fin 3) ℚ) (hB : B.det ≠ 0) (e : ℤ) :
    voroSearchCentred primitive divide (letter c) B e = voroSearch (tau (innerBasis primitive c B) e) := by
  obtain ⟨on, h1, h2⟩ := inner_eq primitive c B
  have hd := inner_det_ne primitive c B hB
  have hs : ∀ l, fromPrimitives (letter c) on l = some (l.map (applyQ (backMatrix primitive c))) := fun l => mapM_some_of _ _ h2 l
  unfold voroSearchCentred
  rw [h1]
  simp only [Option.bind_eq_bind, Option.bind_some, hs, List.map_map]
  have ht : (primitiveTau (innerBasis primitive c B) e).map (cartesian (innerBasis primitive c B) ∘ coordinates) =
      tau (innerBasis primitive c B) e := by
    rw [← primitiveTau_map]
    exact List.map_congr_left fun i _ => coordinates_position _ i
  cases divide
  · simp only [Bool.false_eq_true, if_false]
    rw [← ht]
    congr 1
    exact List.map_congr_left fun i _ => applyQ_cartesian primitive c B _
  · simp only [if_true]
    rw [ht]
    cases hv : voroSearch (tau (innerBasis primitive c B) e) with
    | none => rfl
    | some r =>
      obtain ⟨v, f⟩ := r
      simp only [Option.bind_some, Option.pure_def, Option.some.injEq, Prod.mk.injEq, and_true]
      conv_rhs => rw [← List.map_id v]
      refine List.map_congr_left fun x _ => ?_
      exact (applyQ_cartesian primitive c B _).trans (cartesian_of_relative _ hd x)

/-- the constructor is that of the lattice which is used -/
theorem construct_centred (near : ℚ → ℚ → Bool) (primitive divide : Bool) (c : Centring) (B : Matrix (Fin 3) (Fin 3) ℚ) (hB : B.det ≠ 0)
    (turns : Nat) (extent : ℤ) (old : ℚ) :
    constructCentred near primitive divide (letter c) B turns extent old = construct near (innerBasis primitive c B) turns extent old := by
  have key : ∀ B' : Fin 3 → Pt, (∀ e, voroSearchCentred primitive divide (letter c) B' e = voroSearch (tau (innerBasis primitive c B') e)) →
      constructCentred near primitive divide (letter c) B' turns extent old = construct near (innerBasis primitive c B') turns extent old := by
    intro B' hB'
    induction turns generalizing extent old with
    | zero => rfl
    | succ n ih =>
      rw [constructCentred, construct, hB']
      cases voroSearch (tau (innerBasis primitive c B') extent) with
      | none => rfl
      | some r => simp only [ih]
  exact key B fun e => search_centred primitive divide c B hB e

/-- the coordinates on the conventional lattice of a point of the lattice that is used -/
def conventional (primitive : Bool) (c : Centring) (i : Fin 3 → ℤ) : Fin 3 → ℤ := fun k =>
  backMatrix primitive c k 0 * i 0 + backMatrix primitive c k 1 * i 1 + backMatrix primitive c k 2 * i 2

theorem conventional_point (primitive : Bool) (c : Centring) (B : Matrix (Fin 3) (Fin 3) ℚ) (i : Fin 3 → ℤ) :
    latticePoint (Matrix.of (innerBasis primitive c B)) i = latticePoint B (conventional primitive c i) := by
  funext d
  simp only [latticePoint, Fin.sum_univ_three, Matrix.of_apply, innerBasis, conventional]
  push_cast
  ring

theorem conventional_allowed (primitive : Bool) (c : Centring) (i : Fin 3 → ℤ) : Allowed primitive c (conventional primitive c i) := by
  rintro rfl
  cases c <;> simp [reflectionCondition, conventional, backMatrix, letter, getInvPt, getInvP, Mat.transpose, m9] <;> omega

theorem allowed_conventional (primitive : Bool) (c : Centring) (h : Fin 3 → ℤ) (ha : Allowed primitive c h) :
    ∃ i, conventional primitive c i = h := by
  cases primitive
  · refine ⟨h, ?_⟩
    funext k
    fin_cases k <;> simp [conventional, backMatrix, m9]
  · obtain ⟨on, q, h1, h2⟩ := C19_reflection_condition c (h 0) (h 1) (h 2)
    have hint := h2.mpr (ha rfl)
    choose i hi using hint
    obtain ⟨on', w, g1, g2, g3⟩ := (C19_roundtrip c .inverseAngstrom ![(h 0 : ℚ), h 1, h 2]).1
    rw [h1] at g1
    obtain ⟨rfl, rfl⟩ := Prod.mk.inj (Option.some.inj g1)
    refine ⟨i, ?_⟩
    have key : applyQ (backMatrix true c) q = ![(h 0 : ℚ), h 1, h 2] := by
      by_cases hP : c = .P
      · subst hP
        have e := (Prod.mk.inj (Option.some.inj h1)).2
        rw [← e]
        funext k
        rw [applyQ3]
        fin_cases k <;> simp [backMatrix, letter, getInvPt, getInvP, Mat.transpose, m9]
      · obtain ⟨on2, -, h4⟩ := inner_eq true c 0
        rw [if_neg hP] at g2
        subst g2
        have : (fromPrimitive (letter c) .primitive .inverseAngstrom q).map Prod.snd = some (applyQ (backMatrix true c) q) := by
          cases c <;> first | exact absurd rfl hP | rfl
        rw [g3] at this
        exact (Option.some.inj this).symm
    funext k
    have hk := congrFun key k
    rw [applyQ3, hi 0, hi 1, hi 2] at hk
    have : ((conventional true c i k : ℤ) : ℚ) = ((h k : ℤ) : ℚ) := by
      unfold conventional
      push_cast
      rw [hk]
      fin_cases k <;> rfl
    exact_mod_cast this

/-- **C68 (centring).** The first zone of the primitive lattice is bounded by the planes in the middle between the origin and the
reflections that the centring allows. -/
theorem C68_centring (primitive : Bool) (c : Centring) (B : Matrix (Fin 3) (Fin 3) ℚ) :
    FirstZone (Matrix.of (innerBasis primitive c B)) = CentredZone primitive c B := by
  ext x
  constructor
  · intro hx h hh
    obtain ⟨i, rfl⟩ := allowed_conventional primitive c h hh
    have := hx i trivial
    rwa [conventional_point] at this
  · intro hx i _
    rw [conventional_point]
    exact hx _ (conventional_allowed primitive c i)

/-- **C68 (volume, centred lattices).** The volume of the zone is the volume of the reciprocal cell times the number of lattice points in
the conventional cell. -/
theorem C68_centred_volume (primitive : Bool) (c : Centring) (B : Matrix (Fin 3) (Fin 3) ℚ) (hB : B.det ≠ 0) :
    volume (CentredZone primitive c B) = ENNReal.ofReal ((multiplicity primitive c * |B.det| : ℚ) : ℝ) := by
  rw [← C68_centring, C68_zone_volume _ (inner_det_ne primitive c B hB), inner_det, abs_mul, Nat.abs_cast]

/-- **C68 (centred lattices).** From some extent on the search finds the zone of the centred lattice, for every centring, whether the
primitive lattice is asked for or not, and whether the search works with the primitive or the conventional lattice. -/
theorem C68_centred_search (primitive : Bool) (c : Centring) (B : Matrix (Fin 3) (Fin 3) ℚ) (hB : B.det ≠ 0) : ∃ E : ℤ, ∀ e, E ≤ e →
    ∀ divide, ∃ v f, voroSearchCentred primitive divide (letter c) B e = some (v, f) ∧ ConvexSolid v f ∧
      Hull (· ∈ v) = CentredZone primitive c B ∧ Faces.volume f (fun i => v.getD i 0) = multiplicity primitive c * |B.det| := by
  have hd := inner_det_ne primitive c B hB
  obtain ⟨E, hE⟩ := C68_large_extent _ hd
  obtain ⟨E', hE'⟩ := C68_large_extent_volume _ hd
  refine ⟨max E E', fun e he divide => ?_⟩
  obtain ⟨v, f, h1, h2, h3⟩ := hE e ((le_max_left _ _).trans he) (tau _ e) (tau_perm _ e)
  obtain ⟨v', f', h1', h4⟩ := hE' e ((le_max_right _ _).trans he) (tau _ e) (tau_perm _ e)
  rw [h1] at h1'
  obtain ⟨rfl, rfl⟩ := Prod.mk.inj (Option.some.inj h1')
  refine ⟨v, f, (search_centred primitive divide c B hB e).trans h1, h2, ?_, ?_⟩
  · rw [h3, C68_centring]
  · rw [h4, inner_det, abs_mul, Nat.abs_cast]

/-- **C68 (the constructor, centred lattices).** It returns after finitely many turns.  The result is a convex polyhedron and does not depend
on the lattice the search works with.  If it has the right volume and the zone is part of it, it is the zone. -/
theorem C68_centred_construct (near : ℚ → ℚ → Bool) (hr : ∀ a, near a a = true) (hz : ∀ a, 0 < a → near a 0 = false) (primitive : Bool)
    (c : Centring) (B : Matrix (Fin 3) (Fin 3) ℚ) (hB : B.det ≠ 0) (start : ℤ) (hs : 1 ≤ start) (old : ℚ) :
    ∃ N, ∀ turns, N ≤ turns → ∃ v f, (∀ divide, constructCentred near primitive divide (letter c) B turns start old = some (v, f)) ∧
      ConvexSolid v f ∧ (CentredZone primitive c B ⊆ Hull (· ∈ v) →
        (Faces.volume f (fun i => v.getD i 0) = multiplicity primitive c * |B.det| ↔ Hull (· ∈ v) = CentredZone primitive c B)) := by
  have hd := inner_det_ne primitive c B hB
  obtain ⟨N, hN⟩ := C68_terminates near hr hz _ hd start hs old
  refine ⟨N, fun turns ht => ?_⟩
  obtain ⟨v, f, h⟩ := hN turns ht
  obtain ⟨hv, -⟩ := C68_construct_partial near _ hd turns start hs old v f h
  refine ⟨v, f, fun divide => (construct_centred near primitive divide c B hB turns start old).trans h, hv, fun hsub => ?_⟩
  rw [← C68_centring] at hsub ⊢
  have hne := faces_ne v f hv (hsub (zero_nearest _ _))
  have := (C68_volume_decides _ hd v f hv hne hsub).2
  rwa [inner_det, abs_mul, Nat.abs_cast] at this

/-- **C68 (primitive coordinates).** The coordinates of the vertices relative to the primitive lattice are those of the same points. -/
theorem C68_primitive_vertices (primitive : Bool) (c : Centring) (B : Matrix (Fin 3) (Fin 3) ℚ) (hB : B.det ≠ 0) (v : List Pt) :
    ∃ w, primitiveVertices primitive (letter c) B v = some w ∧ w.map (cartesian (innerBasis primitive c B)) = v := by
  have hid : (v.map (relative B)).map (cartesian B) = v := by
    rw [List.map_map]
    conv_rhs => rw [← List.map_id v]
    exact List.map_congr_left fun x _ => cartesian_of_relative B hB x
  have same : (primitive && !doesNothing (letter c)) = false → innerBasis primitive c B = B := by
    intro h
    funext k d
    cases primitive
    · fin_cases k <;> simp [innerBasis, backMatrix, m9]
    · cases c <;> first
        | (simp [doesNothing, letter] at h; done)
        | (fin_cases k <;> simp [innerBasis, backMatrix, letter, getInvPt, getInvP, Mat.transpose, m9])
  unfold primitiveVertices
  cases hp : primitive && !doesNothing (letter c) with
  | false => exact ⟨_, rfl, by rw [same hp]; exact hid⟩
  | true =>
    simp only [if_true]
    have step : ∀ q : Pt, ∃ w, (toPrimitive (letter c) .standard .inverseAngstrom q).map Prod.snd = some w ∧
        cartesian (innerBasis primitive c B) w = cartesian B q := by
      intro q
      have hpt : primitive = true := by revert hp; cases primitive <;> simp
      have hP : c ≠ .P := by rintro rfl; simp [letter, doesNothing] at hp
      obtain ⟨on, w, g1, g2, g3⟩ := (C19_roundtrip c .inverseAngstrom q).1
      refine ⟨w, by rw [g1]; rfl, ?_⟩
      refine (applyQ_cartesian primitive c B w).symm.trans ?_
      rw [if_neg hP] at g2
      subst g2 hpt
      have : (fromPrimitive (letter c) .primitive .inverseAngstrom w).map Prod.snd = some (applyQ (backMatrix true c) w) := by
        cases c <;> first | exact absurd rfl hP | rfl
      rw [g3] at this
      rw [← Option.some.inj this]
    choose g hg hg' using step
    rw [mapM_some_of _ g hg]
    refine ⟨_, rfl, ?_⟩
    rw [List.map_map]
    conv_rhs => rw [← hid]
    exact List.map_congr_left fun q _ => hg' q

/-! ### cases -/

/-- the reciprocal lattice of a face centred cube: the zone is a truncated octahedron with four times the volume of the cell -/
example : ∃ E : ℤ, ∀ e, E ≤ e → ∀ divide, ∃ v f, voroSearchCentred true divide .F (fun i j => if i = j then 1 else 0) e = some (v, f) ∧
    ConvexSolid v f ∧ Hull (· ∈ v) = CentredZone true .F 1 ∧ Faces.volume f (fun i => v.getD i 0) = 4 := by
  obtain ⟨E, hE⟩ := C68_centred_search true .F 1 (by rw [Matrix.det_one]; norm_num)
  refine ⟨E, fun e he divide => ?_⟩
  obtain ⟨v, f, h1, h2, h3, h4⟩ := hE e he divide
  refine ⟨v, f, ?_, h2, h3, by rw [h4, Matrix.det_one]; norm_num [multiplicity, centringVectors]⟩
  rw [← h1]
  congr 1

/-- a corner of that octahedron: it is as far from the origin as from three allowed reflections, and beyond the zone of the conventional
lattice -/
example : (real ![1 / 2, 1, 0] : Fin 3 → ℝ) ∈ CentredZone true .F 1 ∧ (real ![1 / 2, 1, 0] : Fin 3 → ℝ) ∉ CentredZone false .F 1 := by
  have pt : ∀ i : Fin 3 → ℤ, latticePoint 1 i = fun d => (i d : ℚ) := by
    intro i
    funext d
    simp [latticePoint, Matrix.one_apply]
  have dist : ∀ i : Fin 3 → ℤ, distance2 (real ![1 / 2, 1, 0]) (real (latticePoint 1 i)) =
      (1 / 2 - i 0) ^ 2 + (1 - i 1) ^ 2 + (i 2) ^ 2 := by
    intro i
    rw [pt]
    simp [distance2, Fin.sum_univ_three, real]
  have zero : distance2 (real ![1 / 2, 1, 0]) 0 = 5 / 4 := by
    simp [distance2, Fin.sum_univ_three, real]
    norm_num
  constructor
  · intro i hi
    have h := hi rfl
    simp only [reflectionCondition] at h
    rw [dist, zero]
    have key : (0 : ℤ) ≤ i 0 ^ 2 - i 0 + i 1 ^ 2 - 2 * i 1 + i 2 ^ 2 := by
      have h0 : 0 ≤ i 0 ^ 2 - i 0 := by
        rcases le_or_gt (i 0) 0 with g | g <;> nlinarith
      by_cases h1 : i 1 = 1
      · rw [h1]
        have h2 : i 2 ≠ 0 := by omega
        have : 1 ≤ i 2 ^ 2 := by
          rcases lt_or_gt_of_ne h2 with g | g <;> nlinarith
        linarith
      · have : 0 ≤ i 1 ^ 2 - 2 * i 1 := by
          rcases lt_or_gt_of_ne h1 with g | g
          · have : i 1 ≤ 0 := by omega
            nlinarith
          · have : 2 ≤ i 1 := by omega
            nlinarith
        nlinarith [sq_nonneg (i 2)]
    have : (0 : ℝ) ≤ (i 0 : ℝ) ^ 2 - i 0 + (i 1 : ℝ) ^ 2 - 2 * i 1 + (i 2 : ℝ) ^ 2 := by exact_mod_cast key
    linarith
  · intro h
    have := h ![0, 1, 0] (by simp [Allowed])
    rw [dist, zero, show (![0, 1, 0] : Fin 3 → ℤ) 2 = 0 from rfl] at this
    norm_num at this

end Brille.Props
