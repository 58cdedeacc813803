/-
C26: the weights of a tetrahedron are the barycentric coordinates of the point.
-/
import Verif.Proofs.Tetra
import Verif.Props.Approx
import Mathlib.Tactic.NormNum

namespace Brille.Props

open Brille.Tetra Brille.Spec Brille.Approx

/-- The comparison with zero accepts exactly the numbers up to a tolerance. -/
def ZeroUpTo (isZero : ℚ → Bool) (τ : ℚ) : Prop := 0 ≤ τ ∧ ∀ z, isZero z = true ↔ |z| ≤ τ

/-- That of the code does, with a tolerance of about `5e-15`. -/
theorem zeroUpTo_double : ZeroUpTo (fun z => scalar .double .double z 0 0 0 1)
    ((5 / 10 ^ 15) / (1 - 10 ^ 4 / 2 ^ 52)) := by
  refine ⟨by norm_num, fun z => ?_⟩
  rw [C15_double_meaning, sub_zero, add_zero, le_div_iff₀ (by norm_num)]
  constructor <;> intro h <;> linarith

/-- **C26 (barycentric).** For every tetrahedron whose stored volume is the volume of its corners, and not
zero, and for every point: the four computed numbers sum to one and reproduce the point, and they are the only
ones that do. -/
theorem C26_barycentric (v : Nat → Pt) (t : Tet) (x : Pt)
    (hv : t.vol * 6 = vol6 fun j => v (t.vi j)) (h0 : t.vol ≠ 0) :
    Places (fun j => v (t.vi j)) (baryW v t x) x ∧
      ∀ w, Places (fun j => v (t.vi j)) w x → w = baryW v t x :=
  ⟨baryW_places v t x hv h0, baryW_unique v t x hv h0⟩

/-- **C26 (inside).** Without tolerance all of them are non-negative exactly if the point is inside, and the
test that is done first with the circumsphere changes nothing. -/
theorem C26_inside (isZero : ℚ → Bool) (hz : ZeroUpTo isZero 0) (near : ℚ → ℚ → Bool)
    (hnear : ∀ a, near a a = true) (v : Nat → Pt) (t : Tet) (ht : Fits v t) (x : Pt) (shortcut : Bool) :
    (0 ≤ tetContains isZero near v t x shortcut ↔ InTet (fun j => v (t.vi j)) x) ∧
      (InTet (fun j => v (t.vi j)) x ↔ ∀ j, 0 ≤ baryW v t x j) := by
  have h1 : 0 ≤ tetContains isZero near v t x shortcut → ∀ j, 0 ≤ baryW v t x j := by
    intro h j
    by_contra hneg
    have := (hz.2 _).mp (tetContains_weights h j (not_le.mp hneg))
    exact hneg (abs_nonpos_iff.mp this).ge
  have h2 : (∀ j, 0 ≤ baryW v t x j) → InTet (fun j => v (t.vi j)) x :=
    fun h => ⟨_, h, baryW_places v t x ht.vol ht.pos.ne'⟩
  have h3 : InTet (fun j => v (t.vi j)) x → 0 ≤ tetContains isZero near v t x shortcut :=
    fun h => tetContains_of_inTet hnear ht h shortcut
  exact ⟨⟨fun h => h2 (h1 h), h3⟩, ⟨fun h => h1 (h3 h), h2⟩⟩

/-- **C26 (found).** If the point is in one of the tetrahedra of the node, the node reports weights, whatever
the tolerances. -/
theorem C26_found (isZero : ℚ → Bool) (near : ℚ → ℚ → Bool) (hnear : ∀ a, near a a = true) (v : Nat → Pt)
    (tets : List Tet) (ht : ∀ t ∈ tets, Fits v t) (x : Pt)
    (hx : ∃ t ∈ tets, InTet (fun j => v (t.vi j)) x) (shouldContain : Bool) :
    ∃ iw, polyIndicesWeights isZero near v tets x shouldContain = .found iw := by
  obtain ⟨t, hm, hin⟩ := hx
  unfold polyIndicesWeights
  cases hf : tets.find? (fun t => decide (0 ≤ tetContains isZero near v t x true)) with
  | some t' => exact ⟨_, rfl⟩
  | none =>
    rw [List.find?_eq_none] at hf
    exact absurd (tetContains_of_inTet hnear (ht t hm) hin true) (by simpa using hf t hm)

/-- **C26 (weights).** When a node reports weights for a point which it need not contain, they are positive and
belong to corners of one of its tetrahedra, in which the point lies up to the tolerance; and any function that
is linear up to a constant is reproduced up to the tolerance. -/
theorem C26_weights (isZero : ℚ → Bool) (τ : ℚ) (hz : ZeroUpTo isZero τ) (near : ℚ → ℚ → Bool)
    (v : Nat → Pt) (tets : List Tet) (ht : ∀ t ∈ tets, Fits v t) (x : Pt) (iw : List (Nat × ℚ))
    (h : polyIndicesWeights isZero near v tets x false = .found iw) :
    ∃ t ∈ tets, (∀ p ∈ iw, τ < p.2 ∧ ∃ j, p.1 = t.vi j) ∧
      (∃ w, (∀ j, -τ ≤ w j) ∧ Places (fun j => v (t.vi j)) w x) ∧
      ∀ f, AffineMap f → ∀ M, (∀ j, |f (v (t.vi j))| ≤ M) →
        |combine iw (fun i => f (v i)) - f x| ≤ 4 * τ * M := by
  unfold polyIndicesWeights at h
  cases hf : tets.find? (fun t => decide (0 ≤ tetContains isZero near v t x true)) with
  | none => rw [hf] at h; simp at h
  | some t =>
    rw [hf] at h
    have hm := List.mem_of_find?_eq_some hf
    have hc : 0 ≤ tetContains isZero near v t x true := by simpa using List.find?_some hf
    have hw := tetContains_weights hc
    have hlow : ∀ j, -τ ≤ baryW v t x j := by
      intro j
      by_cases hneg : baryW v t x j < 0
      · have := (hz.2 _).mp (hw j hneg)
        exact (abs_le.mp this).1
      · have := hz.1
        linarith [not_lt.mp hneg]
    obtain rfl := Outcome.found.inj h
    have hp := baryW_places v t x (ht t hm).vol (ht t hm).pos.ne'
    refine ⟨t, hm, ?_, ⟨_, hlow, hp⟩, ?_⟩
    · intro p hp
      unfold nonzero at hp
      rw [List.mem_map] at hp
      obtain ⟨j, hj, rfl⟩ := hp
      refine ⟨?_, j, rfl⟩
      rw [List.mem_filter] at hj
      have hnz : ¬ |baryW v t x j| ≤ τ := fun hle => by
        have := (hz.2 _).mpr hle
        simp [this] at hj
      by_contra hle
      exact hnz (abs_le.mpr ⟨hlow j, not_lt.mp hle⟩)
    · intro f hf M hM
      exact combine_close (fun z hzz => (hz.2 z).mp hzz) hp hf hz.1 hM

/-- **C26 (exactly).** Without tolerance a node reports weights exactly if one of its tetrahedra contains the
point, and they reproduce every function that is linear up to a constant. -/
theorem C26_exact (isZero : ℚ → Bool) (hz : ZeroUpTo isZero 0) (near : ℚ → ℚ → Bool)
    (hnear : ∀ a, near a a = true) (v : Nat → Pt) (tets : List Tet) (ht : ∀ t ∈ tets, Fits v t) (x : Pt) :
    ((∃ iw, polyIndicesWeights isZero near v tets x false = .found iw) ↔
      ∃ t ∈ tets, InTet (fun j => v (t.vi j)) x) ∧
    ∀ iw, polyIndicesWeights isZero near v tets x false = .found iw →
      (∀ p ∈ iw, 0 < p.2) ∧ ∀ f, AffineMap f → combine iw (fun i => f (v i)) = f x := by
  refine ⟨⟨?_, fun h => C26_found isZero near hnear v tets ht x h false⟩, ?_⟩
  · rintro ⟨iw, h⟩
    obtain ⟨t, hm, _, ⟨w, hw, hp⟩, _⟩ := C26_weights isZero 0 hz near v tets ht x iw h
    exact ⟨t, hm, w, fun j => by have := hw j; linarith, hp⟩
  · intro iw h
    obtain ⟨t, hm, hpos, _, hf⟩ := C26_weights isZero 0 hz near v tets ht x iw h
    refine ⟨fun p hp => (hpos p hp).1, fun f hfa => ?_⟩
    have := hf f hfa (|f (v (t.vi 0))| + |f (v (t.vi 1))| + |f (v (t.vi 2))| + |f (v (t.vi 3))|) (by
      have h0 := abs_nonneg (f (v (t.vi 0)))
      have h1 := abs_nonneg (f (v (t.vi 1)))
      have h2 := abs_nonneg (f (v (t.vi 2)))
      have h3 := abs_nonneg (f (v (t.vi 3)))
      intro j
      match j with
      | 0 => linarith
      | 1 => linarith
      | 2 => linarith
      | 3 => linarith)
    rw [mul_zero, zero_mul] at this
    exact sub_eq_zero.mp (abs_nonpos_iff.mp this)

/-- **C26 (escape).** If the node is told that it should contain the point, then, having any tetrahedra at all,
it always reports weights and throws nothing; they may then extrapolate, but still reproduce functions that are
linear up to a constant. -/
theorem C26_should_contain (isZero : ℚ → Bool) (τ : ℚ) (hz : ZeroUpTo isZero τ) (near : ℚ → ℚ → Bool)
    (v : Nat → Pt) (tets : List Tet) (hne : tets ≠ []) (ht : ∀ t ∈ tets, Fits v t) (x : Pt) :
    ∃ iw, polyIndicesWeights isZero near v tets x true = .found iw ∧
      ∃ t ∈ tets, (∀ p ∈ iw, ∃ j, p.1 = t.vi j) ∧
      ∀ f, AffineMap f → ∀ M, (∀ j, |f (v (t.vi j))| ≤ M) →
        |combine iw (fun i => f (v i)) - f x| ≤ 4 * τ * M := by
  have key : ∀ t ∈ tets, (∀ p ∈ nonzero isZero t (baryW v t x), ∃ j, p.1 = t.vi j) ∧
      ∀ f, AffineMap f → ∀ M, (∀ j, |f (v (t.vi j))| ≤ M) →
        |combine (nonzero isZero t (baryW v t x)) (fun i => f (v i)) - f x| ≤ 4 * τ * M := by
    intro t hm
    constructor
    · intro p hp
      unfold nonzero at hp
      rw [List.mem_map] at hp
      obtain ⟨j, _, rfl⟩ := hp
      exact ⟨j, rfl⟩
    · intro f hf M hM
      exact combine_close (fun z hzz => (hz.2 z).mp hzz)
        (baryW_places v t x (ht t hm).vol (ht t hm).pos.ne') hf hz.1 hM
  unfold polyIndicesWeights
  cases hf : tets.find? (fun t => decide (0 ≤ tetContains isZero near v t x true)) with
  | some t => exact ⟨_, rfl, t, List.mem_of_find?_eq_some hf, key t (List.mem_of_find?_eq_some hf)⟩
  | none =>
    dsimp only
    rw [if_pos rfl]
    cases hb : bestTet (fun t => tetContains isZero near v t x true) tets with
    | none => cases tets with
      | nil => exact absurd rfl hne
      | cons a l => simp [bestTet] at hb
    | some t =>
      dsimp only
      have hle : ¬ 0 < tetContains isZero near v t x false := by
        unfold tetContains
        rw [if_neg (by simp)]
        exact not_lt.mpr (worst_le_zero _ _)
      rw [if_neg hle]
      exact ⟨_, rfl, t, bestTet_mem hb, key t (bestTet_mem hb)⟩

/-- the corners of the unit tetrahedron, in the order with positive volume -/
def unitTet : Nat → Pt
  | 0 => ![1, 0, 0]
  | 1 => ![0, 1, 0]
  | 2 => ![0, 0, 1]
  | _ => ![0, 0, 0]

/-- a tetrahedron with its corners on a sphere of rational radius -/
def sphereTet : Nat → Pt
  | 0 => ![2, 0, 0]
  | 1 => ![0, 2, 0]
  | 2 => ![0, 0, 1]
  | _ => ![0, 0, 0]

example : Fits sphereTet { vi := fun j => j.val, centre := ![1, 1, 1/2], radius := 3/2, vol := 2/3 } := by
  refine ⟨by decide +kernel, by norm_num, ?_⟩
  intro j
  rw [Fin.sum_univ_three]
  match j with
  | 0 => decide +kernel
  | 1 => decide +kernel
  | 2 => decide +kernel
  | 3 => decide +kernel

/-- a point on an edge needs two corners -/
example : polyIndicesWeights (fun z => decide (z = 0)) (fun a b => decide (a = b)) sphereTet
    [{ vi := fun j => j.val, centre := ![1, 1, 1/2], radius := 3/2, vol := 2/3 }] ![1/2, 3/2, 0] false =
    .found [(0, 1/4), (1, 3/4)] := by decide +kernel

example : AffineMap fun p => 3 + 2 * p 0 - p 2 :=
  ⟨3, ![2, 0, -1], fun p => by rw [Fin.sum_univ_three]; simp [Matrix.cons_val]; ring⟩

/-- A node without tetrahedra that is told it should contain the point reads beyond its lists. -/
theorem C26_empty_counterexample (isZero : ℚ → Bool) (near : ℚ → ℚ → Bool) (v : Nat → Pt) (x : Pt) :
    polyIndicesWeights isZero near v [] x true = .bad := rfl

/-- If the corners are in negative order while the stored volume is positive, the weights sum to minus one and
no point is found inside. -/
theorem C26_orientation_counterexample :
    ∃ t : Tet, t.vol * 6 = -vol6 (fun j => unitTet (t.vi j)) ∧ 0 < t.vol ∧
      ∑ j, baryW unitTet t ![1/4, 1/4, 1/4] j = -1 :=
  ⟨⟨![1, 0, 2, 3], ![1/2, 1/2, 1/2], 1, 1/6⟩, by decide +kernel, by norm_num, by
    rw [Fin.sum_univ_four]; decide +kernel⟩

end Brille.Props
