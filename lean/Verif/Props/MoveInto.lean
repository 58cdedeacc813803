import Verif.Proofs.MoveInto
import Verif.Props.Primitive
import Verif.Props.PointSymmetry
import Verif.Spec.Metric

namespace Brille.Props

open Brille.Move Brille.Prim Brille.Spec Brille.Mat

/-! **C33.** Moving points into the first zone. -/

/-- **C33 (conventional setting).** If `moveinto` returns `q` and `tau` for a point `Q` of the conventional lattice then
`Q = q + tau`, `tau` has integer scalar product with every lattice point, and `q` is inside. -/
theorem C33_moveinto_standard (c : Centring) (z : Zone) (contains : OnLattice → Pt → Bool) (Q q : Pt) (tau : IPt)
    (h : moveinto (letter c) z contains .standard Q = some (q, tau)) :
    (∀ i, Q i = q i + tau i) ∧ IsReciprocalPoint c (fun i => tau i) ∧ contains .standard q = true := by
  unfold moveinto at h
  dsimp only at h
  by_cases hP : doesNothing (letter c) = true
  · rw [if_pos (Or.inr ⟨rfl, hP⟩)] at h
    split at h
    · rename_i hc
      have e := Option.some.inj h
      have e1 : (movePrim z Q).1 = q := congrArg Prod.fst e
      have e2 : (movePrim z Q).2 = tau := congrArg Prod.snd e
      refine ⟨fun i => ?_, ?_, ?_⟩
      · rw [← movePrim_sum z Q i, e1, e2]
      · have hcP : c = .P := by cases c <;> revert hP <;> decide
        subst hcP
        obtain ⟨on, q', h1, h2⟩ := C19_reciprocal_lattice .P (fun i => (tau i : ℚ))
        have : q' = fun i => (tau i : ℚ) := by
          have := Option.some.inj h1
          exact (congrArg Prod.snd this).symm
        exact h2.mp (by rw [this]; exact fun i => ⟨tau i, rfl⟩)
      · rw [← e1]; exact hc
    · exact absurd h (by simp)
  · rw [if_neg (by simp [hP]), if_pos rfl] at h
    obtain ⟨⟨on, Qp, hQp, hon, hback⟩, _⟩ := C19_roundtrip c .inverseAngstrom Q
    have hcP : c ≠ .P := by rintro rfl; exact hP rfl
    rw [if_neg hcP] at hon
    subst hon
    rw [hQp] at h
    dsimp only at h
    obtain ⟨m, hm⟩ : ∃ m, getInvPt (letter c) = some m := by cases c <;> exact ⟨_, rfl⟩
    have hfrom : ∀ v, fromPrimitive (letter c) .primitive .inverseAngstrom v = some (.standard, applyQ m v) := by
      intro v
      simp [fromPrimitive, hP, hm]
    have hint : ∀ v, fromPrimitiveIntRecip (letter c) v = some (Mat.mulVec m v) := by
      intro v
      simp [fromPrimitiveIntRecip, hP, hm]
    rw [hfrom, hint] at h
    dsimp only at h
    split at h
    · rename_i hc
      have e := Option.some.inj h
      have e1 : applyQ m (movePrim z Qp).1 = q := congrArg Prod.fst e
      have e2 : Mat.mulVec m (movePrim z Qp).2 = tau := congrArg Prod.snd e
      have hcast : ∀ i, (tau i : ℚ) = applyQ m (fun i => ((movePrim z Qp).2 i : ℚ)) i := by
        intro i
        rw [← e2, applyQ3, Mot.mulVec3]
        push_cast; rfl
      have hQ : Q = applyQ m Qp := by
        rw [hfrom] at hback
        exact (congrArg Prod.snd (Option.some.inj hback)).symm
      refine ⟨fun i => ?_, ?_, ?_⟩
      · rw [hcast i, hQ, ← e1]
        simp only [applyQ3, ← movePrim_sum z Qp]
        ring
      · obtain ⟨_, ⟨on', w, hw, hon', hback'⟩⟩ := C19_roundtrip c .inverseAngstrom
          (fun i => ((movePrim z Qp).2 i : ℚ))
        rw [if_neg hcP] at hon'
        subst hon'
        have hw' : w = fun i => (tau i : ℚ) := by
          rw [hfrom] at hw
          have := congrArg Prod.snd (Option.some.inj hw)
          funext i
          rw [hcast i]
          exact (congrFun this i).symm
        rw [hw'] at hback'
        obtain ⟨on2, q2, h1, h2⟩ := C19_reciprocal_lattice c (fun i => (tau i : ℚ))
        rw [hback'] at h1
        have : (fun i => ((movePrim z Qp).2 i : ℚ)) = q2 := congrArg Prod.snd (Option.some.inj h1)
        exact h2.mp (by rw [← this]; exact fun i => ⟨_, rfl⟩)
      · rw [← e1]; exact hc
    · exact absurd h (by simp)

/-- **C33 (primitive setting).** The same for a point given in the primitive lattice: `tau` consists of integers by its type. -/
theorem C33_moveinto_primitive (b : Bravais) (z : Zone) (contains : OnLattice → Pt → Bool) (Q q : Pt) (tau : IPt)
    (h : moveinto b z contains .primitive Q = some (q, tau)) :
    (∀ i, Q i = q i + tau i) ∧ contains .primitive q = true := by
  unfold moveinto at h
  dsimp only at h
  rw [if_pos (Or.inl rfl)] at h
  split at h
  · rename_i hc
    have e := Option.some.inj h
    have e1 : (movePrim z Q).1 = q := congrArg Prod.fst e
    have e2 : (movePrim z Q).2 = tau := congrArg Prod.snd e
    exact ⟨fun i => by rw [← movePrim_sum z Q i, e1, e2], by rw [← e1]; exact hc⟩
  · exact absurd h (by simp)

/-- **C33 (other lattices).** A point of an unrelated lattice is refused. -/
theorem C33_moveinto_other (b : Bravais) (z : Zone) (contains : OnLattice → Pt → Bool) (Q : Pt) :
    moveinto b z contains .other Q = none := by
  simp [moveinto]

/-- **C33 (points that need no move).** A point inside whose nearest integer vector is zero stays where it is. -/
theorem C33_already_inside (z : Zone) (Q : Pt) (h0 : ∀ i, Move.round (Q i) = 0) (hin : z.inside Q = true) :
    movePrim z Q = (Q, fun _ => 0) := by
  unfold movePrim
  simp only [h0, Int.cast_zero, sub_zero]
  obtain ⟨k, hk, e, h1, h2⟩ := loop_iterate z z.taus.length { q := Q, tau := fun _ => 0, last := fun _ => 0 }
  have : k = 0 := by
    by_contra hc
    have := h1 0 (by omega)
    simp only [Function.iterate_zero, id_eq] at this
    rw [hin] at this
    exact absurd this (by simp)
  subst this
  show ((loop z z.taus.length { q := Q, tau := fun _ => 0, last := fun _ => 0 }).q,
    (loop z z.taus.length { q := Q, tau := fun _ => 0, last := fun _ => 0 }).tau) = _
  rw [e]
  rfl

/-- The zone's data belong to the lattice with metric `G`: the projection of `q` on the normal of face `j`, divided by the
length of `τ_j`, is `q·τ_j / τ_j·τ_j`. -/
structure GoodZone (G : Fin 3 → Fin 3 → ℚ) (z : Zone) : Prop where
  symm : ∀ i j, G i j = G j i
  pos : ∀ j < z.taus.length, 0 < scalar G (ofInts (tauAt z j)) (ofInts (tauAt z j))
  ratio : ∀ j < z.taus.length, ∀ q, z.proj j q / z.len j =
    scalar G q (ofInts (tauAt z j)) / scalar G (ofInts (tauAt z j)) (ofInts (tauAt z j))
  /-- the points at least as close to the origin as to each `τ_j` are inside -/
  closer : ∀ q, (∀ j < z.taus.length, 2 * scalar G q (ofInts (tauAt z j)) ≤
    scalar G (ofInts (tauAt z j)) (ofInts (tauAt z j))) → z.inside q = true

theorem turn_moves (G : Fin 3 → Fin 3 → ℚ) (z : Zone) (hz : GoodZone G z) (s : St) (hout : z.inside s.q = false) :
    (∃ j < z.taus.length, ∃ n : ℤ, 0 < n ∧ ∀ i, (turn z s).q i = s.q i - n * tauAt z j i) ∧
    scalar G (turn z s).q (turn z s).q ≤ scalar G s.q s.q := by
  have hex : ∃ j < z.taus.length, 0 < nhkl z s.q j := by
    by_contra hc
    push Not at hc
    have : z.inside s.q = true := by
      apply hz.closer
      intro j hj
      have h1 := round_nonpos _ (hc j hj)
      rw [hz.ratio j hj, div_lt_iff₀ (hz.pos j hj)] at h1
      linarith
    rw [hout] at this
    exact absurd this (by simp)
  obtain ⟨h1, h2, h3⟩ := choose_spec z s hex
  have hturn : turn z s =
    { q := fun i => s.q i - tauAt z (choose z s).2 i * (choose z s).1
      tau := fun i => s.tau i + tauAt z (choose z s).2 i * (choose z s).1
      last := fun i => tauAt z (choose z s).2 i * (choose z s).1 } := by
    unfold turn
    rw [if_pos]
    rw [List.any_eq_true]
    obtain ⟨j, hj, hp⟩ := hex
    exact ⟨j, List.mem_range.mpr hj, by simpa using hp⟩
  refine ⟨⟨(choose z s).2, h1, (choose z s).1, h2, fun i => by rw [hturn]; ring⟩, ?_⟩
  rw [hturn]
  dsimp only
  set n := (choose z s).1
  set j := (choose z s).2
  have hge := round_le (z.proj j s.q / z.len j) (by rw [h3] at h2; exact h2)
  have hn : Move.round (z.proj j s.q / z.len j) = n := h3.symm
  rw [hn, hz.ratio j h1, le_div_iff₀ (hz.pos j h1)] at hge
  have hn1 : (1 : ℚ) ≤ n := by exact_mod_cast h2
  have hpos := hz.pos j h1
  have key : scalar G (fun i => s.q i - tauAt z j i * n) (fun i => s.q i - tauAt z j i * n) =
      scalar G s.q s.q - n * (2 * scalar G s.q (ofInts (tauAt z j)) -
        n * scalar G (ofInts (tauAt z j)) (ofInts (tauAt z j))) := by
    unfold scalar ofInts
    rw [hz.symm 1 0, hz.symm 2 0, hz.symm 2 1]
    ring
  rw [key]
  have : 0 ≤ 2 * scalar G s.q (ofInts (tauAt z j)) - n * scalar G (ofInts (tauAt z j)) (ofInts (tauAt z j)) := by
    nlinarith
  nlinarith

/-- **C33 (search).** For the zone of a lattice: the search starts at the point minus the nearest integer vector, makes
at most as many steps as the zone has faces, each step subtracts a positive multiple of one face's lattice vector and
never takes the point farther from the origin, and if fewer steps than faces were made then the point is inside. -/
theorem C33_search (G : Fin 3 → Fin 3 → ℚ) (z : Zone) (hz : GoodZone G z) (Q : Pt) :
    ∃ (k : Nat) (p : Nat → Pt), k ≤ z.taus.length ∧ (∀ i, p 0 i = Q i - Move.round (Q i)) ∧ p k = (movePrim z Q).1 ∧
      (∀ n < k, z.inside (p n) = false ∧
        (∃ j < z.taus.length, ∃ m : ℤ, 0 < m ∧ ∀ i, p (n + 1) i = p n i - m * tauAt z j i) ∧
        scalar G (p (n + 1)) (p (n + 1)) ≤ scalar G (p n) (p n)) ∧
      (k < z.taus.length → z.inside (movePrim z Q).1 = true) := by
  obtain ⟨k, hk, e, h1, h2⟩ := loop_iterate z z.taus.length
    { q := fun i => Q i - Move.round (Q i), tau := fun i => Move.round (Q i), last := fun i => Move.round (Q i) }
  refine ⟨k, fun n => ((turn z)^[n] (St.mk (fun i => Q i - Move.round (Q i)) (fun i => Move.round (Q i))
    (fun i => Move.round (Q i)))).q, hk, fun i => rfl, ?_, ?_, ?_⟩
  · unfold movePrim; dsimp only; rw [e]
  · intro n hn
    have hout := h1 n hn
    have := turn_moves G z hz _ hout
    rw [← Function.iterate_succ_apply' (turn z)] at this
    exact ⟨hout, this⟩
  · intro hl
    unfold movePrim; dsimp only; rw [e]
    exact h2 hl

/-- The cubic lattice with its six faces. -/
def cubic : Zone where
  taus := [![1, 0, 0], ![-1, 0, 0], ![0, 1, 0], ![0, -1, 0], ![0, 0, 1], ![0, 0, -1]]
  proj j q := scalar (fun i j => if i = j then 1 else 0) q
    (ofInts ([![1, 0, 0], ![-1, 0, 0], ![0, 1, 0], ![0, -1, 0], ![0, 0, 1], ![0, 0, -1]].getD j 0))
  len _ := 1
  inside q := decide (∀ i, q i ≤ 1 / 2 ∧ -(1 / 2) ≤ q i)

theorem cubic_good : GoodZone (fun i j => if i = j then 1 else 0) cubic where
  symm i j := by simp [eq_comm]
  pos j hj := by
    have : j < 6 := hj
    interval_cases j <;> decide +kernel
  ratio j hj q := by
    have h1 : scalar (fun i j => if i = j then 1 else 0) (ofInts (tauAt cubic j)) (ofInts (tauAt cubic j)) = 1 := by
      have : j < 6 := hj
      interval_cases j <;> decide +kernel
    rw [h1]
    rfl
  closer q h := by
    have h0 := h 0 (by decide)
    have h1 := h 1 (by decide)
    have h2 := h 2 (by decide)
    have h3 := h 3 (by decide)
    have h4 := h 4 (by decide)
    have h5 := h 5 (by decide)
    simp [scalar, ofInts, tauAt, cubic] at h0 h1 h2 h3 h4 h5
    simp only [cubic, decide_eq_true_eq]
    intro i
    fin_cases i <;> constructor <;> simp <;> linarith

example : moveinto .P cubic (fun _ => cubic.inside) .standard ![7/4, -2/5, 13/5] =
    some (![-1/4, -2/5, -2/5], ![2, 0, 3]) := by decide +kernel

/-- a zone that needs turns of the loop: the cubic lattice again, with a skew basis -/
def skew : Zone where
  taus := [![1, 0, 0], ![-1, 0, 0], ![-2, 1, 0], ![2, -1, 0], ![0, 0, 1], ![0, 0, -1]]
  proj j q := scalar ![![1, 2, 0], ![2, 5, 0], ![0, 0, 1]] q
    (ofInts ([![1, 0, 0], ![-1, 0, 0], ![-2, 1, 0], ![2, -1, 0], ![0, 0, 1], ![0, 0, -1]].getD j 0))
  len _ := 1
  inside q := [![1, 0, 0], ![-1, 0, 0], ![-2, 1, 0], ![2, -1, 0], ![0, 0, 1], ![0, 0, -1]].all fun t =>
    decide (2 * scalar ![![1, 2, 0], ![2, 5, 0], ![0, 0, 1]] q (ofInts t) ≤ 1)

example : moveinto .P skew (fun _ => skew.inside) .standard ![1/4, 9/20, 0] =
    some (![-3/4, 9/20, 0], ![1, 0, 0]) := by decide +kernel

/-! **C34.** Moving points into the irreducible part. -/

theorem rotate3 (r : Op) (q : Pt) (i : Fin 3) : rotate r q i = r 0 i * q 0 + r 1 i * q 1 + r 2 i * q 2 := by
  unfold rotate
  rw [applyQ3]
  rfl

theorem findRotation_spec (wedge : Pt → Bool) (R : List Op) (q q' : Pt) (j : Nat)
    (h : findRotation wedge R q = some (j, q')) :
    ∃ r, R[j]? = some r ∧ q' = rotate r q ∧ wedge q' = true := by
  unfold findRotation at h
  split at h
  · exact absurd h (by simp)
  · rename_i k hk
    rw [List.findIdx?_eq_some_iff_getElem] at hk
    obtain ⟨hlt, hw, _⟩ := hk
    rw [List.getElem?_eq_getElem hlt, Option.map_some] at h
    have e := Option.some.inj h
    have e1 : k = j := congrArg Prod.fst e
    have e2 : rotate R[k] q = q' := congrArg Prod.snd e
    subst e1
    exact ⟨R[k], List.getElem?_eq_getElem hlt, e2.symm, by rw [← e2]; exact hw⟩

theorem rotate_undo (r s : Op) (h : Matrix.of r * Matrix.of s = 1) (q : Pt) (i : Fin 3) :
    rotate s (rotate r q) i = q i := by
  have e : ∀ a b : Fin 3, r a 0 * s 0 b + r a 1 * s 1 b + r a 2 * s 2 b = if a = b then (1 : ℤ) else 0 := by
    intro a b
    have := congrFun (congrFun h a) b
    rw [Matrix.mul_apply, Fin.sum_univ_three, Matrix.one_apply] at this
    exact this
  have e' : ∀ a b : Fin 3, (r a 0 * s 0 b + r a 1 * s 1 b + r a 2 * s 2 b : ℚ) = if a = b then 1 else 0 := by
    intro a b
    have := congrArg (fun x : ℤ => (x : ℚ)) (e a b)
    push_cast at this
    rw [this]
  simp only [rotate3]
  have h0 := e' 0 i
  have h1 := e' 1 i
  have h2 := e' 2 i
  calc _ = q 0 * (r 0 0 * s 0 i + r 0 1 * s 1 i + r 0 2 * s 2 i) +
        q 1 * (r 1 0 * s 0 i + r 1 1 * s 1 i + r 1 2 * s 2 i) +
        q 2 * (r 2 0 * s 0 i + r 2 1 * s 1 i + r 2 2 * s 2 i) := by ring
    _ = _ := by
      rw [h0, h1, h2]
      fin_cases i <;> simp

/-- What is true of a point after the search for an operation. -/
theorem irPoint_spec (wedge : Pt → Bool) (R : List Op) (hid : Mot.idMat ∈ R) (q : Pt) (p : IrPoint)
    (h : irPoint wedge R q = some p) :
    wedge p.q = true ∧ ∃ r rinv, R[p.ridx]? = some r ∧ R[p.invRidx]? = some rinv ∧
      Matrix.of r * Matrix.of rinv = 1 ∧ Matrix.of rinv * Matrix.of r = 1 ∧
      (∀ i, q i = r 0 i * p.q 0 + r 1 i * p.q 1 + r 2 i * p.q 2) ∧ (∀ i, p.q i = rotate rinv q i) := by
  unfold irPoint at h
  split at h
  · rename_i hw
    have e := Option.some.inj h
    subst e
    have hfind := (C12_find_index R Mot.idMat).1 hid
    have h1 : Matrix.of (Mot.idMat : Op) * Matrix.of (Mot.idMat : Op) = 1 := by decide
    refine ⟨hw, Mot.idMat, Mot.idMat, hfind, hfind, h1, h1, fun i => ?_, fun i => ?_⟩
    · fin_cases i <;> simp [Mot.idMat]
    · rw [rotate3]; fin_cases i <;> simp [Mot.idMat]
  · split at h
    · exact absurd h (by simp)
    · rename_i j q' hf
      obtain ⟨r, hr, hq, hw⟩ := findRotation_spec wedge R q q' j hf
      cases hk : Sym.getInverseIndex R j with
      | none => rw [hk] at h; exact absurd h (by simp)
      | some k =>
        rw [hk, Option.map_some] at h
        have e := Option.some.inj h
        subst e
        obtain ⟨s, hs, m1, m2, _⟩ := (C12_inverse_index R j r hr).1 k hk
        refine ⟨hw, s, r, hs, hr, m1, m2, fun i => ?_, fun i => ?_⟩
        · have := rotate_undo r s m2 q i
          rw [← hq, rotate3] at this
          exact this.symm
        · show q' i = _
          rw [hq]

/-- **C34 (reconstruction).** If `ir_moveinto` returns `q`, `tau` and the indices of two operations for `Q`, and the
identity is among the operations, then both indices are valid, the two operations are each other's inverse, the
transpose of the first takes `q` to `Q - tau`, `tau` is a reciprocal lattice vector and `q` is in the wedge. -/
theorem C34_ir_moveinto (c : Centring) (z : Zone) (contains : OnLattice → Pt → Bool) (wedge : Pt → Bool)
    (R : List Op) (hid : Mot.idMat ∈ R) (Q : Pt) (p : IrPoint) (tau : IPt)
    (h : irMoveinto (letter c) z contains wedge R Q = some (p, tau)) :
    wedge p.q = true ∧ IsReciprocalPoint c (fun i => tau i) ∧
    ∃ r rinv, R[p.ridx]? = some r ∧ R[p.invRidx]? = some rinv ∧
      Matrix.of r * Matrix.of rinv = 1 ∧ Matrix.of rinv * Matrix.of r = 1 ∧
      ∀ i, Q i = r 0 i * p.q 0 + r 1 i * p.q 1 + r 2 i * p.q 2 + tau i := by
  unfold irMoveinto at h
  split at h
  · exact absurd h (by simp)
  · rename_i q t hm
    obtain ⟨h1, h2, _⟩ := C33_moveinto_standard c z contains Q q t hm
    cases hp : irPoint wedge R q with
    | none => rw [hp] at h; exact absurd h (by simp)
    | some p' =>
      rw [hp, Option.map_some] at h
      have e := Option.some.inj h
      obtain ⟨rfl, rfl⟩ := Prod.mk.inj e
      obtain ⟨hw, r, s, a, b, d, f, g, _⟩ := irPoint_spec wedge R hid q p' hp
      exact ⟨hw, h2, r, s, a, b, d, f, fun i => by rw [h1 i, g i]⟩

/-- **C34 (still in the zone).** If the first zone is mapped into itself by the operations then the point returned is in
the first zone too: it is in the irreducible zone. -/
theorem C34_stays_in_zone (c : Centring) (z : Zone) (contains : OnLattice → Pt → Bool) (wedge : Pt → Bool)
    (R : List Op) (hid : Mot.idMat ∈ R) (Q : Pt) (p : IrPoint) (tau : IPt)
    (hsym : ∀ r ∈ R, ∀ q, contains .standard q = true →
      contains .standard (fun i => r 0 i * q 0 + r 1 i * q 1 + r 2 i * q 2) = true)
    (h : irMoveinto (letter c) z contains wedge R Q = some (p, tau)) : contains .standard p.q = true := by
  unfold irMoveinto at h
  split at h
  · exact absurd h (by simp)
  · rename_i q t hm
    obtain ⟨_, _, h3⟩ := C33_moveinto_standard c z contains Q q t hm
    cases hp : irPoint wedge R q with
    | none => rw [hp] at h; exact absurd h (by simp)
    | some p' =>
      rw [hp, Option.map_some] at h
      have e := Option.some.inj h
      obtain ⟨rfl, rfl⟩ := Prod.mk.inj e
      obtain ⟨_, r, s, _, b, _, _, _, g⟩ := irPoint_spec wedge R hid q p' hp
      have := hsym s (List.mem_of_getElem? b) q h3
      have e2 : p'.q = fun i => s 0 i * q 0 + s 1 i * q 1 + s 2 i * q 2 := by
        funext i
        rw [g i, rotate3]
      rw [e2]; exact this

/-- **C34 (never refused).** If every point of the first zone is taken into the wedge by the transpose of some operation
and every operation's inverse is in the list, then `ir_moveinto` returns whenever `moveinto` does. -/
theorem C34_complete (c : Centring) (z : Zone) (contains : OnLattice → Pt → Bool) (wedge : Pt → Bool) (R : List Op)
    (hcover : ∀ q : Pt, contains .standard q = true →
      ∃ r ∈ R, wedge (fun i => r 0 i * q 0 + r 1 i * q 1 + r 2 i * q 2) = true)
    (hinv : ∀ r ∈ R, ∃ s ∈ R, Matrix.of r * Matrix.of s = 1) (Q : Pt) :
    irMoveinto (letter c) z contains wedge R Q = none ↔ moveinto (letter c) z contains .standard Q = none := by
  unfold irMoveinto
  cases hm : moveinto (letter c) z contains .standard Q with
  | none => simp
  | some r =>
    obtain ⟨q, t⟩ := r
    dsimp only
    simp only [Option.map_eq_none_iff, reduceCtorEq, iff_false]
    unfold irPoint
    split
    · simp
    · unfold findRotation
      obtain ⟨r, hr, hw⟩ := hcover q (C33_moveinto_standard c z contains Q q t hm).2.2
      have hw' : wedge (rotate r q) = true := by
        have : rotate r q = fun i => r 0 i * q 0 + r 1 i * q 1 + r 2 i * q 2 := funext (rotate3 r q)
        rw [this]; exact hw
      cases hf : R.findIdx? fun r => wedge (rotate r q) with
      | none =>
        rw [List.findIdx?_eq_none_iff] at hf
        have := hf r hr
        rw [hw'] at this
        exact absurd this (by simp)
      | some j =>
        rw [List.findIdx?_eq_some_iff_getElem] at hf
        obtain ⟨hlt, _, _⟩ := hf
        dsimp only
        rw [List.getElem?_eq_getElem hlt]
        simp only [Option.map_some, ne_eq, Option.map_eq_none_iff]
        exact C12_inverse_in_group R hinv j

/-- **C34 (wedge only).** `ir_moveinto_wedge`: the transpose of the operation at the returned index takes the returned
point, which is in the wedge, to the given one. -/
theorem C34_ir_moveinto_wedge (wedge : Pt → Bool) (R : List Op) (hid : Mot.idMat ∈ R) (Q q : Pt) (k : Nat)
    (h : irMoveintoWedge wedge R Q = some (q, k)) :
    wedge q = true ∧ ∃ r, R[k]? = some r ∧ ∀ i, Q i = r 0 i * q 0 + r 1 i * q 1 + r 2 i * q 2 := by
  unfold irMoveintoWedge at h
  cases hp : irPoint wedge R Q with
  | none => rw [hp] at h; exact absurd h (by simp)
  | some p =>
    rw [hp, Option.map_some] at h
    obtain ⟨rfl, rfl⟩ := Prod.mk.inj (Option.some.inj h)
    obtain ⟨hw, r, _, a, _, _, _, g, _⟩ := irPoint_spec wedge R hid Q p hp
    exact ⟨hw, r, a, g⟩

/-- **C34 (mirrored wedge).** Where mirroring is allowed a point is in the wedge exactly when its opposite is; where it is
not, a point in the wedge has no negative scalar product with a normal. -/
theorem C34_wedge_test (normals : List Pt) (G : Fin 3 → Fin 3 → ℚ) (p : Pt) :
    let test := fun nm => insideWedge (fun x => decide (0 ≤ x)) (fun x => decide (x ≤ 0)) nm
      fun p => normals.map fun n => scalar G n p
    (test false p = test false fun i => -p i) ∧ (test true p = true ↔ ∀ n ∈ normals, 0 ≤ scalar G n p) := by
  dsimp only
  have hneg : ∀ n, scalar G n (fun i => -p i) = -scalar G n p := fun n => by unfold scalar; ring
  unfold insideWedge
  constructor
  · simp only [hneg]
    cases normals with
    | nil => rfl
    | cons a l =>
      simp only [List.map_cons, List.isEmpty_cons, Bool.false_or, Bool.not_false, Bool.true_and, List.all_cons,
        List.all_map, Left.nonneg_neg_iff, Left.neg_nonpos_iff, Function.comp_def]
      rw [Bool.or_comm]
  · cases normals with
    | nil => simp
    | cons a l => simp

/-- The four-fold rotations about the third axis. -/
def fourfold : List Op :=
  [![![1, 0, 0], ![0, 1, 0], ![0, 0, 1]], ![![0, -1, 0], ![1, 0, 0], ![0, 0, 1]],
    ![![-1, 0, 0], ![0, -1, 0], ![0, 0, 1]], ![![0, 1, 0], ![-1, 0, 0], ![0, 0, 1]]]

def quadrant : Pt → Bool := insideWedge (fun x => decide (0 ≤ x)) (fun x => decide (x ≤ 0)) true fun p => [p 0, p 1]

example : Mot.idMat ∈ fourfold ∧ (∀ r ∈ fourfold, ∃ s ∈ fourfold, Matrix.of r * Matrix.of s = 1) ∧
    (irMoveinto .P cubic (fun _ => cubic.inside) quadrant fourfold ![7/4, -2/5, 13/5]).map
      (fun r => (r.1.q, r.1.ridx, r.1.invRidx, r.2)) = some (![1/4, 2/5, -2/5], 2, 2, ![2, 0, 3]) ∧
    (irMoveinto .P cubic (fun _ => cubic.inside) quadrant fourfold ![-1/4, 2/5, 0]).map
      (fun r => (r.1.q, r.1.ridx, r.1.invRidx, r.2)) = some (![2/5, 1/4, 0], 3, 1, ![0, 0, 0]) := by decide +kernel

end Brille.Props
