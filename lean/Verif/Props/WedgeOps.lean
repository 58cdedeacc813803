/-
C89: what the search knows of the operations of a point group is what it assumes of them.
-/
import Verif.Props.WedgeWhole
import Verif.Props.WedgeSearch
import Verif.Props.PointGroup
import Verif.Props.RotationOrder
import Verif.Proofs.IrCheck

namespace Brille.Props

open Brille.Spec Brille.IrCheck Brille.WedgeWhole Brille.Convex Matrix

abbrev Mat3 := Matrix (Fin 3) (Fin 3) ℚ

theorem ws_dot (a b : Fin 3 → ℚ) : WedgeSearch.dot a b = a ⬝ᵥ b := by
  simp only [WedgeSearch.dot, dotProduct, Fin.sum_univ_three]

theorem transpose_cross (N : Mat3) (a b : Fin 3 → ℚ) :
    Nᵀ.mulVec (WedgeSearch.cross (N.mulVec a) (N.mulVec b)) = N.det • WedgeSearch.cross a b := by
  funext i
  fin_cases i <;>
    simp [WedgeSearch.cross, mulVec, dotProduct, Fin.sum_univ_three, Matrix.det_fin_three] <;> ring

theorem orthogonal_cross {N : Mat3} (hN : Nᵀ * N = 1) (hd : N.det = 1) (a b : Fin 3 → ℚ) :
    N.mulVec (WedgeSearch.cross a b) = WedgeSearch.cross (N.mulVec a) (N.mulVec b) := by
  have h := congrArg N.mulVec (transpose_cross N a b)
  rw [mulVec_mulVec, mul_eq_one_comm.mp hN, one_mulVec, hd, one_smul] at h
  exact h.symm

/-- what leaves three independent vectors as they are is the identity -/
theorem one_of_fixed {N : Mat3} {q x : Fin 3 → ℚ} (hc : WedgeSearch.cross q x ≠ 0) (hq : N.mulVec q = q) (hx : N.mulVec x = x)
    (hcc : N.mulVec (WedgeSearch.cross q x) = WedgeSearch.cross q x) : N = 1 := by
  let C : Mat3 := Matrix.of ![q, x, WedgeSearch.cross q x]
  have hdet : C.det = WedgeSearch.dot (WedgeSearch.cross q x) (WedgeSearch.cross q x) := by
    simp [C, Matrix.det_fin_three, WedgeSearch.dot, WedgeSearch.cross]
    ring
  have hne : C.det ≠ 0 := by rw [hdet]; exact (WedgeSearch.dot_self_pos hc).ne'
  have hu : IsUnit Cᵀ.det := by rw [det_transpose]; exact hne.isUnit
  have : N * Cᵀ = Cᵀ := by
    ext i j
    have := fun y (h : N.mulVec y = y) => congrFun h i
    fin_cases j
    · simpa [Matrix.mul_apply, mulVec, dotProduct, C] using this q hq
    · simpa [Matrix.mul_apply, mulVec, dotProduct, C] using this x hx
    · simpa [Matrix.mul_apply, mulVec, dotProduct, C] using this _ hcc
  calc N = N * (Cᵀ * Cᵀ⁻¹) := by rw [mul_nonsing_inv _ hu, mul_one]
    _ = 1 := by rw [← mul_assoc, this, mul_nonsing_inv _ hu]

theorem order_values (r : Fin 3 → Fin 3 → ℤ) (h : 1 < Sym.rotationOrder r) :
    Sym.rotationOrder r = 2 ∨ Sym.rotationOrder r = 3 ∨ Sym.rotationOrder r = 4 ∨ Sym.rotationOrder r = 6 := by
  unfold Sym.rotationOrder at h ⊢
  split
  · next i hi =>
    rw [hi] at h
    dsimp only at h
    fin_cases i <;> simp at h ⊢
  · next hi => rw [hi] at h; simp at h

theorem opMatrix_pow (B : Fin 3 → Tetra.Pt) (hB : (Matrix.of B).det ≠ 0) (r : IrCheck.Op) (d : ℤ) (n : ℕ) :
    ((d : ℚ) • opMatrix B r) ^ n =
      (Matrix.of B)ᵀ * (((d • Matrix.of r) ^ n).map (Int.cast : ℤ → ℚ))ᵀ * ((Matrix.of B)ᵀ)⁻¹ := by
  have hu : IsUnit (Matrix.of B)ᵀ.det := by rw [Matrix.det_transpose]; exact hB.isUnit
  induction n with
  | zero =>
    rw [pow_zero, pow_zero, Matrix.map_one _ Int.cast_zero Int.cast_one, transpose_one, mul_one, mul_nonsing_inv _ hu]
  | succ n ih =>
    have e : (((d • Matrix.of r) ^ (n + 1)).map (Int.cast : ℤ → ℚ))ᵀ =
        (((d • Matrix.of r) ^ n).map (Int.cast : ℤ → ℚ))ᵀ * ((d : ℚ) • ((Matrix.of r).map (Int.cast : ℤ → ℚ))ᵀ) := by
      have h1 : ((d • Matrix.of r) ^ (n + 1)).map (Int.cast : ℤ → ℚ) =
          (d • Matrix.of r).map (Int.cast : ℤ → ℚ) * ((d • Matrix.of r) ^ n).map (Int.cast : ℤ → ℚ) := by
        rw [pow_succ']
        exact Matrix.map_mul (f := Int.castRingHom ℚ)
      have h2 : (d • Matrix.of r).map (Int.cast : ℤ → ℚ) = (d : ℚ) • (Matrix.of r).map (Int.cast : ℤ → ℚ) := by
        ext i j; simp
      rw [h1, transpose_mul, h2, transpose_smul]
    rw [pow_succ, ih, e]
    unfold opMatrix
    simp only [Matrix.mul_assoc, Matrix.mul_smul, Matrix.smul_mul]
    rw [Matrix.nonsing_inv_mul_cancel_left _ _ hu]

theorem opMatrix_pow_one (B : Fin 3 → Tetra.Pt) (hB : (Matrix.of B).det ≠ 0) (r : IrCheck.Op) (d : ℤ) (n : ℕ) :
    ((d : ℚ) • opMatrix B r) ^ n = 1 ↔ (d • Matrix.of r) ^ n = 1 := by
  have hu : IsUnit (Matrix.of B)ᵀ.det := by rw [Matrix.det_transpose]; exact hB.isUnit
  rw [opMatrix_pow B hB]
  constructor
  · intro h
    have h1 : (((d • Matrix.of r) ^ n).map (Int.cast : ℤ → ℚ))ᵀ = 1 := by
      have := congrArg (fun X => (Matrix.of B)ᵀ⁻¹ * X * (Matrix.of B)ᵀ) h
      simp only [Matrix.mul_assoc, Matrix.nonsing_inv_mul_cancel_left _ _ hu, nonsing_inv_mul _ hu, mul_one] at this
      exact this
    have h2 := congrArg Matrix.transpose h1
    rw [transpose_transpose, transpose_one] at h2
    ext i j
    have h3 := congrFun (congrFun h2 i) j
    rw [Matrix.map_apply] at h3
    have : ((1 : Mat3) i j) = (((1 : Matrix (Fin 3) (Fin 3) ℤ) i j : ℤ) : ℚ) := by
      rw [Matrix.one_apply, Matrix.one_apply]; split <;> simp
    rw [this] at h3
    exact_mod_cast h3
  · intro h
    rw [h, Matrix.map_one _ Int.cast_zero Int.cast_one, transpose_one, mul_one, mul_nonsing_inv _ hu]

theorem realBasis_eq (B : Fin 3 → Tetra.Pt) (hB : (Matrix.of B).det ≠ 0) : Matrix.of (realBasis B) = (Matrix.of B)ᵀ⁻¹ := by
  have hu : IsUnit (Matrix.of B)ᵀ.det := by rw [Matrix.det_transpose]; exact hB.isUnit
  symm
  apply inv_eq_left_inv
  have hd := basis_det B
  rw [← hd] at hB
  ext i j
  rw [Matrix.mul_apply, Fin.sum_univ_three, Matrix.one_apply]
  fin_cases i <;> fin_cases j <;> simp [realBasis] <;> field_simp <;> simp [Tetra.dot, Tetra.cross] <;> ring

/-- **The operations.** For an operation of a point group, an integer matrix of finite order that leaves lengths and angles as they are, whose axis
is one of those that the library knows: what the search is told of it, its order, kind and axis, is what an operation with these is. -/
theorem C89_operation (B : Fin 3 → Tetra.Pt) (hB : (Matrix.of B).det ≠ 0) (r : IrCheck.Op) (k : ℕ) (hk : 0 < k) (hfin : Matrix.of r ^ k = 1)
    (hiso : ∀ x y, WedgeSearch.dot (rotate B r x) (rotate B r y) = WedgeSearch.dot x y) (hord : 1 < Sym.rotationOrder r)
    (haxis : (PG.axisAndPerpendicular r).getD 0 (fun _ => 0) ≠ 0) : PointOperation (opOf B r) := by
  obtain ⟨hdet, ⟨_, hn, hmin⟩, hval, _⟩ := C14_rotation_order r k hk hfin
  obtain ⟨u, v, w, hl, hcase⟩ := C45_axis r hdet
  have hval' := order_values r hord
  rw [hl] at haxis
  have hu0 : u ≠ 0 := haxis
  have hfix : ((Matrix.of r).det • Matrix.of r).mulVec u = u := by
    rcases hcase with h | h
    · exact absurd h.1 hu0
    · exact h.2.1
  have hBu : IsUnit (Matrix.of B)ᵀ.det := by rw [Matrix.det_transpose]; exact hB.isUnit
  set d : ℤ := (Matrix.of r).det with hd
  set M : Mat3 := opMatrix B r with hM
  have hturn : ∀ x, (opOf B r).turn x = M.mulVec x := fun x => rotate_eq B hB r x
  have hpow : ∀ n x, (opOf B r).turn^[n] x = (M ^ n).mulVec x := by
    intro n
    induction n with
    | zero => intro x; rw [pow_zero, one_mulVec]; rfl
    | succ n ih => intro x; rw [Function.iterate_succ_apply', ih, hturn, mulVec_mulVec, pow_succ']
  have hdd : (d : ℚ) * d = 1 := by rcases hdet with h | h <;> rw [h] <;> norm_num
  set N : Mat3 := (d : ℚ) • M with hN
  have hMN : M = (d : ℚ) • N := by rw [hN, smul_smul, hdd, one_smul]
  have hMorth : Mᵀ * M = 1 := by
    ext i j
    have h := hiso (Pi.single i 1) (Pi.single j 1)
    rw [rotate_eq B hB, rotate_eq B hB, ws_dot, ws_dot] at h
    rw [Matrix.one_apply, if_congr (eq_comm (a := i)) rfl rfl]
    simpa [Matrix.mul_apply, dotProduct, Pi.single_apply, ← hM] using h
  have hNorth : Nᵀ * N = 1 := by
    rw [hN, transpose_smul, Matrix.smul_mul, Matrix.mul_smul, smul_smul, hdd, one_smul, hMorth]
  have hNdet : N.det = 1 := by
    rw [hN, det_smul, hM, opMatrix_det B hB, ← hd]
    rcases hdet with h | h <;> rw [h] <;> norm_num
  set q : Fin 3 → ℚ := (opOf B r).axis with hq
  have hqe : q = ((Matrix.of B)ᵀ⁻¹)ᵀ.mulVec (fun i => (u i : ℚ)) := by
    rw [hq]
    show IrCheck.cartesian (realBasis B) (fun i => ((PG.axisAndPerpendicular r).getD 0 (fun _ => 0) i : ℚ)) = _
    rw [cartesian_eq, realBasis_eq B hB, hl]
    rfl
  have hq0 : q ≠ 0 := by
    intro h
    rw [hqe] at h
    have h1 := congrArg ((Matrix.of B)ᵀ)ᵀ.mulVec h
    rw [mulVec_mulVec, ← transpose_mul, nonsing_inv_mul _ hBu, transpose_one, one_mulVec, mulVec_zero] at h1
    apply hu0
    funext i
    have h2 : (u i : ℚ) = 0 := congrFun h1 i
    show u i = 0
    exact_mod_cast h2
  have hNtq : Nᵀ.mulVec q = q := by
    have e : Nᵀ = ((Matrix.of B)ᵀ⁻¹)ᵀ * (d • Matrix.of r).map (Int.cast : ℤ → ℚ) * ((Matrix.of B)ᵀ)ᵀ := by
      have := opMatrix_pow B hB r d 1
      rw [pow_one, pow_one] at this
      rw [hN, hM, this, transpose_mul, transpose_mul, transpose_transpose (Matrix.map _ _), Matrix.mul_assoc]
    rw [e, hqe, mulVec_mulVec, Matrix.mul_assoc, ← transpose_mul, nonsing_inv_mul _ hBu, transpose_one, mul_one, ← mulVec_mulVec]
    congr 1
    funext i
    have := congrFun hfix i
    have h2 : (((d • Matrix.of r).mulVec u i : ℤ) : ℚ) = (u i : ℚ) := by rw [this]
    rw [← h2]
    simp only [mulVec, dotProduct, Fin.sum_univ_three, Matrix.map_apply]
    push_cast
    ring
  have hNq : N.mulVec q = q := by
    have := congrArg N.mulVec hNtq
    rw [mulVec_mulVec, mul_eq_one_comm.mp hNorth, one_mulVec] at this
    exact this.symm
  have hNn : N ^ Sym.rotationOrder r = 1 := (opMatrix_pow_one B hB r d _).mpr hn
  have hNmin : ∀ m, 0 < m → m < Sym.rotationOrder r → N ^ m ≠ 1 := fun m h1 h2 h3 =>
    hmin m h1 h2 ((opMatrix_pow_one B hB r d m).mp h3)
  have hNfix : ∀ x, N.mulVec x = x → WedgeSearch.cross q x = 0 := by
    intro x hx
    by_contra hc
    refine hNmin 1 (by norm_num) hord ?_
    rw [pow_one]
    exact one_of_fixed hc hNq hx (by rw [orthogonal_cross hNorth hNdet, hNq, hx])
  have hcneg : ∀ a b : Fin 3 → ℚ, WedgeSearch.cross a (-b) = -WedgeSearch.cross a b := by
    intro a b; funext i; fin_cases i <;> simp [WedgeSearch.cross] <;> ring
  have hpm : d = 1 ∨ d = -1 := hdet
  have hsign : ∀ n, M ^ n = ((d : ℚ) ^ n) • N ^ n := by
    intro n
    rw [hMN, smul_pow]
  clear_value N M d
  refine ⟨?_, hiso, hord, ?_, ?_, ?_, ?_, ?_, ?_⟩
  · intro x y; rw [hturn, hturn, hturn, mulVec_add]
  · intro hi x
    rw [hpow]
    show (M ^ Sym.rotationOrder r).mulVec x = x
    have hi' : Sym.isometryValue r ≠ -3 := hi
    rw [hval] at hi'
    rw [hsign, hNn]
    have : (d : ℚ) ^ Sym.rotationOrder r = 1 := by
      rcases hpm with h | h
      · rw [h]; norm_num
      · rw [h] at hi' ⊢
        rcases hval' with e | e | e | e
        · rw [e]; norm_num
        · exact absurd (by rw [e]; norm_num) hi'
        · rw [e]; norm_num
        · rw [e]; norm_num
    rw [this, one_smul, one_mulVec]
  · intro hi
    have hi' : Sym.isometryValue r = -3 := hi
    rw [hval] at hi'
    have h3 : d = -1 ∧ Sym.rotationOrder r = 3 := by
      rcases hpm with h | h <;> rw [h] at hi' <;> refine ⟨?_, ?_⟩ <;> omega
    refine ⟨h3.2, fun x => ?_, fun x hx => hNfix x ?_⟩
    · have hN3 : N ^ 3 = 1 := by rw [← hNn, h3.2]
      rw [hpow, hsign, hN3, h3.1, smul_mulVec, one_mulVec]
      norm_num
    · rw [hturn] at hx
      rw [hN, smul_mulVec, hx, h3.1]
      norm_num
  · intro hi
    have hi' : Sym.isometryValue r = 2 := hi
    rw [hval] at hi'
    refine ⟨?_, hq0⟩
    show Sym.rotationOrder r = 2
    rcases hpm with h | h <;> rw [h] at hi' <;> omega
  · intro hi
    have hi' : Sym.isometryValue r = -2 := hi
    rw [hval] at hi'
    have h2 : d = -1 ∧ Sym.rotationOrder r = 2 := by
      rcases hpm with h | h <;> rw [h] at hi' <;> refine ⟨?_, ?_⟩ <;> omega
    refine ⟨h2.2, fun x => ?_⟩
    rw [hturn, ws_dot, ws_dot, hMN, h2.1, ← hq]
    have : q ⬝ᵥ N.mulVec x = q ⬝ᵥ x := by
      rw [dotProduct_mulVec, ← mulVec_transpose, hNtq]
    rw [smul_mulVec, dotProduct_smul, this]
    norm_num
  · intro _ x
    rw [hturn, hturn, ← hq, hMN, smul_mulVec, smul_mulVec, orthogonal_cross hNorth hNdet, hNq]
    funext i; fin_cases i <;> simp [WedgeSearch.cross] <;> ring
  · intro hi x hx
    rw [hturn] at hx
    have hi' : Sym.isometryValue r ≠ -2 := hi
    rw [hval] at hi'
    rcases hpm with h | h
    · refine hNfix x ?_
      rw [hN, h, smul_mulVec, hx]
      norm_num
    · by_contra hc
      have hNx : N.mulVec x = -x := by
        rw [hN, h, smul_mulVec, hx]
        norm_num
      have hNc : N.mulVec (WedgeSearch.cross q x) = -WedgeSearch.cross q x := by
        rw [orthogonal_cross hNorth hNdet, hNq, hNx, hcneg]
      have h1 : N ^ 2 = 1 := by
        refine one_of_fixed hc ?_ ?_ ?_
        · rw [pow_two, ← mulVec_mulVec, hNq, hNq]
        · rw [pow_two, ← mulVec_mulVec, hNx, mulVec_neg, hNx, neg_neg]
        · rw [pow_two, ← mulVec_mulVec]
          show N.mulVec (N.mulVec (WedgeSearch.cross q x)) = _
          rw [hNc, mulVec_neg, hNc, neg_neg]
      rcases hval' with e | e | e | e
      · rw [h, e] at hi'; norm_num at hi'
      all_goals exact hNmin 2 (by norm_num) (by rw [e]; norm_num) h1

theorem realBasis_belongs (B : Fin 3 → Tetra.Pt) (hB : (Matrix.of B).det ≠ 0) : BelongTogether (realBasis B) B 1 := by
  have hu : IsUnit (Matrix.of B)ᵀ.det := by rw [Matrix.det_transpose]; exact hB.isUnit
  refine ⟨one_ne_zero, fun i j => ?_⟩
  have h : Matrix.of (realBasis B) * (Matrix.of B)ᵀ = 1 := by rw [realBasis_eq B hB, nonsing_inv_mul _ hu]
  have := congrFun (congrFun h i) j
  rw [Matrix.mul_apply, Fin.sum_univ_three, Matrix.one_apply] at this
  exact this

/-- The planes that one of the attempts cuts with, for a point group whose operations leave lengths and angles as they are and have axes that the
library knows: they belong to different operations of the group.  The planes of a rotation or rotoinversion contain its axis, and they leave an
image of every vector under a power of the operation.  So does the plane of a mirror, if it is the mirror plane itself.

Not shown is that the planes of all the operations together leave an image of every vector.  The condition on two-fold axes along special
directions cannot be left out, see `C89_direction_counterexample`. -/
theorem C89_chosen_partial (sorts : Sorts) (hops : ∀ f l, (sorts.ops f l).Perm l) (hgroups : ∀ f l, (sorts.groups f l).Perm l)
    (S : Wedge.Setup) (hB : (Matrix.of S.B).det ≠ 0) (hgroup : PointGroup (operations S.timeReversal S.R))
    (hiso : ∀ r ∈ operations S.timeReversal S.R, ∀ x y, WedgeSearch.dot (rotate S.B r x) (rotate S.B r y) = WedgeSearch.dot x y)
    (haxis : ∀ r ∈ operations S.timeReversal S.R, 1 < Sym.rotationOrder r → (PG.axisAndPerpendicular r).getD 0 (fun _ => 0) ≠ 0)
    (hreal : ∀ r ∈ operations S.timeReversal S.R, Sym.isometryValue r = 2 → ∀ k ∈ [3, 6, 7],
      WedgeSearch.cross ((WedgeSearch.directions S.B).getD k 0) (opOf S.B r).axis = 0 →
      WedgeSearch.cross ((WedgeSearch.directions (realBasis S.B)).getD k 0) (opOf S.B r).axis = 0)
    (points : List Tetra.Pt) (f : Bool × Bool × Bool × Bool) :
    ∃ cuts : List (IrCheck.Op × List Tetra.Pt), chosen sorts S points f = cuts.flatMap Prod.snd ∧ (cuts.map Prod.fst).Nodup ∧
      ∀ c ∈ cuts, c.1 ∈ operations S.timeReversal S.R ∧ Matrix.of c.1 ≠ 1 ∧ Matrix.of c.1 ≠ -1 ∧
        (Sym.isometryValue c.1 ≠ -2 → (∀ n ∈ c.2, WedgeSearch.dot n (opOf S.B c.1).axis = 0) ∧
          ∀ x, ∃ k : ℕ, ∀ n ∈ c.2, 0 ≤ WedgeSearch.dot n ((rotate S.B c.1)^[k] x)) ∧
        (Sym.isometryValue c.1 = -2 → c.2 = [(opOf S.B c.1).axis] ∨ c.2 = [-(opOf S.B c.1).axis] →
          ∀ x, ∃ k : ℕ, ∀ n ∈ c.2, 0 ≤ WedgeSearch.dot n ((rotate S.B c.1)^[k] x)) := by
  set ops := sorts.ops f.2.2.1 (Sym.higher (operations S.timeReversal S.R) 1) with hdef
  have hperm : ops.Perm (Sym.higher (operations S.timeReversal S.R) 1) := hops _ _
  have hmem : ∀ r ∈ ops, r ∈ operations S.timeReversal S.R ∧ 1 < Sym.rotationOrder r := by
    intro r hr
    have h := List.mem_filter.mp (hperm.mem_iff.mp hr)
    exact ⟨h.1, by have := of_decide_eq_true h.2; exact_mod_cast this⟩
  have hnd : ops.Nodup := hperm.nodup_iff.mpr (hgroup.distinct.filter _)
  have hpoint : ∀ o ∈ ops.map (opOf S.B), PointOperation o := by
    intro o ho
    obtain ⟨r, hr, rfl⟩ := List.mem_map.mp ho
    obtain ⟨h1, h2⟩ := hmem r hr
    obtain ⟨k, hk, e⟩ := group_order hgroup r h1
    exact C89_operation S.B hB r k hk e (hiso r h1) h2 (haxis r h1 h2)
  obtain ⟨cuts, h1, h2, h3⟩ := C89_cuts_partial (hgroups f.2.2.2) f.1 f.2.1 (realBasis_belongs S.B hB) (ops.map (opOf S.B)) hpoint
    (by
      intro o ho hi
      obtain ⟨r, hr, rfl⟩ := List.mem_map.mp ho
      exact hreal r (hmem r hr).1 hi) points
  have hin : ∀ c ∈ cuts, ∃ r, ops[c.1]? = some r ∧
      (Sym.isometryValue r ≠ -2 → (∀ n ∈ c.2, WedgeSearch.dot n (opOf S.B r).axis = 0) ∧
          ∀ x, ∃ k : ℕ, ∀ n ∈ c.2, 0 ≤ WedgeSearch.dot n ((rotate S.B r)^[k] x)) ∧
        (Sym.isometryValue r = -2 → c.2 = [(opOf S.B r).axis] ∨ c.2 = [-(opOf S.B r).axis] →
          ∀ x, ∃ k : ℕ, ∀ n ∈ c.2, 0 ≤ WedgeSearch.dot n ((rotate S.B r)^[k] x)) := by
    intro c hc
    obtain ⟨o, ho, h⟩ := h3 c hc
    rw [List.getElem?_map] at ho
    obtain ⟨r, hr, rfl⟩ := Option.map_eq_some_iff.mp ho
    exact ⟨r, hr, h⟩
  refine ⟨cuts.map fun c => (ops.getD c.1 fun _ _ => 0, c.2), ?_, ?_, ?_⟩
  · rw [List.flatMap_map]
    exact h1
  · rw [List.map_map]
    have : (cuts.map fun c => ops.getD c.1 fun _ _ => 0) = (cuts.map Prod.fst).map fun i => ops.getD i fun _ _ => 0 := by
      rw [List.map_map]; rfl
    show (cuts.map fun c => ops.getD c.1 fun _ _ => 0).Nodup
    rw [this]
    refine List.Nodup.map_on ?_ h2
    intro i hi j hj hij
    obtain ⟨c, hc, rfl⟩ := List.mem_map.mp hi
    obtain ⟨c', hc', rfl⟩ := List.mem_map.mp hj
    obtain ⟨r, hr, _⟩ := hin c hc
    obtain ⟨r', hr', _⟩ := hin c' hc'
    obtain ⟨l1, e1⟩ := List.getElem?_eq_some_iff.mp hr
    obtain ⟨l2, e2⟩ := List.getElem?_eq_some_iff.mp hr'
    rw [List.getD_eq_getElem _ _ l1, List.getD_eq_getElem _ _ l2] at hij
    exact (List.Nodup.getElem_inj_iff hnd).mp hij
  · intro c' hc'
    obtain ⟨c, hc, rfl⟩ := List.mem_map.mp hc'
    obtain ⟨r, hr, h⟩ := hin c hc
    have e : ops.getD c.1 (fun _ _ => 0) = r := by rw [List.getD_eq_getElem?_getD, hr]; rfl
    simp only [e]
    obtain ⟨hm, ho⟩ := hmem r (List.mem_of_getElem? hr)
    refine ⟨hm, fun h1 => ?_, fun h1 => ?_, h⟩
    · have : r = Mot.idMat := by
        refine Matrix.of.injective (h1.trans ?_)
        decide
      rw [this] at ho
      revert ho
      decide
    · have : r = Sym.inversion := by
        refine Matrix.of.injective (h1.trans ?_)
        decide
      rw [this] at ho
      revert ho
      decide

/-! ### examples -/

theorem mm2_isometry (r : IrCheck.Op) (hr : r ∈ groupMm2) (x y : Tetra.Pt) :
    WedgeSearch.dot (rotate cubicBasis r x) (rotate cubicBasis r y) = WedgeSearch.dot x y := by
  obtain ⟨a, b, c, ha, hb, hc, rfl⟩ := mm2_diagonal r hr
  have : ∀ x, rotate cubicBasis (diagonalOp a b c) x = ![a * x 0, b * x 1, c * x 2] := by
    intro x
    funext i
    fin_cases i <;> simp [rotate, relative, IrCheck.cartesian, cubicBasis, diagonalOp, Tetra.dot, Tetra.cross] <;> ring
  rw [this, this]
  have ea : (a : ℚ) * a = 1 := by rcases ha with rfl | rfl <;> norm_num
  have eb : (b : ℚ) * b = 1 := by rcases hb with rfl | rfl <;> norm_num
  have ec : (c : ℚ) * c = 1 := by rcases hc with rfl | rfl <;> norm_num
  simp only [WedgeSearch.dot, Matrix.cons_val]
  linear_combination x 0 * y 0 * ea + x 1 * y 1 * eb + x 2 * y 2 * ec

/-- the operations of the group mm2 are as they should be -/
example : ∀ r ∈ Sym.higher groupMm2 1, PointOperation (opOf cubicBasis r) := by
  intro r hr
  have hm := (List.mem_filter.mp hr).1
  obtain ⟨k, hk, e⟩ := group_order groupMm2_group r hm
  have hax : ∀ r ∈ Sym.higher groupMm2 1, (PG.axisAndPerpendicular r).getD 0 (fun _ => 0) ≠ 0 := by decide +kernel
  refine C89_operation cubicBasis cubic_det r k hk e (mm2_isometry r hm) ?_ (hax r hr)
  have := of_decide_eq_true (List.mem_filter.mp hr).2
  exact_mod_cast this

/-- the planes for the cube and the group mm2, of which there are three -/
example (points : List Tetra.Pt) (f : Bool × Bool × Bool × Bool) :
    ∃ cuts : List (IrCheck.Op × List Tetra.Pt), chosen unchanged (cubeSetup groupMm2 fun _ => none) points f = cuts.flatMap Prod.snd := by
  obtain ⟨cuts, h, _⟩ := C89_chosen_partial unchanged (fun _ _ => List.Perm.refl _) (fun _ _ => List.Perm.refl _)
    (cubeSetup groupMm2 fun _ => none) cubic_det groupMm2_group mm2_isometry (by decide +kernel) (by decide +kernel) points f
  exact ⟨cuts, h⟩

end Brille.Props
