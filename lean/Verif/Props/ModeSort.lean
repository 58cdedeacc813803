import Verif.Props.ModeCost
import Verif.Props.PermutationTable
import Verif.Proofs.Interpolate
import Verif.Proofs.SortDiagonal

/-! C61: what sorting and then interpolating gives if all points have the same modes in different orders. -/
namespace Brille.Props
open Finset Brille.ModeCost Brille.Spec Brille.PermTable Brille.SortPerm

variable {T : Type} [RCLike T]

/-- All `n` points have the modes `x`, `y`, point `i` in the order `ρ i` and with its own phases. -/
def SameModes (values : ModeCost.Data T) (vectors : ModeCost.Data ℂ) (x : Nat → Nat → T) (y : Nat → Nat → ℂ) (n : Nat)
    (ρ : Nat → Equiv.Perm (Fin values.branches)) : Prop :=
  ∀ i, i < n → Relabelled values.branches values.scalars vectors.vectors x (scalarsOf values i) y (vectorsOf vectors i) (ρ i)

theorem rephased_symm {n : Nat} {a b : Nat → ℂ} (h : Rephased n a b) : Rephased n b a := by
  obtain ⟨c, hc, h⟩ := h
  have c0 : c ≠ 0 := fun e => by rw [e, norm_zero] at hc; exact zero_ne_one hc
  refine ⟨c⁻¹, by rw [norm_inv, hc, inv_one], fun k hk => ?_⟩
  rw [h k hk, ← mul_assoc, inv_mul_cancel₀ c0, one_mul]

theorem rephased_trans {n : Nat} {a b d : Nat → ℂ} (h : Rephased n a b) (h' : Rephased n b d) : Rephased n a d := by
  obtain ⟨c, hc, h⟩ := h
  obtain ⟨e, he, h'⟩ := h'
  refine ⟨e * c, by rw [norm_mul, hc, he, one_mul], fun k hk => ?_⟩
  rw [h' k hk, h k hk, mul_assoc]

omit [RCLike T] in
/-- the order that leads from one point to another -/
theorem relabelled_between {modes ns nv : Nat} {x x0 x1 : Nat → Nat → T} {y y0 y1 : Nat → Nat → ℂ}
    {π0 π1 : Equiv.Perm (Fin modes)} (h0 : Relabelled modes ns nv x x0 y y0 π0)
    (h1 : Relabelled modes ns nv x x1 y y1 π1) :
    Relabelled modes ns nv x0 x1 y0 y1 (π0.symm.trans π1) := by
  constructor
  · intro b k hk
    have a := h0.scalars (π0.symm b) k hk
    have c := h1.scalars (π0.symm b) k hk
    rw [Equiv.apply_symm_apply] at a
    simp only [Equiv.trans_apply]
    rw [c, a]
  · intro b
    have a := h0.vectors (π0.symm b)
    have c := h1.vectors (π0.symm b)
    rw [Equiv.apply_symm_apply] at a
    exact rephased_trans (rephased_symm a) c

theorem parallel_of_rephased {n : Nat} {a a' b b' : Nat → ℂ} (ha : Rephased n a a') (hb : Rephased n b b')
    (h : Parallel n a' b') : Parallel n a b := by
  obtain ⟨c, hc, ha⟩ := ha
  obtain ⟨d, hd, hb⟩ := rephased_symm hb
  obtain ⟨e, he, h⟩ := h
  have c0 : c ≠ 0 := fun e => by rw [e, norm_zero] at hc; exact zero_ne_one hc
  have d0 : d ≠ 0 := fun e => by rw [e, norm_zero] at hd; exact zero_ne_one hd
  refine ⟨d * e * c, mul_ne_zero (mul_ne_zero d0 he) c0, fun k hk => ?_⟩
  rw [hb k hk, h k hk, ha k hk]; ring

omit [RCLike T] in
theorem distinguishable_relabelled {modes ns nv : Nat} {x x0 : Nat → Nat → T} {y y0 : Nat → Nat → ℂ}
    {π : Equiv.Perm (Fin modes)} (h : Relabelled modes ns nv x x0 y y0 π) (hd : Distinguishable modes ns nv x y) :
    Distinguishable modes ns nv x0 y0 := by
  intro b c hb hc hbc
  have sb : ∀ k, k < ns → x0 b k = x (π.symm ⟨b, hb⟩) k := by
    intro k hk
    have := h.scalars (π.symm ⟨b, hb⟩) k hk
    rwa [Equiv.apply_symm_apply] at this
  have sc : ∀ k, k < ns → x0 c k = x (π.symm ⟨c, hc⟩) k := by
    intro k hk
    have := h.scalars (π.symm ⟨c, hc⟩) k hk
    rwa [Equiv.apply_symm_apply] at this
  have vb : Rephased nv (y (π.symm ⟨b, hb⟩)) (y0 b) := by
    have := h.vectors (π.symm ⟨b, hb⟩)
    rwa [Equiv.apply_symm_apply] at this
  have vc : Rephased nv (y (π.symm ⟨c, hc⟩)) (y0 c) := by
    have := h.vectors (π.symm ⟨c, hc⟩)
    rwa [Equiv.apply_symm_apply] at this
  have hne : (π.symm ⟨b, hb⟩).val ≠ (π.symm ⟨c, hc⟩).val := by
    intro e
    have := π.symm.injective (Fin.ext e)
    exact hbc (congrArg Fin.val this)
  rcases hd _ _ (Fin.isLt _) (Fin.isLt _) hne with ⟨k, hk, hx⟩ | hp
  · left
    exact ⟨k, hk, by rw [sb k hk, sc k hk]; exact hx⟩
  · right
    exact fun hpar => hp (parallel_of_rephased vb vc hpar)

theorem length_rephased {n : Nat} {a b : Nat → ℂ} (h : Rephased n a b) : Spec.length n b = Spec.length n a := by
  obtain ⟨c, hc, h⟩ := h
  unfold Spec.length
  congr 1
  refine sum_congr rfl fun k hk => ?_
  rw [h k (mem_range.mp hk), norm_mul, hc, one_mul]

theorem images_refl (n : Nat) : images (Equiv.refl (Fin n)) = List.range n := by
  unfold images
  apply List.ext_getElem
  · simp
  · intro k h1 h2
    simp

theorem images_getD {n : Nat} (π : Equiv.Perm (Fin n)) (b : Fin n) : (images π).getD b 0 = (π b).val := by
  unfold images
  rw [List.getD_eq_getElem?_getD, List.getElem?_map, List.getElem?_eq_getElem (by simp)]
  simp

theorem images_modeMap {n : Nat} (π : Equiv.Perm (Fin n)) : ModeMap n (images π) := by
  constructor
  · simp [images]
  · intro x hx
    simp only [images, List.mem_map] at hx
    obtain ⟨i, _, rfl⟩ := hx
    exact Fin.isLt _

/-- **C61 (sort).** Let all points have the same modes, which can be told apart, in different orders and with different
phases.  However the table was made and however the parallel sort runs, it ends without an exception, and afterwards the
table holds for every announced pair of points, and for equal points, exactly the order that leads from the modes of the
first to the modes of the second. -/
theorem C61_sort (st : Scalars T) (values : ModeCost.Data T) (vectors : ModeCost.Data ℂ)
    (hd : PhononData values vectors) (hs : 0 < values.mult.1) (hv : 0 < vectors.mult.2.1)
    (n : Nat) (hn : 0 < n) (x : Nat → Nat → T) (y : Nat → Nat → ℂ) (ρ : Nat → Equiv.Perm (Fin values.branches))
    (hsame : SameModes values vectors x y n ρ)
    (hdis : Distinguishable values.branches values.scalars vectors.vectors x y)
    (hnorm : ∀ b, b < values.branches → NormalisedFor vectors.vcf vectors.vectors (y b))
    (fuel modes : Nat) (ops : List TableOp) (hh : ValidHistory (PairMap.empty n modes) ops) (t : Table)
    (ht : PermTable.run (mk0 n modes) ops = some t) (hsize : t.indexSize = n)
    (hdiag : ∀ i, safeGet t i i = some (List.range values.branches))
    (keys : List Nat) (hk : KeysOf t keys) (hsym : Symmetric n keys) :
    ∃ solve : Nat → Nat → List Nat × List Nat,
      (∀ i j, i < n → j < n → i ≠ j → determine st complexes values vectors i j (fuel + 1) = some (solve i j)) ∧
    ∃ tri, triPairs n keys = some tri ∧
      ∀ (P : Nat) (wk : Fin P → List (Nat × Nat)), (∀ p, p ∈ tri ↔ ∃ k, p ∈ wk k) →
      ∀ sched : List (Fin P), ∃ s, SortPerm.run solve (start t wk) sched = some s ∧
        (∃ more s', SortPerm.run solve s more = some s' ∧ Finished s') ∧
        (Finished s → ∀ i j, i < n → j < n → (i ≠ j → i * n + j ∈ keys) →
          safeGet s.table i j = some (images ((ρ i).symm.trans (ρ j)))) := by
  refine ⟨fun i j => (images ((ρ i).symm.trans (ρ j)), images ((ρ j).symm.trans (ρ i))), ?_, ?_⟩
  · intro i j hi hj hij
    have h := C61_recovers st values vectors hd hs hv i j hij ((ρ i).symm.trans (ρ j))
      (relabelled_between (hsame i hi) (hsame j hj)) (distinguishable_relabelled (hsame i hi) hdis) (by
        intro b hb hkind
        have hr := (hsame i hi).vectors ((ρ i).symm ⟨b, hb⟩)
        rw [Equiv.apply_symm_apply] at hr
        rw [length_rephased hr]
        exact hnorm _ (Fin.isLt _) hkind) fuel
    rw [h]
    rfl
  · obtain ⟨tri, h1, h2⟩ := C31_sort n modes hn ops hh t ht hsize keys hk hsym
      (fun i j => (images ((ρ i).symm.trans (ρ j)), images ((ρ j).symm.trans (ρ i))))
    refine ⟨tri, h1, fun P wk hw sched => ?_⟩
    obtain ⟨s, e, a, f⟩ := h2 P wk hw sched
    refine ⟨s, e, a, fun hf i j hi hj hkey => ?_⟩
    rcases Nat.lt_trichotomy i j with hlt | rfl | hlt
    · exact ((f hf).1 i j hlt hj (hkey (by omega))).1
    · have := sort_diagonal (by omega : 0 < t.indexSize) wk (by
        intro k p hp
        have hp' := (hw p).mpr ⟨k, hp⟩
        have htri : tri = keys.filterMap (triOf n) := by
          rw [triPairs, if_neg (by omega)] at h1; exact (Option.some.inj h1).symm
        rw [htri] at hp'
        exact ((mem_tri hn p.1 p.2 (tri_lt hn p.1 p.2 hp')).mp hp').2) e (hdiag i)
      rw [this, Equiv.symm_trans_self, images_refl]
    · exact ((f hf).1 j i hlt hi (hsym i j hi hj (by omega) (hkey (by omega)))).2

/-- the part of the stored data that interpolating reads -/
def forMix {S : Type} [RCLike S] (d : ModeCost.Data S) : Interp.Data S := ⟨d.branches, d.span, d.row⟩

/-- index-weight pairs with weights of another type -/
noncomputable def castWeights (S : Type) [RCLike S] (iw : List (Nat × ℝ)) : List (Nat × S) :=
  iw.map fun v => (v.1, (v.2 : S))

theorem antiphase_rephased {n : Nat} {a b : Nat → ℂ} (h : Rephased n a b) (k : Nat) (hk : k < n) :
    Interp.antiphase n a b * b k = a k := by
  by_cases h0 : Spec.length n a = 0
  · have hb : b k = 0 := length_zero.mp (by rw [length_rephased h, h0]) k hk
    rw [hb, length_zero.mp h0 k hk, mul_zero]
  · have h1 := antiphase_mul n a b
    obtain ⟨c, hc, h⟩ := h
    have e : hdot n a b = c * ((Spec.length n a ^ 2 : ℝ) : ℂ) := by
      have e1 : hdot n a b = hdot n a (fun k => c * a k) := by
        unfold hdot
        exact sum_congr rfl fun k hk => by rw [h k (mem_range.mp hk)]
      have e2 : hdot n a a = ((Spec.length n a ^ 2 : ℝ) : ℂ) := by
        rw [hdot_inner, length_norm, inner_self_eq_norm_sq_to_K]
        norm_cast
      rw [e1, hdot_mul, e2]
    rw [e, norm_mul, hc, one_mul, Complex.norm_real, Real.norm_of_nonneg (sq_nonneg _)] at h1
    have p : ((Spec.length n a ^ 2 : ℝ) : ℂ) ≠ 0 := by
      exact_mod_cast pow_ne_zero 2 h0
    have q : Interp.antiphase n a b * c = 1 := by
      apply mul_right_cancel₀ p
      rw [mul_assoc, h1, one_mul]
    rw [h k hk, ← mul_assoc, q, one_mul]

theorem mapM_images (t : Table) (ρ : Nat → List Nat) (p : Nat) :
    ∀ iw : List (Nat × ℝ), (∀ v ∈ iw, safeGet t p v.1 = some (ρ v.1)) →
      iw.mapM (fun v => safeGet t p v.1) = some (iw.map fun v => ρ v.1) := by
  intro iw
  induction iw with
  | nil => intro _; rfl
  | cons v r ih =>
    intro h
    rw [List.mapM_cons, h v List.mem_cons_self, ih fun u hu => h u (List.mem_cons_of_mem _ hu)]
    rfl

/-- what a weighted sum of equal terms is -/
theorem sum_weights {S : Type} [RCLike S] (ρ : Nat → List Nat) (g : List Nat → Nat → S) (z : S) :
    ∀ iw : List (Nat × ℝ), (∀ v ∈ iw, g (ρ v.1) v.1 = z) →
      (((iw.map fun v => ρ v.1).zip (castWeights S iw)).map fun u => u.2.2 * g u.1 u.2.1).sum =
        (((iw.map Prod.snd).sum : ℝ) : S) * z := by
  intro iw
  induction iw with
  | nil => intro _; simp [castWeights]
  | cons v r ih =>
    intro h
    have i := ih fun u hu => h u (List.mem_cons_of_mem _ hu)
    simp only [castWeights, List.map_cons, List.zip_cons_cons, List.sum_cons] at i ⊢
    rw [i, h v List.mem_cons_self]
    push_cast
    ring

/-- **C61 (interpolated).** After such a sort, interpolating between any announced points, with any weights whose sum is 1,
gives back the modes of the first of the points: the different orders and phases at the points leave no trace in the values
or in the vectors. -/
theorem C61_interpolated (values : ModeCost.Data T) (vectors : ModeCost.Data ℂ) (hd : PhononData values vectors)
    (n : Nat) (x : Nat → Nat → T) (y : Nat → Nat → ℂ) (ρ : Nat → Equiv.Perm (Fin values.branches))
    (hsame : SameModes values vectors x y n ρ) (t : Table) (p : Nat) (hp : p < n) (w0 : ℝ) (rest : List (Nat × ℝ))
    (hrest : ∀ v ∈ rest, v.1 < n) (hsum : w0 + (rest.map Prod.snd).sum = 1)
    (htab : ∀ v ∈ (p, w0) :: rest, safeGet t p v.1 = some (images ((ρ p).symm.trans (ρ v.1)))) :
    ∃ perms r q, Interp.getPermutations t ((p, w0) :: rest) = some perms ∧
      Interp.mix (forMix values) Interp.noPhase perms (castWeights T ((p, w0) :: rest)) (fun _ => 0) = some r ∧
      Interp.mix (forMix vectors) Interp.antiphase perms (castWeights ℂ ((p, w0) :: rest)) (fun _ => 0) = some q ∧
      ∀ b, b < values.branches →
        (∀ k, k < values.scalars → r (b * values.scalars + k) = scalarsOf values p b k) ∧
        (∀ k, k < vectors.vectors → q (b * vectors.vectors + k) = vectorsOf vectors p b k) := by
  have hperms := mapM_images t (fun j => images ((ρ p).symm.trans (ρ j))) p ((p, w0) :: rest) htab
  have hmm : ∀ l ∈ ((p, w0) :: rest).map (fun v => images ((ρ p).symm.trans (ρ v.1))), ModeMap values.branches l := by
    intro l hl
    simp only [List.mem_map] at hl
    obtain ⟨v, _, rfl⟩ := hl
    exact images_modeMap _
  have hlt : ∀ v ∈ (p, w0) :: rest, v.1 < n := by
    intro v hv
    rcases List.mem_cons.mp hv with rfl | hv
    · exact hp
    · exact hrest v hv
  have hw : ((((p, w0) :: rest).map Prod.snd).sum : ℝ) = 1 := by simpa using hsum
  have s1 : values.span = values.scalars := by
    simp [ModeCost.Data.span, hd.values_vectors, hd.values_matrices]
  have s2 : vectors.span = vectors.vectors := by
    simp [ModeCost.Data.span, hd.vectors_scalars, hd.vectors_matrices]
  obtain ⟨r, r1, r2, _⟩ := Interp.mix_spec (forMix values) Interp.noPhase
    (((p, w0) :: rest).map fun v => images ((ρ p).symm.trans (ρ v.1))) p (w0 : T) (castWeights T rest) (fun _ => 0)
    (by simp [castWeights]) hmm
  obtain ⟨q, q1, q2, _⟩ := Interp.mix_spec (forMix vectors) Interp.antiphase
    (((p, w0) :: rest).map fun v => images ((ρ p).symm.trans (ρ v.1))) p (w0 : ℂ) (castWeights ℂ rest)
    (fun _ => 0) (by simp [castWeights]) (by
      intro l hl
      have := hmm l hl
      rwa [← hd.branches] at this)
  refine ⟨_, r, q, hperms, r1, q1, fun b hb => ⟨fun k hk => ?_, fun k hk => ?_⟩⟩
  · have e := r2 b k hb (by simpa [forMix, s1] using hk)
    have f := sum_weights (S := T) (fun j => images ((ρ p).symm.trans (ρ j)))
      (fun l j => values.row j (l.getD b 0 * values.scalars + k)) (scalarsOf values p b k) ((p, w0) :: rest) (by
        intro v hv
        have := (relabelled_between (hsame p hp) (hsame v.1 (hlt v hv))).scalars ⟨b, hb⟩ k hk
        rw [images_getD _ ⟨b, hb⟩]
        exact this)
    rw [hw, RCLike.ofReal_one, one_mul] at f
    simp only [forMix, s1, Interp.factor, Interp.noPhase, mul_one, zero_add] at e
    exact e.trans f
  · have e := q2 b k (by simpa [forMix, hd.branches] using hb) (by simpa [forMix, s2] using hk)
    have f := sum_weights (S := ℂ) (fun j => images ((ρ p).symm.trans (ρ j)))
      (fun l j => Interp.antiphase vectors.vectors (fun k => vectors.row p (b * vectors.vectors + k))
        (fun k => vectors.row j (l.getD b 0 * vectors.vectors + k)) * vectors.row j (l.getD b 0 * vectors.vectors + k))
      (vectorsOf vectors p b k) ((p, w0) :: rest) (by
        intro v hv
        have := (relabelled_between (hsame p hp) (hsame v.1 (hlt v hv))).vectors ⟨b, hb⟩
        rw [images_getD _ ⟨b, hb⟩]
        exact antiphase_rephased this k hk)
    rw [hw, RCLike.ofReal_one, one_mul] at f
    simp only [forMix, s2, Interp.factor, zero_add, mul_assoc] at e
    exact e.trans f

/-- **C61 (limits).** For real vectors the cost reads memory that was never written: `inplace_antiphase` does nothing for
real numbers, so that the buffer for the second mode stays as it was allocated.  This is so for any two points as soon as
there is a mode with vectors. -/
theorem C61_real_counterexample (st : Scalars T) (values : ModeCost.Data T) (vectors : ModeCost.Data ℝ)
    (hb : 0 < vectors.branches) (hs : 0 < vectors.span) (i j : Nat) (hij : i ≠ j) (fuel : Nat) :
    costMatrix st reals values vectors i j = none ∧ determine st reals values vectors i j fuel = none := by
  have h : ∀ cost, addCost reals vectors i j cost true = none := by
    intro cost
    obtain ⟨m, hm⟩ : ∃ m, vectors.branches = m + 1 := ⟨vectors.branches - 1, by omega⟩
    have hp : ∃ q r, pairs vectors.branches = q :: r := by
      rw [hm, pairs, List.range_succ_eq_map, List.flatMap_cons, List.map_cons]
      exact ⟨_, _, rfl⟩
    obtain ⟨q, r, hp⟩ := hp
    rw [addCost, hp, List.foldlM_cons]
    have : addPair reals vectors true i j cost q = none := by
      have hs' : vectors.span ≠ 0 := by omega
      simp [addPair, second, reals, hs']
    rw [this]
    rfl
  have e : costMatrix st reals values vectors i j = none := by
    unfold costMatrix
    rw [if_neg hij]
    cases addCost st values i j (List.replicate (values.branches * values.branches) 0) false with
    | none => rfl
    | some c => exact h c
  exact ⟨e, by rw [determine, e]; rfl⟩

/-! ### a crystal with two modes that change places between two points -/
namespace TwoModes

/-- energies 1 and 2 at the first, 2 and 1 at the second point -/
def values : ModeCost.Data ℝ := ⟨fun i k => if i = k then 1 else 2, 1, 0, 0, 2, (1, 1, 1), 0⟩

/-- every component 1 at the first point and `i` at the second -/
noncomputable def vectors : ModeCost.Data ℂ := ⟨fun i _ => if i = 0 then 1 else Complex.I, 0, 3, 0, 2, (1, 1, 1), 0⟩

/-- the modes of the first point -/
def x (b _k : Nat) : ℝ := if b = 0 then 1 else 2

/-- the vectors of the first point -/
noncomputable def y (_b _k : Nat) : ℂ := 1

/-- the orders at the points -/
def ρ (i : Nat) : Equiv.Perm (Fin values.branches) :=
  if i = 0 then Equiv.refl _ else Equiv.swap (⟨0, by decide⟩ : Fin 2) ⟨1, by decide⟩

theorem phonon : PhononData values vectors := ⟨rfl, rfl, rfl, rfl, rfl, by decide⟩

theorem same : SameModes values vectors x y 2 ρ := by
  intro i hi
  obtain rfl | rfl : i = 0 ∨ i = 1 := by omega
  · constructor
    · intro b k hk
      obtain rfl : k = 0 := by have : k < 1 := hk; omega
      obtain ⟨b, hb⟩ := b
      obtain rfl | rfl : b = 0 ∨ b = 1 := by have : b < 2 := hb; omega
      · have : ρ 0 ⟨0, hb⟩ = ⟨0, by decide⟩ := rfl
        rw [this]
        simp [scalarsOf, values, x]
      · have : ρ 0 ⟨1, hb⟩ = ⟨1, by decide⟩ := rfl
        rw [this]
        simp [scalarsOf, values, x]
    · intro b
      exact ⟨1, by simp, fun k _ => by simp [vectorsOf, vectors, y]⟩
  · constructor
    · intro b k hk
      obtain rfl : k = 0 := by have : k < 1 := hk; omega
      obtain ⟨b, hb⟩ := b
      obtain rfl | rfl : b = 0 ∨ b = 1 := by have : b < 2 := hb; omega
      · have : ρ 1 ⟨0, hb⟩ = ⟨1, by decide⟩ := rfl
        rw [this]
        simp [scalarsOf, values, x]
      · have : ρ 1 ⟨1, hb⟩ = ⟨0, by decide⟩ := rfl
        rw [this]
        simp [scalarsOf, values, x]
    · intro b
      exact ⟨Complex.I, by simp, fun k _ => by simp [vectorsOf, vectors, y]⟩

theorem distinguishable : Distinguishable values.branches values.scalars vectors.vectors x y := by
  intro b c hb hc hbc
  left
  have hb' : b < 2 := hb
  have hc' : c < 2 := hc
  refine ⟨0, by decide, ?_⟩
  obtain ⟨rfl, rfl⟩ | ⟨rfl, rfl⟩ : (b = 0 ∧ c = 1) ∨ (b = 1 ∧ c = 0) := by omega
  · simp [x]
  · simp [x]

theorem normalised (b : Nat) : NormalisedFor vectors.vcf vectors.vectors (y b) := by
  intro h
  exact absurd h (by decide)

/-- `C61_cost`, `C61_closest`, `C61_recovers`: the permutation found is the exchange of the two modes -/
example : determine reals complexes values vectors 0 1 1 = some ([1, 0], [1, 0]) := by
  have h := C61_recovers reals values vectors phonon (by norm_num [values]) (by norm_num [vectors]) 0 1 (by decide)
    ((ρ 0).symm.trans (ρ 1)) (relabelled_between (same 0 (by decide)) (same 1 (by decide)))
    (distinguishable_relabelled (same 0 (by decide)) distinguishable) (fun b _ h => absurd h (by decide)) 0
  have e : images ((ρ 0).symm.trans (ρ 1)) = [1, 0] := by decide
  have e' : images ((ρ 0).symm.trans (ρ 1)).symm = [1, 0] := by decide
  rw [h, e, e']

/-- `C61_sort` and `C61_interpolated`: after sorting with any schedule, the modes halfway between the points are those of
the first point -/
example : ∃ (solve : Nat → Nat → List Nat × List Nat) (t : Table) (s : SortPerm.State 1)
    (sched : List (Fin 1)),
    determine reals complexes values vectors 0 1 1 = some (solve 0 1) ∧
    SortPerm.run solve (start t fun _ => [(0, 1)]) sched = some s ∧ Finished s ∧
    ∃ perms r q, Interp.getPermutations s.table [(0, (1 / 2 : ℝ)), (1, 1 / 2)] = some perms ∧
      Interp.mix (forMix values) Interp.noPhase perms (castWeights ℝ [(0, 1 / 2), (1, 1 / 2)]) (fun _ => 0) = some r ∧
      Interp.mix (forMix vectors) Interp.antiphase perms (castWeights ℂ [(0, 1 / 2), (1, 1 / 2)]) (fun _ => 0) = some q ∧
      r 0 = 1 ∧ r 1 = 2 ∧ q 0 = 1 ∧ q 5 = 1 := by
  obtain ⟨solve, h1, tri, h2, h3⟩ := C61_sort reals values vectors phonon (by norm_num [values]) (by norm_num [vectors])
    2 (by decide) x y ρ same distinguishable (fun b _ => normalised b) 0 2 [.insertKeys [1, 2]]
    (by simp [ValidHistory, OpOk]) _ rfl (by decide)
    (by intro i; simp [safeGet, ij2key, mk0, insertKeys, addZeroth, mapSet, values]) [0, 1, 2] (by
      intro k
      rw [(insertKeys_spec _ _).2.2]
      simp only [mk0, addZeroth, mapSet]
      by_cases h0 : k = 0
      · simp [h0]
      · simp [h0]
        omega) (by
      intro i j hi hj hij h
      simp only [List.mem_cons, List.not_mem_nil, or_false] at h ⊢
      omega)
  have htri : tri = [(0, 1)] := by
    have : triPairs 2 [0, 1, 2] = some [(0, 1)] := by decide
    rw [this] at h2
    exact (Option.some.inj h2).symm
  have h4 := h3 1 (fun _ => [(0, 1)]) (by rw [htri]; intro p; simp)
  obtain ⟨s0, e0, ⟨sched, s1, e1, hfin⟩, _⟩ := h4 []
  obtain ⟨s, e, _, f⟩ := h4 sched
  obtain rfl : s1 = s := by
    obtain rfl := Option.some.inj e0
    rw [e1] at e
    exact Option.some.inj e
  have g := f hfin
  obtain ⟨perms, r, q, a1, a2, a3, a4⟩ := C61_interpolated values vectors phonon 2 x y ρ same s1.table 0 (by decide)
    (1 / 2) [(1, 1 / 2)] (by simp) (by norm_num) (by
      intro v hv
      simp only [List.mem_cons, List.not_mem_nil, or_false] at hv
      rcases hv with rfl | rfl
      · exact g 0 0 (by decide) (by decide) (by simp)
      · exact g 0 1 (by decide) (by decide) (by simp))
  refine ⟨solve, _, s1, sched, h1 0 1 (by decide) (by decide) (by decide), e, hfin, perms, r, q, a1, a2, a3, ?_, ?_, ?_, ?_⟩
  · exact ((a4 0 (by decide)).1 0 (by decide)).trans (by simp [scalarsOf, values])
  · exact ((a4 1 (by decide)).1 0 (by decide)).trans (by simp [scalarsOf, values])
  · exact ((a4 0 (by decide)).2 0 (by decide)).trans (by simp [vectorsOf, vectors])
  · exact ((a4 1 (by decide)).2 2 (by decide)).trans (by simp [vectorsOf, vectors])

end TwoModes

end Brille.Props
