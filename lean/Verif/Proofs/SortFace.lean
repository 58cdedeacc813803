/- The sorted corners of a convex polygon follow each other counter-clockwise. -/
import Verif.Model.SortFace
import Verif.Proofs.ConvexFace
import Mathlib.Tactic.Linarith
import Mathlib.Tactic.Ring
import Mathlib.Tactic.FieldSimp
import Mathlib.Tactic.LinearCombination
import Mathlib.Algebra.BigOperators.Group.List.Basic

namespace Brille.SortFace

open Brille.Tetra Brille.Faces Brille.Cut Brille.Spec

/-! ### angles -/

/-- the angle of the first vector is not more than that of the second -/
def Le (a b : ℚ × ℚ) : Prop := angleLt b a = false

theorem upper_true (b : ℚ × ℚ) : upper b = true ↔ 0 < b.2 ∨ (b.2 = 0 ∧ 0 ≤ b.1) := by simp [upper]

theorem upper_false (b : ℚ × ℚ) : upper b = false ↔ b.2 < 0 ∨ (b.2 = 0 ∧ b.1 < 0) := by
  simp only [upper, decide_eq_false_iff_not, not_or, not_and, not_le, not_lt]
  constructor
  · rintro ⟨h1, h2⟩
    rcases h1.lt_or_eq with hc | hc
    · exact Or.inl hc
    · exact Or.inr ⟨hc, h2 hc⟩
  · rintro (h | ⟨h1, h2⟩)
    · exact ⟨h.le, fun e => by linarith⟩
    · exact ⟨h1.le, fun _ => h2⟩

theorem le_iff (a b : ℚ × ℚ) : Le a b ↔ (upper a = true ∧ upper b = false) ∨ (upper a = upper b ∧ 0 ≤ det2 a b) := by
  unfold Le angleLt
  have : det2 b a = - det2 a b := by unfold det2; ring
  cases ha : upper a <;> cases hb : upper b <;> simp [this]

theorem lt_le (a b : ℚ × ℚ) (h : angleLt a b = true) : Le a b := by
  rw [le_iff]
  unfold angleLt at h
  cases ha : upper a <;> cases hb : upper b <;> simp_all
  · exact h.le
  · exact h.le

/-- not the vector of length zero -/
def Nz (a : ℚ × ℚ) : Prop := a.1 ≠ 0 ∨ a.2 ≠ 0

theorem det_identity (a b c : ℚ × ℚ) : det2 a c * b.2 = det2 a b * c.2 + det2 b c * a.2 := by unfold det2; ring

theorem up_axis {b : ℚ × ℚ} (h : upper b = true) (hz : Nz b) (h0 : b.2 = 0) : 0 < b.1 := by
  rcases (upper_true b).mp h with hc | hc
  · linarith
  · refine lt_of_le_of_ne hc.2 fun e => ?_
    rcases hz with hz | hz
    · exact hz e.symm
    · exact hz h0

theorem low_axis {b : ℚ × ℚ} (h : upper b = false) (h0 : b.2 = 0) : b.1 < 0 := by
  rcases (upper_false b).mp h with hc | hc
  · linarith
  · exact hc.2

theorem up_nonneg {b : ℚ × ℚ} (h : upper b = true) : 0 ≤ b.2 := by
  rcases (upper_true b).mp h with hc | hc
  · exact hc.le
  · exact hc.1.ge

theorem low_nonpos {b : ℚ × ℚ} (h : upper b = false) : b.2 ≤ 0 := by
  rcases (upper_false b).mp h with hc | hc
  · exact hc.le
  · exact hc.1.le

theorem le_trans' (a b c : ℚ × ℚ) (na : Nz a) (nb : Nz b) (h1 : Le a b) (h2 : Le b c) : Le a c := by
  rw [le_iff] at h1 h2 ⊢
  rcases h1 with ⟨ua, ub⟩ | ⟨e1, d1⟩
  · rcases h2 with ⟨ub', _⟩ | ⟨e2, _⟩
    · rw [ub] at ub'; cases ub'
    · exact Or.inl ⟨ua, by rw [← e2, ub]⟩
  · rcases h2 with ⟨ub, uc⟩ | ⟨e2, d2⟩
    · exact Or.inl ⟨by rw [e1, ub], uc⟩
    · refine Or.inr ⟨e1.trans e2, ?_⟩
      have id := det_identity a b c
      cases hb : upper b with
      | true =>
        have ha : upper a = true := by rw [e1, hb]
        have hc : upper c = true := by rw [← e2, hb]
        have qa := up_nonneg ha
        have qc := up_nonneg hc
        rcases (up_nonneg hb).lt_or_eq with q | q
        · have := mul_nonneg d1 qc
          have := mul_nonneg d2 qa
          have : 0 ≤ det2 a c * b.2 := by linarith
          exact nonneg_of_mul_nonneg_left this q
        · have pb := up_axis hb nb q.symm
          have : det2 a b = - (a.2 * b.1) := by unfold det2; rw [← q]; ring
          have qa0 : a.2 = 0 := by
            rcases qa.lt_or_eq with q' | q'
            · have := mul_pos q' pb; linarith
            · exact q'.symm
          have pa := up_axis ha na qa0
          have : det2 a c = a.1 * c.2 := by unfold det2; rw [qa0]; ring
          rw [this]; exact mul_nonneg pa.le qc
      | false =>
        have ha : upper a = false := by rw [e1, hb]
        have hc : upper c = false := by rw [← e2, hb]
        have qa := low_nonpos ha
        have qc := low_nonpos hc
        rcases (low_nonpos hb).lt_or_eq with q | q
        · have := mul_nonneg d1 (neg_nonneg.mpr qc)
          have := mul_nonneg d2 (neg_nonneg.mpr qa)
          have : 0 ≤ det2 a c * - b.2 := by linarith
          exact nonneg_of_mul_nonneg_left this (by linarith)
        · have pb := low_axis hb q
          have : det2 a b = - (a.2 * b.1) := by unfold det2; rw [q]; ring
          have qa0 : a.2 = 0 := by
            rcases qa.lt_or_eq with q' | q'
            · have := mul_pos_of_neg_of_neg q' pb; linarith
            · exact q'
          have pa := low_axis ha qa0
          have : det2 a c = a.1 * c.2 := by unfold det2; rw [qa0]; ring
          rw [this]; exact mul_nonneg_of_nonpos_of_nonpos pa.le qc

theorem le_total' (a b : ℚ × ℚ) : Le a b ∨ Le b a := by
  rw [le_iff, le_iff]
  have : det2 b a = - det2 a b := by unfold det2; ring
  rw [this]
  cases ha : upper a <;> cases hb : upper b <;> simp
  all_goals exact le_total _ _

/-- directions between two less than half a turn apart -/
theorem between (a x z : ℚ × ℚ) (na : Nz a) (h1 : Le a x) (h2 : Le x z) (h3 : 0 < det2 a z) : 0 ≤ det2 a x ∧ 0 ≤ det2 x z := by
  have id1 := det_identity a x z
  have eza : det2 z a = - det2 a z := by unfold det2; ring
  rw [le_iff] at h1 h2
  rcases h1 with ⟨ua, ux⟩ | ⟨e1, d1⟩
  · rcases h2 with ⟨ux', _⟩ | ⟨e2, d2⟩
    · rw [ux] at ux'; cases ux'
    · refine ⟨?_, d2⟩
      have uz : upper z = false := by rw [← e2, ux]
      have qz := low_nonpos uz
      have qx := low_nonpos ux
      have qa := up_nonneg ua
      rcases qz.lt_or_eq with q | q
      · have m1 := mul_nonneg d2 qa
        have m2 := mul_nonneg h3.le (neg_nonneg.mpr qx)
        have : 0 ≤ det2 a x * - z.2 := by linarith
        exact nonneg_of_mul_nonneg_left this (by linarith)
      · have pz := low_axis uz q
        have e3 : det2 a z = - (a.2 * z.1) := by unfold det2; rw [q]; ring
        have e4 : det2 x z = - (x.2 * z.1) := by unfold det2; rw [q]; ring
        have qx0 : x.2 = 0 := by
          rcases qx.lt_or_eq with q' | q'
          · have := mul_pos_of_neg_of_neg q' pz; linarith
          · exact q'
        have px := low_axis ux qx0
        have : det2 a x = - (a.2 * x.1) := by unfold det2; rw [qx0]; ring
        rw [this]
        have := mul_nonneg qa (neg_nonneg.mpr px.le)
        linarith
  · refine ⟨d1, ?_⟩
    rcases h2 with ⟨ux, uz⟩ | ⟨e2, d2⟩
    · have ua : upper a = true := by rw [e1, ux]
      have qz := low_nonpos uz
      have qx := up_nonneg ux
      have qa := up_nonneg ua
      rcases qa.lt_or_eq with q | q
      · have m1 := mul_nonneg d1 (neg_nonneg.mpr qz)
        have m2 := mul_nonneg h3.le qx
        have : 0 ≤ det2 x z * a.2 := by linarith
        exact nonneg_of_mul_nonneg_left this q
      · have pa := up_axis ua na q.symm
        have e3 : det2 a z = a.1 * z.2 := by unfold det2; rw [← q]; ring
        have := mul_nonneg pa.le (neg_nonneg.mpr qz)
        linarith
    · exact d2

/-- the same across the direction the angles are counted from -/
theorem wrap (a z : ℚ × ℚ) (h1 : Le z a) (h2 : 0 < det2 a z) : upper z = true ∧ upper a = false := by
  have eza : det2 z a = - det2 a z := by unfold det2; ring
  rw [le_iff, eza] at h1
  rcases h1 with h1 | ⟨_, h⟩
  · exact h1
  · linarith

theorem between_wrap (a x z : ℚ × ℚ) (h1 : Le z a) (h2 : Le a x) (h3 : 0 < det2 a z) : 0 ≤ det2 a x ∧ 0 ≤ det2 x z := by
  obtain ⟨uz, ua⟩ := wrap a z h1 h3
  have id1 := det_identity a x z
  rw [le_iff, ua] at h2
  rcases h2 with ⟨h2, _⟩ | ⟨h2, d⟩
  · cases h2
  · refine ⟨d, ?_⟩
    have ux : upper x = false := h2.symm
    have qz := up_nonneg uz
    have qa := low_nonpos ua
    have qx := low_nonpos ux
    rcases qa.lt_or_eq with q | q
    · have m1 := mul_nonneg d qz
      have m2 := mul_nonneg h3.le (neg_nonneg.mpr qx)
      have : 0 ≤ det2 x z * - a.2 := by linarith
      exact nonneg_of_mul_nonneg_left this (by linarith)
    · have pa := low_axis ua q
      have e3 : det2 a z = a.1 * z.2 := by unfold det2; rw [q]; ring
      have := mul_nonneg (neg_nonneg.mpr pa.le) qz
      linarith

theorem between_first (a o z : ℚ × ℚ) (h1 : Le z a) (h3 : 0 < det2 a z) (o1 : 0 < o.1) (o2 : o.2 = 0) :
    0 ≤ det2 a o ∧ 0 ≤ det2 o z := by
  obtain ⟨uz, ua⟩ := wrap a z h1 h3
  have qz := up_nonneg uz
  have qa := low_nonpos ua
  constructor
  · unfold det2; rw [o2]
    have := mul_nonneg (neg_nonneg.mpr qa) o1.le
    linarith
  · unfold det2; rw [o2]
    have := mul_nonneg o1.le qz
    linarith

/-! ### the selection -/

theorem minFirst_spec (key : Nat → ℚ × ℚ) (l : List Nat) (m : Nat) (hz : ∀ i ∈ m :: l, Nz (key i)) :
    minFirst key l m ∈ m :: l ∧ ∀ j ∈ m :: l, Le (key (minFirst key l m)) (key j) := by
  unfold minFirst
  induction l generalizing m with
  | nil =>
    refine ⟨by simp, ?_⟩
    intro j hj
    rw [List.mem_singleton.mp hj]
    rcases le_total' (key m) (key m) with h | h <;> exact h
  | cons x l ih =>
    rw [List.foldl_cons]
    have hzm := hz m (by simp)
    have hzx := hz x (by simp)
    split
    · rename_i hlt
      obtain ⟨h1, h2⟩ := ih x (fun i hi => hz i (List.mem_cons_of_mem _ hi))
      refine ⟨List.mem_cons_of_mem _ h1, ?_⟩
      intro j hj
      rcases List.mem_cons.mp hj with rfl | hj
      · refine le_trans' _ (key x) _ (hz _ (List.mem_cons_of_mem _ h1)) hzx (h2 x (by simp)) (lt_le _ _ hlt)
      · exact h2 j hj
    · rename_i hlt
      have hle : Le (key m) (key x) := by
        unfold Le; simpa using hlt
      obtain ⟨h1, h2⟩ := ih m (fun i hi => hz i (by
        rcases List.mem_cons.mp hi with rfl | hi
        · simp
        · exact List.mem_cons_of_mem _ (List.mem_cons_of_mem _ hi)))
      have hmem : List.foldl (fun m x => if angleLt (key x) (key m) = true then x else m) m l ∈ m :: x :: l := by
        rcases List.mem_cons.mp h1 with e | e
        · rw [e]; simp
        · exact List.mem_cons_of_mem _ (List.mem_cons_of_mem _ e)
      refine ⟨hmem, ?_⟩
      intro j hj
      rcases List.mem_cons.mp hj with rfl | hj
      · exact h2 j (by simp)
      · rcases List.mem_cons.mp hj with rfl | hj
        · exact le_trans' _ (key m) _ (hz _ hmem) hzm (h2 m (by simp)) hle
        · exact h2 j (List.mem_cons_of_mem _ hj)

theorem select_spec (key : Nat → ℚ × ℚ) (fuel : Nat) : ∀ l : List Nat, l.length ≤ fuel → (∀ i ∈ l, Nz (key i)) →
    (select key fuel l).Perm l ∧ (select key fuel l).Pairwise fun i j => Le (key i) (key j) := by
  induction fuel with
  | zero =>
    intro l hl _
    have : l = [] := List.length_eq_zero_iff.mp (by omega)
    subst this
    exact ⟨List.Perm.refl _, List.Pairwise.nil⟩
  | succ n ih =>
    intro l hl hz
    cases l with
    | nil => exact ⟨List.Perm.refl _, List.Pairwise.nil⟩
    | cons x l =>
      obtain ⟨h1, h2⟩ := minFirst_spec key l x hz
      unfold select
      simp only
      set m := minFirst key l x
      have hp := List.perm_cons_erase h1
      obtain ⟨i1, i2⟩ := ih ((x :: l).erase m) (by
        rw [List.length_erase_of_mem h1]
        simp only [List.length_cons] at hl ⊢
        omega) (fun i hi => hz i (List.mem_of_mem_erase hi))
      refine ⟨(List.Perm.cons m i1).trans hp.symm, List.Pairwise.cons ?_ i2⟩
      intro j hj
      exact h2 j (List.mem_of_mem_erase (i1.subset hj))

/-! ### nothing to remove -/

theorem turns_left (n : Pt) (points : List Pt) (sorted : List Nat) (h : ∀ i < sorted.length,
    0 < dot n (cross (diff (points.getD (sorted.getD (i % sorted.length) 0) 0) (points.getD (sorted.getD ((sorted.length + i - 1) % sorted.length) 0) 0))
      (diff (points.getD (sorted.getD ((sorted.length + i + 1) % sorted.length) 0) 0) (points.getD (sorted.getD (i % sorted.length) 0) 0))))
    (fuel i : Nat) : turns n points fuel i sorted = sorted := by
  induction fuel generalizing i with
  | zero => rfl
  | succ k ih =>
    unfold turns
    split
    · rename_i hc
      simp only
      rw [if_pos (h i hc.2)]
      exact ih (i + 1)
    · rfl

/-! ### consecutive corners -/

/-- twice the signed area of a triangle -/
def area (a b c : ℚ × ℚ) : ℚ := det2 a b + det2 b c + det2 c a

theorem area_barycentric (y s w v : ℚ × ℚ) :
    det2 y s * area w v w = area y s w * det2 w v + det2 w s * area w v y + det2 y w * area w v s := by
  unfold area det2; ring

theorem area_self (w v : ℚ × ℚ) : area w v w = 0 := by unfold area det2; ring

theorem area_self' (w v : ℚ × ℚ) : area w v v = 0 := by unfold area det2; ring

theorem not_in_cone (k : Nat → ℚ × ℚ) (S : List Nat) (hnext : ∀ y ∈ S, ∃ z ∈ S, z ≠ y ∧ 0 < det2 (k y) (k z) ∧
    ∀ w ∈ S, w ≠ y → w ≠ z → 0 < area (k y) (k z) (k w)) (y s w : Nat) (hy : y ∈ S) (hs : s ∈ S) (hw : w ∈ S)
    (hT : 0 < area (k y) (k s) (k w)) (h1 : 0 ≤ det2 (k y) (k w)) (h2 : 0 ≤ det2 (k w) (k s)) : False := by
  obtain ⟨v, hv, hvw, hD, hA⟩ := hnext w hw
  have id := area_barycentric (k y) (k s) (k w) (k v)
  rw [area_self, mul_zero] at id
  have nn : ∀ x ∈ S, 0 ≤ area (k w) (k v) (k x) := by
    intro x hx
    by_cases e1 : x = w
    · rw [e1, area_self]
    · by_cases e2 : x = v
      · rw [e2, area_self']
      · exact (hA x hx e1 e2).le
  have a1 := mul_nonneg h2 (nn y hy)
  have a2 := mul_nonneg h1 (nn s hs)
  have a3 := mul_pos hT hD
  linarith

theorem sorted_next (k : Nat → ℚ × ℚ) (S : List Nat) (hn : S.Nodup) (hp : S.Pairwise fun i j => Le (k i) (k j))
    (hz : ∀ i ∈ S, Nz (k i)) (hfirst : ∀ i, S[0]? = some i → 0 < (k i).1 ∧ (k i).2 = 0)
    (hnext : ∀ y ∈ S, ∃ z ∈ S, z ≠ y ∧ 0 < det2 (k y) (k z) ∧ ∀ w ∈ S, w ≠ y → w ≠ z → 0 < area (k y) (k z) (k w))
    (y z : Nat) (he : (y, z) ∈ steps S) (w : Nat) (hw : w ∈ S) (hwy : w ≠ y) (hwz : w ≠ z) : 0 < area (k y) (k z) (k w) := by
  obtain ⟨i, hi, e⟩ := List.getElem_of_mem he
  rw [Convex.steps_length] at hi
  rw [Convex.steps_get S i hi, Prod.mk.injEq] at e
  obtain ⟨ey, ez⟩ := e
  have hy : y ∈ S := by rw [← ey]; exact List.getElem_mem _
  have hzm : z ∈ S := by rw [← ez]; exact List.getElem_mem _
  obtain ⟨s, hs, hsy, hD, hA⟩ := hnext y hy
  by_cases hzs : z = s
  · rw [hzs]; exact hA w hw hwy (by rw [← hzs]; exact hwz)
  · exfalso
    have hpg := List.pairwise_iff_getElem.mp hp
    obtain ⟨t, ht, es⟩ := List.getElem_of_mem hs
    have hzy : z ≠ y := by
      intro e
      have hij := (List.Nodup.getElem_inj_iff hn).mp (ez.trans (e.trans ey.symm))
      have hlen : S.length = 1 := by
        by_contra hl
        by_cases hl' : i + 1 < S.length
        · rw [Nat.mod_eq_of_lt hl'] at hij; omega
        · have : i + 1 = S.length := by omega
          rw [this, Nat.mod_self] at hij; omega
      have : t = i := by omega
      subst this
      exact hsy (es.symm.trans ey)
    refine not_in_cone k S hnext y s z hy hs hzm (hA z hzm hzy hzs) ?_ ?_ <;>
    · have hti : t ≠ i := fun e => hsy (by subst e; exact es.symm.trans ey)
      have key : 0 ≤ det2 (k y) (k z) ∧ 0 ≤ det2 (k z) (k s) := by
        rcases Nat.lt_or_gt_of_ne hti with hlt | hlt
        · have lsy : Le (k s) (k y) := by rw [← es, ← ey]; exact hpg t i ht hi hlt
          by_cases hl : i + 1 < S.length
          · have lyz : Le (k y) (k z) := by
              rw [← ey, ← ez]
              simp only [Nat.mod_eq_of_lt hl]
              exact hpg i (i + 1) hi hl (by omega)
            exact between_wrap _ _ _ lsy lyz hD
          · have hl' : i + 1 = S.length := by omega
            have e0 : S[0]? = some z := by
              simp only [hl', Nat.mod_self] at ez
              rw [List.getElem?_eq_getElem (by omega), ez]
            obtain ⟨f1, f2⟩ := hfirst z e0
            exact between_first _ _ _ lsy hD f1 f2
        · have hl : i + 1 < S.length := by omega
          simp only [Nat.mod_eq_of_lt hl] at ez
          have lyz : Le (k y) (k z) := by rw [← ey, ← ez]; exact hpg i (i + 1) hi hl (by omega)
          have hne : i + 1 ≠ t := fun e => by subst e; exact hzs (ez.symm.trans es)
          have lzs : Le (k z) (k s) := by rw [← ez, ← es]; exact hpg (i + 1) t hl ht (by omega)
          exact between _ _ _ (hz y hy) lyz lzs hD
      first | exact key.1 | exact key.2

/-! ### the centre -/

theorem centre_sum (v : List Pt) (hv : v ≠ []) (d : Fin 3) : v.length * centre v d = (v.map fun p => p d).sum := by
  unfold centre
  have : (v.length : ℚ) ≠ 0 := by
    have := List.length_pos_of_ne_nil hv
    positivity
  field_simp

theorem affine_sum (v : List Pt) (n0 n1 n2 c : ℚ) : (v.map fun x => n0 * x 0 + n1 * x 1 + n2 * x 2 + c).sum =
    n0 * (v.map fun p => p 0).sum + n1 * (v.map fun p => p 1).sum + n2 * (v.map fun p => p 2).sum + c * v.length := by
  induction v with
  | nil => simp
  | cons x v ih => simp only [List.map_cons, List.sum_cons, List.length_cons, ih]; push_cast; ring

theorem centre_affine (v : List Pt) (hv : v ≠ []) (n0 n1 n2 c : ℚ) :
    v.length * (n0 * centre v 0 + n1 * centre v 1 + n2 * centre v 2 + c) =
      (v.map fun x => n0 * x 0 + n1 * x 1 + n2 * x 2 + c).sum := by
  rw [affine_sum, ← centre_sum v hv 0, ← centre_sum v hv 1, ← centre_sum v hv 2]; ring

theorem sum_pos' (l : List ℚ) (h : ∀ x ∈ l, 0 ≤ x) (x : ℚ) (hx : x ∈ l) (hp : 0 < x) : 0 < l.sum := by
  induction l with
  | nil => cases hx
  | cons y l ih =>
    rw [List.sum_cons]
    have hl : 0 ≤ l.sum := List.sum_nonneg fun z hz => h z (List.mem_cons_of_mem _ hz)
    rcases List.mem_cons.mp hx with rfl | hx
    · linarith
    · have := ih (fun z hz => h z (List.mem_cons_of_mem _ hz)) hx
      have := h y (by simp)
      linarith

/-! ### the sorted face -/

/-- the turn from `y` to `z` to `w` seen against `n` -/
def turn (n y z w : Pt) : ℚ := dot n (cross (diff z y) (diff w y))

theorem planar_eq (n u : Pt) (h : dot n u = 0) : planar n u = u := by
  funext d
  have : dot u n = dot n u := by unfold dot; ring
  unfold planar; rw [this, h]; simp

theorem det_onPlane (n x u v : Pt) (hx : dot n x = 0) (hu : dot n u = 0) (hv : dot n v = 0) :
    det2 (onPlane n x u) (onPlane n x v) = dot x x * dot n (cross u v) := by
  unfold det2 onPlane
  simp only [planar_eq n u hu, planar_eq n v hv]
  have e : dot (cross u v) x = (u 1 * v 2 - u 2 * v 1) * x 0 + (u 2 * v 0 - u 0 * v 2) * x 1 + (u 0 * v 1 - u 1 * v 0) * x 2 := by
    simp [dot, cross]
  simp only [dot, cross, Matrix.cons_val_zero, Matrix.cons_val_one, Matrix.cons_val] at *
  linear_combination (-((u 1 * v 2 - u 2 * v 1) * x 0 + (u 2 * v 0 - u 0 * v 2) * x 1 + (u 0 * v 1 - u 1 * v 0) * x 2)) * hx

theorem turn_area (n x c y z w : Pt) (hx : dot n x = 0) (hy : dot n (diff y c) = 0) (hz : dot n (diff z c) = 0) (hw : dot n (diff w c) = 0) :
    area (onPlane n x (diff y c)) (onPlane n x (diff z c)) (onPlane n x (diff w c)) = dot x x * turn n y z w := by
  unfold area
  rw [det_onPlane n x _ _ hx hy hz, det_onPlane n x _ _ hx hz hw, det_onPlane n x _ _ hx hw hy]
  simp only [turn, dot, cross, diff, Matrix.cons_val_zero, Matrix.cons_val_one, Matrix.cons_val]
  ring

theorem turn_centre (n y z : Pt) (v : List Pt) (hv : v ≠ []) :
    v.length * dot n (cross (diff y (centre v)) (diff z (centre v))) = (v.map fun w => turn n y z w).sum := by
  have e := centre_affine v hv
    (n 1 * (z 2 - y 2) - n 2 * (z 1 - y 1)) (n 2 * (z 0 - y 0) - n 0 * (z 2 - y 2)) (n 0 * (z 1 - y 1) - n 1 * (z 0 - y 0))
    (-((n 1 * (z 2 - y 2) - n 2 * (z 1 - y 1)) * y 0 + (n 2 * (z 0 - y 0) - n 0 * (z 2 - y 2)) * y 1 + (n 0 * (z 1 - y 1) - n 1 * (z 0 - y 0)) * y 2))
  have e1 : (fun w => turn n y z w) = fun x : Pt => (n 1 * (z 2 - y 2) - n 2 * (z 1 - y 1)) * x 0 +
      (n 2 * (z 0 - y 0) - n 0 * (z 2 - y 2)) * x 1 + (n 0 * (z 1 - y 1) - n 1 * (z 0 - y 0)) * x 2 +
      -((n 1 * (z 2 - y 2) - n 2 * (z 1 - y 1)) * y 0 + (n 2 * (z 0 - y 0) - n 0 * (z 2 - y 2)) * y 1 + (n 0 * (z 1 - y 1) - n 1 * (z 0 - y 0)) * y 2) := by
    funext w
    simp only [turn, dot, cross, diff, Matrix.cons_val_zero, Matrix.cons_val_one, Matrix.cons_val]
    ring
  rw [e1, ← e]
  congr 1
  simp only [dot, cross, diff, Matrix.cons_val_zero, Matrix.cons_val_one, Matrix.cons_val]
  ring

theorem turn_self (n y z : Pt) : turn n y z y = 0 := by
  simp only [turn, dot, cross, diff, Matrix.cons_val_zero, Matrix.cons_val_one, Matrix.cons_val]; ring

theorem turn_self' (n y z : Pt) : turn n y z z = 0 := by
  simp only [turn, dot, cross, diff, Matrix.cons_val_zero, Matrix.cons_val_one, Matrix.cons_val]; ring

theorem mod_apart (N i : Nat) (hN : 3 ≤ N) (hi : i < N) : (N + i + 1) % N ≠ (N + i - 1) % N := by
  have e1 : (N + i + 1) % N = if i + 1 < N then i + 1 else 0 := by
    split
    · rename_i h
      rw [show N + i + 1 = (i + 1) + N by omega, Nat.add_mod_right, Nat.mod_eq_of_lt h]
    · rw [show N + i + 1 = 0 + N + N by omega, Nat.add_mod_right, Nat.add_mod_right, Nat.mod_eq_of_lt (by omega)]
  have e2 : (N + i - 1) % N = if i = 0 then N - 1 else i - 1 := by
    split
    · rename_i h; subst h; rw [Nat.mod_eq_of_lt (by omega)]; omega
    · rw [show N + i - 1 = (i - 1) + N by omega, Nat.add_mod_right, Nat.mod_eq_of_lt (by omega)]
  rw [e1, e2]
  split <;> split <;> omega

/-- The corners of a convex polygon are only brought into their order. -/
theorem sortFace_convex (P : Plane) (face : Face) (points : List Pt) (hn : face.Nodup) (h3 : 3 ≤ face.length)
    (hplane : ∃ k, ∀ i ∈ face, dot P.normal (points.getD i 0) = k)
    (hconv : ∀ y ∈ face, ∃ z ∈ face, z ≠ y ∧ ∀ w ∈ face, w ≠ y → w ≠ z →
      0 < turn P.normal (points.getD y 0) (points.getD z 0) (points.getD w 0)) :
    (sortFace P face points).Perm face ∧ ∀ y z, (y, z) ∈ steps (sortFace P face points) → ∀ w ∈ face, w ≠ y → w ≠ z →
      0 < turn P.normal (points.getD y 0) (points.getD z 0) (points.getD w 0) := by
  obtain ⟨k, hk⟩ := hplane
  set n := P.normal with hnd
  set c := centre (face.map fun i => points.getD i 0) with hc
  have hne : (face.map fun i => points.getD i 0) ≠ [] := by
    intro e; rw [List.map_eq_nil_iff] at e; rw [e] at h3; simp at h3
  -- the sense of rotation about the centre
  have hD : ∀ y ∈ face, ∃ z ∈ face, z ≠ y ∧ 0 < dot n (cross (diff (points.getD y 0) c) (diff (points.getD z 0) c)) ∧
      ∀ w ∈ face, w ≠ y → w ≠ z → 0 < turn n (points.getD y 0) (points.getD z 0) (points.getD w 0) := by
    intro y hy
    obtain ⟨z, hz, hzy, hT⟩ := hconv y hy
    refine ⟨z, hz, hzy, ?_, hT⟩
    have e := turn_centre n (points.getD y 0) (points.getD z 0) (face.map fun i => points.getD i 0) hne
    rw [← hc, List.map_map] at e
    have : ∃ w ∈ face, w ≠ y ∧ w ≠ z := by
      by_contra hcon
      push Not at hcon
      have : face ⊆ [y, z] := by
        intro w hw
        by_cases e : w = y
        · simp [e]
        · simp [hcon w hw e]
      have := (List.subperm_of_subset hn this).length_le
      simp at this; omega
    obtain ⟨w, hw, hwy, hwz⟩ := this
    have hpos : 0 < (face.map ((fun w => turn n (points.getD y 0) (points.getD z 0) w) ∘ fun i => points.getD i 0)).sum := by
      refine sum_pos' _ ?_ _ (List.mem_map.mpr ⟨w, hw, rfl⟩) (hT w hw hwy hwz)
      intro x hx
      obtain ⟨j, hj, rfl⟩ := List.mem_map.mp hx
      simp only [Function.comp]
      by_cases e1 : j = y
      · rw [e1, turn_self]
      · by_cases e2 : j = z
        · rw [e2, turn_self']
        · exact (hT j hj e1 e2).le
    rw [← e] at hpos
    exact pos_of_mul_pos_right hpos (Nat.cast_nonneg _)
  -- nothing is pruned
  have hoff : ∀ i ∈ face, points.getD i 0 ≠ c := by
    intro i hi e
    obtain ⟨z, _, _, hd, _⟩ := hD i hi
    rw [e] at hd
    simp [dot, cross, diff] at hd
  have hfilter : face.filter (fun i => decide (points.getD i 0 ≠ c)) = face :=
    List.filter_eq_self.mpr fun i hi => decide_eq_true (hoff i hi)
  cases hf : face with
  | nil => rw [hf] at h3; simp at h3
  | cons first rest =>
    have hck : dot n c = k := by
      have e := centre_affine (face.map fun i => points.getD i 0) hne (n 0) (n 1) (n 2) 0
      rw [← hc, List.map_map] at e
      have e2 : face.map ((fun x : Pt => n 0 * x 0 + n 1 * x 1 + n 2 * x 2 + 0) ∘ fun i => points.getD i 0) = face.map fun _ => k := by
        refine List.map_congr_left fun i hi => ?_
        rw [← hk i hi]; simp only [Function.comp, dot]; ring
      rw [e2, List.length_map, List.map_const', List.sum_replicate, nsmul_eq_mul] at e
      have : (face.length : ℚ) ≠ 0 := by
        have : 0 < face.length := by omega
        positivity
      have := mul_left_cancel₀ this e
      unfold dot; linarith
    have hpl : ∀ i ∈ face, dot n (diff (points.getD i 0) c) = 0 := by
      intro i hi
      have := hk i hi
      unfold dot diff at *; linarith
    have hfm : first ∈ face := by rw [hf]; simp
    have hsf : sortFace P face points = turns n points (first :: select (fun i => onPlane n (planar n (diff (points.getD first 0) c))
        (diff (points.getD i 0) c)) rest.length rest).length 0 (first :: select (fun i => onPlane n (planar n (diff (points.getD first 0) c))
        (diff (points.getD i 0) c)) rest.length rest) := by
      unfold sortFace
      simp only [← hc, hfilter]
      rw [hf]
    rw [← hf, hsf, planar_eq n _ (hpl first hfm)]
    set x := diff (points.getD first 0) c with hx
    set key : Nat → ℚ × ℚ := fun i => onPlane n x (diff (points.getD i 0) c) with hkey
    have hxx : 0 < dot x x := by
      have h0 : 0 ≤ dot x x := by
        unfold dot
        have := mul_self_nonneg (x 0); have := mul_self_nonneg (x 1); have := mul_self_nonneg (x 2); linarith
      refine lt_of_le_of_ne h0 fun e => hoff first hfm ?_
      have q0 := mul_self_nonneg (x 0); have q1 := mul_self_nonneg (x 1); have q2 := mul_self_nonneg (x 2)
      unfold dot at e
      have z0 : x 0 = 0 := mul_self_eq_zero.mp (by linarith)
      have z1 : x 1 = 0 := mul_self_eq_zero.mp (by linarith)
      have z2 : x 2 = 0 := mul_self_eq_zero.mp (by linarith)
      funext d
      rw [hx] at z0 z1 z2
      unfold diff at z0 z1 z2
      fin_cases d
      · show points.getD first 0 0 = c 0; linarith
      · show points.getD first 0 1 = c 1; linarith
      · show points.getD first 0 2 = c 2; linarith
    have hxn := hpl first hfm
    rw [← hx] at hxn
    have hdet : ∀ i ∈ face, ∀ j ∈ face, det2 (key i) (key j) = dot x x * dot n (cross (diff (points.getD i 0) c) (diff (points.getD j 0) c)) := by
      intro i hi j hj
      exact det_onPlane n x _ _ hxn (hpl i hi) (hpl j hj)
    have harea : ∀ y ∈ face, ∀ z ∈ face, ∀ w ∈ face, area (key y) (key z) (key w) =
        dot x x * turn n (points.getD y 0) (points.getD z 0) (points.getD w 0) := by
      intro y hy z hz w hw
      exact turn_area n x c _ _ _ hxn (hpl y hy) (hpl z hz) (hpl w hw)
    have hnz : ∀ i ∈ face, Nz (key i) := by
      intro i hi
      obtain ⟨z, hz, _, hd, _⟩ := hD i hi
      have := mul_pos hxx hd
      rw [← hdet i hi z hz] at this
      unfold Nz
      by_contra hcon
      push Not at hcon
      unfold det2 at this
      rw [hcon.1, hcon.2] at this
      simp at this
    have hkf1 : 0 < (key first).1 := by
      show 0 < dot (planar n x) x
      rw [planar_eq n x hxn]; exact hxx
    have hkf2 : (key first).2 = 0 := by
      show dot (planar n x) (cross n x) = 0
      rw [planar_eq n x hxn]
      simp only [dot, cross, Matrix.cons_val_zero, Matrix.cons_val_one, Matrix.cons_val]; ring
    obtain ⟨sp, so⟩ := select_spec key rest.length rest le_rfl (fun i hi => hnz i (by rw [hf]; exact List.mem_cons_of_mem _ hi))
    set S := first :: select key rest.length rest with hS
    have hperm : S.Perm face := by rw [hf]; exact List.Perm.cons _ sp
    have hSmem : ∀ i, i ∈ S ↔ i ∈ face := fun i => hperm.mem_iff
    have hSn : S.Nodup := hperm.nodup_iff.mpr hn
    have hSp : S.Pairwise fun i j => Le (key i) (key j) := by
      refine List.Pairwise.cons ?_ so
      intro j hj
      rw [le_iff]
      have u1 : upper (key first) = true := (upper_true _).mpr (Or.inr ⟨hkf2, hkf1.le⟩)
      rw [u1]
      cases hu : upper (key j) with
      | false => exact Or.inl ⟨rfl, rfl⟩
      | true =>
        refine Or.inr ⟨rfl, ?_⟩
        unfold det2; rw [hkf2]
        have := mul_nonneg hkf1.le (up_nonneg hu)
        linarith
    have hnext : ∀ y z, (y, z) ∈ steps S → ∀ w ∈ face, w ≠ y → w ≠ z →
        0 < turn n (points.getD y 0) (points.getD z 0) (points.getD w 0) := by
      intro y z he w hw hwy hwz
      obtain ⟨my, mz⟩ := Convex.mem_of_step S _ he
      have := sorted_next key S hSn hSp (fun i hi => hnz i ((hSmem i).mp hi)) (by
        intro i hi
        have : first = i := by rw [hS] at hi; simpa using hi
        rw [← this]; exact ⟨hkf1, hkf2⟩) (by
        intro y hy
        obtain ⟨z, hz, hzy, hd, hT⟩ := hD y ((hSmem y).mp hy)
        refine ⟨z, (hSmem z).mpr hz, hzy, ?_, ?_⟩
        · rw [hdet y ((hSmem y).mp hy) z hz]; exact mul_pos hxx hd
        · intro w hw hwy hwz
          rw [harea y ((hSmem y).mp hy) z hz w ((hSmem w).mp hw)]
          exact mul_pos hxx (hT w ((hSmem w).mp hw) hwy hwz)) y z he w ((hSmem w).mpr hw) hwy hwz
      rw [harea y ((hSmem y).mp my) z ((hSmem z).mp mz) w hw] at this
      exact pos_of_mul_pos_right this hxx.le
    have hlen : S.length = face.length := hperm.length_eq
    have hturn : turns n points S.length 0 S = S := by
      refine turns_left n points S ?_ _ _
      intro i hi
      have hN : 3 ≤ S.length := by omega
      have hj : (S.length + i - 1) % S.length < S.length := Nat.mod_lt _ (by omega)
      have hj2 : ((S.length + i - 1) % S.length + 1) % S.length = i := by
        rw [Nat.mod_add_mod, show S.length + i - 1 + 1 = i + S.length by omega, Nat.add_mod_right, Nat.mod_eq_of_lt hi]
      have hl : (S.length + i + 1) % S.length < S.length := Nat.mod_lt _ (by omega)
      have g := Convex.steps_get S _ hj
      simp only [hj2] at g
      have st : (S[(S.length + i - 1) % S.length], S[i]) ∈ steps S := by rw [← g]; exact List.getElem_mem _
      have ne1 : (S.length + i + 1) % S.length ≠ i := by
        by_cases h : i + 1 < S.length
        · rw [show S.length + i + 1 = (i + 1) + S.length by omega, Nat.add_mod_right, Nat.mod_eq_of_lt h]; omega
        · rw [show S.length + i + 1 = 0 + S.length + S.length by omega, Nat.add_mod_right, Nat.add_mod_right, Nat.mod_eq_of_lt (by omega)]; omega
      have ne2 : (S.length + i + 1) % S.length ≠ (S.length + i - 1) % S.length := mod_apart _ _ hN hi
      have := hnext _ _ st S[(S.length + i + 1) % S.length] ((hSmem _).mp (List.getElem_mem _))
        (fun e => ne2 ((List.Nodup.getElem_inj_iff hSn).mp e)) (fun e => ne1 ((List.Nodup.getElem_inj_iff hSn).mp e))
      rw [Nat.mod_eq_of_lt hi, Convex.getD_lt S 0 hi, Convex.getD_lt S 0 hj, Convex.getD_lt S 0 hl]
      refine lt_of_lt_of_eq this ?_
      simp only [turn, dot, cross, diff, Matrix.cons_val_zero, Matrix.cons_val_one, Matrix.cons_val]; ring
    rw [hturn]
    exact ⟨hperm, hnext⟩

end Brille.SortFace
