/- Points of a polygon of which some are on its edges: the next point around it, and the order in which the code sorts them. -/
import Verif.Proofs.HullArea
import Mathlib.Data.Prod.Lex

namespace Brille.HullOf

open Brille.Spec Brille.Tetra Brille.Faces Brille.Cut Brille.SortFace Brille.Convex Brille.Props

/-- strictly between two points -/
def Between (p u v : Pt) : Prop := u ≠ v ∧ ∃ t : ℚ, 0 < t ∧ t < 1 ∧ ∀ d, p d = (1 - t) * u d + t * v d

theorem diff_ne {y z : Pt} (h : z ≠ y) : diff z y ≠ 0 := by
  intro e; apply h; funext d
  have := congrFun e d; simp only [diff, Pi.zero_apply] at this; linarith

/-- points in line -/
theorem on_line {n y z w : Pt} (hn : n ≠ 0) (hz : dot n (diff z y) = 0) (hw : dot n (diff w y) = 0) (hyz : z ≠ y)
    (h : turn n y z w = 0) : ∃ τ : ℚ, ∀ d, w d = y d + τ * (z d - y d) := by
  have hc := cross_of_turn hn hz hw h
  have uu := dot_self_pos (diff_ne hyz)
  have pd := parallel hc
  refine ⟨dot (diff z y) (diff w y) / dot (diff z y) (diff z y), fun d => ?_⟩
  have := pd d
  set A := dot (diff z y) (diff z y)
  set B := dot (diff z y) (diff w y)
  simp only [diff] at this
  field_simp
  linarith

/-- the position on a line -/
theorem line_dot {y z w : Pt} {τ : ℚ} (h : ∀ d, w d = y d + τ * (z d - y d)) :
    dot (diff w y) (diff w z) = τ * (τ - 1) * dot (diff z y) (diff z y) := by
  simp only [dot, diff, h]; ring

theorem line_ne {y z w : Pt} {τ : ℚ} (h : ∀ d, w d = y d + τ * (z d - y d)) (h0 : w ≠ y) (h1 : w ≠ z) : τ ≠ 0 ∧ τ ≠ 1 := by
  constructor
  · rintro rfl
    exact h0 (funext fun d => by rw [h]; ring)
  · rintro rfl
    exact h1 (funext fun d => by rw [h]; ring)

/-! ### the next point -/

section
variable {n m : Pt} (hn : n ≠ 0) (hm : cross n m ≠ 0)
include hn hm

omit hn hm in
theorem plane_det (u v : Pt) (hu : dot n u = 0) (hv : dot n v = 0) :
    dot n n * (dot (cross n m) u * (- dot m v) - (- dot m u) * dot (cross n m) v) = dot (cross n m) (cross n m) * dot n (cross u v) := by
  have par : cross n (cross u v) = 0 := by
    rw [cross_zero]
    simp only [dot, Tetra.cross, Matrix.cons_val_zero, Matrix.cons_val_one, Matrix.cons_val] at hu hv ⊢
    refine ⟨?_, ?_, ?_⟩
    · linear_combination u 0 * hv - v 0 * hu
    · linear_combination u 1 * hv - v 1 * hu
    · linear_combination u 2 * hv - v 2 * hu
  have pd := parallel par
  have e1 : dot (cross n m) u * (- dot m v) - (- dot m u) * dot (cross n m) v = - dot (cross (cross n m) m) (cross u v) := by
    simp only [dot, Tetra.cross, Matrix.cons_val_zero, Matrix.cons_val_one, Matrix.cons_val]; ring
  have e2 : - dot (cross (cross n m) m) n = dot (cross n m) (cross n m) := by
    simp only [dot, Tetra.cross, Matrix.cons_val_zero, Matrix.cons_val_one, Matrix.cons_val]; ring
  rw [e1, ← e2]
  have p0 := pd 0
  have p1 := pd 1
  have p2 := pd 2
  generalize cross (cross n m) m = g at *
  generalize cross u v = k at *
  generalize dot n n = A at *
  generalize dot n k = B at *
  simp only [dot]
  linear_combination - g 0 * p0 - g 1 * p1 - g 2 * p2

omit hn in
theorem plane_zero (u : Pt) (hu : dot n u = 0) (h1 : dot (cross n m) u = 0) (h2 : dot m u = 0) : u = 0 := by
  by_contra h0
  have par : cross (cross n m) u = 0 := by
    rw [cross_zero]
    simp only [dot, Tetra.cross, Matrix.cons_val_zero, Matrix.cons_val_one, Matrix.cons_val] at hu h2 ⊢
    refine ⟨?_, ?_, ?_⟩
    · linear_combination m 0 * hu - n 0 * h2
    · linear_combination m 1 * hu - n 1 * h2
    · linear_combination m 2 * hu - n 2 * h2
  have ee := dot_self_pos hm
  have pd := parallel par
  apply h0
  funext d
  have := pd d
  rw [h1, zero_mul] at this
  exact (mul_eq_zero.mp this).resolve_left ee.ne'

/-- where a line supports points of a plane, the next of them counter-clockwise -/
theorem weak_next (l : List Pt) (hflat : ∀ p ∈ l, ∀ q ∈ l, dot n (diff p q) = 0) (hcol : ∃ a ∈ l, ∃ b ∈ l, ∃ c ∈ l, turn n a b c ≠ 0)
    (y : Pt) (hy : y ∈ l) (hs : ∀ w ∈ l, dot m (diff w y) ≤ 0) :
    ∃ z ∈ l, z ≠ y ∧ (∀ w ∈ l, 0 ≤ turn n y z w) ∧ ∀ w ∈ l, turn n y z w = 0 → 0 ≤ dot (diff w y) (diff w z) := by
  classical
  have hnn := dot_self_pos hn
  have ee := dot_self_pos hm
  set S : Pt → ℚ := fun w => dot (cross n m) (diff w y) with hS
  set H : Pt → ℚ := fun w => - dot m (diff w y) with hH
  have hH0 : ∀ w ∈ l, 0 ≤ H w := fun w hw => by have := hs w hw; simp only [hH]; linarith
  have ht : ∀ z ∈ l, ∀ w ∈ l, dot n n * (S z * H w - H z * S w) = dot (cross n m) (cross n m) * turn n y z w := fun z hz w hw =>
    plane_det _ _ (hflat z hz y hy) (hflat w hw y hy)
  have hpos : ∀ z ∈ l, ∀ w ∈ l, 0 ≤ S z * H w - H z * S w → 0 ≤ turn n y z w := by
    intro z hz w hw h
    have := mul_nonneg hnn.le h
    rw [ht z hz w hw] at this
    by_contra hc
    have := mul_neg_of_pos_of_neg ee (not_le.mp hc)
    linarith
  have hzero : ∀ z ∈ l, ∀ w ∈ l, turn n y z w = 0 → S z * H w = H z * S w := by
    intro z hz w hw h
    have e := ht z hz w hw
    rw [h, mul_zero] at e
    have := (mul_eq_zero.mp e).resolve_left hnn.ne'
    linarith
  have hself : ∀ w ∈ l, S w = 0 → H w = 0 → w = y := by
    intro w hw h1 h2
    by_contra hne
    refine diff_ne hne (plane_zero hm _ (hflat w hw y hy) h1 ?_)
    simp only [hH] at h2
    linarith
  by_cases hcase : ∃ w ∈ l, H w = 0 ∧ 0 < S w
  · obtain ⟨w0, hw0, hh, hss⟩ := hcase
    obtain ⟨z, hz, hmin⟩ := Finset.exists_min_image (l.toFinset.filter fun w => H w = 0 ∧ 0 < S w) S ⟨w0, by simp [hw0, hh, hss]⟩
    rw [Finset.mem_filter, List.mem_toFinset] at hz
    obtain ⟨hz, hz0, hz1⟩ := hz
    have hzy : z ≠ y := by
      rintro rfl
      simp [hS, diff, dot] at hz1
    refine ⟨z, hz, hzy, ?_, ?_⟩
    · intro w hw
      refine hpos z hz w hw ?_
      rw [hz0]
      have := mul_nonneg hz1.le (hH0 w hw)
      linarith
    · intro w hw h
      have e := hzero z hz w hw h
      rw [hz0, zero_mul] at e
      have hw0 : H w = 0 := (mul_eq_zero.mp e).resolve_left hz1.ne'
      obtain ⟨τ, hτ⟩ := on_line hn (hflat z hz y hy) (hflat w hw y hy) hzy h
      have eS : S w = τ * S z := by
        simp only [hS, dot, diff, hτ]; ring
      rw [line_dot hτ]
      refine mul_nonneg ?_ (dot_self_pos (diff_ne hzy)).le
      rcases le_or_gt τ 0 with h0 | h0
      · nlinarith
      · have hw1 : 0 < S w := by rw [eS]; exact mul_pos h0 hz1
        have := hmin w (by simp [hw, hw0, hw1])
        rw [eS] at this
        have : 1 ≤ τ := by
          by_contra hc
          have := mul_lt_mul_of_pos_right (not_le.mp hc) hz1
          linarith
        nlinarith
  · push Not at hcase
    have hex : ∃ w ∈ l, 0 < H w := by
      by_contra hc
      push Not at hc
      have h0 : ∀ w ∈ l, H w = 0 := fun w hw => le_antisymm (hc w hw) (hH0 w hw)
      obtain ⟨a, ha, b, hb, c, hc', hne⟩ := hcol
      apply hne
      have e : ∀ u ∈ l, ∀ v ∈ l, dot n (cross (diff u y) (diff v y)) = 0 := by
        intro u hu v hv
        have := ht u hu v hv
        rw [h0 u hu, h0 v hv] at this
        have : dot (cross n m) (cross n m) * turn n y u v = 0 := by linarith
        exact (mul_eq_zero.mp this).resolve_left ee.ne'
      have e1 := e a ha b hb
      have e2 := e b hb c hc'
      have e3 := e c hc' a ha
      simp only [turn, dot, Tetra.cross, diff, Matrix.cons_val_zero, Matrix.cons_val_one, Matrix.cons_val] at e1 e2 e3 ⊢
      linear_combination e1 + e2 + e3
    obtain ⟨w0, hw0, hh⟩ := hex
    obtain ⟨z, hz, hmax⟩ := Finset.exists_max_image (l.toFinset.filter fun w => 0 < H w) (fun w => toLex (S w / H w, - H w))
      ⟨w0, by simp [hw0, hh]⟩
    rw [Finset.mem_filter, List.mem_toFinset] at hz
    obtain ⟨hz, hz0⟩ := hz
    have hzy : z ≠ y := by
      rintro rfl
      simp [hH, diff, dot] at hz0
    have hmax' : ∀ w ∈ l, 0 < H w → S w / H w < S z / H z ∨ (S w / H w = S z / H z ∧ H z ≤ H w) := by
      intro w hw hw0
      have := hmax w (by simp [hw, hw0])
      rw [Prod.Lex.toLex_le_toLex] at this
      simpa using this
    refine ⟨z, hz, hzy, ?_, ?_⟩
    · intro w hw
      refine hpos z hz w hw ?_
      rcases (hH0 w hw).lt_or_eq with h0 | h0
      · have : S w / H w ≤ S z / H z := by
          rcases hmax' w hw h0 with h | h
          · exact h.le
          · exact h.1.le
        rw [div_le_div_iff₀ h0 hz0] at this
        linarith
      · have := hcase w hw h0.symm
        rw [← h0]
        nlinarith
    · intro w hw h
      have e := hzero z hz w hw h
      rcases (hH0 w hw).lt_or_eq with h0 | h0
      · obtain ⟨τ, hτ⟩ := on_line hn (hflat z hz y hy) (hflat w hw y hy) hzy h
        have eH : H w = τ * H z := by
          simp only [hH, dot, diff, hτ]; ring
        have : H z ≤ H w := by
          rcases hmax' w hw h0 with h | h
          · rw [div_lt_div_iff₀ h0 hz0] at h
            linarith
          · exact h.2
        rw [line_dot hτ]
        refine mul_nonneg ?_ (dot_self_pos (diff_ne hzy)).le
        rw [eH] at this
        have : 1 ≤ τ := by
          by_contra hc
          have := mul_lt_mul_of_pos_right (not_le.mp hc) hz0
          linarith
        nlinarith
      · rw [← h0, mul_zero] at e
        have : S w = 0 := (mul_eq_zero.mp e.symm).resolve_left hz0.ne'
        rw [hself w hw this h0.symm]
        simp [dot, diff]

end

/-! ### the order -/

theorem not_in_cone_weak (k : Nat → ℚ × ℚ) (S : List Nat) (hnext : ∀ y ∈ S, ∃ z ∈ S, 0 < det2 (k y) (k z) ∧
    ∀ w ∈ S, 0 ≤ area (k y) (k z) (k w)) (y s w : Nat) (hy : y ∈ S) (hs : s ∈ S) (hw : w ∈ S)
    (hT : 0 < area (k y) (k s) (k w)) (h1 : 0 ≤ det2 (k y) (k w)) (h2 : 0 ≤ det2 (k w) (k s)) : False := by
  obtain ⟨v, hv, hD, hA⟩ := hnext w hw
  have id := area_barycentric (k y) (k s) (k w) (k v)
  rw [area_self, mul_zero] at id
  have a1 := mul_nonneg h2 (hA y hy)
  have a2 := mul_nonneg h1 (hA s hs)
  have a3 := mul_pos hT hD
  linarith

theorem sorted_next_weak (k : Nat → ℚ × ℚ) (S : List Nat) (hn : S.Nodup) (hp : S.Pairwise fun i j => Le (k i) (k j))
    (hz : ∀ i ∈ S, Nz (k i)) (hfirst : ∀ i, S[0]? = some i → 0 < (k i).1 ∧ (k i).2 = 0)
    (Q : Nat → Nat → Prop)
    (hnext : ∀ y ∈ S, ∃ s ∈ S, s ≠ y ∧ Q y s ∧ 0 < det2 (k y) (k s) ∧ (∀ w ∈ S, 0 ≤ area (k y) (k s) (k w)) ∧
      ∀ w ∈ S, w ≠ y → w ≠ s → area (k y) (k s) (k w) = 0 → 0 ≤ det2 (k y) (k w) → 0 ≤ det2 (k w) (k s) → False)
    (y z : Nat) (he : (y, z) ∈ steps S) : Q y z := by
  obtain ⟨i, hi, e⟩ := List.getElem_of_mem he
  rw [Convex.steps_length] at hi
  rw [Convex.steps_get S i hi, Prod.mk.injEq] at e
  obtain ⟨ey, ez⟩ := e
  have hy : y ∈ S := by rw [← ey]; exact List.getElem_mem _
  have hzm : z ∈ S := by rw [← ez]; exact List.getElem_mem _
  obtain ⟨s, hs, hsy, hQ, hD, hA, hA0⟩ := hnext y hy
  by_cases hzs : z = s
  · rw [hzs]; exact hQ
  · exfalso
    have hpg := List.pairwise_iff_getElem.mp hp
    obtain ⟨t, ht, es⟩ := List.getElem_of_mem hs
    have hzy : z ≠ y := by
      intro e
      have hij := (List.Nodup.getElem_inj_iff hn).mp (ez.trans (e.trans ey.symm))
      have hlen : S.length = 1 := by
        by_contra hl
        by_cases hl' : i + 1 < S.length
        · rw [Nat.mod_eq_of_lt hl'] at hij; omega
        · have : i + 1 = S.length := by omega
          rw [this, Nat.mod_self] at hij; omega
      have : t = i := by omega
      subst this
      exact hsy (es.symm.trans ey)
    have hti : t ≠ i := fun e => hsy (by subst e; exact es.symm.trans ey)
    have key : 0 ≤ det2 (k y) (k z) ∧ 0 ≤ det2 (k z) (k s) := by
      rcases Nat.lt_or_gt_of_ne hti with hlt | hlt
      · have lsy : Le (k s) (k y) := by rw [← es, ← ey]; exact hpg t i ht hi hlt
        by_cases hl : i + 1 < S.length
        · have lyz : Le (k y) (k z) := by
            rw [← ey, ← ez]
            simp only [Nat.mod_eq_of_lt hl]
            exact hpg i (i + 1) hi hl (by omega)
          exact between_wrap _ _ _ lsy lyz hD
        · have hl' : i + 1 = S.length := by omega
          have e0 : S[0]? = some z := by
            simp only [hl', Nat.mod_self] at ez
            rw [List.getElem?_eq_getElem (by omega), ez]
          obtain ⟨f1, f2⟩ := hfirst z e0
          exact between_first _ _ _ lsy hD f1 f2
      · have hl : i + 1 < S.length := by omega
        simp only [Nat.mod_eq_of_lt hl] at ez
        have lyz : Le (k y) (k z) := by rw [← ey, ← ez]; exact hpg i (i + 1) hi hl (by omega)
        have hne : i + 1 ≠ t := fun e => by subst e; exact hzs (ez.symm.trans es)
        have lzs : Le (k z) (k s) := by rw [← ez, ← es]; exact hpg (i + 1) t hl ht (by omega)
        exact between _ _ _ (hz y hy) lyz lzs hD
    rcases (hA z hzm).lt_or_eq with h | h
    · refine not_in_cone_weak k S (fun w hw => ?_) y s z hy hs hzm h key.1 key.2
      obtain ⟨v, hv, _, _, h1, h2, _⟩ := hnext w hw
      exact ⟨v, hv, h1, h2⟩
    · exact hA0 z hzm hzy hzs h.symm key.1 key.2

/-- The points of a polygon with points on its edges are brought into their order, before corners without a left turn are removed. -/
theorem sortFace_weak (P : Plane) (face : Face) (points : List Pt) (hn : face.Nodup) (h3 : 3 ≤ face.length)
    (hplane : ∃ k, ∀ i ∈ face, dot P.normal (points.getD i 0) = k) (hnormal : P.normal ≠ 0)
    (hinj : ∀ i ∈ face, ∀ j ∈ face, points.getD i 0 = points.getD j 0 → i = j)
    (hconv : ∀ y ∈ face, ∃ z ∈ face, z ≠ y ∧ (∀ w ∈ face, 0 ≤ turn P.normal (points.getD y 0) (points.getD z 0) (points.getD w 0)) ∧
      (∃ w ∈ face, 0 < turn P.normal (points.getD y 0) (points.getD z 0) (points.getD w 0)) ∧
      ∀ w ∈ face, turn P.normal (points.getD y 0) (points.getD z 0) (points.getD w 0) = 0 →
        0 ≤ dot (diff (points.getD w 0) (points.getD y 0)) (diff (points.getD w 0) (points.getD z 0))) :
    ∃ S : List Nat, S.Perm face ∧ SortFace.sortFace P face points = turns P.normal points S.length 0 S ∧ ∀ y z, (y, z) ∈ steps S →
      (∀ w ∈ face, 0 ≤ turn P.normal (points.getD y 0) (points.getD z 0) (points.getD w 0)) ∧
      ∀ w ∈ face, turn P.normal (points.getD y 0) (points.getD z 0) (points.getD w 0) = 0 →
        0 ≤ dot (diff (points.getD w 0) (points.getD y 0)) (diff (points.getD w 0) (points.getD z 0)) := by
  obtain ⟨k, hk⟩ := hplane
  set n := P.normal with hnd
  set c := centre (face.map fun i => points.getD i 0) with hc
  have hne : (face.map fun i => points.getD i 0) ≠ [] := by
    intro e; rw [List.map_eq_nil_iff] at e; rw [e] at h3; simp at h3
  -- the sense of rotation about the centre
  have hD : ∀ y ∈ face, ∃ z ∈ face, z ≠ y ∧ 0 < dot n (cross (diff (points.getD y 0) c) (diff (points.getD z 0) c)) ∧
      (∀ w ∈ face, 0 ≤ turn n (points.getD y 0) (points.getD z 0) (points.getD w 0)) ∧
      ∀ w ∈ face, turn n (points.getD y 0) (points.getD z 0) (points.getD w 0) = 0 →
        0 ≤ dot (diff (points.getD w 0) (points.getD y 0)) (diff (points.getD w 0) (points.getD z 0)) := by
    intro y hy
    obtain ⟨z, hz, hzy, hT, ⟨w, hw, hwT⟩, hT0⟩ := hconv y hy
    refine ⟨z, hz, hzy, ?_, hT, hT0⟩
    have e := turn_centre n (points.getD y 0) (points.getD z 0) (face.map fun i => points.getD i 0) hne
    rw [← hc, List.map_map] at e
    have hpos : 0 < (face.map ((fun w => turn n (points.getD y 0) (points.getD z 0) w) ∘ fun i => points.getD i 0)).sum := by
      refine sum_pos' _ ?_ _ (List.mem_map.mpr ⟨w, hw, rfl⟩) hwT
      intro x hx
      obtain ⟨j, hj, rfl⟩ := List.mem_map.mp hx
      exact hT j hj
    rw [← e] at hpos
    exact pos_of_mul_pos_right hpos (Nat.cast_nonneg _)
  -- nothing is pruned
  have hoff : ∀ i ∈ face, points.getD i 0 ≠ c := by
    intro i hi e
    obtain ⟨z, _, _, hd, _⟩ := hD i hi
    rw [e] at hd
    simp [dot, Tetra.cross, diff] at hd
  have hfilter : face.filter (fun i => decide (points.getD i 0 ≠ c)) = face :=
    List.filter_eq_self.mpr fun i hi => decide_eq_true (hoff i hi)
  cases hf : face with
  | nil => rw [hf] at h3; simp at h3
  | cons first rest =>
    have hck : dot n c = k := by
      have e := centre_affine (face.map fun i => points.getD i 0) hne (n 0) (n 1) (n 2) 0
      rw [← hc, List.map_map] at e
      have e2 : face.map ((fun x : Pt => n 0 * x 0 + n 1 * x 1 + n 2 * x 2 + 0) ∘ fun i => points.getD i 0) = face.map fun _ => k := by
        refine List.map_congr_left fun i hi => ?_
        rw [← hk i hi]; simp only [Function.comp, dot]; ring
      rw [e2, List.length_map, List.map_const', List.sum_replicate, nsmul_eq_mul] at e
      have : (face.length : ℚ) ≠ 0 := by
        have : 0 < face.length := by omega
        positivity
      have := mul_left_cancel₀ this e
      unfold dot; linarith
    have hpl : ∀ i ∈ face, dot n (diff (points.getD i 0) c) = 0 := by
      intro i hi
      have := hk i hi
      unfold dot diff at *; linarith
    have hfm : first ∈ face := by rw [hf]; simp
    have hsf : SortFace.sortFace P face points = turns n points (first :: select (fun i => onPlane n (planar n (diff (points.getD first 0) c))
        (diff (points.getD i 0) c)) rest.length rest).length 0 (first :: select (fun i => onPlane n (planar n (diff (points.getD first 0) c))
        (diff (points.getD i 0) c)) rest.length rest) := by
      unfold SortFace.sortFace
      simp only [← hc, hfilter]
      rw [hf]
    rw [← hf, hsf, planar_eq n _ (hpl first hfm)]
    set x := diff (points.getD first 0) c with hx
    set key : Nat → ℚ × ℚ := fun i => onPlane n x (diff (points.getD i 0) c) with hkey
    have hxx : 0 < dot x x := by
      have h0 : 0 ≤ dot x x := by
        unfold dot
        have := mul_self_nonneg (x 0); have := mul_self_nonneg (x 1); have := mul_self_nonneg (x 2); linarith
      refine lt_of_le_of_ne h0 fun e => hoff first hfm ?_
      have q0 := mul_self_nonneg (x 0); have q1 := mul_self_nonneg (x 1); have q2 := mul_self_nonneg (x 2)
      unfold dot at e
      have z0 : x 0 = 0 := mul_self_eq_zero.mp (by linarith)
      have z1 : x 1 = 0 := mul_self_eq_zero.mp (by linarith)
      have z2 : x 2 = 0 := mul_self_eq_zero.mp (by linarith)
      funext d
      rw [hx] at z0 z1 z2
      unfold diff at z0 z1 z2
      fin_cases d
      · show points.getD first 0 0 = c 0; linarith
      · show points.getD first 0 1 = c 1; linarith
      · show points.getD first 0 2 = c 2; linarith
    have hxn := hpl first hfm
    rw [← hx] at hxn
    have hdet : ∀ i ∈ face, ∀ j ∈ face, det2 (key i) (key j) = dot x x * dot n (cross (diff (points.getD i 0) c) (diff (points.getD j 0) c)) := by
      intro i hi j hj
      exact det_onPlane n x _ _ hxn (hpl i hi) (hpl j hj)
    have harea : ∀ y ∈ face, ∀ z ∈ face, ∀ w ∈ face, area (key y) (key z) (key w) =
        dot x x * turn n (points.getD y 0) (points.getD z 0) (points.getD w 0) := by
      intro y hy z hz w hw
      exact turn_area n x c _ _ _ hxn (hpl y hy) (hpl z hz) (hpl w hw)
    have hnz : ∀ i ∈ face, Nz (key i) := by
      intro i hi
      obtain ⟨z, hz, _, hd, _⟩ := hD i hi
      have := mul_pos hxx hd
      rw [← hdet i hi z hz] at this
      unfold Nz
      by_contra hcon
      push Not at hcon
      unfold det2 at this
      rw [hcon.1, hcon.2] at this
      simp at this
    have hkf1 : 0 < (key first).1 := by
      show 0 < dot (planar n x) x
      rw [planar_eq n x hxn]; exact hxx
    have hkf2 : (key first).2 = 0 := by
      show dot (planar n x) (cross n x) = 0
      rw [planar_eq n x hxn]
      simp only [dot, Tetra.cross, Matrix.cons_val_zero, Matrix.cons_val_one, Matrix.cons_val]; ring
    obtain ⟨sp, so⟩ := select_spec key rest.length rest le_rfl (fun i hi => hnz i (by rw [hf]; exact List.mem_cons_of_mem _ hi))
    set S := first :: select key rest.length rest with hS
    have hperm : S.Perm face := by rw [hf]; exact List.Perm.cons _ sp
    have hSmem : ∀ i, i ∈ S ↔ i ∈ face := fun i => hperm.mem_iff
    have hSn : S.Nodup := hperm.nodup_iff.mpr hn
    have hSp : S.Pairwise fun i j => Le (key i) (key j) := by
      refine List.Pairwise.cons ?_ so
      intro j hj
      rw [le_iff]
      have u1 : upper (key first) = true := (upper_true _).mpr (Or.inr ⟨hkf2, hkf1.le⟩)
      rw [u1]
      cases hu : upper (key j) with
      | false => exact Or.inl ⟨rfl, rfl⟩
      | true =>
        refine Or.inr ⟨rfl, ?_⟩
        unfold det2; rw [hkf2]
        have := mul_nonneg hkf1.le (up_nonneg hu)
        linarith
    refine ⟨S, hperm, rfl, ?_⟩
    intro y z he
    refine sorted_next_weak key S hSn hSp (fun i hi => hnz i ((hSmem i).mp hi)) (by
        intro i hi
        have : first = i := by rw [hS] at hi; simpa using hi
        rw [← this]; exact ⟨hkf1, hkf2⟩)
      (fun y z => (∀ w ∈ face, 0 ≤ turn n (points.getD y 0) (points.getD z 0) (points.getD w 0)) ∧
        ∀ w ∈ face, turn n (points.getD y 0) (points.getD z 0) (points.getD w 0) = 0 →
          0 ≤ dot (diff (points.getD w 0) (points.getD y 0)) (diff (points.getD w 0) (points.getD z 0))) ?_ y z he
    intro y hy
    have hy := (hSmem y).mp hy
    obtain ⟨z, hz, hzy, hd, hT, hT0⟩ := hD y hy
    have hzy' : points.getD z 0 ≠ points.getD y 0 := fun e => hzy (hinj z hz y hy e)
    have hd' : 0 < det2 (key y) (key z) := by rw [hdet y hy z hz]; exact mul_pos hxx hd
    refine ⟨z, (hSmem z).mpr hz, hzy, ⟨hT, hT0⟩, hd', ?_, ?_⟩
    · intro w hw
      have hw := (hSmem w).mp hw
      rw [harea y hy z hz w hw]
      exact mul_nonneg hxx.le (hT w hw)
    · intro w hw hwy hwz h0 h1 h2
      have hw := (hSmem w).mp hw
      rw [harea y hy z hz w hw] at h0
      have h0 := (mul_eq_zero.mp h0).resolve_left hxx.ne'
      have fl : ∀ i ∈ face, ∀ j ∈ face, dot n (diff (points.getD i 0) (points.getD j 0)) = 0 := by
        intro i hi j hj
        have e1 := hpl i hi
        have e2 := hpl j hj
        unfold dot diff at *; linarith
      obtain ⟨τ, hτ⟩ := on_line hnormal (fl z hz y hy) (fl w hw y hy) hzy' h0
      have h3 := hT0 w hw h0
      rw [line_dot hτ] at h3
      obtain ⟨n0, n1⟩ := line_ne hτ (fun e => hwy (hinj w hw y hy e)) (fun e => hwz (hinj w hw z hz e))
      rw [hdet y hy w hw] at h1
      rw [hdet w hw z hz] at h2
      have e1 : dot n (cross (diff (points.getD y 0) c) (diff (points.getD w 0) c)) =
          τ * dot n (cross (diff (points.getD y 0) c) (diff (points.getD z 0) c)) := by
        simp only [dot, Tetra.cross, diff, Matrix.cons_val_zero, Matrix.cons_val_one, Matrix.cons_val, hτ]; ring
      have e2 : dot n (cross (diff (points.getD w 0) c) (diff (points.getD z 0) c)) =
          (1 - τ) * dot n (cross (diff (points.getD y 0) c) (diff (points.getD z 0) c)) := by
        simp only [dot, Tetra.cross, diff, Matrix.cons_val_zero, Matrix.cons_val_one, Matrix.cons_val, hτ]; ring
      rw [e1] at h1
      rw [e2] at h2
      have t1 : 0 ≤ τ := by
        by_contra hc'
        have := mul_neg_of_pos_of_neg hxx (mul_neg_of_neg_of_pos (not_le.mp hc') hd)
        linarith
      have t2 : 0 ≤ 1 - τ := by
        by_contra hc'
        have := mul_neg_of_pos_of_neg hxx (mul_neg_of_neg_of_pos (not_le.mp hc') hd)
        linarith
      have t1' : 0 < τ := lt_of_le_of_ne t1 (Ne.symm n0)
      have t2' : 0 < 1 - τ := lt_of_le_of_ne t2 (fun e => n1 (by linarith))
      have := mul_pos (mul_pos t1' t2') (dot_self_pos (diff_ne hzy'))
      linarith

/-! ### removing points of edges -/

/-- the steps around a polygon without one of its points -/
theorem steps_erase {α : Type} (L : List α) (i : Nat) (hi : i < L.length) (h : 3 ≤ L.length) (e : α × α) (he : e ∈ steps (L.eraseIdx i)) :
    e = (L[(L.length + i - 1) % L.length]'(Nat.mod_lt _ (by omega)), L[(L.length + i + 1) % L.length]'(Nat.mod_lt _ (by omega))) ∨ e ∈ steps L := by
  obtain ⟨j, hj, rfl⟩ := List.getElem_of_mem he
  rw [Convex.steps_length] at hj
  have hl : (L.eraseIdx i).length = L.length - 1 := List.length_eraseIdx_of_lt hi
  rw [Convex.steps_get _ j hj]
  have hj' : j < L.length - 1 := by rw [← hl]; exact hj
  have st : ∀ (a b : Nat) (ha : a < L.length) (hb : b < L.length), b = (a + 1) % L.length → (L[a], L[b]) ∈ steps L := by
    intro a b ha hb e
    subst e
    rw [← Convex.steps_get L a ha]
    exact List.getElem_mem _
  have en : (L.length + i + 1) % L.length = if i + 1 < L.length then i + 1 else 0 := by
    split
    · rename_i h
      rw [show L.length + i + 1 = (i + 1) + L.length by omega, Nat.add_mod_right, Nat.mod_eq_of_lt h]
    · rw [show L.length + i + 1 = 0 + L.length + L.length by omega, Nat.add_mod_right, Nat.add_mod_right, Nat.mod_eq_of_lt (by omega)]
  have ep : (L.length + i - 1) % L.length = if i = 0 then L.length - 1 else i - 1 := by
    split
    · rename_i h; subst h; rw [Nat.mod_eq_of_lt (by omega)]; omega
    · rw [show L.length + i - 1 = (i - 1) + L.length by omega, Nat.add_mod_right, Nat.mod_eq_of_lt (by omega)]
  simp only [hl, List.getElem_eraseIdx, en, ep]
  by_cases hlast : j + 1 < L.length - 1
  · simp only [Nat.mod_eq_of_lt hlast]
    by_cases c1 : j + 1 < i
    · right
      simp only [c1, show j < i by omega, dif_pos]
      exact st _ _ _ _ (by rw [Nat.mod_eq_of_lt (by omega)])
    · by_cases c2 : j + 1 = i
      · left
        subst c2
        simp only [show j < j + 1 by omega, dif_pos, show ¬ j + 1 < j + 1 by omega, dif_neg, not_false_iff, show j + 1 ≠ 0 by omega, if_neg,
          show j + 1 + 1 < L.length by omega, if_pos, Nat.add_sub_cancel]
      · right
        simp only [c1, show ¬ j < i by omega, dif_neg, not_false_iff]
        exact st _ _ _ _ (by rw [Nat.mod_eq_of_lt (by omega)])
  · have hj2 : j + 1 = L.length - 1 := by omega
    simp only [hj2, Nat.mod_self]
    by_cases c0 : i = 0
    · left
      subst c0
      simp only [show ¬ j < 0 by omega, dif_neg, not_false_iff, lt_irrefl, if_pos, show 0 + 1 < L.length by omega]
    · by_cases c1 : j < i
      · left
        have : i = L.length - 1 := by omega
        simp only [c1, dif_pos, show 0 < i by omega, c0, if_neg, not_false_iff, show ¬ i + 1 < L.length by omega, show i - 1 = j by omega]
      · right
        simp only [c1, dif_neg, dif_pos, not_false_iff, show 0 < i by omega]
        exact st _ _ _ _ (by rw [show L.length - 1 + 1 = L.length by omega, Nat.mod_self])

theorem next_line {n y z w : Pt} {τ : ℚ} (h : ∀ d, z d = y d + τ * (w d - y d)) (x : Pt) : turn n y z x = τ * turn n y w x := by
  simp only [turn, dot, Tetra.cross, diff, Matrix.cons_val_zero, Matrix.cons_val_one, Matrix.cons_val, h]; ring

/-- a point where one turns left is not between two others -/
theorem not_between_of_turn {n a b c u v : Pt} (hn : n ≠ 0) (hab : dot n (diff b a) = 0) (hcb : dot n (diff c a) = 0)
    (hu : dot n (diff u a) = 0) (hv : dot n (diff v a) = 0) (ht : 0 < turn n a b c)
    (u1 : 0 ≤ turn n a b u) (v1 : 0 ≤ turn n a b v) (u2 : 0 ≤ turn n b c u) (v2 : 0 ≤ turn n b c v) : ¬ Between b u v := by
  rintro ⟨hne, t, t0, t1, e⟩
  have e1 : (1 - t) * turn n a b u + t * turn n a b v = 0 := by
    have : turn n a b b = (1 - t) * turn n a b u + t * turn n a b v := by
      have : ∀ x, turn n a b x = dot (cross n (diff b a)) x - dot (cross n (diff b a)) a := by
        intro x
        simp only [turn, dot, Tetra.cross, diff, Matrix.cons_val_zero, Matrix.cons_val_one, Matrix.cons_val]; ring
      rw [this, this, this]
      generalize cross n (diff b a) = g
      simp only [dot, e]; ring
    rw [← this, turn_self']
  have e2 : (1 - t) * turn n b c u + t * turn n b c v = 0 := by
    have : turn n b c b = (1 - t) * turn n b c u + t * turn n b c v := by
      have : ∀ x, turn n b c x = dot (cross n (diff c b)) x - dot (cross n (diff c b)) b := by
        intro x
        simp only [turn, dot, Tetra.cross, diff, Matrix.cons_val_zero, Matrix.cons_val_one, Matrix.cons_val]; ring
      rw [this, this, this]
      generalize cross n (diff c b) = g
      have hb : dot g b = (1 - t) * dot g u + t * dot g v := by simp only [dot, e]; ring
      linear_combination hb
    rw [← this, turn_self]
  have s : 0 < 1 - t := by linarith
  have z1 : turn n a b u = 0 := by
    have := mul_nonneg t0.le v1
    by_contra hc
    have := mul_pos s (lt_of_le_of_ne u1 (Ne.symm hc))
    linarith
  have z2 : turn n b c u = 0 := by
    have := mul_nonneg t0.le v2
    by_contra hc
    have := mul_pos s (lt_of_le_of_ne u2 (Ne.symm hc))
    linarith
  have hba : b ≠ a := by
    rintro rfl
    rw [turn_cycle, turn_self'] at ht
    exact lt_irrefl _ ht
  obtain ⟨σ, hσ⟩ := on_line hn hab hu hba z1
  have : turn n b c u = (1 - σ) * turn n a b c := by
    simp only [turn, dot, Tetra.cross, diff, Matrix.cons_val_zero, Matrix.cons_val_one, Matrix.cons_val, hσ]; ring
  rw [z2] at this
  have hs1 : σ = 1 := by
    have := (mul_eq_zero.mp this.symm).resolve_right ht.ne'
    linarith
  have hub : ∀ d, u d = b d := by intro d; rw [hσ, hs1]; ring
  apply hne
  funext d
  have := e d
  rw [hub d] at this ⊢
  have : t * (v d - b d) = 0 := by linarith
  have := (mul_eq_zero.mp this).resolve_left t0.ne'
  linarith

section
variable (n : Pt) (p : Nat → Pt) (face : List Nat) (hn : n ≠ 0) (hflat : ∀ i ∈ face, ∀ j ∈ face, dot n (diff (p i) (p j)) = 0)
  (hinj : ∀ i ∈ face, ∀ j ∈ face, p i = p j → i = j)

/-- what holds while points are removed -/
structure Around (L : List Nat) : Prop where
  nodup : L.Nodup
  three : 3 ≤ L.length
  sub : ∀ i ∈ L, i ∈ face
  left : ∀ y z, (y, z) ∈ steps L → ∀ w ∈ face, 0 ≤ turn n (p y) (p z) (p w)
  next : ∀ y z, (y, z) ∈ steps L → ∀ w ∈ L, turn n (p y) (p z) (p w) = 0 → 0 ≤ dot (diff (p w) (p y)) (diff (p w) (p z))
  gone : ∀ w ∈ face, w ∉ L → ∃ u ∈ face, ∃ v ∈ face, Between (p w) (p u) (p v)

/-- a point that is a corner -/
def Corner (i : Nat) : Prop := ∀ u ∈ face, ∀ v ∈ face, ¬ Between (p i) (p u) (p v)

variable {n p face}
include hn hflat hinj

theorem Around.line {L : List Nat} (h : Around n p face L) {y z : Nat} (he : (y, z) ∈ steps L) (hzy : z ≠ y) {w : Nat} (hw : w ∈ L) (hwy : w ≠ y) (hwz : w ≠ z)
    (h0 : turn n (p y) (p z) (p w) = 0) : ∃ τ : ℚ, (τ < 0 ∨ 1 < τ) ∧ ∀ d, p w d = p y d + τ * (p z d - p y d) := by
  obtain ⟨my, mz⟩ := Convex.mem_of_step _ _ he
  have fy := h.sub _ my
  have fz := h.sub _ mz
  have fw := h.sub _ hw
  have hzy' : p z ≠ p y := fun e => hzy (hinj _ fz _ fy e)
  obtain ⟨τ, hτ⟩ := on_line hn (hflat _ fz _ fy) (hflat _ fw _ fy) hzy' h0
  obtain ⟨n0, n1⟩ := line_ne hτ (fun e => hwy (hinj _ fw _ fy e)) (fun e => hwz (hinj _ fw _ fz e))
  have := h.next y z he w hw h0
  rw [line_dot hτ] at this
  refine ⟨τ, ?_, hτ⟩
  by_contra hc
  push Not at hc
  have h1 : 0 < τ := lt_of_le_of_ne hc.1 (Ne.symm n0)
  have h2 : 0 < 1 - τ := by
    have := lt_of_le_of_ne hc.2 n1
    linarith
  have := mul_pos (mul_pos h1 h2) (dot_self_pos (diff_ne hzy'))
  linarith

/-- when only corners are left one turns left everywhere -/
theorem Around.strict {L : List Nat} (h : Around n p face L) (hc : ∀ i ∈ L, Corner p face i) (y z : Nat) (he : (y, z) ∈ steps L)
    (w : Nat) (hw : w ∈ L) (hwy : w ≠ y) (hwz : w ≠ z) : 0 < turn n (p y) (p z) (p w) := by
  obtain ⟨my, mz⟩ := Convex.mem_of_step _ _ he
  refine lt_of_le_of_ne (h.left y z he w (h.sub w hw)) fun h0 => ?_
  by_cases hzy : z = y
  · subst hzy
    obtain ⟨i, hi, e⟩ := List.getElem_of_mem he
    rw [Convex.steps_length] at hi
    rw [Convex.steps_get L i hi, Prod.mk.injEq] at e
    have hij := (List.Nodup.getElem_inj_iff h.nodup).mp (e.1.trans e.2.symm)
    have h3 := h.three
    by_cases hl' : i + 1 < L.length
    · rw [Nat.mod_eq_of_lt hl'] at hij; omega
    · have : i + 1 = L.length := by omega
      rw [this, Nat.mod_self] at hij; omega
  obtain ⟨τ, hτ, e⟩ := h.line hn hflat hinj he hzy hw hwy hwz h0.symm
  have fy := h.sub _ my
  have fz := h.sub _ mz
  have fw := h.sub _ hw
  rcases hτ with hτ | hτ
  · -- the first is between the others
    refine hc y my z fz w fw ⟨fun e => hwz (hinj _ fw _ fz e.symm), 1 / (1 - τ), by have : 0 < 1 - τ := by linarith
                                                                                    positivity, ?_, fun d => ?_⟩
    · rw [div_lt_one (by linarith)]; linarith
    · rw [e d]
      have : 1 - τ ≠ 0 := by linarith
      field_simp
      ring
  · refine hc z mz y fy w fw ⟨fun e => hwy (hinj _ fw _ fy e.symm), 1 / τ, by positivity, ?_, fun d => ?_⟩
    · rw [div_lt_one (by linarith)]; exact hτ
    · rw [e d]
      have : τ ≠ 0 := by linarith
      field_simp
      ring

/-- a point without a left turn is between its neighbours, and can be removed -/
theorem Around.erase {L : List Nat} (h : Around n p face L) (hlen : 3 < L.length) (i : Nat) (hi : i < L.length)
    (h0 : turn n (p (L[(L.length + i - 1) % L.length]'(Nat.mod_lt _ (by omega)))) (p L[i])
      (p (L[(L.length + i + 1) % L.length]'(Nat.mod_lt _ (by omega)))) = 0) : Around n p face (L.eraseIdx i) := by
  have hj : (L.length + i - 1) % L.length < L.length := Nat.mod_lt _ (by omega)
  have hl : (L.length + i + 1) % L.length < L.length := Nat.mod_lt _ (by omega)
  have hj2 : ((L.length + i - 1) % L.length + 1) % L.length = i := by
    rw [Nat.mod_add_mod, show L.length + i - 1 + 1 = i + L.length by omega, Nat.add_mod_right, Nat.mod_eq_of_lt hi]
  have hl2 : (L.length + i + 1) % L.length = (i + 1) % L.length := by
    rw [show L.length + i + 1 = (i + 1) + L.length by omega, Nat.add_mod_right]
  have g := Convex.steps_get L _ hj
  simp only [hj2] at g
  have st : (L[(L.length + i - 1) % L.length], L[i]) ∈ steps L := by rw [← g]; exact List.getElem_mem _
  have g2 := Convex.steps_get L i hi
  simp only [← hl2] at g2
  have st2 : (L[i], L[(L.length + i + 1) % L.length]) ∈ steps L := by rw [← g2]; exact List.getElem_mem _
  have ne1 : (L.length + i + 1) % L.length ≠ i := by
    by_cases h : i + 1 < L.length
    · rw [hl2, Nat.mod_eq_of_lt h]; omega
    · rw [hl2, show i + 1 = L.length by omega, Nat.mod_self]; omega
  have ne2 : (L.length + i + 1) % L.length ≠ (L.length + i - 1) % L.length := mod_apart _ _ (by omega) hi
  have ne3 : i ≠ (L.length + i - 1) % L.length := by
    intro e
    rw [← e] at hj2
    exact ne1 (by rw [hl2]; exact hj2)
  have key := steps_erase L i hi (by omega)
  set a := L[(L.length + i - 1) % L.length] with ha
  set b := L[i] with hb
  set c := L[(L.length + i + 1) % L.length] with hc
  have ma : a ∈ L := List.getElem_mem _
  have mb : b ∈ L := List.getElem_mem _
  have mc : c ∈ L := List.getElem_mem _
  have nba : b ≠ a := fun e => ne3 ((List.Nodup.getElem_inj_iff h.nodup).mp e)
  have nca : c ≠ a := fun e => ne2 ((List.Nodup.getElem_inj_iff h.nodup).mp e)
  have ncb : c ≠ b := fun e => ne1 ((List.Nodup.getElem_inj_iff h.nodup).mp e)
  have fa := h.sub _ ma
  have fb := h.sub _ mb
  have fc := h.sub _ mc
  have hmem : ∀ w, w ∈ L.eraseIdx i ↔ w ≠ b ∧ w ∈ L := by
    intro w
    rw [← List.Nodup.erase_getElem h.nodup i hi, h.nodup.mem_erase_iff]
  -- the next point is beyond
  obtain ⟨τ, hτ, e⟩ := h.line hn hflat hinj st nba mc nca ncb h0
  have hτ1 : 1 < τ := by
    rcases hτ with hτ | hτ
    · exfalso
      obtain ⟨σ, hσ, e'⟩ := h.line hn hflat hinj st2 ncb ma (Ne.symm nba) (Ne.symm nca) (by rw [turn_cycle]; exact h0)
      have hne : p b ≠ p a := fun e => nba (hinj _ fb _ fa e)
      apply hne
      funext d
      have e1 := e d
      have e2 := e' d
      have : (1 - σ * (1 - τ)) * (p a d - p b d) = 0 := by rw [e1] at e2; linear_combination e2
      rcases mul_eq_zero.mp this with h1 | h1
      · exfalso
        have h2 : σ * (1 - τ) = 1 := by linarith
        rcases hσ with hσ | hσ
        · have := mul_neg_of_neg_of_pos hσ (show 0 < 1 - τ by linarith)
          linarith
        · have := mul_lt_mul'' hσ (show 1 < 1 - τ by linarith) zero_le_one zero_le_one
          linarith
      · linarith
    · exact hτ
  have hba' : p b ≠ p a := fun e => nba (hinj _ fb _ fa e)
  refine ⟨h.nodup.eraseIdx i, ?_, fun w hw => h.sub w ((hmem w).mp hw).2, ?_, ?_, ?_⟩
  · rw [List.length_eraseIdx_of_lt hi]; omega
  · intro y z he w hw
    rcases key _ he with e' | e'
    · rw [Prod.mk.injEq] at e'
      obtain ⟨rfl, rfl⟩ := e'
      rw [next_line e]
      exact mul_nonneg (by linarith) (h.left _ _ st w hw)
    · exact h.left y z e' w hw
  · intro y z he w hw hw0
    obtain ⟨hwb, hwL⟩ := (hmem w).mp hw
    rcases key _ he with e' | e'
    · rw [Prod.mk.injEq] at e'
      obtain ⟨rfl, rfl⟩ := e'
      rw [next_line e] at hw0
      have hw0 := (mul_eq_zero.mp hw0).resolve_left (by linarith)
      by_cases hwa : w = a
      · rw [hwa]; simp [dot, diff]
      by_cases hwc : w = c
      · rw [hwc]; simp [dot, diff]
      obtain ⟨σ, hσ, eσ⟩ := h.line hn hflat hinj st nba hwL hwa hwb hw0
      have e2 : turn n (p b) (p c) (p w) = 0 := by
        have : turn n (p b) (p c) (p w) = (τ - 1) * turn n (p a) (p b) (p w) := by
          simp only [turn, dot, Tetra.cross, diff, Matrix.cons_val_zero, Matrix.cons_val_one, Matrix.cons_val, e]; ring
        rw [this, hw0, mul_zero]
      obtain ⟨ρ, hρ, eρ⟩ := h.line hn hflat hinj st2 ncb hwL hwb hwc e2
      have rel : σ = 1 + ρ * (τ - 1) := by
        obtain ⟨d, hd⟩ : ∃ d, p b d - p a d ≠ 0 := by
          by_contra hcon
          push Not at hcon
          exact hba' (funext fun d => by have := hcon d; linarith)
        have e1 := eσ d
        have e2 := eρ d
        rw [e d, e1] at e2
        have : (σ - (1 + ρ * (τ - 1))) * (p b d - p a d) = 0 := by linear_combination e2
        have := (mul_eq_zero.mp this).resolve_right hd
        linarith
      have e3 : dot (diff (p w) (p a)) (diff (p w) (p c)) = σ * (σ - τ) * dot (diff (p b) (p a)) (diff (p b) (p a)) := by
        simp only [dot, diff, e, eσ]; ring
      rw [e3]
      refine mul_nonneg ?_ (dot_self_pos (diff_ne hba')).le
      rcases hσ with hσ | hσ
      · exact mul_nonneg_of_nonpos_of_nonpos hσ.le (by linarith)
      · refine mul_nonneg (by linarith) ?_
        rcases hρ with hρ | hρ
        · exfalso
          have := mul_neg_of_neg_of_pos hρ (show 0 < τ - 1 by linarith)
          linarith
        · have := mul_lt_mul_of_pos_right hρ (show 0 < τ - 1 by linarith)
          linarith
    · exact h.next y z e' w hwL hw0
  · intro w hw hw'
    by_cases hwb : w = b
    · refine ⟨a, fa, c, fc, fun e => nca (hinj _ fc _ fa e.symm), 1 / τ, by positivity, ?_, fun d => ?_⟩
      · rw [div_lt_one (by linarith)]; exact hτ1
      · rw [hwb, e d]
        have : τ ≠ 0 := by linarith
        field_simp
        ring
    · exact h.gone w hw fun hc => hw' ((hmem w).mpr ⟨hwb, hc⟩)

omit hinj in
/-- where one turns left there is a corner -/
theorem Around.corner {L : List Nat} (h : Around n p face L) {a b c : Nat} (h1 : (a, b) ∈ steps L) (h2 : (b, c) ∈ steps L)
    (ht : 0 < turn n (p a) (p b) (p c)) : Corner p face b := by
  intro u hu v hv
  have fa := h.sub _ (Convex.mem_of_step _ _ h1).1
  have fb := h.sub _ (Convex.mem_of_step _ _ h1).2
  have fc := h.sub _ (Convex.mem_of_step _ _ h2).2
  exact not_between_of_turn hn (hflat _ fb _ fa) (hflat _ fc _ fa) (hflat _ hu _ fa) (hflat _ hv _ fa) ht
    (h.left _ _ h1 u hu) (h.left _ _ h1 v hv) (h.left _ _ h2 u hu) (h.left _ _ h2 v hv)

/-- three points that are left are corners -/
theorem Around.triangle {L : List Nat} (h : Around n p face L) (h3 : L.length = 3) : ∀ i ∈ L, Corner p face i := by
  match L, h3 with
  | [a, b, c], _ =>
    have s1 : (a, b) ∈ steps [a, b, c] := by simp [steps, List.rotate]
    have s2 : (b, c) ∈ steps [a, b, c] := by simp [steps, List.rotate]
    have s3 : (c, a) ∈ steps [a, b, c] := by simp [steps, List.rotate]
    have hnd := h.nodup
    simp only [List.nodup_cons, List.mem_cons, List.not_mem_nil, or_false, not_or, not_false_eq_true, List.nodup_nil, and_true] at hnd
    obtain ⟨⟨hab, hac⟩, hbc⟩ := hnd
    have ht : 0 < turn n (p a) (p b) (p c) := by
      refine lt_of_le_of_ne (h.left a b s1 c (h.sub c (by simp))) fun h0 => ?_
      obtain ⟨τ, hτ, e⟩ := h.line hn hflat hinj s1 (Ne.symm hab) (w := c) (by simp) (Ne.symm hac) (Ne.symm hbc) h0.symm
      obtain ⟨σ, hσ, e'⟩ := h.line hn hflat hinj s2 (Ne.symm hbc) (w := a) (by simp) hab hac (by rw [turn_cycle]; exact h0.symm)
      obtain ⟨ρ, hρ, e''⟩ := h.line hn hflat hinj s3 hac (w := b) (by simp) hbc (Ne.symm hab) (by rw [turn_cycle, turn_cycle]; exact h0.symm)
      obtain ⟨d, hd⟩ : ∃ d, p b d - p a d ≠ 0 := by
        by_contra hcon
        push Not at hcon
        exact hab (hinj a (h.sub a (by simp)) b (h.sub b (by simp)) (funext fun d => by have := hcon d; linarith))
      have r1 : 1 - σ * (1 - τ) = 0 := by
        have : (1 - σ * (1 - τ)) * (p b d - p a d) = 0 := by
          have e2 := e' d
          rw [e d] at e2
          linear_combination - e2
        exact (mul_eq_zero.mp this).resolve_right hd
      have r2 : 1 - τ * (1 - ρ) = 0 := by
        have : (1 - τ * (1 - ρ)) * (p b d - p a d) = 0 := by
          have e2 := e'' d
          rw [e d] at e2
          linear_combination e2
        exact (mul_eq_zero.mp this).resolve_right hd
      rcases hτ with hτ | hτ
      · rcases hσ with hσ | hσ
        · have := mul_neg_of_neg_of_pos hσ (show 0 < 1 - τ by linarith)
          linarith
        · have := mul_lt_mul'' hσ (show 1 < 1 - τ by linarith) zero_le_one zero_le_one
          linarith
      · rcases hρ with hρ | hρ
        · have := mul_lt_mul'' hτ (show 1 < 1 - ρ by linarith) zero_le_one zero_le_one
          linarith
        · have := mul_neg_of_pos_of_neg (show 0 < τ by linarith) (show 1 - ρ < 0 by linarith)
          linarith
    intro i hi
    simp only [List.mem_cons, List.not_mem_nil, or_false] at hi
    rcases hi with rfl | rfl | rfl
    · exact h.corner hn hflat s3 s1 (by rw [← turn_cycle]; exact ht)
    · exact h.corner hn hflat s1 s2 ht
    · exact h.corner hn hflat s2 s3 (by rw [turn_cycle]; exact ht)

end

theorem turns_step (n : Pt) (points : List Pt) (k i : Nat) (L : List Nat) (h3 : L.length > 3) (hi : i < L.length) :
    turns n points (k + 1) i L = if 0 < turn n (points.getD (L[(L.length + i - 1) % L.length]'(Nat.mod_lt _ (by omega))) 0) (points.getD L[i] 0)
      (points.getD (L[(L.length + i + 1) % L.length]'(Nat.mod_lt _ (by omega))) 0) then turns n points k (i + 1) L else turns n points k i (L.eraseIdx i) := by
  have hj : (L.length + i - 1) % L.length < L.length := Nat.mod_lt _ (by omega)
  have hl : (L.length + i + 1) % L.length < L.length := Nat.mod_lt _ (by omega)
  have e : ∀ a b c : Pt, dot n (cross (diff b a) (diff c b)) = turn n a b c := by
    intro a b c
    simp only [turn, dot, Tetra.cross, diff, Matrix.cons_val_zero, Matrix.cons_val_one, Matrix.cons_val]; ring
  rw [← e]
  have e1 : L.getD (i % L.length) 0 = L[i] := by rw [Nat.mod_eq_of_lt hi, Convex.getD_lt L 0 hi]
  have e2 := Convex.getD_lt L 0 hj
  have e3 := Convex.getD_lt L 0 hl
  rw [← e1, ← e2, ← e3]
  rw [turns, if_pos ⟨h3, hi⟩]

theorem turns_stop (n : Pt) (points : List Pt) (k i : Nat) (L : List Nat) (h : ¬ (L.length > 3 ∧ i < L.length)) : turns n points (k + 1) i L = L := by
  rw [turns, if_neg h]

theorem turns_corners (n : Pt) (points : List Pt) (face : List Nat) (hn : n ≠ 0)
    (hflat : ∀ i ∈ face, ∀ j ∈ face, dot n (diff (points.getD i 0) (points.getD j 0)) = 0)
    (hinj : ∀ i ∈ face, ∀ j ∈ face, points.getD i 0 = points.getD j 0 → i = j) (fuel : Nat) : ∀ (i : Nat) (L : List Nat),
    Around n (fun i => points.getD i 0) face L → L.length ≤ fuel + i → (∀ w ∈ L.take i, Corner (fun i => points.getD i 0) face w) →
    Around n (fun i => points.getD i 0) face (turns n points fuel i L) ∧
      ∀ w ∈ turns n points fuel i L, Corner (fun i => points.getD i 0) face w := by
  induction fuel with
  | zero =>
    intro i L h hf hc
    unfold turns
    rw [List.take_of_length_le (by omega)] at hc
    exact ⟨h, hc⟩
  | succ k ih =>
    intro i L h hf hc
    by_cases hcond : L.length > 3 ∧ i < L.length
    · obtain ⟨h3, hi⟩ := hcond
      have hj : (L.length + i - 1) % L.length < L.length := Nat.mod_lt _ (by omega)
      have hl : (L.length + i + 1) % L.length < L.length := Nat.mod_lt _ (by omega)
      have hj2 : ((L.length + i - 1) % L.length + 1) % L.length = i := by
        rw [Nat.mod_add_mod, show L.length + i - 1 + 1 = i + L.length by omega, Nat.add_mod_right, Nat.mod_eq_of_lt hi]
      have hl2 : (L.length + i + 1) % L.length = (i + 1) % L.length := by
        rw [show L.length + i + 1 = (i + 1) + L.length by omega, Nat.add_mod_right]
      have g := Convex.steps_get L _ hj
      simp only [hj2] at g
      have st : (L[(L.length + i - 1) % L.length], L[i]) ∈ steps L := by rw [← g]; exact List.getElem_mem _
      have g2 := Convex.steps_get L i hi
      simp only [← hl2] at g2
      have st2 : (L[i], L[(L.length + i + 1) % L.length]) ∈ steps L := by rw [← g2]; exact List.getElem_mem _
      rw [turns_step n points k i L h3 hi]
      split
      · rename_i hpos
        refine ih (i + 1) L h (by omega) ?_
        intro w hw
        rw [List.take_add_one, List.getElem?_eq_getElem hi] at hw
        rcases List.mem_append.mp hw with hw | hw
        · exact hc w hw
        · simp only [Option.toList_some, List.mem_singleton] at hw
          rw [hw]
          exact h.corner hn hflat st st2 hpos
      · rename_i hpos
        have h0 := le_antisymm (not_lt.mp hpos) (h.left _ _ st _ (h.sub _ (List.getElem_mem hl)))
        refine ih i _ (h.erase hn hflat hinj h3 i hi h0) ?_ ?_
        · rw [List.length_eraseIdx_of_lt hi]; omega
        · rw [List.take_eraseIdx_eq_take_of_le _ _ _ le_rfl]
          exact hc
    · rw [turns_stop n points k i L hcond]
      refine ⟨h, ?_⟩
      by_cases h3 : L.length = 3
      · exact h.triangle hn hflat hinj h3
      · have h3' := h.three
        have : ¬ i < L.length := fun h' => hcond ⟨by omega, h'⟩
        rw [List.take_of_length_le (by omega)] at hc
        exact hc

/-- The corners of a polygon with points on its edges, in their order. -/
theorem sortFace_corners (P : Plane) (face : Face) (points : List Pt) (hn : face.Nodup) (h3 : 3 ≤ face.length)
    (hplane : ∃ k, ∀ i ∈ face, dot P.normal (points.getD i 0) = k) (hnormal : P.normal ≠ 0)
    (hinj : ∀ i ∈ face, ∀ j ∈ face, points.getD i 0 = points.getD j 0 → i = j)
    (hconv : ∀ y ∈ face, ∃ z ∈ face, z ≠ y ∧ (∀ w ∈ face, 0 ≤ turn P.normal (points.getD y 0) (points.getD z 0) (points.getD w 0)) ∧
      (∃ w ∈ face, 0 < turn P.normal (points.getD y 0) (points.getD z 0) (points.getD w 0)) ∧
      ∀ w ∈ face, turn P.normal (points.getD y 0) (points.getD z 0) (points.getD w 0) = 0 →
        0 ≤ dot (diff (points.getD w 0) (points.getD y 0)) (diff (points.getD w 0) (points.getD z 0))) :
    (SortFace.sortFace P face points).Nodup ∧ 3 ≤ (SortFace.sortFace P face points).length ∧
    (∀ i, i ∈ SortFace.sortFace P face points ↔ i ∈ face ∧ Corner (fun i => points.getD i 0) face i) ∧
    ∀ y z, (y, z) ∈ steps (SortFace.sortFace P face points) → ∀ w ∈ SortFace.sortFace P face points, w ≠ y → w ≠ z →
      0 < turn P.normal (points.getD y 0) (points.getD z 0) (points.getD w 0) := by
  have hflat : ∀ i ∈ face, ∀ j ∈ face, dot P.normal (diff (points.getD i 0) (points.getD j 0)) = 0 := by
    obtain ⟨k, hk⟩ := hplane
    intro i hi j hj
    have e1 := hk i hi
    have e2 := hk j hj
    simp only [dot, diff] at *; linarith
  obtain ⟨S, hp, e, hs⟩ := sortFace_weak P face points hn h3 hplane hnormal hinj hconv
  have hA : Around P.normal (fun i => points.getD i 0) face S :=
    ⟨hp.nodup_iff.mpr hn, by rw [hp.length_eq]; exact h3, fun i hi => hp.mem_iff.mp hi, fun y z he => (hs y z he).1,
      fun y z he w hw => (hs y z he).2 w (hp.mem_iff.mp hw), fun w hw hw' => absurd (hp.mem_iff.mpr hw) hw'⟩
  obtain ⟨hR, hC⟩ := turns_corners P.normal points face hnormal hflat hinj S.length 0 S hA (by omega) (by simp)
  rw [← e] at hR hC
  refine ⟨hR.nodup, hR.three, ?_, hR.strict hnormal hflat hinj hC⟩
  intro i
  constructor
  · exact fun hi => ⟨hR.sub i hi, hC i hi⟩
  · rintro ⟨hi, hc⟩
    by_contra hcon
    obtain ⟨u, hu, v, hv, hb⟩ := hR.gone i hi hcon
    exact hc u hu v hv hb

/-! ### the area -/

theorem sum_line (A B r : ℝ) (f g : Pt → ℚ) (t : List Pt) (h : ∀ p ∈ t, A * (f p - r) = B * g p) :
    A * (((t.map f).sum : ℚ) - t.length * r) = B * ((t.map g).sum : ℚ) := by
  induction t with
  | nil => simp
  | cons p t ih =>
    have h1 := h p (by simp)
    have h2 := ih fun q hq => h q (List.mem_cons_of_mem _ hq)
    simp only [List.map_cons, List.sum_cons, List.length_cons]
    push_cast at h2 ⊢
    linear_combination h1 + h2

/-- a polygon with points on its edges has an area, as the code decides it, if its first three points are not in line -/
theorem has_area_weak {n : Pt} {l : List Pt} (hn : n ≠ 0) (hflat : ∀ p ∈ l, ∀ q ∈ l, dot n (diff p q) = 0) (hl : l.Nodup)
    (p0 p1 p2 : Pt) (l' : List Pt) (hL : l = p0 :: p1 :: p2 :: l') (hcol : cross (diff p1 p0) (diff p2 p0) ≠ 0)
    (hnext : ∀ z : Pt, z ≠ 0 → (∀ p ∈ l, ∀ q ∈ l, dot z (diff p q) = 0) → ∀ y ∈ l, ∃ a ∈ l, a ≠ y ∧ (∀ w ∈ l, 0 ≤ turn z y a w) ∧
      ∃ w ∈ l, 0 < turn z y a w) : faceHasArea l = true := by
  have h3 : 3 ≤ l.length := by rw [hL]; simp
  have m0 : p0 ∈ l := by simp [hL]
  have m1 : p1 ∈ l := by simp [hL]
  have m2 : p2 ∈ l := by simp [hL]
  have hne : l ≠ [] := List.ne_nil_of_mem m0
  set c := centre l with hc
  -- the normal
  set z := cross (diff (diff p1 c) (diff p0 c)) (diff (diff p2 c) (diff p1 c)) with hz
  have ez : z = cross (diff p1 p0) (diff p2 p0) := by
    rw [hz]
    funext d
    fin_cases d <;> simp only [Tetra.cross, diff, Matrix.cons_val_zero, Matrix.cons_val_one, Matrix.cons_val, Fin.zero_eta, Fin.mk_one, Fin.reduceFinMk, Fin.isValue] <;> ring
  have z0 : z ≠ 0 := by rw [ez]; exact hcol
  have zflat : ∀ p ∈ l, ∀ q ∈ l, dot z (diff p q) = 0 := by
    intro p hp q hq
    rw [ez]
    have a1 := hflat p1 m1 p0 m0
    have a2 := hflat p2 m2 p0 m0
    have a3 := hflat p hp q hq
    generalize diff p1 p0 = u at *
    generalize diff p2 p0 = v at *
    generalize diff p q = w at *
    have hnn := dot_self_pos hn
    have : dot n n * dot (cross u v) w = 0 := by
      simp only [dot, Tetra.cross, Matrix.cons_val_zero, Matrix.cons_val_one, Matrix.cons_val] at a1 a2 a3 ⊢
      linear_combination (n 0 * (v 1 * w 2 - v 2 * w 1) + n 1 * (v 2 * w 0 - v 0 * w 2) + n 2 * (v 0 * w 1 - v 1 * w 0)) * a1 +
        (n 0 * (w 1 * u 2 - w 2 * u 1) + n 1 * (w 2 * u 0 - w 0 * u 2) + n 2 * (w 0 * u 1 - w 1 * u 0)) * a2 +
        (n 0 * (u 1 * v 2 - u 2 * v 1) + n 1 * (u 2 * v 0 - u 0 * v 2) + n 2 * (u 0 * v 1 - u 1 * v 0)) * a3
    exact (mul_eq_zero.mp this).resolve_left hnn.ne'
  have next : ∀ y ∈ l, ∃ a ∈ l, a ≠ y ∧ 0 < dot z (cross (diff y c) (diff a c)) ∧ ∀ w ∈ l, 0 ≤ turn z y a w := by
    intro y hy
    obtain ⟨a, ha, hay, hT, w, hw, hwT⟩ := hnext z z0 zflat y hy
    refine ⟨a, ha, hay, ?_, hT⟩
    have e := turn_centre z y a l hne
    rw [← hc] at e
    have hpos : 0 < (l.map fun w => turn z y a w).sum := by
      refine sum_pos' _ ?_ _ (List.mem_map.mpr ⟨w, hw, rfl⟩) hwT
      intro x hx
      obtain ⟨j, hj, rfl⟩ := List.mem_map.mp hx
      exact hT j hj
    rw [← e] at hpos
    exact pos_of_mul_pos_right hpos (Nat.cast_nonneg _)
  have cflat := fun p hp => centre_flat hne zflat p hp
  set x := diff p0 c with hx
  have x0 : x ≠ 0 := by
    intro e
    obtain ⟨w, _, _, h, _⟩ := next p0 m0
    rw [← hx, e] at h
    simp only [dot, Tetra.cross, Pi.zero_apply, Matrix.cons_val_zero, Matrix.cons_val_one, Matrix.cons_val] at h
    linarith
  have xx := dot_self_pos x0
  have zx : dot z x = 0 := cflat p0 m0
  set y := cross z x with hy
  set k : Pt → ℚ × ℚ := fun p => (dot (diff p c) x, dot (diff p c) y) with hk
  have kon : ∀ p ∈ l, onPlane z x (diff p c) = k p := by
    intro p hp
    unfold onPlane
    rw [planar_eq z _ (cflat p hp)]
  have karea : ∀ a ∈ l, ∀ b ∈ l, ∀ w ∈ l, area (k a) (k b) (k w) = dot x x * turn z a b w := by
    intro a ha b hb w hw
    rw [← kon a ha, ← kon b hb, ← kon w hw]
    exact turn_area z x c a b w zx (cflat a ha) (cflat b hb) (cflat w hw)
  have kdet : ∀ a ∈ l, ∀ b ∈ l, det2 (k a) (k b) = dot x x * dot z (cross (diff a c) (diff b c)) := by
    intro a ha b hb
    rw [← kon a ha, ← kon b hb]
    exact det_onPlane z x _ _ zx (cflat a ha) (cflat b hb)
  have k0 : k p0 = (dot x x, 0) := by
    simp only [hk, ← hx, hy]
    refine Prod.ext rfl ?_
    simp only [dot, Tetra.cross, Matrix.cons_val_zero, Matrix.cons_val_one, Matrix.cons_val]
    ring
  -- what is to be shown
  unfold faceHasArea
  rw [if_neg (by omega)]
  simp only
  have g : ∀ i, i < l.length → (l.map fun p => diff p c).getD i 0 = diff (l.getD i 0) c := by
    intro i hi
    rw [Convex.getD_lt _ _ (by simpa using hi), List.getElem_map, Convex.getD_lt _ _ hi]
  have l3 : 3 ≤ l.length := h3
  rw [← hc, g 0 (by omega), g 1 (by omega), g 2 (by omega)]
  have e0 : l.getD 0 0 = p0 := by rw [hL]; rfl
  have e1 : l.getD 1 0 = p1 := by rw [hL]; rfl
  have e2 : l.getD 2 0 = p2 := by rw [hL]; rfl
  rw [e0, e1, e2, ← hx]
  rw [show cross (diff (diff p1 c) x) (diff (diff p2 c) (diff p1 c)) = z from rfl, if_neg (by
    intro h; rcases h with h | h
    · exact z0 h
    · exact x0 h)]
  rw [← hy]
  by_contra hcon
  rw [Bool.not_eq_true, List.any_eq_false] at hcon
  have fl : ∀ i, i + 2 < l.length → flat (dot x x) (k (l.getD (i + 1) 0)) (k (l.getD (i + 2) 0)) = true := by
    intro i hi
    have := hcon i (by rw [List.mem_range, List.length_map]; omega)
    simp only [Bool.not_eq_true, Bool.not_eq_false'] at this
    rw [g (i + 1) (by omega), g (i + 2) (by omega)] at this
    exact this
  have hr : 0 < Real.sqrt (dot x x : ℚ) := Real.sqrt_pos.mpr (by exact_mod_cast xx)
  have hr2 : Real.sqrt (dot x x : ℚ) * Real.sqrt (dot x x : ℚ) = ((dot x x : ℚ) : ℝ) := Real.mul_self_sqrt (by exact_mod_cast xx.le)
  have fli : ∀ i, i + 2 < l.length → _ := fun i hi => (flat_iff _ xx _ _).mp (fl i hi)
  set r := Real.sqrt (dot x x : ℚ) with hrdef
  have y0 : y ≠ 0 := by
    intro e
    have : dot y y = dot z z * dot x x := by
      rw [hy]
      simp only [dot, Tetra.cross, Matrix.cons_val_zero, Matrix.cons_val_one, Matrix.cons_val] at zx ⊢
      linear_combination (- (z 0 * x 0 + z 1 * x 1 + z 2 * x 2)) * zx
    rw [e] at this
    have hp := mul_pos (dot_self_pos z0) xx
    rw [← this] at hp
    simp [dot] at hp
  -- none of the others is at the first point
  have off : ∀ q ∈ l, q ≠ p0 → ((k q).2 : ℝ) ≠ 0 ∨ ((k q).1 : ℝ) ≠ r := by
    intro q hq hq0
    by_contra hcon'
    push Not at hcon'
    obtain ⟨t2, t1⟩ := hcon'
    have t2' : (k q).2 = 0 := by exact_mod_cast t2
    have k1p : 0 < (k q).1 := by
      have : (0 : ℝ) < ((k q).1 : ℝ) := by rw [t1]; exact hr
      exact_mod_cast this
    obtain ⟨a, ha, ha0, da, la⟩ := next p0 m0
    obtain ⟨b, hb, hb2, db, lb⟩ := next q hq
    have da' : 0 < det2 (k p0) (k a) := by rw [kdet p0 m0 a ha]; exact mul_pos xx da
    have db' : 0 < det2 (k q) (k b) := by rw [kdet q hq b hb]; exact mul_pos xx db
    have aa : 0 ≤ area (k p0) (k a) (k q) := by rw [karea p0 m0 a ha q hq]; exact mul_nonneg xx.le (la q hq)
    have ab : 0 ≤ area (k q) (k b) (k p0) := by rw [karea q hq b hb p0 m0]; exact mul_nonneg xx.le (lb p0 m0)
    unfold area at aa ab
    unfold det2 at aa ab da' db'
    rw [t2', k0] at aa ab
    rw [k0] at da'
    rw [t2'] at db'
    simp only [zero_mul, mul_zero, sub_zero, zero_sub, add_zero] at aa ab da' db'
    have v1 : 0 < (k a).2 := by
      by_contra hc'
      have := mul_nonpos_of_nonneg_of_nonpos xx.le (not_lt.mp hc')
      linarith
    have v2 : 0 < (k b).2 := by
      by_contra hc'
      have := mul_nonpos_of_nonneg_of_nonpos k1p.le (not_lt.mp hc')
      linarith
    have w3 : (k q).1 ≤ dot x x := by
      by_contra hc'
      have := mul_neg_of_neg_of_pos (show dot x x - (k q).1 < 0 by linarith) v1
      linarith
    have w4 : dot x x ≤ (k q).1 := by
      by_contra hc'
      have := mul_neg_of_neg_of_pos (show (k q).1 - dot x x < 0 by linarith) v2
      linarith
    have w5 := le_antisymm w3 w4
    -- they are the same point
    apply hq0
    have ed : diff q p0 = 0 := by
      refine plane_zero (n := z) (m := x) (by rw [← hy]; exact y0) _ (zflat q hq p0 m0) ?_ ?_
      · rw [← hy]
        have e1 : (k q).2 - (k p0).2 = dot y (diff q p0) := by simp only [hk, dot, diff]; ring
        rw [← e1, t2', k0]; simp
      · have e1 : (k q).1 - (k p0).1 = dot x (diff q p0) := by simp only [hk, dot, diff]; ring
        rw [← e1, w5, k0]; simp
    funext d
    have := congrFun ed d
    simp only [diff, Pi.zero_apply] at this
    linarith
  -- they are all on one line through it
  have hnd : ∀ i, 0 < i → i < l.length → l.getD i 0 ∈ l ∧ l.getD i 0 ≠ p0 := by
    intro i h0 hi
    rw [Convex.getD_lt l 0 hi]
    refine ⟨List.getElem_mem _, fun e => ?_⟩
    have e' : l[i] = l[0] := by rw [e, ← e0, Convex.getD_lt l 0 (by omega)]
    have := (List.Nodup.getElem_inj_iff hl).mp e'
    omega
  have line : ∀ i, 0 < i → i < l.length → ((k p1).2 : ℝ) * ((k (l.getD i 0)).1 - r) = ((k p1).1 - r) * (k (l.getD i 0)).2 := by
    intro i h0 hi
    induction i with
    | zero => omega
    | succ j ih =>
      by_cases hj : j = 0
      · subst hj
        rw [zero_add, e1]; ring
      · obtain ⟨j', rfl⟩ : ∃ j', j = j' + 1 := ⟨j - 1, by omega⟩
        have h1 := ih (by omega) (by omega)
        have h2 := fli j' (by omega)
        obtain ⟨m, nm⟩ := hnd (j' + 1) (by omega) (by omega)
        have h3 := off _ m nm
        rw [show j' + 1 + 1 = j' + 2 from rfl]
        generalize l.getD (j' + 1) 0 = u at *
        generalize l.getD (j' + 2) 0 = v at *
        rcases h3 with h3 | h3
        · have : ((k u).2 : ℝ) * (((k p1).2 : ℝ) * ((k v).1 - r) - ((k p1).1 - r) * (k v).2) = 0 := by
            linear_combination (((k v).2) : ℝ) * h1 - ((k p1).2 : ℝ) * h2
          have := (mul_eq_zero.mp this).resolve_left h3
          linarith
        · have : (((k u).1 : ℝ) - r) * (((k p1).2 : ℝ) * ((k v).1 - r) - ((k p1).1 - r) * (k v).2) = 0 := by
            linear_combination (((k v).1 : ℝ) - r) * h1 - (((k p1).1 : ℝ) - r) * h2
          have := (mul_eq_zero.mp this).resolve_left (sub_ne_zero.mpr h3)
          linarith
  have tail : ∀ p ∈ p1 :: p2 :: l', ((k p1).2 : ℝ) * ((k p).1 - r) = ((k p1).1 - r) * (k p).2 := by
    intro p hp
    obtain ⟨i, hi, rfl⟩ := List.getElem_of_mem hp
    have hi' : i + 1 < l.length := by rw [hL]; simpa using hi
    have := line (i + 1) (by omega) hi'
    have e' : l.getD (i + 1) 0 = (p1 :: p2 :: l')[i] := by
      rw [Convex.getD_lt l 0 hi']
      simp only [hL, List.getElem_cons_succ]
    rw [e'] at this
    exact this
  have total : ∀ v : Pt, (l.map fun p => dot (diff p c) v).sum = 0 := by
    intro v
    have e := centre_affine l hne (v 0) (v 1) (v 2) (-(v 0 * c 0 + v 1 * c 1 + v 2 * c 2))
    rw [← hc, show v 0 * c 0 + v 1 * c 1 + v 2 * c 2 + -(v 0 * c 0 + v 1 * c 1 + v 2 * c 2) = 0 by ring, mul_zero] at e
    rw [e]
    congr 1
    refine List.map_congr_left fun p _ => ?_
    simp only [dot, diff]; ring
  have s := sum_line ((k p1).2) ((k p1).1 - r) r (fun p => (k p).1) (fun p => (k p).2) _ tail
  have s1 : ((p1 :: p2 :: l').map fun p => (k p).1).sum = - dot x x := by
    have := total x
    rw [hL, List.map_cons, List.sum_cons] at this
    have e' : dot (diff p0 c) x = dot x x := rfl
    rw [e'] at this
    have e3 : ((p1 :: p2 :: l').map fun p => (k p).1).sum = ((p1 :: p2 :: l').map fun p => dot (diff p c) x).sum := rfl
    linarith
  have s2 : ((p1 :: p2 :: l').map fun p => (k p).2).sum = 0 := by
    have := total y
    rw [hL, List.map_cons, List.sum_cons] at this
    have e' : dot (diff p0 c) y = 0 := by
      have : (k p0).2 = 0 := by rw [k0]
      exact this
    rw [e'] at this
    have e3 : ((p1 :: p2 :: l').map fun p => (k p).2).sum = ((p1 :: p2 :: l').map fun p => dot (diff p c) y).sum := rfl
    linarith
  rw [s1, s2] at s
  push_cast at s
  rw [← hr2] at s
  have b2 : ((k p1).2 : ℝ) = 0 := by
    have hpos : 0 < r * (r + ((p1 :: p2 :: l').length : ℝ)) := mul_pos hr (by positivity)
    have : ((k p1).2 : ℝ) * (r * (r + ((p1 :: p2 :: l').length : ℝ))) = 0 := by
      have s' := s
      simp only [mul_zero] at s'
      linear_combination - s'
    exact (mul_eq_zero.mp this).resolve_right hpos.ne'
  have n10 := (hnd 1 (by omega) (by omega)).2
  rw [e1] at n10
  have b1 := (off p1 m1 n10).resolve_left (fun h => h b2)
  have t2 := tail p2 (by simp)
  rw [b2, zero_mul] at t2
  have c2 : ((k p2).2 : ℝ) = 0 := (mul_eq_zero.mp t2.symm).resolve_left (sub_ne_zero.mpr b1)
  have b2' : (k p1).2 = 0 := by exact_mod_cast b2
  have c2' : (k p2).2 = 0 := by exact_mod_cast c2
  have := karea p0 m0 p1 m1 p2 m2
  have a0 : area (k p0) (k p1) (k p2) = 0 := by
    unfold area det2
    rw [b2', c2', k0]; ring
  rw [a0] at this
  rcases mul_eq_zero.mp this.symm with h | h
  · exact xx.ne' h
  · have : turn z p0 p1 p2 = dot z z := by
      unfold turn
      rw [← ez]
    rw [this] at h
    exact (dot_self_pos z0).ne' h

end Brille.HullOf
