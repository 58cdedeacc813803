/- What is left of one face of a convex polyhedron behind a plane. -/
import Verif.Proofs.Convex
import Verif.Spec.Clip

namespace Brille.Convex

open Brille.Spec Brille.Tetra

/-! ### lists -/

/-- the pairs of neighbours in a list -/
def pairs {α : Type} : List α → List (α × α)
  | a :: b :: t => (a, b) :: pairs (b :: t)
  | _ => []

theorem pairs_append_cons {α : Type} (l : List α) (x : α) (m : List α) :
    pairs (l ++ x :: m) = pairs (l ++ [x]) ++ pairs (x :: m) := by
  induction l with
  | nil => simp [pairs]
  | cons a l ih =>
    cases l with
    | nil => simp [pairs]
    | cons b l => simp only [List.cons_append, pairs] at ih ⊢; rw [ih]

theorem zip_pairs {α : Type} (t : List α) (x y : α) : (x :: t).zip (t ++ [y]) = pairs (x :: t ++ [y]) := by
  induction t generalizing x with
  | nil => rfl
  | cons b t ih =>
    simp only [List.cons_append, List.zip_cons_cons, pairs]
    rw [ih b]; rfl

theorem steps_eq {α : Type} (x : α) (t : List α) : steps (x :: t) = pairs (x :: t ++ [x]) := by
  unfold steps
  rw [List.rotate_cons_succ, List.rotate_zero, zip_pairs]

theorem steps_append {α : Type} (x : α) (N : List α) (y : α) (M : List α) :
    steps (x :: N ++ y :: M) = pairs (x :: N ++ [y]) ++ pairs (y :: M ++ [x]) := by
  have e : x :: (N ++ y :: M) ++ [x] = (x :: N) ++ y :: (M ++ [x]) := by simp
  rw [List.cons_append, steps_eq, e, pairs_append_cons]
  rfl

theorem steps_rotate {α : Type} (f : List α) (n : Nat) : steps (f.rotate n) = (steps f).rotate n := by
  apply List.ext_getElem
  · simp [steps]
  · intro i h1 h2
    simp only [steps, List.getElem_zip, List.getElem_rotate, List.length_rotate, List.length_zip, min_self]
    congr 2
    rw [Nat.mod_add_mod, Nat.mod_add_mod]
    congr 1
    omega

theorem steps_rotated {α : Type} {f g : List α} (h : f ~r g) (e : α × α) : e ∈ steps f ↔ e ∈ steps g := by
  obtain ⟨n, rfl⟩ := h
  rw [steps_rotate, List.mem_rotate]

theorem list_split {α : Type} (Q : α → Prop) (l : List α)
    (h : ∀ i j k : Nat, i < j → j < k → ∀ a b c, l[i]? = some a → l[j]? = some b → l[k]? = some c → Q a → Q c → Q b)
    (he : ∃ a ∈ l, Q a) : ∃ X N Y, l = X ++ N ++ Y ∧ N ≠ [] ∧ (∀ a ∈ X, ¬ Q a) ∧ (∀ a ∈ N, Q a) ∧ ∀ a ∈ Y, ¬ Q a := by
  classical
  induction l with
  | nil => simp at he
  | cons x l ih =>
    have h' : ∀ i j k : Nat, i < j → j < k → ∀ a b c, l[i]? = some a → l[j]? = some b → l[k]? = some c → Q a → Q c → Q b := by
      intro i j k hij hjk a b c e1 e2 e3
      exact h (i + 1) (j + 1) (k + 1) (by omega) (by omega) a b c (by simpa using e1) (by simpa using e2) (by simpa using e3)
    by_cases hx : Q x
    · by_cases hl : ∃ a ∈ l, Q a
      · obtain ⟨X, N, Y, e, hN, h1, h2, h3⟩ := ih h' hl
        have hX : X = [] := by
          cases X with
          | nil => rfl
          | cons b X =>
            exfalso
            obtain ⟨c, N', rfl⟩ := List.exists_cons_of_ne_nil hN
            apply h1 b (by simp)
            refine h 0 1 (X.length + 2) (by omega) (by omega) x b c rfl ?_ ?_ hx (h2 c (by simp))
            · rw [e]; simp
            · rw [e]
              simp
        subst hX
        refine ⟨[], x :: N, Y, by rw [e]; rfl, by simp, by simp, ?_, h3⟩
        intro a ha
        rcases List.mem_cons.mp ha with rfl | ha
        · exact hx
        · exact h2 a ha
      · refine ⟨[], [x], l, rfl, by simp, by simp, by simpa using hx, ?_⟩
        intro a ha hq
        exact hl ⟨a, ha, hq⟩
    · obtain ⟨a, ha, hq⟩ := he
      have hl : ∃ a ∈ l, Q a := by
        rcases List.mem_cons.mp ha with rfl | ha
        · exact absurd hq hx
        · exact ⟨a, ha, hq⟩
      obtain ⟨X, N, Y, e, hN, h1, h2, h3⟩ := ih h' hl
      refine ⟨x :: X, N, Y, by rw [e]; rfl, hN, ?_, h2, h3⟩
      intro a ha
      rcases List.mem_cons.mp ha with rfl | ha
      · exact hx
      · exact h1 a ha

theorem getD_lt {α : Type} (l : List α) (d : α) {i : Nat} (hi : i < l.length) : l.getD i d = l[i] := by
  rw [List.getD_eq_getElem?_getD, List.getElem?_eq_getElem hi]; rfl

/-! ### affine functions -/

/-- an affine function of the coordinates -/
def Affine (s : Pt → ℚ) : Prop := ∃ n0 n1 n2 k : ℚ, ∀ x, s x = n0 * x 0 + n1 * x 1 + n2 * x 2 + k

theorem affine_side (a b c : Pt) : Affine (side a b c) := by
  obtain ⟨n0, n1, n2, k, h⟩ := side_affine a b c
  exact ⟨n0, n1, n2, k, h⟩

theorem Affine.comb {s : Pt → ℚ} (hs : Affine s) (j m a c : Pt) (A B : ℚ)
    (e : ∀ d, j d - m d = A * (a d - m d) + B * (c d - m d)) : s j - s m = A * (s a - s m) + B * (s c - s m) := by
  obtain ⟨n0, n1, n2, k, h⟩ := hs
  simp only [h]
  linear_combination n0 * e 0 + n1 * e 1 + n2 * e 2

theorem Affine.along {s : Pt → ℚ} (hs : Affine s) (p q : Pt) (t : ℚ) : s (Spec.along p q t) = (1 - t) * s p + t * s q := by
  obtain ⟨n0, n1, n2, k, h⟩ := hs
  simp only [h, Spec.along]
  ring

/-- functions that vanish at three points of a plane -/
theorem Affine.four {s : Pt → ℚ} (hs : Affine s) (a b c i x : Pt) :
    side a b c i * s x = side x b c i * s a + side a x c i * s b + side a b x i * s c + side a b c x * s i := by
  obtain ⟨n0, n1, n2, k, h⟩ := hs
  simp only [h]
  exact affine_four ..

theorem side_swap34 (a b c d : Pt) : side a b d c = - side a b c d := by unfold side; ring
theorem side_swap12 (a b c d : Pt) : side b a c d = - side a b c d := by unfold side; ring
theorem side_swap23 (a b c d : Pt) : side a c b d = - side a b c d := by unfold side; ring
theorem side_cycle (a b c d : Pt) : side b c a d = side a b c d := by unfold side; ring
theorem side_aba (a b d : Pt) : side a b a d = 0 := by unfold side; ring
theorem side_abb (a b d : Pt) : side a b b d = 0 := by unfold side; ring

theorem affine_third (a b i : Pt) : Affine fun x => side a b x i := by
  obtain ⟨n0, n1, n2, k, h⟩ := side_affine a b i
  refine ⟨-n0, -n1, -n2, -k, fun x => ?_⟩
  simp only
  rw [side_swap34, h]; ring

theorem affine_second (a b i : Pt) : Affine fun x => side a x b i := by
  obtain ⟨n0, n1, n2, k, h⟩ := affine_third a b i
  refine ⟨-n0, -n1, -n2, -k, fun x => ?_⟩
  simp only at h ⊢
  rw [side_swap23, h]; ring

theorem affine_first (a b i : Pt) : Affine fun x => side x a b i := by
  obtain ⟨n0, n1, n2, k, h⟩ := affine_third a b i
  refine ⟨n0, n1, n2, k, fun x => ?_⟩
  simp only at h ⊢
  rw [← side_cycle, h]

/-! ### crossings -/

theorem crossing_zero {s : Pt → ℚ} (hs : Affine s) (p q : Pt) (h : s p ≠ s q) : s (crossing s p q) = 0 := by
  unfold crossing
  rw [hs.along]
  have : s p - s q ≠ 0 := sub_ne_zero.mpr h
  field_simp
  ring

theorem crossing_comm (s : Pt → ℚ) (p q : Pt) (h : s p ≠ s q) : crossing s p q = crossing s q p := by
  have h1 : s p - s q ≠ 0 := sub_ne_zero.mpr h
  have h2 : s q - s p ≠ 0 := sub_ne_zero.mpr h.symm
  funext d
  simp only [crossing, along]
  field_simp
  ring

theorem crossing_end (s : Pt → ℚ) (p q : Pt) (h : s q = 0) (hp : s p ≠ 0) : crossing s p q = q := by
  funext d
  simp only [crossing, along, h, sub_zero, div_self hp]
  ring

/-- a crossing is properly between the two points -/
theorem crossing_between (s : Pt → ℚ) (p q : Pt) (h : s p * s q < 0) :
    ∃ t, 0 < t ∧ t < 1 ∧ crossing s p q = along p q t := by
  refine ⟨s p / (s p - s q), ?_, ?_, rfl⟩
  · rcases mul_neg_iff.mp h with ⟨a, b⟩ | ⟨a, b⟩
    · exact div_pos a (by linarith)
    · exact div_pos_of_neg_of_neg a (by linarith)
  · rcases mul_neg_iff.mp h with ⟨a, b⟩ | ⟨a, b⟩
    · rw [div_lt_one (by linarith)]; linarith
    · rw [div_lt_one_of_neg (by linarith)]; linarith

/-! ### one face -/

section
variable {faces : List (List Pt)} (h : ConvexPolyhedron faces)
include h

/-- an affine function that is zero at the corners of a face and positive at the others -/
theorem face_plane {f : List Pt} (hf : f ∈ faces) : ∃ L : Pt → ℚ, Affine L ∧
    (∀ p, IsCorner faces p → 0 ≤ L p ∧ (L p = 0 ↔ p ∈ f)) ∧ ∃ i, IsCorner faces i ∧ 0 < L i := by
  obtain ⟨b, hb⟩ := List.exists_mem_of_length_pos (lt_of_lt_of_le (by norm_num) (h.simple f hf).2)
  obtain ⟨a, ha⟩ := exists_prev f b hb
  obtain ⟨c, hc⟩ := exists_next f b hb
  have F := h.behind f hf a b c ha hc
  obtain ⟨i, hi, hif⟩ := h.solid f hf
  exact ⟨side a b c, affine_side a b c, F, i, hi, lt_of_le_of_ne (F i hi).1 fun e => hif ((F i hi).2.mp e.symm)⟩

/-- every other corner of a face is to the left of each of its edges -/
theorem edge_left {f : List Pt} (hf : f ∈ faces) (i : Pt) (hi : IsCorner faces i) (hif : i ∉ f) (a b : Pt)
    (hab : (a, b) ∈ steps f) (j : Pt) (hj : j ∈ f) (hja : j ≠ a) (hjb : j ≠ b) : 0 < side a b j i := by
  obtain ⟨c, hc⟩ := exists_next f b (mem_of_step f _ hab).2
  have F := h.behind f hf a b c hab hc
  have hpos : 0 < side a b c i := lt_of_le_of_ne (F i hi).1 fun e => hif ((F i hi).2.mp e.symm)
  by_cases hjc : j = c
  · rw [hjc]; exact hpos
  obtain ⟨A, B, hA, hB, e⟩ := corner_proper h hf a b c hab hc j hj hjb hja hjc
  have := (affine_third a b i).comb j b a c A B e
  simp only [side_aba, side_abb] at this
  have : side a b j i = B * side a b c i := by linarith
  rw [this]
  exact mul_pos hB hpos

/-- a corner where an affine function is not larger than at the two neighbours has its least value on the face -/
theorem least_of_local {f : List Pt} (hf : f ∈ faces) {s : Pt → ℚ} (hs : Affine s) (a m c : Pt) (ha : (a, m) ∈ steps f)
    (hc : (m, c) ∈ steps f) (h1 : s m ≤ s a) (h2 : s m ≤ s c) (j : Pt) (hj : j ∈ f) : s m ≤ s j := by
  obtain ⟨A, B, hA, hB, e⟩ := corner_angle h hf a m c ha hc j hj
  have := hs.comb j m a c A B e
  have b1 := mul_nonneg hA (sub_nonneg.mpr h1)
  have b2 := mul_nonneg hB (sub_nonneg.mpr h2)
  linarith

/-- the corners of a face behind a plane follow each other -/
theorem face_split {f : List Pt} (hf : f ∈ faces) {s : Pt → ℚ} (hs : Affine s) (h1 : ∃ j ∈ f, 0 ≤ s j) (h2 : ∃ j ∈ f, s j < 0) :
    ∃ N M, f ~r (N ++ M) ∧ N ≠ [] ∧ M ≠ [] ∧ (∀ p ∈ N, 0 ≤ s p) ∧ ∀ p ∈ M, s p < 0 := by
  classical
  obtain ⟨m, hm, hmin⟩ := Finset.exists_min_image f.toFinset s ⟨h2.choose, List.mem_toFinset.mpr h2.choose_spec.1⟩
  have hm : m ∈ f := List.mem_toFinset.mp hm
  have hmin : ∀ j ∈ f, s m ≤ s j := fun j hj => hmin j (List.mem_toFinset.mpr hj)
  have hneg : s m < 0 := by
    obtain ⟨j, hj, hj0⟩ := h2
    exact lt_of_le_of_lt (hmin j hj) hj0
  obtain ⟨u, v, hfe⟩ := List.append_of_mem hm
  set l := v ++ u with hl
  have hrot : f ~r (m :: l) := by
    rw [hfe, show m :: l = (m :: v) ++ u by simp [hl]]
    exact List.isRotated_append
  have hn : (m :: l).Nodup := hrot.nodup_iff.mp (h.simple f hf).1
  have hmem : ∀ j, j ∈ f ↔ j ∈ m :: l := fun j => hrot.mem_iff
  have hstep : ∀ e, e ∈ steps f ↔ e ∈ steps (m :: l) := steps_rotated hrot
  obtain ⟨p0, hp0, hp0'⟩ := h1
  have hex : ∃ a ∈ l, 0 ≤ s a := by
    rcases List.mem_cons.mp ((hmem p0).mp hp0) with rfl | hc
    · linarith
    · exact ⟨p0, hc, hp0'⟩
  have hpat : ∀ i j k : Nat, i < j → j < k → ∀ a b c, l[i]? = some a → l[j]? = some b → l[k]? = some c →
      0 ≤ s a → 0 ≤ s c → 0 ≤ s b := by
    intro i j k hij hjk a b c ea eb ec sa sc
    by_contra sb
    push Not at sb
    have hk : k < l.length := by
      rcases Nat.lt_or_ge k l.length with hc | hc
      · exact hc
      · rw [List.getElem?_eq_none hc] at ec; simp at ec
    obtain ⟨r, hr, hrmin⟩ := Finset.exists_min_image (Finset.Ioo i k) (fun r => s (l.getD r 0)) ⟨j, Finset.mem_Ioo.mpr ⟨hij, hjk⟩⟩
    obtain ⟨hr1, hr2⟩ := Finset.mem_Ioo.mp hr
    have hvj : l.getD j 0 = b := by rw [List.getD_eq_getElem?_getD, eb]; rfl
    have hvi : l.getD i 0 = a := by rw [List.getD_eq_getElem?_getD, ea]; rfl
    have hvk : l.getD k 0 = c := by rw [List.getD_eq_getElem?_getD, ec]; rfl
    have hrneg : s (l.getD r 0) < 0 := by
      have := hrmin j (Finset.mem_Ioo.mpr ⟨hij, hjk⟩)
      simp only [hvj] at this
      linarith
    have hnb : ∀ q, i ≤ q → q ≤ k → s (l.getD r 0) ≤ s (l.getD q 0) := by
      intro q q1 q2
      rcases Nat.lt_or_ge i q with c1 | c1
      · rcases Nat.lt_or_ge q k with c2 | c2
        · exact hrmin q (Finset.mem_Ioo.mpr ⟨c1, c2⟩)
        · have : q = k := by omega
          rw [this, hvk]; linarith
      · have : q = i := by omega
        rw [this, hvi]; linarith
    have hgm : ∀ q, q < l.length → l.getD q 0 ∈ f := by
      intro q hq
      rw [hmem, getD_lt _ _ hq]
      exact List.mem_cons_of_mem _ (List.getElem_mem _)
    have hst : ∀ q, q + 1 < l.length → (l.getD q 0, l.getD (q + 1) 0) ∈ steps f := by
      intro q hq
      rw [hstep]
      have hlen : (m :: l).length = l.length + 1 := rfl
      have := steps_get (m :: l) (q + 1) (by rw [hlen]; omega)
      have hsl : (steps (m :: l)).length = l.length + 1 := by rw [steps_length]; rfl
      refine List.mem_iff_getElem.mpr ⟨q + 1, by omega, ?_⟩
      simp only [steps, List.getElem_zip, List.getElem_rotate, List.getElem_cons_succ, hlen]
      rw [getD_lt _ _ (by omega : q < l.length), getD_lt _ _ hq]
      congr 1
      have : (q + 1 + 1) % (l.length + 1) = q + 1 + 1 := Nat.mod_eq_of_lt (by omega)
      simp only [this, List.getElem_cons_succ]
    obtain ⟨q, rfl⟩ : ∃ q, r = q + 1 := ⟨r - 1, by omega⟩
    have s1 := hst q (by omega)
    have s2 := hst (q + 1) (by omega)
    have l1 := hnb q (by omega) (by omega)
    have l2 := hnb (q + 2) (by omega) (by omega)
    have glob := least_of_local h hf hs _ _ _ s1 s2 l1 l2
    have heq : s m = s (l.getD (q + 1) 0) := le_antisymm (hmin _ (hgm _ (by omega))) (glob m hm)
    have hmne : ∀ x, x < l.length → m ≠ l.getD x 0 := by
      intro x hx e
      rw [getD_lt _ _ hx] at e
      have := (List.nodup_cons.mp hn).1
      exact this (e ▸ List.getElem_mem hx)
    obtain ⟨A, B, hA, hB, e⟩ := corner_proper h hf _ _ _ s1 s2 m hm (hmne _ (by omega)) (hmne _ (by omega)) (hmne _ (by omega))
    have e1 := hs.comb _ _ _ _ A B e
    have b1 := mul_nonneg hA.le (sub_nonneg.mpr l1)
    have b2 := mul_nonneg hB.le (sub_nonneg.mpr l2)
    have z1 : A * (s (l.getD q 0) - s (l.getD (q + 1) 0)) = 0 := by linarith
    have z2 : B * (s (l.getD (q + 2) 0) - s (l.getD (q + 1) 0)) = 0 := by linarith
    have z1 := (mul_eq_zero.mp z1).resolve_left hA.ne'
    have z2 := (mul_eq_zero.mp z2).resolve_left hB.ne'
    obtain ⟨A', B', _, _, e'⟩ := corner_angle h hf _ _ _ s1 s2 _ (hgm i (by omega))
    have e2 := hs.comb _ _ _ _ A' B' e'
    rw [z1, z2, hvi] at e2
    linarith
  obtain ⟨X, N, Y, e, hN, hX, hNN, hY⟩ := list_split (fun p => 0 ≤ s p) l hpat hex
  refine ⟨N, Y ++ m :: X, ?_, hN, by simp, hNN, ?_⟩
  · refine hrot.trans ?_
    rw [e, show m :: (X ++ N ++ Y) = (m :: X) ++ (N ++ Y) by simp, ← List.append_assoc N Y]
    exact List.isRotated_append
  · intro p hp
    rcases List.mem_append.mp hp with hp | hp
    · exact not_le.mp (hY p hp)
    · rcases List.mem_cons.mp hp with rfl | hp
      · exact hneg
      · exact not_le.mp (hX p hp)

end

/-! ### the clipped polygon -/

/-- the part of an edge behind the plane -/
def Trim (s : Pt → ℚ) (a b x y : Pt) : Prop :=
  (0 ≤ s a ∧ 0 ≤ s b ∧ x = a ∧ y = b) ∨ (0 < s a ∧ s b < 0 ∧ x = a ∧ y = crossing s a b) ∨
    (s a < 0 ∧ 0 < s b ∧ x = crossing s a b ∧ y = b)

/-- the corners contributed by one edge -/
def piece (s : Pt → ℚ) (e : Pt × Pt) : List Pt :=
  (if 0 ≤ s e.1 then [e.1] else []) ++ if s e.1 * s e.2 < 0 then [crossing s e.1 e.2] else []

theorem clip_eq (s : Pt → ℚ) (f : List Pt) : clip s f = (steps f).flatMap (piece s) := rfl

theorem clip_rotated (s : Pt → ℚ) {f g : List Pt} (hr : f ~r g) : clip s f ~r clip s g := by
  obtain ⟨n, hn, rfl⟩ := List.isRotated_iff_mod.mp hr
  rw [clip_eq, clip_eq, steps_rotate, List.rotate_eq_drop_append_take (by rw [steps_length]; exact hn)]
  conv_lhs => rw [← List.take_append_drop n (steps f)]
  rw [List.flatMap_append, List.flatMap_append]
  exact List.isRotated_append

theorem piece_nonneg (s : Pt → ℚ) (l : List Pt) (x : Pt) (hl : ∀ p ∈ l ++ [x], 0 ≤ s p) :
    (pairs (l ++ [x])).flatMap (piece s) = l := by
  induction l with
  | nil => rfl
  | cons a l ih =>
    have ha : 0 ≤ s a := hl a (by simp)
    have hp : ∀ b ∈ l ++ [x], piece s (a, b) = [a] := by
      intro b hb
      have hb : 0 ≤ s b := hl b (by rw [List.cons_append]; exact List.mem_cons_of_mem _ hb)
      have : ¬ s a * s b < 0 := not_lt.mpr (mul_nonneg ha hb)
      simp [piece, ha, this]
    have ih := ih (fun p hp => hl p (by rw [List.cons_append]; exact List.mem_cons_of_mem _ hp))
    cases l with
    | nil =>
      simp only [List.nil_append, List.cons_append, pairs, List.flatMap_cons, List.flatMap_nil]
      rw [hp x (by simp)]; rfl
    | cons b l =>
      simp only [List.cons_append, pairs, List.flatMap_cons] at ih ⊢
      rw [ih, hp b (by simp)]; rfl

theorem piece_neg (s : Pt → ℚ) (l : List Pt) (hl : ∀ p ∈ l, s p < 0) : (pairs l).flatMap (piece s) = [] := by
  induction l with
  | nil => rfl
  | cons a l ih =>
    cases l with
    | nil => rfl
    | cons b l =>
      have ha : s a < 0 := hl a (by simp)
      have hb : s b < 0 := hl b (by simp)
      simp only [pairs, List.flatMap_cons]
      rw [ih fun p hp => hl p (List.mem_cons_of_mem _ hp)]
      simp [piece, not_le.mpr ha, not_lt.mpr (mul_pos_of_neg_of_neg ha hb).le]

theorem pairs_mem {α : Type} (l : List α) (a b : α) (hp : (a, b) ∈ pairs l) : a ∈ l ∧ b ∈ l := by
  induction l with
  | nil => simp [pairs] at hp
  | cons x l ih =>
    cases l with
    | nil => simp [pairs] at hp
    | cons y l =>
      simp only [pairs, List.mem_cons, Prod.mk.injEq] at hp
      rcases hp with ⟨rfl, rfl⟩ | hp
      · simp
      · exact ⟨List.mem_cons_of_mem _ (ih hp).1, List.mem_cons_of_mem _ (ih hp).2⟩

theorem steps_tail {α : Type} (n1 nk : α) (N' N0 Z : List α) (eN : n1 :: N' = N0 ++ [nk]) :
    steps ((n1 :: N') ++ Z) = pairs (n1 :: N') ++ pairs (nk :: (Z ++ [n1])) := by
  rw [List.cons_append, steps_eq, ← List.cons_append, List.append_assoc, eN, List.append_assoc, List.singleton_append,
    pairs_append_cons]

theorem steps_ends {α : Type} (n1 nk : α) (N' N0 : List α) (eN : n1 :: N' = N0 ++ [nk]) (P Q : Prop) [Decidable P] [Decidable Q]
    (X Y : α) (hX : ¬ P → X = nk) (hY : ¬ Q → Y = n1) (e : α × α) :
    e ∈ steps ((n1 :: N') ++ ((if P then [X] else []) ++ if Q then [Y] else [])) ↔
      e ∈ pairs (n1 :: N') ∨ (P ∧ e = (nk, X)) ∨ (Q ∧ e = (Y, n1)) ∨ e = (X, Y) := by
  rw [steps_tail n1 nk N' N0 _ eN, List.mem_append]
  refine or_congr_right ?_
  by_cases hp : P <;> by_cases hq : Q
  · simp only [hp, hq, if_true, List.cons_append, List.nil_append, pairs, List.mem_cons,
      List.not_mem_nil, or_false, true_and]
    constructor
    · rintro (a | a | a) <;> simp [a]
    · rintro (a | a | a) <;> simp [a]
  · rw [hY hq]
    simp only [hp, hq, if_true, if_false, List.cons_append, List.nil_append, pairs, List.mem_cons,
      List.not_mem_nil, or_false, true_and, false_and, false_or]
  · rw [hX hp]
    simp only [hp, hq, if_true, if_false, List.cons_append, List.nil_append, pairs, List.mem_cons,
      List.not_mem_nil, or_false, true_and, false_and, false_or]
    exact or_comm
  · rw [hX hp, hY hq]
    simp only [hp, hq, if_false, List.nil_append, pairs, List.mem_cons,
      List.not_mem_nil, or_false, false_and, false_or]

/-- a face with corners on both sides -/
structure Mixed (s : Pt → ℚ) (f : List Pt) (n1 nk m1 ml : Pt) : Prop where
  leave : (nk, m1) ∈ steps f
  enter : (ml, n1) ∈ steps f
  nk_pos : 0 ≤ s nk
  n1_pos : 0 ≤ s n1
  m1_neg : s m1 < 0
  ml_neg : s ml < 0
  one_leave : ∀ a b, (a, b) ∈ steps f → 0 ≤ s a → s b < 0 → a = nk ∧ b = m1
  one_enter : ∀ a b, (a, b) ∈ steps f → s a < 0 → 0 ≤ s b → a = ml ∧ b = n1
  mem : ∀ p, p ∈ clip s f ↔ (p ∈ f ∧ 0 ≤ s p) ∨ p = crossing s m1 nk ∨ p = crossing s ml n1
  steps : ∀ x y, (x, y) ∈ Spec.steps (clip s f) ↔
    (∃ a b, (a, b) ∈ Spec.steps f ∧ Trim s a b x y) ∨ (x = crossing s m1 nk ∧ y = crossing s ml n1)
  three : (∃ p ∈ f, 0 < s p) → 3 ≤ (clip s f).length
  nodup : crossing s m1 nk ∉ f ∨ s nk = 0 → crossing s ml n1 ∉ f ∨ s n1 = 0 →
    (0 < s nk → 0 < s n1 → crossing s m1 nk ≠ crossing s ml n1) → (clip s f).Nodup

theorem mixed_of_split (s : Pt → ℚ) (f N M : List Pt) (hr : f ~r (N ++ M)) (hf : f.Nodup) (hN : N ≠ []) (hM : M ≠ [])
    (hNp : ∀ p ∈ N, 0 ≤ s p) (hMn : ∀ p ∈ M, s p < 0) : ∃ n1 nk m1 ml, Mixed s f n1 nk m1 ml := by
  obtain ⟨n1, N', rfl⟩ := List.exists_cons_of_ne_nil hN
  obtain ⟨m1, M', rfl⟩ := List.exists_cons_of_ne_nil hM
  obtain ⟨N0, nk, eN⟩ : ∃ N0 nk, n1 :: N' = N0 ++ [nk] := ⟨_, _, (List.dropLast_append_getLast hN).symm⟩
  obtain ⟨M0, ml, eM⟩ : ∃ M0 ml, m1 :: M' = M0 ++ [ml] := ⟨_, _, (List.dropLast_append_getLast hM).symm⟩
  have hS : steps ((n1 :: N') ++ (m1 :: M')) =
      pairs (n1 :: N') ++ [(nk, m1)] ++ (pairs (m1 :: M') ++ [(ml, n1)]) := by
    rw [steps_append, eN, eM]
    congr 1
    · rw [List.append_assoc, List.singleton_append, pairs_append_cons]; rfl
    · rw [List.append_assoc, List.singleton_append, pairs_append_cons]; rfl
  have hstep : ∀ e, e ∈ steps f ↔ e ∈ pairs (n1 :: N') ∨ e = (nk, m1) ∨ e ∈ pairs (m1 :: M') ∨ e = (ml, n1) := by
    intro e
    rw [steps_rotated hr, hS]
    simp only [List.mem_append, List.mem_singleton]
    tauto
  have hnk : nk ∈ n1 :: N' := by rw [eN]; simp
  have hml : ml ∈ m1 :: M' := by rw [eM]; simp
  have pnk := hNp nk hnk
  have pn1 := hNp n1 (by simp)
  have nm1 := hMn m1 (by simp)
  have nml := hMn ml hml
  set X := crossing s m1 nk with hX
  set Y := crossing s ml n1 with hY
  have hXe : s nk = 0 → X = nk := fun e => crossing_end s m1 nk e nm1.ne
  have hYe : s n1 = 0 → Y = n1 := fun e => crossing_end s ml n1 e nml.ne
  have hclip : clip s ((n1 :: N') ++ (m1 :: M')) =
      (n1 :: N') ++ ((if 0 < s nk then [X] else []) ++ if 0 < s n1 then [Y] else []) := by
    rw [clip_eq, hS]
    simp only [List.flatMap_append, List.flatMap_cons, List.flatMap_nil, List.append_nil]
    have p1 : (pairs (n1 :: N')).flatMap (piece s) = N0 := by
      rw [eN]
      exact piece_nonneg s N0 nk (by rw [← eN]; exact hNp)
    have p2 : piece s (nk, m1) = [nk] ++ if 0 < s nk then [X] else [] := by
      have hiff : s nk * s m1 < 0 ↔ 0 < s nk := by
        constructor
        · intro hlt
          rcases mul_neg_iff.mp hlt with hc | hc
          · exact hc.1
          · linarith [hc.1]
        · intro hc
          exact mul_neg_of_pos_of_neg hc nm1
      simp only [piece, pnk, if_true, hiff]
      split
      · rw [hX, crossing_comm s m1 nk (by linarith)]
      · rfl
    have p3 : (pairs (m1 :: M')).flatMap (piece s) = [] := piece_neg s _ hMn
    have p4 : piece s (ml, n1) = if 0 < s n1 then [Y] else [] := by
      have hiff : s ml * s n1 < 0 ↔ 0 < s n1 := by
        constructor
        · intro hlt
          rcases mul_neg_iff.mp hlt with hc | hc
          · linarith [hc.1]
          · exact hc.2
        · intro hc
          exact mul_neg_of_neg_of_pos nml hc
      simp only [piece, not_le.mpr nml, if_false, hiff, List.nil_append]
      rfl
    rw [p1, p2, p3, p4, eN]
    simp
  have hrc : clip s f ~r clip s ((n1 :: N') ++ (m1 :: M')) := clip_rotated s hr
  have hmemf : ∀ p, p ∈ f ↔ p ∈ n1 :: N' ∨ p ∈ m1 :: M' := fun p => by rw [hr.mem_iff, List.mem_append]
  have hmemN : ∀ p, p ∈ n1 :: N' ↔ p ∈ f ∧ 0 ≤ s p := by
    intro p
    rw [hmemf]
    constructor
    · intro hp; exact ⟨Or.inl hp, hNp p hp⟩
    · rintro ⟨hp | hp, h0⟩
      · exact hp
      · linarith [hMn p hp]
  have hnN : (n1 :: N').Nodup := (List.nodup_append.mp (hr.nodup_iff.mp hf)).1
  refine ⟨n1, nk, m1, ml, (hstep _).mpr (by simp), (hstep _).mpr (by simp), pnk, pn1, nm1, nml, ?_, ?_, ?_, ?_, ?_, ?_⟩
  · intro a b hab sa sb
    rcases (hstep _).mp hab with hc | hc | hc | hc
    · linarith [hNp b (pairs_mem _ _ _ hc).2]
    · simpa using hc
    · linarith [hMn a (pairs_mem _ _ _ hc).1]
    · obtain ⟨rfl, rfl⟩ := Prod.mk.inj hc
      linarith
  · intro a b hab sa sb
    rcases (hstep _).mp hab with hc | hc | hc | hc
    · linarith [hNp a (pairs_mem _ _ _ hc).1]
    · obtain ⟨rfl, rfl⟩ := Prod.mk.inj hc
      linarith
    · linarith [hMn b (pairs_mem _ _ _ hc).2]
    · simpa using hc
  · intro p
    rw [hrc.mem_iff, hclip, List.mem_append, List.mem_append, hmemN]
    have hx : (p ∈ if 0 < s nk then [X] else []) ↔ 0 < s nk ∧ p = X := by split <;> simp_all
    have hy : (p ∈ if 0 < s n1 then [Y] else []) ↔ 0 < s n1 ∧ p = Y := by split <;> simp_all
    rw [hx, hy]
    constructor
    · rintro (hc | ⟨_, hc⟩ | ⟨_, hc⟩)
      · exact Or.inl hc
      · exact Or.inr (Or.inl hc)
      · exact Or.inr (Or.inr hc)
    · rintro (hc | hc | hc)
      · exact Or.inl hc
      · rcases pnk.lt_or_eq with hp | hp
        · exact Or.inr (Or.inl ⟨hp, hc⟩)
        · exact Or.inl (by rw [hc, ← hX, hXe hp.symm]; exact (hmemN nk).mp hnk)
      · rcases pn1.lt_or_eq with hp | hp
        · exact Or.inr (Or.inr ⟨hp, hc⟩)
        · exact Or.inl (by rw [hc, ← hY, hYe hp.symm]; exact (hmemN n1).mp (by simp))
  · intro x y
    have hstepc : (x, y) ∈ steps (clip s f) ↔ (x, y) ∈ pairs (n1 :: N') ∨ (0 < s nk ∧ (x, y) = (nk, X)) ∨
        (0 < s n1 ∧ (x, y) = (Y, n1)) ∨ (x, y) = (X, Y) := by
      rw [steps_rotated hrc, hclip]
      exact steps_ends n1 nk N' N0 eN (0 < s nk) (0 < s n1) X Y (fun c => hXe (le_antisymm (not_lt.mp c) pnk))
        (fun c => hYe (le_antisymm (not_lt.mp c) pn1)) (x, y)
    rw [hstepc]
    constructor
    · rintro (hc | ⟨hp, hc⟩ | ⟨hp, hc⟩ | hc)
      · exact Or.inl ⟨x, y, (hstep _).mpr (Or.inl hc), Or.inl ⟨hNp x (pairs_mem _ _ _ hc).1, hNp y (pairs_mem _ _ _ hc).2, rfl, rfl⟩⟩
      · obtain ⟨rfl, rfl⟩ := Prod.mk.inj hc
        exact Or.inl ⟨x, m1, (hstep _).mpr (by simp), Or.inr (Or.inl ⟨hp, nm1, rfl, by rw [hX, crossing_comm s m1 x (by linarith)]⟩)⟩
      · obtain ⟨rfl, rfl⟩ := Prod.mk.inj hc
        exact Or.inl ⟨ml, y, (hstep _).mpr (by simp), Or.inr (Or.inr ⟨nml, hp, rfl, rfl⟩)⟩
      · exact Or.inr (Prod.mk.inj hc)
    · rintro (⟨a, b, hab, hT⟩ | ⟨rfl, rfl⟩)
      · rcases (hstep _).mp hab with hc | hc | hc | hc
        · have sa := hNp a (pairs_mem _ _ _ hc).1
          have sb := hNp b (pairs_mem _ _ _ hc).2
          rcases hT with ⟨_, _, rfl, rfl⟩ | ⟨_, hb, _⟩ | ⟨ha, _⟩
          · exact Or.inl hc
          · linarith
          · linarith
        · obtain ⟨rfl, rfl⟩ := Prod.mk.inj hc
          rcases hT with ⟨_, hb, _⟩ | ⟨ha, hb, rfl, rfl⟩ | ⟨ha, _⟩
          · linarith
          · refine Or.inr (Or.inl ⟨ha, ?_⟩)
            rw [hX, crossing_comm s b x (by linarith)]
          · linarith
        · have sa := hMn a (pairs_mem _ _ _ hc).1
          have sb := hMn b (pairs_mem _ _ _ hc).2
          rcases hT with ⟨ha, _⟩ | ⟨ha, _⟩ | ⟨_, hb, _⟩ <;> linarith
        · obtain ⟨rfl, rfl⟩ := Prod.mk.inj hc
          rcases hT with ⟨ha, _⟩ | ⟨ha, _⟩ | ⟨ha, hb, rfl, rfl⟩
          · linarith
          · linarith
          · exact Or.inr (Or.inr (Or.inl ⟨hb, rfl⟩))
      · exact Or.inr (Or.inr (Or.inr rfl))
  · rintro ⟨p, hp, hp0⟩
    have hpN : p ∈ n1 :: N' := (hmemN p).mpr ⟨hp, hp0.le⟩
    rw [hrc.perm.length_eq, hclip]
    clear_value X Y
    simp only [List.length_append]
    have l1 : (n1 :: N').length = 1 → nk = n1 ∧ p = n1 := by
      intro hl
      have : N' = [] := by simpa using hl
      subst this
      exact ⟨by simpa using hnk, by simpa using hpN⟩
    have l2 : (n1 :: N').length = 2 → p = n1 ∨ p = nk := by
      intro hl
      obtain ⟨b, rfl⟩ : ∃ b, N' = [b] := List.length_eq_one_iff.mp (by simpa using hl)
      have hb : b = nk := by
        have := congrArg List.getLast? eN
        simpa using this
      subst hb
      simpa using hpN
    have l3 : 1 ≤ (n1 :: N').length := by simp
    by_cases e1 : (n1 :: N').length = 1
    · obtain ⟨rfl, rfl⟩ := l1 e1
      rw [if_pos hp0, if_pos hp0, e1]; simp
    · by_cases e2 : (n1 :: N').length = 2
      · rcases l2 e2 with rfl | rfl
        · rw [e2, if_pos hp0]; simp; omega
        · rw [e2, if_pos hp0]; simp; omega
      · omega
  · intro c1 c2 c3
    rw [hrc.nodup_iff, hclip]
    rw [← hX] at c1 c3
    rw [← hY] at c2 c3
    clear_value X Y
    have nX : 0 < s nk → X ∉ n1 :: N' := by
      intro hp hc
      rcases c1 with c1 | c1
      · exact c1 ((hmemN X).mp hc).1
      · linarith
    have nY : 0 < s n1 → Y ∉ n1 :: N' := by
      intro hp hc
      rcases c2 with c2 | c2
      · exact c2 ((hmemN Y).mp hc).1
      · linarith
    rw [List.nodup_append]
    refine ⟨hnN, ?_, ?_⟩
    · split
      · split
        · rename_i a b
          simpa using c3 a b
        · simp
      · split <;> simp
    · intro a ha b hb hab
      subst hab
      rcases List.mem_append.mp hb with hb | hb
      · split at hb
        · rename_i hp
          exact nX hp (by rwa [List.mem_singleton.mp hb] at ha)
        · simp at hb
      · split at hb
        · rename_i hp
          exact nY hp (by rwa [List.mem_singleton.mp hb] at ha)
        · simp at hb

end Brille.Convex
