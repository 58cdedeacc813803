/- What is left of a convex polyhedron behind a plane is a convex polyhedron. -/
import Verif.Proofs.ConvexFace

namespace Brille.Convex

open Brille.Spec Brille.Tetra

theorem mem_clip (s : Pt → ℚ) (f : List Pt) (p : Pt) : p ∈ clip s f ↔
    (p ∈ f ∧ 0 ≤ s p) ∨ ∃ a b, (a, b) ∈ steps f ∧ s a * s b < 0 ∧ p = crossing s a b := by
  rw [clip_eq, List.mem_flatMap]
  constructor
  · rintro ⟨⟨a, b⟩, he, hp⟩
    simp only [piece, List.mem_append] at hp
    rcases hp with hp | hp
    · split at hp
      · rename_i ha
        rw [List.mem_singleton.mp hp]
        exact Or.inl ⟨(mem_of_step f _ he).1, ha⟩
      · simp at hp
    · split at hp
      · rename_i ha
        exact Or.inr ⟨a, b, he, ha, List.mem_singleton.mp hp⟩
      · simp at hp
  · rintro (⟨hp, h0⟩ | ⟨a, b, he, h0, rfl⟩)
    · obtain ⟨b, hb⟩ := exists_next f p hp
      refine ⟨_, hb, ?_⟩
      simp [piece, h0]
    · refine ⟨_, he, ?_⟩
      simp [piece, h0]

theorem clip_nonneg (s : Pt → ℚ) (f : List Pt) (hf : ∀ p ∈ f, 0 ≤ s p) : clip s f = f := by
  cases f with
  | nil => rfl
  | cons x t =>
    rw [clip_eq, steps_eq]
    refine piece_nonneg s (x :: t) x ?_
    intro p hp
    rcases List.mem_append.mp hp with hp | hp
    · exact hf p hp
    · rw [List.mem_singleton.mp hp]; exact hf x (by simp)

theorem clip_neg (s : Pt → ℚ) (f : List Pt) (hf : ∀ p ∈ f, s p < 0) : clip s f = [] := by
  cases f with
  | nil => rfl
  | cons x t =>
    rw [clip_eq, steps_eq]
    refine piece_neg s _ ?_
    intro p hp
    rcases List.mem_append.mp hp with hp | hp
    · exact hf p hp
    · rw [List.mem_singleton.mp hp]; exact hf x (by simp)

section
variable {faces : List (List Pt)} (h : ConvexPolyhedron faces) {s : Pt → ℚ} (hs : Affine s)
include h

/-- an affine function that is larger at some corner than at another is larger at one of its neighbours -/
theorem neighbour_link (hs : Affine s) (u : Pt) (k : ℕ) (w : ℕ → Pt) (hk : 3 ≤ k)
    (hret : w k = w 0) (hlt : ∀ i, IsCorner faces (w i))
    (hw : ∀ i, ∃ f ∈ faces, (w (i + 1), u) ∈ steps f ∧ (u, w i) ∈ steps f ∧ (1 ≤ i → i + 1 < k → w 0 ∉ f))
    (x : Pt) (hx : IsCorner faces x) (hlt' : s u < s x) : ∃ i < k, s u < s (w i) := by
  obtain ⟨n0, n1, n2, c, e⟩ := hs
  obtain ⟨i, hi, j, hj, l, hl, A, B, C, hA, hB, hC, hd⟩ := cone_link faces h u k w hk hret hlt hw (real x) (by
    intro f hf a c ha hc
    rw [side_real]
    exact_mod_cast (h.behind f hf a u c ha hc x hx).1)
  by_contra hn
  push Not at hn
  have cast : ∀ y : Pt, ((s y : ℚ) : ℝ) = n0 * real y 0 + n1 * real y 1 + n2 * real y 2 + c := by
    intro y
    rw [e y]; simp [real]
  have b1 : ((s (w i) : ℚ) : ℝ) ≤ (s u : ℚ) := by exact_mod_cast hn i hi
  have b2 : ((s (w j) : ℚ) : ℝ) ≤ (s u : ℚ) := by exact_mod_cast hn j hj
  have b3 : ((s (w l) : ℚ) : ℝ) ≤ (s u : ℚ) := by exact_mod_cast hn l hl
  have b4 : ((s u : ℚ) : ℝ) < (s x : ℚ) := by exact_mod_cast hlt'
  have key : ((s x : ℚ) : ℝ) - (s u : ℚ) = A * ((s (w i) : ℚ) - (s u : ℚ)) + B * ((s (w j) : ℚ) - (s u : ℚ)) +
      C * ((s (w l) : ℚ) - (s u : ℚ)) := by
    simp only [cast]
    linear_combination (n0 : ℝ) * hd 0 + (n1 : ℝ) * hd 1 + (n2 : ℝ) * hd 2
  have c1 := mul_nonneg hA (sub_nonneg.mpr b1)
  have c2 := mul_nonneg hB (sub_nonneg.mpr b2)
  have c3 := mul_nonneg hC (sub_nonneg.mpr b3)
  linarith

omit h in
/-- the determinant of four points in a plane -/
theorem coplanar (L : Pt → ℚ) (hL : Affine L) (i : Pt) (hi : 0 < L i) (a b c x : Pt)
    (ha : L a = 0) (hb : L b = 0) (hc : L c = 0) (hx : L x = 0) : side a b c x = 0 := by
  have := hL.four a b c i x
  rw [ha, hb, hc, hx] at this
  have : side a b c x * L i = 0 := by linarith
  exact (mul_eq_zero.mp this).resolve_right hi.ne'

/-- a point between the ends of an edge is not a corner -/
theorem edge_no_corner (a b : Pt) (hab : (a, b) ∈ faces.flatMap steps) (t : ℚ) (h0 : 0 < t) (h1 : t < 1) :
    ¬ IsCorner faces (along a b t) := by
  intro hc
  obtain ⟨f, hf, he⟩ := List.mem_flatMap.mp hab
  obtain ⟨L, hL, hLf, i, hi, hi0⟩ := face_plane h hf
  obtain ⟨ha, hb⟩ := mem_of_step f _ he
  have za := (hLf a ⟨f, hf, ha⟩).2.mpr ha
  have zb := (hLf b ⟨f, hf, hb⟩).2.mpr hb
  have zm : L (along a b t) = 0 := by rw [hL.along, za, zb]; ring
  have hm := (hLf _ hc).2.mp zm
  have hne : a ≠ b := by
    rintro rfl
    have hn := (h.simple f hf).1
    exact swap_other f hn (h.simple f hf).2 (a, a) he he
  refine not_between h hf a (along a b t) b ha hm hb ?_ (1 - t) t (by linarith) h0.le ?_
  · intro e
    apply hne
    funext d
    have := congrFun e d
    simp only [along] at this
    have : t * (b d - a d) = 0 := by linarith
    rcases mul_eq_zero.mp this with hz | hz
    · linarith
    · linarith
  · intro d
    simp only [along]
    ring

/-- a crossing in the plane of a face is on an edge of it -/
theorem crossing_face {f : List Pt} (hf : f ∈ faces) (L : Pt → ℚ) (hL : Affine L)
    (hLf : ∀ p, IsCorner faces p → 0 ≤ L p ∧ (L p = 0 ↔ p ∈ f)) (a b : Pt) (hab : (a, b) ∈ faces.flatMap steps)
    (h0 : s a * s b < 0) : 0 ≤ L (crossing s a b) ∧ (L (crossing s a b) = 0 → (a, b) ∈ steps f ∨ (b, a) ∈ steps f) := by
  obtain ⟨t, t0, t1, e⟩ := crossing_between s a b h0
  obtain ⟨g, hg, he⟩ := List.mem_flatMap.mp hab
  obtain ⟨ha, hb⟩ := mem_of_step g _ he
  have la := hLf a ⟨g, hg, ha⟩
  have lb := hLf b ⟨g, hg, hb⟩
  rw [e, hL.along]
  have c1 := mul_nonneg (sub_nonneg.mpr t1.le) la.1
  have c2 := mul_nonneg t0.le lb.1
  refine ⟨by linarith, fun hz => ?_⟩
  have z1 : (1 - t) * L a = 0 := by linarith
  have z2 : t * L b = 0 := by linarith
  have z1 := (mul_eq_zero.mp z1).resolve_left (by linarith)
  have z2 := (mul_eq_zero.mp z2).resolve_left t0.ne'
  exact edge_of_face h hf a b hab (la.2.mp z1) (lb.2.mp z2)

/-- corners in the plane where a face with corners on both sides meets it -/
theorem mixed_zero (hs : Affine s) {f : List Pt} (hf : f ∈ faces) {n1 nk m1 ml : Pt} (hM : Mixed s f n1 nk m1 ml) (p : Pt) (hp : p ∈ f)
    (h0 : s p = 0) : p = n1 ∨ p = nk := by
  obtain ⟨a, ha⟩ := exists_prev f p hp
  obtain ⟨c, hc⟩ := exists_next f p hp
  by_cases h1 : s a < 0
  · exact Or.inl (hM.one_enter a p ha h1 h0.ge).2
  by_cases h2 : s c < 0
  · exact Or.inr (hM.one_leave p c hc h0.ge h2).1
  have := least_of_local h hf hs a p c ha hc (by linarith) (by linarith) m1 (mem_of_step f _ hM.leave).2
  linarith [hM.m1_neg]

omit h in
theorem corner_of_edge (a b : Pt) (hab : (a, b) ∈ faces.flatMap steps) : IsCorner faces a ∧ IsCorner faces b := by
  obtain ⟨g, hg, he⟩ := List.mem_flatMap.mp hab
  exact ⟨⟨g, hg, (mem_of_step g _ he).1⟩, ⟨g, hg, (mem_of_step g _ he).2⟩⟩

theorem mixed_face (hs : Affine s) {f : List Pt} (hf : f ∈ faces) (h1 : ∃ j ∈ f, 0 ≤ s j) (h2 : ∃ j ∈ f, s j < 0) :
    ∃ n1 nk m1 ml, Mixed s f n1 nk m1 ml := by
  obtain ⟨N, M, hr, hN, hM, a, b⟩ := face_split h hf hs h1 h2
  exact mixed_of_split s f N M hr (h.simple f hf).1 hN hM a b


/-! ### faces that keep a corner strictly behind the plane -/

/-- of the corners of a face with corners on both sides, the ones it keeps -/
theorem mixed_nodup_of_none (hs : Affine s) {f : List Pt} (hf : f ∈ faces) {n1 nk m1 ml : Pt} (hM : Mixed s f n1 nk m1 ml)
    (hno : ∀ p ∈ f, s p ≤ 0) : (clip s f).length < 3 := by
  have z1 : s n1 = 0 := le_antisymm (hno n1 (mem_of_step f _ hM.enter).2) hM.n1_pos
  have zk : s nk = 0 := le_antisymm (hno nk (mem_of_step f _ hM.leave).1) hM.nk_pos
  have hn := hM.nodup (Or.inr zk) (Or.inr z1) (fun c => by linarith)
  have hsub : ∀ p ∈ clip s f, p = n1 ∨ p = nk := by
    intro p hp
    rcases (hM.mem p).mp hp with ⟨hp, h0⟩ | rfl | rfl
    · exact mixed_zero h hs hf hM p hp (le_antisymm (hno p hp) h0)
    · rw [crossing_end s m1 nk zk hM.m1_neg.ne]; exact Or.inr rfl
    · rw [crossing_end s ml n1 z1 hM.ml_neg.ne]; exact Or.inl rfl
  have : (clip s f).length ≤ [n1, nk].length := (List.subperm_of_subset hn (fun p hp => by
    rcases hsub p hp with rfl | rfl <;> simp)).length_le
  simp at this
  omega

/-- a face keeps a polygon if and only if it has a corner strictly behind the plane -/
theorem kept_iff (hs : Affine s) (hin : ∃ p, IsCorner faces p ∧ 0 < s p) (hout : ∃ p, IsCorner faces p ∧ s p < 0)
    {f : List Pt} (hf : f ∈ faces) : 3 ≤ (clip s f).length ↔ ∃ p ∈ f, 0 < s p := by
  constructor
  · intro h3
    by_contra hno
    push Not at hno
    by_cases hneg : ∃ j ∈ f, s j < 0
    · by_cases hpos : ∃ j ∈ f, 0 ≤ s j
      · obtain ⟨n1, nk, m1, ml, hM⟩ := mixed_face h hs hf hpos hneg
        have := mixed_nodup_of_none h hs hf hM hno
        omega
      · push Not at hpos
        rw [clip_neg s f hpos] at h3
        simp at h3
    · push Not at hneg
      have hz : ∀ p ∈ f, s p = 0 := fun p hp => le_antisymm (hno p hp) (hneg p hp)
      obtain ⟨b, hb⟩ := List.exists_mem_of_length_pos (lt_of_lt_of_le (by norm_num) (h.simple f hf).2)
      obtain ⟨a, ha⟩ := exists_prev f b hb
      obtain ⟨c, hc⟩ := exists_next f b hb
      have F := h.behind f hf a b c ha hc
      obtain ⟨p, hp, hp0⟩ := hin
      obtain ⟨q, hq, hq0⟩ := hout
      have e := hs.four a b c p q
      rw [hz a (mem_of_step f _ ha).1, hz b hb, hz c (mem_of_step f _ hc).2] at e
      have c1 := mul_nonneg (F q hq).1 hp0.le
      have hpf : p ∉ f := fun hc => by linarith [hz p hc]
      have hpos : 0 < side a b c p := lt_of_le_of_ne (F p hp).1 fun e => hpf ((F p hp).2.mp e.symm)
      have := mul_neg_of_pos_of_neg hpos hq0
      linarith
  · rintro ⟨p, hp, hp0⟩
    by_cases hneg : ∃ j ∈ f, s j < 0
    · obtain ⟨n1, nk, m1, ml, hM⟩ := mixed_face h hs hf ⟨p, hp, hp0.le⟩ hneg
      exact hM.three ⟨p, hp, hp0⟩
    · push Not at hneg
      rw [clip_nonneg s f hneg]
      exact (h.simple f hf).2

/-- where a face with a corner strictly behind the plane meets it, the first point is to the left of the leaving edge -/
theorem enter_left (hs : Affine s) {f : List Pt} (hf : f ∈ faces) (hpos : ∃ p ∈ f, 0 < s p) {n1 nk m1 ml : Pt}
    (hM : Mixed s f n1 nk m1 ml) (i : Pt) (hi : IsCorner faces i) (hif : i ∉ f) :
    0 < side nk m1 (crossing s ml n1) i := by
  have hnn : n1 = nk → 0 < s n1 := by
    intro e
    refine lt_of_le_of_ne hM.n1_pos fun hz => ?_
    obtain ⟨p, hp, hp0⟩ := hpos
    have l := hM.leave
    rw [← e] at l
    obtain ⟨A, B, hA, hB, e⟩ := corner_angle h hf ml n1 m1 hM.enter l p hp
    have := hs.comb _ _ _ _ A B e
    rw [← hz] at this
    have c1 := mul_nonneg hA (neg_nonneg.mpr hM.ml_neg.le)
    have c2 := mul_nonneg hB (neg_nonneg.mpr hM.m1_neg.le)
    linarith
  have hmlf := (mem_of_step f _ hM.enter).1
  have hn1f := (mem_of_step f _ hM.enter).2
  have hml_nk : ml ≠ nk := fun e => by have := hM.ml_neg; rw [e] at this; linarith [hM.nk_pos]
  have hn1_m1 : n1 ≠ m1 := fun e => by have := hM.m1_neg; rw [← e] at this; linarith [hM.n1_pos]
  have s1 : ml ≠ m1 → 0 < side nk m1 ml i := fun e => edge_left h hf i hi hif nk m1 hM.leave ml hmlf hml_nk e
  have s2 : n1 ≠ nk → 0 < side nk m1 n1 i := fun e => edge_left h hf i hi hif nk m1 hM.leave n1 hn1f e hn1_m1
  have s1' : 0 ≤ side nk m1 ml i := by
    by_cases e : ml = m1
    · rw [e, side_abb]
    · exact (s1 e).le
  have s2' : 0 ≤ side nk m1 n1 i := by
    by_cases e : n1 = nk
    · rw [e, side_aba]
    · exact (s2 e).le
  rcases hM.n1_pos.lt_or_eq with hp | hp
  · obtain ⟨t, t0, t1, e⟩ := crossing_between s ml n1 (mul_neg_of_neg_of_pos hM.ml_neg hp)
    rw [e]
    have := (affine_third nk m1 i).along ml n1 t
    rw [this]
    by_cases e1 : ml = m1
    · have e2 : n1 ≠ nk := by
        rintro rfl
        subst e1
        exact swap_other f (h.simple f hf).1 (h.simple f hf).2 _ hM.leave hM.enter
      have := mul_pos t0 (s2 e2)
      have := mul_nonneg (sub_nonneg.mpr t1.le) s1'
      linarith
    · have := mul_pos (sub_pos.mpr t1) (s1 e1)
      have := mul_nonneg t0.le s2'
      linarith
  · rw [crossing_end s ml n1 hp.symm hM.ml_neg.ne]
    apply s2
    intro e
    linarith [hnn e]

omit h in
/-- the leaving edge from where it meets the plane -/
theorem leave_along {f : List Pt} {n1 nk m1 ml : Pt} (hM : Mixed s f n1 nk m1 ml) :
    ∃ t, 0 ≤ t ∧ t < 1 ∧ crossing s m1 nk = along nk m1 t := by
  rcases hM.nk_pos.lt_or_eq with hp | hp
  · rw [crossing_comm s m1 nk (by linarith [hM.m1_neg])]
    obtain ⟨t, t0, t1, e⟩ := crossing_between s nk m1 (mul_neg_of_pos_of_neg hp hM.m1_neg)
    exact ⟨t, t0.le, t1, e⟩
  · refine ⟨0, le_rfl, by norm_num, ?_⟩
    rw [crossing_end s m1 nk hp.symm hM.m1_neg.ne]
    funext d; simp [along]

/-- no corner is repeated -/
theorem clip_nodup (hs : Affine s) {f : List Pt} (hf : f ∈ faces) (hpos : ∃ p ∈ f, 0 < s p) : (clip s f).Nodup := by
  by_cases hneg : ∃ j ∈ f, s j < 0
  · obtain ⟨p, hp, hp0⟩ := hpos
    obtain ⟨n1, nk, m1, ml, hM⟩ := mixed_face h hs hf ⟨p, hp, hp0.le⟩ hneg
    refine hM.nodup ?_ ?_ ?_
    · rcases hM.nk_pos.lt_or_eq with hc | hc
      · left
        intro hx
        rw [crossing_comm s m1 nk (by linarith [hM.m1_neg])] at hx
        obtain ⟨t, t0, t1, e⟩ := crossing_between s nk m1 (mul_neg_of_pos_of_neg hc hM.m1_neg)
        rw [e] at hx
        exact edge_no_corner h nk m1 (List.mem_flatMap.mpr ⟨f, hf, hM.leave⟩) t t0 t1 ⟨f, hf, hx⟩
      · exact Or.inr hc.symm
    · rcases hM.n1_pos.lt_or_eq with hc | hc
      · left
        intro hx
        obtain ⟨t, t0, t1, e⟩ := crossing_between s ml n1 (mul_neg_of_neg_of_pos hM.ml_neg hc)
        rw [e] at hx
        exact edge_no_corner h ml n1 (List.mem_flatMap.mpr ⟨f, hf, hM.enter⟩) t t0 t1 ⟨f, hf, hx⟩
      · exact Or.inr hc.symm
    · intro _ _ e
      obtain ⟨i, hi, hif⟩ := h.solid f hf
      have := enter_left h hs hf ⟨p, hp, hp0⟩ hM i hi hif
      rw [← e] at this
      obtain ⟨t, _, _, et⟩ := leave_along hM
      rw [et] at this
      have e2 := (affine_third nk m1 i).along nk m1 t
      simp only [side_aba, side_abb] at e2
      linarith
  · push Not at hneg
    rw [clip_nonneg s f hneg]
    exact (h.simple f hf).1

/-- the corners and edges of the polygon that is left -/
theorem clip_steps (hs : Affine s) {f : List Pt} (hf : f ∈ faces) (hpos : ∃ p ∈ f, 0 < s p) (x y : Pt) :
    ((x, y) ∈ steps (clip s f) → (∃ a b, (a, b) ∈ steps f ∧ Trim s a b x y) ∨
      ∃ n1 nk m1 ml, Mixed s f n1 nk m1 ml ∧ x = crossing s m1 nk ∧ y = crossing s ml n1) ∧
    ((∃ a b, (a, b) ∈ steps f ∧ Trim s a b x y) → (x, y) ∈ steps (clip s f)) := by
  by_cases hneg : ∃ j ∈ f, s j < 0
  · obtain ⟨p, hp, hp0⟩ := hpos
    obtain ⟨n1, nk, m1, ml, hM⟩ := mixed_face h hs hf ⟨p, hp, hp0.le⟩ hneg
    rw [hM.steps]
    refine ⟨?_, Or.inl⟩
    rintro (hc | hc)
    · exact Or.inl hc
    · exact Or.inr ⟨n1, nk, m1, ml, hM, hc⟩
  · push Not at hneg
    rw [clip_nonneg s f hneg]
    constructor
    · intro hc
      obtain ⟨a, b⟩ := mem_of_step f _ hc
      exact Or.inl ⟨x, y, hc, Or.inl ⟨hneg x a, hneg y b, rfl, rfl⟩⟩
    · rintro ⟨a, b, hab, hT⟩
      have sa := hneg a (mem_of_step f _ hab).1
      have sb := hneg b (mem_of_step f _ hab).2
      rcases hT with ⟨_, _, rfl, rfl⟩ | ⟨_, hc, _⟩ | ⟨hc, _⟩
      · exact hab
      · linarith
      · linarith

/-- a corner of what is left of a face is on no side of one of its edges only if it is on that edge -/
theorem clip_edge_left {f : List Pt} (hf : f ∈ faces) (i : Pt) (hi : IsCorner faces i) (hif : i ∉ f) (a b : Pt)
    (hab : (a, b) ∈ steps f) (j : Pt) (hj : j ∈ clip s f) :
    0 < side a b j i ∨ (j = a ∧ 0 ≤ s a) ∨ (j = b ∧ 0 ≤ s b) ∨ (s a * s b < 0 ∧ j = crossing s a b) := by
  have pos : ∀ c ∈ f, 0 ≤ side a b c i ∧ (side a b c i = 0 → c = a ∨ c = b) := by
    intro c hc
    by_cases ca : c = a
    · rw [ca, side_aba]; simp
    by_cases cb : c = b
    · rw [cb, side_abb]; simp
    have := edge_left h hf i hi hif a b hab c hc ca cb
    exact ⟨this.le, fun e => by linarith⟩
  rcases (mem_clip s f j).mp hj with ⟨hjf, h0⟩ | ⟨c, d, hcd, h0, rfl⟩
  · rcases (pos j hjf).1.lt_or_eq with hp | hp
    · exact Or.inl hp
    · rcases (pos j hjf).2 hp.symm with rfl | rfl
      · exact Or.inr (Or.inl ⟨rfl, h0⟩)
      · exact Or.inr (Or.inr (Or.inl ⟨rfl, h0⟩))
  · obtain ⟨t, t0, t1, e⟩ := crossing_between s c d h0
    obtain ⟨hc, hd⟩ := mem_of_step f _ hcd
    have e2 := (affine_third a b i).along c d t
    rw [← e] at e2
    have p1 := mul_nonneg (sub_nonneg.mpr t1.le) (pos c hc).1
    have p2 := mul_nonneg t0.le (pos d hd).1
    by_cases hz : 0 < side a b (crossing s c d) i
    · exact Or.inl hz
    have z1 : (1 - t) * side a b c i = 0 := by linarith
    have z2 : t * side a b d i = 0 := by linarith
    have z1 := (pos c hc).2 ((mul_eq_zero.mp z1).resolve_left (by linarith))
    have z2 := (pos d hd).2 ((mul_eq_zero.mp z2).resolve_left t0.ne')
    have hne : s c ≠ s d := by
      intro e
      rw [e] at h0
      linarith [mul_self_nonneg (s d)]
    refine Or.inr (Or.inr (Or.inr ?_))
    rcases z1 with rfl | rfl <;> rcases z2 with rfl | rfl
    · exact absurd rfl hne
    · exact ⟨h0, rfl⟩
    · exact ⟨by linarith [mul_comm (s c) (s d)], crossing_comm s c d hne⟩
    · exact absurd rfl hne

/-- every other corner of what is left of a face is to the left of each of its edges -/
theorem clip_left (hs : Affine s) {f : List Pt} (hf : f ∈ faces) (hpos : ∃ p ∈ f, 0 < s p) (i : Pt) (hi : IsCorner faces i)
    (hif : i ∉ f) (x y : Pt) (hxy : (x, y) ∈ steps (clip s f)) (j : Pt) (hj : j ∈ clip s f) (hjx : j ≠ x) (hjy : j ≠ y) :
    0 < side x y j i := by
  rcases (clip_steps h hs hf hpos x y).1 hxy with ⟨a, b, hab, hT⟩ | ⟨n1, nk, m1, ml, hM, rfl, rfl⟩
  · have key := clip_edge_left h (s := s) hf i hi hif a b hab j hj
    rcases hT with ⟨ha, hb, rfl, rfl⟩ | ⟨ha, hb, rfl, rfl⟩ | ⟨ha, hb, rfl, rfl⟩
    · rcases key with hk | ⟨rfl, _⟩ | ⟨rfl, _⟩ | ⟨hk, _⟩
      · exact hk
      · exact absurd rfl hjx
      · exact absurd rfl hjy
      · linarith [mul_nonneg ha hb]
    · rcases key with hk | ⟨rfl, _⟩ | ⟨rfl, hk⟩ | ⟨_, hk⟩
      · obtain ⟨t, t0, t1, e⟩ := crossing_between s x b (mul_neg_of_pos_of_neg ha hb)
        rw [e]
        have e2 := (affine_second x j i).along x b t
        rw [e2]
        have : side x x j i = 0 := by unfold side; ring
        rw [this]
        have := mul_pos t0 hk
        linarith
      · exact absurd rfl hjx
      · linarith
      · exact absurd hk hjy
    · rcases key with hk | ⟨rfl, hk⟩ | ⟨rfl, hk⟩ | ⟨_, hk⟩
      · obtain ⟨t, t0, t1, e⟩ := crossing_between s a y (mul_neg_of_neg_of_pos ha hb)
        rw [e]
        have e2 := (affine_first y j i).along a y t
        rw [e2]
        have : side y y j i = 0 := by unfold side; ring
        rw [this]
        have := mul_pos (sub_pos.mpr t1) hk
        linarith
      · linarith
      · exact absurd rfl hjy
      · exact absurd hk hjx
  · have hX0 : s (crossing s m1 nk) = 0 := crossing_zero hs m1 nk (by linarith [hM.m1_neg, hM.nk_pos])
    have hY0 : s (crossing s ml n1) = 0 := crossing_zero hs ml n1 (by linarith [hM.ml_neg, hM.n1_pos])
    set X := crossing s m1 nk with hX
    set Y := crossing s ml n1 with hY
    have hjpos : 0 < s j := by
      rcases (hM.mem j).mp hj with ⟨hjf, h0⟩ | hc | hc
      · refine lt_of_le_of_ne h0 fun hz => ?_
        rcases mixed_zero h hs hf hM j hjf hz.symm with rfl | rfl
        · exact hjy (crossing_end s ml j hz.symm hM.ml_neg.ne).symm
        · exact hjx (crossing_end s m1 j hz.symm hM.m1_neg.ne).symm
      · exact absurd hc hjx
      · exact absurd hc hjy
    obtain ⟨L, hL, hLf, k, hk, hk0⟩ := face_plane h hf
    have hLp : ∀ p ∈ f, L p = 0 := fun p hp => (hLf p ⟨f, hf, hp⟩).2.mpr hp
    have hLc : ∀ p ∈ clip s f, L p = 0 := by
      intro p hp
      rcases (mem_clip s f p).mp hp with ⟨hp, _⟩ | ⟨c, d, hcd, h0, rfl⟩
      · exact hLp p hp
      · obtain ⟨t, _, _, e⟩ := crossing_between s c d h0
        rw [e, hL.along, hLp c (mem_of_step f _ hcd).1, hLp d (mem_of_step f _ hcd).2]
        ring
    have hm1f := (mem_of_step f _ hM.leave).2
    have hco : side X Y m1 j = 0 := coplanar L hL k hk0 X Y m1 j (hLc _ ((hM.mem _).mpr (Or.inr (Or.inl rfl))))
      (hLc _ ((hM.mem _).mpr (Or.inr (Or.inr rfl)))) (hLp m1 hm1f) (hLc j hj)
    have e := hs.four X Y m1 i j
    rw [hX0, hY0, hco] at e
    have hEL := enter_left h hs hf hpos hM i hi hif
    rw [← hY] at hEL
    obtain ⟨t, t0, t1, et⟩ := leave_along hM
    have e2 := (affine_first m1 Y i).along nk m1 t
    rw [← et, ← hX] at e2
    have z : side m1 m1 Y i = 0 := by unfold side; ring
    rw [z] at e2
    have p1 := mul_pos (sub_pos.mpr t1) hEL
    have p2 : side X Y m1 i < 0 := by
      rw [side_swap23]; linarith
    have p3 := mul_neg_of_neg_of_pos p2 hjpos
    have p4 : side X Y j i * s m1 < 0 := by linarith
    rcases mul_neg_iff.mp p4 with hc | hc
    · exact hc.1
    · linarith [hM.m1_neg]

/-! ### the corners that are left -/

/-- corners not beyond the plane and crossings of edges with it -/
def Sub (faces : List (List Pt)) (s : Pt → ℚ) (p : Pt) : Prop :=
  (IsCorner faces p ∧ 0 ≤ s p) ∨ ∃ a b, (a, b) ∈ faces.flatMap steps ∧ s a < 0 ∧ 0 < s b ∧ p = crossing s a b

theorem sub_of_clip {f : List Pt} (hf : f ∈ faces) (p : Pt) (hp : p ∈ clip s f) : Sub faces s p := by
  rcases (mem_clip s f p).mp hp with ⟨hp, h0⟩ | ⟨a, b, hab, h0, rfl⟩
  · exact Or.inl ⟨⟨f, hf, hp⟩, h0⟩
  · have he : (a, b) ∈ faces.flatMap steps := List.mem_flatMap.mpr ⟨f, hf, hab⟩
    rcases mul_neg_iff.mp h0 with ⟨ha, hb⟩ | ⟨ha, hb⟩
    · exact Or.inr ⟨b, a, h.closed a b he, hb, ha, crossing_comm s a b (by linarith)⟩
    · exact Or.inr ⟨a, b, he, ha, hb, rfl⟩

omit h in
theorem sub_nonneg' (hs : Affine s) (p : Pt) (hp : Sub faces s p) : 0 ≤ s p := by
  rcases hp with ⟨_, h0⟩ | ⟨a, b, _, ha, hb, rfl⟩
  · exact h0
  · rw [crossing_zero hs a b (by linarith)]

/-- what is left is behind every face, and in its plane only at the corners of what is left of it -/
theorem sub_face {f : List Pt} (hf : f ∈ faces) (L : Pt → ℚ) (hL : Affine L)
    (hLf : ∀ p, IsCorner faces p → 0 ≤ L p ∧ (L p = 0 ↔ p ∈ f)) (p : Pt) (hp : Sub faces s p) :
    0 ≤ L p ∧ (L p = 0 → p ∈ clip s f) := by
  rcases hp with ⟨hc, h0⟩ | ⟨a, b, hab, ha, hb, rfl⟩
  · exact ⟨(hLf p hc).1, fun hz => (mem_clip s f p).mpr (Or.inl ⟨(hLf p hc).2.mp hz, h0⟩)⟩
  · have hneg := mul_neg_of_neg_of_pos ha hb
    obtain ⟨p1, p2⟩ := crossing_face h hf L hL hLf a b hab hneg
    refine ⟨p1, fun hz => (mem_clip s f _).mpr (Or.inr ?_)⟩
    rcases p2 hz with hc | hc
    · exact ⟨a, b, hc, hneg, rfl⟩
    · exact ⟨b, a, hc, by linarith [mul_comm (s a) (s b)], crossing_comm s a b (by linarith)⟩

omit h in
/-- what is left of a face is in its plane -/
theorem clip_plane {f : List Pt} (hf : f ∈ faces) (L : Pt → ℚ) (hL : Affine L)
    (hLf : ∀ p, IsCorner faces p → 0 ≤ L p ∧ (L p = 0 ↔ p ∈ f)) (p : Pt) (hp : p ∈ clip s f) : L p = 0 := by
  have hLp : ∀ p ∈ f, L p = 0 := fun p hp => (hLf p ⟨f, hf, hp⟩).2.mpr hp
  rcases (mem_clip s f p).mp hp with ⟨hp, _⟩ | ⟨c, d, hcd, h0, rfl⟩
  · exact hLp p hp
  · obtain ⟨t, _, _, e⟩ := crossing_between s c d h0
    rw [e, hL.along, hLp c (mem_of_step f _ hcd).1, hLp d (mem_of_step f _ hcd).2]
    ring

/-! ### the polygon in the plane -/

/-- an edge of what is left of a face that is in the plane -/
def PlaneEdge (faces : List (List Pt)) (s : Pt → ℚ) (f : List Pt) (x y : Pt) : Prop :=
  f ∈ faces ∧ (∃ p ∈ f, 0 < s p) ∧ (x, y) ∈ steps (clip s f) ∧ s x = 0 ∧ s y = 0

/-- in the cutting plane, being behind a face is being to the left of the reversed edge -/
theorem plane_edge_side (hs : Affine s) {f : List Pt} {x y : Pt} (he : PlaneEdge faces s f x y)
    (L : Pt → ℚ) (hL : Affine L) (hLf : ∀ p, IsCorner faces p → 0 ≤ L p ∧ (L p = 0 ↔ p ∈ f)) (q0 : Pt) (hq0 : 0 < s q0) :
    ∃ κ : ℚ, 0 < κ ∧ ∀ c, s c = 0 → L c = κ * side y x c q0 := by
  obtain ⟨hf, hpos, hxy, hx0, hy0⟩ := he
  obtain ⟨i, hi, hif⟩ := h.solid f hf
  have hi0 : 0 < L i := lt_of_le_of_ne (hLf i hi).1 fun e => hif ((hLf i hi).2.mp e.symm)
  obtain ⟨q, hq, hq'⟩ := id hpos
  have hqc : q ∈ clip s f := (mem_clip s f q).mpr (Or.inl ⟨hq, hq'.le⟩)
  have hqx : q ≠ x := fun e => by rw [e] at hq'; linarith
  have hqy : q ≠ y := fun e => by rw [e] at hq'; linarith
  have T := clip_left h hs hf hpos i hi hif x y hxy q hqc hqx hqy
  obtain ⟨hxc, hyc⟩ := mem_of_step _ _ hxy
  have zx := clip_plane hf L hL hLf x hxc
  have zy := clip_plane hf L hL hLf y hyc
  have zq := clip_plane hf L hL hLf q hqc
  refine ⟨L i * s q / (side x y q i * s q0), by positivity, fun c hc => ?_⟩
  have e1 := hL.four x y q i c
  rw [zx, zy, zq] at e1
  have e2 := hs.four y x c q0 q
  rw [hx0, hy0, hc] at e2
  have e3 : side x y q c = side y x c q := by unfold side; ring
  have hT := T.ne'
  have hq0' := hq0.ne'
  rw [e3] at e1
  field_simp
  have e1' : side x y q i * L c = side y x c q * L i := by linarith
  have e2' : side y x c q0 * s q = side y x c q * s q0 := by linarith
  calc L c * side x y q i * s q0 = (side x y q i * L c) * s q0 := by ring
    _ = L i * (side y x c q * s q0) := by rw [e1']; ring
    _ = L i * s q * side y x c q0 := by rw [← e2']; ring

/-- a face has no more than two corners in the plane if an edge of it is there -/
theorem plane_edge_two (hs : Affine s) {f : List Pt} {x y : Pt} (he : PlaneEdge faces s f x y) (w : Pt) (hw : w ∈ clip s f)
    (h0 : s w = 0) : w = x ∨ w = y := by
  by_contra hn
  push Not at hn
  obtain ⟨L, hL, hLf, i, hi, hi0⟩ := face_plane h he.1
  obtain ⟨q, hq, hq'⟩ := id he.2.1
  obtain ⟨κ, hκ, key⟩ := plane_edge_side h hs he L hL hLf q hq'
  have hif : i ∉ f := fun hc => by have := (hLf i hi).2.mpr hc; linarith
  have T := clip_left h hs he.1 he.2.1 i hi hif x y he.2.2.1 w hw hn.1 hn.2
  have hqc : q ∈ clip s f := (mem_clip s f q).mpr (Or.inl ⟨hq, hq'.le⟩)
  obtain ⟨hxc, hyc⟩ := mem_of_step _ _ he.2.2.1
  have zx := clip_plane he.1 L hL hLf x hxc
  have zy := clip_plane he.1 L hL hLf y hyc
  have zq := clip_plane he.1 L hL hLf q hqc
  have zw := clip_plane he.1 L hL hLf w hw
  have e := hs.four x y w i q
  rw [he.2.2.2.1, he.2.2.2.2, h0, coplanar L hL i hi0 x y w q zx zy zw zq] at e
  have := mul_pos T hq'
  linarith

/-- the other points in the plane are to the left of each edge there, run along backwards -/
theorem plane_edge_left (hs : Affine s) {f : List Pt} {x y : Pt} (he : PlaneEdge faces s f x y) (w : Pt) (hw : Sub faces s w)
    (h0 : s w = 0) (hx : w ≠ x) (hy : w ≠ y) (q0 : Pt) (hq0 : 0 < s q0) : 0 < side y x w q0 := by
  obtain ⟨L, hL, hLf, i, hi, hi0⟩ := face_plane h he.1
  obtain ⟨κ, hκ, key⟩ := plane_edge_side h hs he L hL hLf q0 hq0
  obtain ⟨p1, p2⟩ := sub_face h he.1 L hL hLf w hw
  have hpos : 0 < L w := lt_of_le_of_ne p1 fun e => by
    rcases plane_edge_two h hs he w (p2 e.symm) h0 with rfl | rfl
    · exact hx rfl
    · exact hy rfl
  rw [key w h0] at hpos
  exact (mul_pos_iff_of_pos_left hκ).mp hpos

/-- a corner or crossing in the plane is the end of an edge there and the beginning of another -/
theorem plane_edge_exists (hs : Affine s) (hin : ∃ p, IsCorner faces p ∧ 0 < s p) (hout : ∃ p, IsCorner faces p ∧ s p < 0)
    (y : Pt) (hy : Sub faces s y) (h0 : s y = 0) :
    (∃ f x, PlaneEdge faces s f x y) ∧ ∃ f z, PlaneEdge faces s f y z := by
  have ms : ∀ {f n1 nk m1 ml}, Mixed s f n1 nk m1 ml → (crossing s m1 nk, crossing s ml n1) ∈ steps (clip s f) ∧
      s (crossing s m1 nk) = 0 ∧ s (crossing s ml n1) = 0 := by
    intro f n1 nk m1 ml hM
    exact ⟨(hM.steps _ _).mpr (Or.inr ⟨rfl, rfl⟩), crossing_zero hs m1 nk (by linarith [hM.m1_neg, hM.nk_pos]),
      crossing_zero hs ml n1 (by linarith [hM.ml_neg, hM.n1_pos])⟩
  rcases hy with ⟨hc, _⟩ | ⟨a, b, hab, ha, hb, rfl⟩
  · obtain ⟨k, w, hk, hret, hlt, hw⟩ := link faces h y hc
    obtain ⟨p, hp, hp0⟩ := hin
    obtain ⟨l, hl, hl0⟩ := neighbour_link h hs y k w hk hret hlt hw p hp (by linarith)
    obtain ⟨q, hq, hq0⟩ := hout
    have hs' : Affine fun x => - s x := by
      obtain ⟨n0, n1, n2, c, e⟩ := hs
      exact ⟨-n0, -n1, -n2, -c, fun x => by simp only [e x]; ring⟩
    obtain ⟨j, hj, hj0⟩ := neighbour_link h hs' y k w hk hret hlt hw q hq (by linarith)
    rw [h0] at hl0 hj0
    simp only [neg_zero] at hj0
    have hj0 : s (w j) < 0 := by linarith
    -- around the vertex there is a change of sign in either direction
    have up : ∃ i, 0 < s (w i) ∧ s (w (i + 1)) ≤ 0 := by
      by_contra hn
      push Not at hn
      have all : ∀ n, 0 < s (w (l + n)) := by
        intro n
        induction n with
        | zero => exact hl0
        | succ n ih => exact hn _ ih
      have hk0 : 0 < s (w k) := by
        have := all (k - l)
        rwa [show l + (k - l) = k by omega] at this
      rw [hret] at hk0
      have all : ∀ n, 0 < s (w n) := by
        intro n
        induction n with
        | zero => exact hk0
        | succ n ih => exact hn _ ih
      linarith [all j]
    have down : ∃ i, s (w i) ≤ 0 ∧ 0 < s (w (i + 1)) := by
      by_contra hn
      push Not at hn
      have all : ∀ n, s (w (j + n)) ≤ 0 := by
        intro n
        induction n with
        | zero => exact hj0.le
        | succ n ih => exact hn _ ih
      have hk0 : s (w k) ≤ 0 := by
        have := all (k - j)
        rwa [show j + (k - j) = k by omega] at this
      rw [hret] at hk0
      have all : ∀ n, s (w n) ≤ 0 := by
        intro n
        induction n with
        | zero => exact hk0
        | succ n ih => exact hn _ ih
      linarith [all l]
    constructor
    · obtain ⟨i, hi1, hi2⟩ := up
      obtain ⟨f, hf, f1, f2, _⟩ := hw i
      have hpos : ∃ p ∈ f, 0 < s p := ⟨w i, (mem_of_step f _ f2).2, hi1⟩
      rcases hi2.lt_or_eq with hc | hc
      · obtain ⟨n1, nk, m1, ml, hM⟩ := mixed_face h hs hf ⟨w i, (mem_of_step f _ f2).2, hi1.le⟩ ⟨w (i + 1), (mem_of_step f _ f1).1, hc⟩
        obtain ⟨_, e⟩ := hM.one_enter _ _ f1 hc h0.ge
        obtain ⟨m, m0, m00⟩ := ms hM
        refine ⟨f, _, hf, hpos, ?_, m0, h0⟩
        rwa [← e, crossing_end s ml y h0 hM.ml_neg.ne] at m
      · exact ⟨f, w (i + 1), hf, hpos, (clip_steps h hs hf hpos _ _).2 ⟨_, _, f1, Or.inl ⟨hc.ge, h0.ge, rfl, rfl⟩⟩, hc, h0⟩
    · obtain ⟨i, hi1, hi2⟩ := down
      obtain ⟨f, hf, f1, f2, _⟩ := hw i
      have hpos : ∃ p ∈ f, 0 < s p := ⟨w (i + 1), (mem_of_step f _ f1).1, hi2⟩
      rcases hi1.lt_or_eq with hc | hc
      · obtain ⟨n1, nk, m1, ml, hM⟩ := mixed_face h hs hf ⟨w (i + 1), (mem_of_step f _ f1).1, hi2.le⟩ ⟨w i, (mem_of_step f _ f2).2, hc⟩
        obtain ⟨e, _⟩ := hM.one_leave _ _ f2 h0.ge hc
        obtain ⟨m, m0, m00⟩ := ms hM
        refine ⟨f, _, hf, hpos, ?_, h0, m00⟩
        rwa [← e, crossing_end s m1 y h0 hM.m1_neg.ne] at m
      · exact ⟨f, w i, hf, hpos, (clip_steps h hs hf hpos _ _).2 ⟨_, _, f2, Or.inl ⟨h0.ge, hc.ge, rfl, rfl⟩⟩, h0, hc⟩
  · constructor
    · obtain ⟨f, hf, he⟩ := List.mem_flatMap.mp hab
      obtain ⟨hfa, hfb⟩ := mem_of_step f _ he
      obtain ⟨n1, nk, m1, ml, hM⟩ := mixed_face h hs hf ⟨b, hfb, hb.le⟩ ⟨a, hfa, ha⟩
      obtain ⟨rfl, rfl⟩ := hM.one_enter _ _ he ha hb.le
      obtain ⟨m, m0, m00⟩ := ms hM
      exact ⟨f, _, hf, ⟨b, hfb, hb⟩, m, m0, m00⟩
    · obtain ⟨f, hf, he⟩ := List.mem_flatMap.mp (h.closed a b hab)
      obtain ⟨hfb, hfa⟩ := mem_of_step f _ he
      obtain ⟨n1, nk, m1, ml, hM⟩ := mixed_face h hs hf ⟨b, hfb, hb.le⟩ ⟨a, hfa, ha⟩
      obtain ⟨rfl, rfl⟩ := hM.one_leave _ _ he hb.le ha
      obtain ⟨m, m0, m00⟩ := ms hM
      exact ⟨f, _, hf, ⟨b, hfb, hb⟩, m, m0, m00⟩

end

end Brille.Convex
