/- The polyhedron left by a plane: convex, and exactly the points of the old one behind the plane. -/
import Verif.Proofs.ConvexCut

namespace Brille.Convex

open Brille.Spec Brille.Tetra

/-- polygons with a common directed edge are in one plane -/
theorem share_edge {R : List (List Pt)} {g g' : List Pt} (hg : g ∈ R) (hg' : g' ∈ R)
    (B : ∀ a b c, (a, b) ∈ steps g → (b, c) ∈ steps g → ∀ p, IsCorner R p → 0 ≤ side a b c p ∧ (side a b c p = 0 ↔ p ∈ g))
    (B' : ∀ a b c, (a, b) ∈ steps g' → (b, c) ∈ steps g' → ∀ p, IsCorner R p → 0 ≤ side a b c p ∧ (side a b c p = 0 ↔ p ∈ g'))
    (hsol : ∃ p, IsCorner R p ∧ p ∉ g) (x y : Pt) (he : (x, y) ∈ steps g) (he' : (x, y) ∈ steps g') : ∀ p ∈ g, p ∈ g' := by
  obtain ⟨c, hc⟩ := exists_next g y (mem_of_step g _ he).2
  obtain ⟨c', hc'⟩ := exists_next g' y (mem_of_step g' _ he').2
  have cg := (mem_of_step g _ hc).2
  have cg' := (mem_of_step g' _ hc').2
  have b1 := B x y c he hc c' ⟨g', hg', cg'⟩
  have b2 := B' x y c' he' hc' c ⟨g, hg, cg⟩
  have e : side x y c' c = - side x y c c' := side_swap34 ..
  have z : side x y c' c = 0 := by linarith [b1.1, b2.1]
  obtain ⟨i, hi, hig⟩ := hsol
  have hTi := B x y c he hc i hi
  have hT : 0 < side x y c i := lt_of_le_of_ne hTi.1 fun e => hig (hTi.2.mp e.symm)
  intro j hj
  have hjB := (B x y c he hc j ⟨g, hg, hj⟩).2.mpr hj
  have four := (affine_side x y c').four x y c i j
  have zx : side x y c' x = 0 := by unfold side; ring
  have zy : side x y c' y = 0 := by unfold side; ring
  rw [zx, zy, z, hjB] at four
  have : side x y c i * side x y c' j = 0 := by linarith
  exact (B' x y c' he' hc' j ⟨g, hg, hj⟩).2.mp ((mul_eq_zero.mp this).resolve_left hT.ne')

/-- the polygons that are left and the one in the plane -/
def Rest (faces : List (List Pt)) (s : Pt → ℚ) (C : List Pt) : List (List Pt) :=
  (faces.map (clip s)).filter (fun g => decide (3 ≤ g.length)) ++ [C]

/-- the polygon in the plane: all corners and crossings there, counter-clockwise -/
structure Cap (faces : List (List Pt)) (s : Pt → ℚ) (q0 : Pt) (C : List Pt) : Prop where
  nodup : C.Nodup
  mem : ∀ p, p ∈ C ↔ Sub faces s p ∧ s p = 0
  ccw : ∀ y z, (y, z) ∈ steps C → ∀ w ∈ C, w ≠ y → w ≠ z → 0 < side y z w q0

section
variable {faces : List (List Pt)} (h : ConvexPolyhedron faces) {s : Pt → ℚ} (hs : Affine s) {q0 : Pt}
  (hq : IsCorner faces q0) (hq0 : 0 < s q0) (hout : ∃ p, IsCorner faces p ∧ s p < 0)
include h hs hq hq0 hout

theorem sub_exists : ∃ y, Sub faces s y ∧ s y = 0 := by
  classical
  obtain ⟨p, hp, hp0⟩ := hout
  obtain ⟨u, hu, hmax⟩ := Finset.exists_max_image (faces.flatten.toFinset.filter fun p => s p < 0) s
    ⟨p, by obtain ⟨f, hf, hpf⟩ := hp
           exact Finset.mem_filter.mpr ⟨List.mem_toFinset.mpr (List.mem_flatten.mpr ⟨f, hf, hpf⟩), hp0⟩⟩
  obtain ⟨hu1, hu2⟩ := Finset.mem_filter.mp hu
  obtain ⟨f, hf, huf⟩ := List.mem_flatten.mp (List.mem_toFinset.mp hu1)
  obtain ⟨k, w, hk, hret, hlt, hw⟩ := link faces h u ⟨f, hf, huf⟩
  obtain ⟨i, hi, hi0⟩ := neighbour_link h hs u k w hk hret hlt hw q0 hq (by linarith)
  have hw0 : 0 ≤ s (w i) := by
    by_contra hn
    push Not at hn
    obtain ⟨g, hg, hwg⟩ := hlt i
    have := hmax (w i) (Finset.mem_filter.mpr ⟨List.mem_toFinset.mpr (List.mem_flatten.mpr ⟨g, hg, hwg⟩), hn⟩)
    linarith
  rcases hw0.lt_or_eq with hc | hc
  · obtain ⟨g, hg, _, g2, _⟩ := hw i
    refine ⟨crossing s u (w i), Or.inr ⟨u, w i, List.mem_flatMap.mpr ⟨g, hg, g2⟩, hu2, hc, rfl⟩, ?_⟩
    exact crossing_zero hs u (w i) (by linarith)
  · exact ⟨w i, Or.inl ⟨hlt i, hw0⟩, hc.symm⟩

/-- two edges in the plane are not the same run along in both directions -/
theorem no_flat (f f' : List Pt) (x y : Pt) (h1 : PlaneEdge faces s f x y) (h2 : PlaneEdge faces s f' y x) : False := by
  obtain ⟨L, hL, hLf, i, hi, hi0⟩ := face_plane h h1.1
  obtain ⟨L', hL', hLf', _⟩ := face_plane h h2.1
  obtain ⟨κ, hκ, e1⟩ := plane_edge_side h hs h1 L hL hLf q0 hq0
  obtain ⟨κ', hκ', e2⟩ := plane_edge_side h hs h2 L' hL' hLf' q0 hq0
  have both : ∀ c, s c = 0 → 0 ≤ L c → 0 ≤ L' c → L c = 0 := by
    intro c hc l1 l2
    rw [e1 c hc] at l1 ⊢
    rw [e2 c hc, side_swap12] at l2
    have b1 : 0 ≤ side y x c q0 := nonneg_of_mul_nonneg_right l1 hκ
    have b2 : 0 ≤ - side y x c q0 := nonneg_of_mul_nonneg_right l2 hκ'
    have : side y x c q0 = 0 := by linarith
    rw [this, mul_zero]
  have cut : ∀ p q, IsCorner faces p → IsCorner faces q → s p < 0 → 0 < s q → L p = 0 ∧ L q = 0 := by
    intro p q hp hq' hp0 hq0'
    obtain ⟨t, t0, t1, e⟩ := crossing_between s p q (mul_neg_of_neg_of_pos hp0 hq0')
    have hz := crossing_zero hs p q (by linarith)
    have a1 := mul_nonneg (sub_nonneg.mpr t1.le) (hLf p hp).1
    have a2 := mul_nonneg t0.le (hLf q hq').1
    have a1' := mul_nonneg (sub_nonneg.mpr t1.le) (hLf' p hp).1
    have a2' := mul_nonneg t0.le (hLf' q hq').1
    have z := both _ hz (by rw [e, hL.along]; linarith) (by rw [e, hL'.along]; linarith)
    rw [e, hL.along] at z
    have z1 : (1 - t) * L p = 0 := by linarith
    have z2 : t * L q = 0 := by linarith
    exact ⟨(mul_eq_zero.mp z1).resolve_left (by linarith), (mul_eq_zero.mp z2).resolve_left t0.ne'⟩
  obtain ⟨p, hp, hp0⟩ := hout
  rcases lt_trichotomy (s i) 0 with hc | hc | hc
  · linarith [(cut i q0 hi hq hc hq0).1]
  · linarith [both i hc (hLf i hi).1 (hLf' i hi).1]
  · linarith [(cut p i hp hi hp0 hc).2]

theorem plane_edge_ne {f : List Pt} {x y : Pt} (he : PlaneEdge faces s f x y) : x ≠ y := by
  obtain ⟨hf, hpos, hxy, _⟩ := he
  rintro rfl
  exact swap_other _ (clip_nodup h hs hf hpos) ((kept_iff h hs ⟨q0, hq, hq0⟩ hout hf).mpr hpos) (x, x) hxy hxy

theorem three_of_mem {C : List Pt} (mem : ∀ p, p ∈ C ↔ Sub faces s p ∧ s p = 0) : 3 ≤ C.length := by
  obtain ⟨y, hy, hy0⟩ := sub_exists h hs hq hq0 hout
  obtain ⟨⟨f, x, h1⟩, ⟨f', z, h2⟩⟩ := plane_edge_exists h hs ⟨q0, hq, hq0⟩ hout y hy hy0
  have memC : ∀ {f x y}, PlaneEdge faces s f x y → x ∈ C ∧ y ∈ C := by
    rintro f x y ⟨hf, hpos, hxy, hx, hy⟩
    obtain ⟨a, b⟩ := mem_of_step _ _ hxy
    exact ⟨(mem x).mpr ⟨sub_of_clip h hf x a, hx⟩, (mem y).mpr ⟨sub_of_clip h hf y b, hy⟩⟩
  have hxz : x ≠ z := by
    rintro rfl
    exact no_flat h hs hq hq0 hout f f' x y h1 h2
  have hn : [x, y, z].Nodup := by
    simp [plane_edge_ne h hs hq hq0 hout h1, plane_edge_ne h hs hq hq0 hout h2, hxz]
  have := (List.subperm_of_subset hn (l₂ := C) (by
    intro a ha
    simp only [List.mem_cons, List.not_mem_nil, or_false] at ha
    rcases ha with rfl | rfl | rfl
    · exact (memC h1).1
    · exact (memC h1).2
    · exact (memC h2).2)).length_le
  simpa using this

variable {C : List Pt} (hC : Cap faces s q0 C)
include hC

theorem cap_three : 3 ≤ C.length := three_of_mem h hs hq hq0 hout hC.mem

/-- the edges in the plane are the edges of the new polygon, run along backwards -/
theorem plane_edge_cap {f : List Pt} {x y : Pt} (he : PlaneEdge faces s f x y) : (y, x) ∈ steps C := by
  obtain ⟨hf, hpos, hxy, hx, hy⟩ := id he
  obtain ⟨a, b⟩ := mem_of_step _ _ hxy
  have hxC := (hC.mem x).mpr ⟨sub_of_clip h hf x a, hx⟩
  have hyC := (hC.mem y).mpr ⟨sub_of_clip h hf y b, hy⟩
  have hne : x ≠ y := by
    rintro rfl
    exact swap_other _ (clip_nodup h hs hf hpos) ((kept_iff h hs ⟨q0, hq, hq0⟩ hout hf).mpr hpos) (x, x) hxy hxy
  obtain ⟨z, hz⟩ := exists_next C y hyC
  by_cases hzx : z = x
  · rwa [hzx] at hz
  have hzC := (mem_of_step C _ hz).2
  have hzy : z ≠ y := by
    rintro rfl
    exact swap_other C hC.nodup (cap_three h hs hq hq0 hout hC) (z, z) hz hz
  have p1 := hC.ccw y z hz x hxC hne (Ne.symm hzx)
  have p2 := plane_edge_left h hs he z ((hC.mem z).mp hzC).1 ((hC.mem z).mp hzC).2 hzx hzy q0 hq0
  rw [side_swap23] at p2
  linarith

theorem cap_plane_edge {y z : Pt} (he : (y, z) ∈ steps C) : ∃ f, PlaneEdge faces s f z y := by
  have hyC := (mem_of_step C _ he).1
  obtain ⟨⟨f, x, h1⟩, _⟩ := plane_edge_exists h hs ⟨q0, hq, hq0⟩ hout y ((hC.mem y).mp hyC).1 ((hC.mem y).mp hyC).2
  have := plane_edge_cap h hs hq hq0 hout hC h1
  have := step_fst_inj C hC.nodup y z x he this
  exact ⟨f, this ▸ h1⟩

theorem mem_rest (g : List Pt) : g ∈ Rest faces s C ↔ (∃ f ∈ faces, (∃ p ∈ f, 0 < s p) ∧ g = clip s f) ∨ g = C := by
  simp only [Rest, List.mem_append, List.mem_filter, List.mem_map, decide_eq_true_eq, List.mem_singleton]
  constructor
  · rintro (⟨⟨f, hf, rfl⟩, h3⟩ | rfl)
    · exact Or.inl ⟨f, hf, (kept_iff h hs ⟨q0, hq, hq0⟩ hout hf).mp h3, rfl⟩
    · exact Or.inr rfl
  · rintro (⟨f, hf, hp, rfl⟩ | rfl)
    · exact Or.inl ⟨⟨f, hf, rfl⟩, (kept_iff h hs ⟨q0, hq, hq0⟩ hout hf).mpr hp⟩
    · exact Or.inr rfl

theorem rest_sub (p : Pt) (hp : IsCorner (Rest faces s C) p) : Sub faces s p := by
  obtain ⟨g, hg, hpg⟩ := hp
  rcases (mem_rest h hs hq hq0 hout hC g).mp hg with ⟨f, hf, _, rfl⟩ | rfl
  · exact sub_of_clip h hf p hpg
  · exact ((hC.mem p).mp hpg).1

omit hC in
theorem clip_behind {f : List Pt} (hf : f ∈ faces) (hpos : ∃ p ∈ f, 0 < s p) (a b c : Pt) (hab : (a, b) ∈ steps (clip s f))
    (hbc : (b, c) ∈ steps (clip s f)) (p : Pt) (hp : Sub faces s p) :
    0 ≤ side a b c p ∧ (side a b c p = 0 ↔ p ∈ clip s f) := by
  obtain ⟨L, hL, hLf, i, hi, hi0⟩ := face_plane h hf
  have hif : i ∉ f := fun hc => by have := (hLf i hi).2.mpr hc; linarith
  have hn := clip_nodup h hs hf hpos
  have h3 := (kept_iff h hs ⟨q0, hq, hq0⟩ hout hf).mpr hpos
  obtain ⟨ca, cb⟩ := mem_of_step _ _ hab
  have cc := (mem_of_step _ _ hbc).2
  have hca : c ≠ a := by
    rintro rfl
    exact swap_other _ hn h3 _ hab hbc
  have hcb : c ≠ b := by
    rintro rfl
    exact swap_other _ hn h3 (c, c) hbc hbc
  have T := clip_left h hs hf hpos i hi hif a b hab c cc hca hcb
  have e := hL.four a b c i p
  rw [clip_plane hf L hL hLf a ca, clip_plane hf L hL hLf b cb, clip_plane hf L hL hLf c cc] at e
  have e : side a b c i * L p = side a b c p * L i := by linarith
  obtain ⟨p1, p2⟩ := sub_face h hf L hL hLf p hp
  constructor
  · have := mul_nonneg T.le p1
    rw [e] at this
    exact nonneg_of_mul_nonneg_left this hi0
  · constructor
    · intro hz
      rw [hz, zero_mul] at e
      exact p2 ((mul_eq_zero.mp e).resolve_left T.ne')
    · intro hc
      rw [clip_plane hf L hL hLf p hc, mul_zero] at e
      exact (mul_eq_zero.mp e.symm).resolve_right hi0.ne'

theorem cap_behind (a b c : Pt) (hab : (a, b) ∈ steps C) (hbc : (b, c) ∈ steps C) :
    0 < side a b c q0 ∧ ∀ p, side a b c q0 * s p = side a b c p * s q0 := by
  have h3 := cap_three h hs hq hq0 hout hC
  obtain ⟨ca, cb⟩ := mem_of_step _ _ hab
  have cc := (mem_of_step _ _ hbc).2
  have hca : c ≠ a := by
    rintro rfl
    exact swap_other _ hC.nodup h3 _ hab hbc
  have hcb : c ≠ b := by
    rintro rfl
    exact swap_other _ hC.nodup h3 (c, c) hbc hbc
  refine ⟨hC.ccw a b hab c cc hca hcb, fun p => ?_⟩
  have e := hs.four a b c q0 p
  rw [((hC.mem a).mp ca).2, ((hC.mem b).mp cb).2, ((hC.mem c).mp cc).2] at e
  linarith

/-- the new polygon has corners off every face -/
theorem cap_off {f : List Pt} (hf : f ∈ faces) (hpos : ∃ p ∈ f, 0 < s p) : ∃ w ∈ C, w ∉ clip s f := by
  by_contra hn
  push Not at hn
  obtain ⟨L, hL, hLf, i, hi, hi0⟩ := face_plane h hf
  have h3 := cap_three h hs hq hq0 hout hC
  obtain ⟨b, hb⟩ := List.exists_mem_of_length_pos (lt_of_lt_of_le (by norm_num) h3)
  obtain ⟨a, ha⟩ := exists_prev C b hb
  obtain ⟨c, hc⟩ := exists_next C b hb
  obtain ⟨T, key⟩ := cap_behind h hs hq hq0 hout hC a b c ha hc
  have za := clip_plane hf L hL hLf a (hn a (mem_of_step C _ ha).1)
  have zb := clip_plane hf L hL hLf b (hn b hb)
  have zc := clip_plane hf L hL hLf c (hn c (mem_of_step C _ hc).2)
  obtain ⟨q, hqf, hq'⟩ := hpos
  have four : ∀ x, side a b c q0 * L x = side a b c x * L q0 := by
    intro x
    have e := hL.four a b c q0 x
    rw [za, zb, zc] at e
    linarith
  have e1 := four q
  rw [(hLf q ⟨f, hf, hqf⟩).2.mpr hqf, mul_zero] at e1
  have : 0 < side a b c q * s q0 := by rw [← key q]; exact mul_pos T hq'
  have hne : side a b c q ≠ 0 := by
    intro hz
    rw [hz, zero_mul] at this
    exact lt_irrefl _ this
  have z0 := (mul_eq_zero.mp e1.symm).resolve_left hne
  have e2 := four i
  rw [z0, mul_zero] at e2
  exact hi0.ne' ((mul_eq_zero.mp e2).resolve_left T.ne')

theorem rest_apart (g : List Pt) (hg : g ∈ Rest faces s C) (g' : List Pt) (hg' : g' ∈ Rest faces s C) (hne : g ≠ g') :
    ∃ p ∈ g, p ∉ g' := by
  rcases (mem_rest h hs hq hq0 hout hC g).mp hg with ⟨f, hf, hp, rfl⟩ | rfl
  · rcases (mem_rest h hs hq hq0 hout hC g').mp hg' with ⟨f', hf', hp', rfl⟩ | rfl
    · by_contra hn
      push Not at hn
      have hff : f ≠ f' := fun e => hne (by rw [e])
      obtain ⟨j, hj, hjf⟩ := h.apart f hf f' hf' hff
      obtain ⟨L, hL, hLf, i, hi, hi0⟩ := face_plane h hf
      obtain ⟨L', hL', hLf', _⟩ := face_plane h hf'
      have hif : i ∉ f := fun hc => by have := (hLf i hi).2.mpr hc; linarith
      have h3 := (kept_iff h hs ⟨q0, hq, hq0⟩ hout hf).mpr hp
      obtain ⟨b, hb⟩ := List.exists_mem_of_length_pos (lt_of_lt_of_le (by norm_num) h3)
      obtain ⟨a, ha⟩ := exists_prev _ b hb
      obtain ⟨c, hc⟩ := exists_next _ b hb
      have T : side a b c i ≠ 0 := by
        have := clip_left h hs hf hp i hi hif a b ha c (mem_of_step _ _ hc).2 (by
          rintro rfl
          exact swap_other _ (clip_nodup h hs hf hp) h3 _ ha hc) (by
          rintro rfl
          exact swap_other _ (clip_nodup h hs hf hp) h3 (c, c) hc hc)
        exact this.ne'
      have e := hL'.four a b c i j
      have mem : ∀ p ∈ clip s f, L' p = 0 := fun p hp => clip_plane hf' L' hL' hLf' p (hn p hp)
      rw [mem a (mem_of_step _ _ ha).1, mem b hb, mem c (mem_of_step _ _ hc).2,
        coplanar L hL i hi0 a b c j (clip_plane hf L hL hLf a (mem_of_step _ _ ha).1) (clip_plane hf L hL hLf b hb)
          (clip_plane hf L hL hLf c (mem_of_step _ _ hc).2) ((hLf j ⟨f, hf, hj⟩).2.mpr hj)] at e
      have : side a b c i * L' j = 0 := by linarith
      exact hjf ((hLf' j ⟨f, hf, hj⟩).2.mp ((mul_eq_zero.mp this).resolve_left T))
    · obtain ⟨p, hpf, hp0⟩ := hp
      refine ⟨p, (mem_clip s f p).mpr (Or.inl ⟨hpf, hp0.le⟩), fun hc => ?_⟩
      linarith [((hC.mem p).mp hc).2]
  · rcases (mem_rest h hs hq hq0 hout hC g').mp hg' with ⟨f', hf', hp', rfl⟩ | rfl
    · exact cap_off h hs hq hq0 hout hC hf' hp'
    · exact absurd rfl hne

theorem rest_behind (g : List Pt) (hg : g ∈ Rest faces s C) (a b c : Pt) (hab : (a, b) ∈ steps g) (hbc : (b, c) ∈ steps g)
    (p : Pt) (hp : IsCorner (Rest faces s C) p) : 0 ≤ side a b c p ∧ (side a b c p = 0 ↔ p ∈ g) := by
  have hsub := rest_sub h hs hq hq0 hout hC p hp
  rcases (mem_rest h hs hq hq0 hout hC g).mp hg with ⟨f, hf, hpos, rfl⟩ | rfl
  · exact clip_behind h hs hq hq0 hout hf hpos a b c hab hbc p hsub
  · obtain ⟨T, key⟩ := cap_behind h hs hq hq0 hout hC a b c hab hbc
    have e := key p
    have p1 := sub_nonneg' hs p hsub
    constructor
    · have := mul_nonneg T.le p1
      rw [e] at this
      exact nonneg_of_mul_nonneg_left this hq0
    · rw [hC.mem]
      constructor
      · intro hz
        rw [hz, zero_mul] at e
        exact ⟨hsub, (mul_eq_zero.mp e).resolve_left T.ne'⟩
      · rintro ⟨_, hz⟩
        rw [hz, mul_zero] at e
        exact (mul_eq_zero.mp e.symm).resolve_right hq0.ne'

theorem rest_solid (g : List Pt) (hg : g ∈ Rest faces s C) : ∃ p, IsCorner (Rest faces s C) p ∧ p ∉ g := by
  have memC : C ∈ Rest faces s C := (mem_rest h hs hq hq0 hout hC C).mpr (Or.inr rfl)
  rcases (mem_rest h hs hq hq0 hout hC g).mp hg with ⟨f, hf, hpos, rfl⟩ | rfl
  · obtain ⟨w, hw, hwf⟩ := cap_off h hs hq hq0 hout hC hf hpos
    exact ⟨w, ⟨C, memC, hw⟩, hwf⟩
  · obtain ⟨f, hf, hqf⟩ := hq
    refine ⟨q0, ⟨clip s f, (mem_rest h hs ⟨f, hf, hqf⟩ hq0 hout hC _).mpr (Or.inl ⟨f, hf, ⟨q0, hqf, hq0⟩, rfl⟩),
      (mem_clip s f q0).mpr (Or.inl ⟨hqf, hq0.le⟩)⟩, fun hc => ?_⟩
    linarith [((hC.mem q0).mp hc).2]

theorem rest_closed (x y : Pt) (he : (x, y) ∈ (Rest faces s C).flatMap steps) : (y, x) ∈ (Rest faces s C).flatMap steps := by
  have memC : C ∈ Rest faces s C := (mem_rest h hs hq hq0 hout hC C).mpr (Or.inr rfl)
  obtain ⟨g, hg, hxy⟩ := List.mem_flatMap.mp he
  rcases (mem_rest h hs hq hq0 hout hC g).mp hg with ⟨f, hf, hpos, rfl⟩ | rfl
  · by_cases hz : s x = 0 ∧ s y = 0
    · exact List.mem_flatMap.mpr ⟨C, memC, plane_edge_cap h hs hq hq0 hout hC ⟨hf, hpos, hxy, hz.1, hz.2⟩⟩
    rcases (clip_steps h hs hf hpos x y).1 hxy with ⟨a, b, hab, hT⟩ | ⟨n1, nk, m1, ml, hM, rfl, rfl⟩
    · obtain ⟨g', hg', hba, _⟩ := across h hf a b hab
      obtain ⟨gb, ga⟩ := mem_of_step g' _ hba
      have fin : (∃ p ∈ g', 0 < s p) → Trim s b a y x → (y, x) ∈ (Rest faces s C).flatMap steps := by
        intro hp ht
        exact List.mem_flatMap.mpr ⟨clip s g', (mem_rest h hs hq hq0 hout hC _).mpr (Or.inl ⟨g', hg', hp, rfl⟩),
          (clip_steps h hs hg' hp y x).2 ⟨b, a, hba, ht⟩⟩
      rcases hT with ⟨ha, hb, rfl, rfl⟩ | ⟨ha, hb, rfl, rfl⟩ | ⟨ha, hb, rfl, rfl⟩
      · refine fin ?_ (Or.inl ⟨hb, ha, rfl, rfl⟩)
        rcases ha.lt_or_eq with hc | hc
        · exact ⟨x, ga, hc⟩
        · rcases hb.lt_or_eq with hd | hd
          · exact ⟨y, gb, hd⟩
          · exact absurd ⟨hc.symm, hd.symm⟩ hz
      · exact fin ⟨x, ga, ha⟩ (Or.inr (Or.inr ⟨hb, ha, crossing_comm s x b (by linarith), rfl⟩))
      · exact fin ⟨y, gb, hb⟩ (Or.inr (Or.inl ⟨hb, ha, rfl, crossing_comm s a y (by linarith)⟩))
    · exact absurd ⟨crossing_zero hs m1 nk (by linarith [hM.m1_neg, hM.nk_pos]),
        crossing_zero hs ml n1 (by linarith [hM.ml_neg, hM.n1_pos])⟩ hz
  · obtain ⟨f, hf, hpos, hyx, _⟩ := cap_plane_edge h hs hq hq0 hout hC hxy
    exact List.mem_flatMap.mpr ⟨clip s f, (mem_rest h hs hq hq0 hout hC _).mpr (Or.inl ⟨f, hf, hpos, rfl⟩), hyx⟩

theorem rest_simple (g : List Pt) (hg : g ∈ Rest faces s C) : g.Nodup ∧ 3 ≤ g.length := by
  rcases (mem_rest h hs hq hq0 hout hC g).mp hg with ⟨f, hf, hpos, rfl⟩ | rfl
  · exact ⟨clip_nodup h hs hf hpos, (kept_iff h hs ⟨q0, hq, hq0⟩ hout hf).mpr hpos⟩
  · exact ⟨hC.nodup, cap_three h hs hq hq0 hout hC⟩

theorem rest_disjoint (g : List Pt) (hg : g ∈ Rest faces s C) (g' : List Pt) (hg' : g' ∈ Rest faces s C) (hne : g ≠ g')
    (e : Pt × Pt) (h1 : e ∈ steps g) (h2 : e ∈ steps g') : False := by
  obtain ⟨p, hp, hpg⟩ := rest_apart h hs hq hq0 hout hC g hg g' hg' hne
  exact hpg (share_edge hg hg' (rest_behind h hs hq hq0 hout hC g hg) (rest_behind h hs hq hq0 hout hC g' hg')
    (rest_solid h hs hq hq0 hout hC g hg) e.1 e.2 h1 h2 p hp)

/-- what is left is a convex polyhedron -/
theorem rest_convex : ConvexPolyhedron (Rest faces s C) where
  simple := rest_simple h hs hq hq0 hout hC
  once := by
    have stepsN : ∀ g ∈ Rest faces s C, (steps g).Nodup := by
      intro g hg
      have hn := (rest_simple h hs hq hq0 hout hC g hg).1
      refine List.Nodup.of_map Prod.fst ?_
      rw [steps, List.map_fst_zip (by simp)]
      exact hn
    rw [List.nodup_flatMap]
    refine ⟨stepsN, ?_⟩
    have old := (List.nodup_flatMap.mp h.once).2
    rw [Rest, List.pairwise_append]
    refine ⟨?_, List.pairwise_singleton _ _, ?_⟩
    · rw [List.pairwise_filter, List.pairwise_map]
      refine old.imp_of_mem ?_
      intro f f' hf hf' hd h3 h3'
      simp only [decide_eq_true_eq] at h3 h3'
      have hp := (kept_iff h hs ⟨q0, hq, hq0⟩ hout hf).mp h3
      have hp' := (kept_iff h hs ⟨q0, hq, hq0⟩ hout hf').mp h3'
      have hff : f ≠ f' := by
        rintro rfl
        obtain ⟨b, hb, _⟩ := hp
        obtain ⟨c, hc⟩ := exists_next f b hb
        exact hd hc hc
      have m1 := (mem_rest h hs hq hq0 hout hC (clip s f)).mpr (Or.inl ⟨f, hf, hp, rfl⟩)
      have m2 := (mem_rest h hs hq hq0 hout hC (clip s f')).mpr (Or.inl ⟨f', hf', hp', rfl⟩)
      have hcc : clip s f ≠ clip s f' := by
        intro e
        obtain ⟨L, hL, hLf, i, hi, hi0⟩ := face_plane h hf
        obtain ⟨j, hj, hjf⟩ := h.apart f hf f' hf' hff
        obtain ⟨L', hL', hLf', _⟩ := face_plane h hf'
        have hif : i ∉ f := fun hc => by have := (hLf i hi).2.mpr hc; linarith
        obtain ⟨b, hb⟩ := List.exists_mem_of_length_pos (lt_of_lt_of_le (by norm_num) h3)
        obtain ⟨a, ha⟩ := exists_prev _ b hb
        obtain ⟨c, hc⟩ := exists_next _ b hb
        have T : side a b c i ≠ 0 := by
          have := clip_left h hs hf hp i hi hif a b ha c (mem_of_step _ _ hc).2 (by
            rintro rfl
            exact swap_other _ (clip_nodup h hs hf hp) h3 _ ha hc) (by
            rintro rfl
            exact swap_other _ (clip_nodup h hs hf hp) h3 (c, c) hc hc)
          exact this.ne'
        have e4 := hL'.four a b c i j
        have mem : ∀ p ∈ clip s f, L' p = 0 := fun p hp => clip_plane hf' L' hL' hLf' p (e ▸ hp)
        rw [mem a (mem_of_step _ _ ha).1, mem b hb, mem c (mem_of_step _ _ hc).2,
          coplanar L hL i hi0 a b c j (clip_plane hf L hL hLf a (mem_of_step _ _ ha).1) (clip_plane hf L hL hLf b hb)
            (clip_plane hf L hL hLf c (mem_of_step _ _ hc).2) ((hLf j ⟨f, hf, hj⟩).2.mpr hj)] at e4
        have : side a b c i * L' j = 0 := by linarith
        exact hjf ((hLf' j ⟨f, hf, hj⟩).2.mp ((mul_eq_zero.mp this).resolve_left T))
      intro e h1 h2
      exact rest_disjoint h hs hq hq0 hout hC _ m1 _ m2 hcc e h1 h2
    · intro g hg g' hg' e h1 h2
      rw [List.mem_singleton] at hg'
      subst hg'
      obtain ⟨hg, h3⟩ := List.mem_filter.mp hg
      obtain ⟨f, hf, rfl⟩ := List.mem_map.mp hg
      simp only [decide_eq_true_eq] at h3
      have hp := (kept_iff h hs ⟨q0, hq, hq0⟩ hout hf).mp h3
      have m1 := (mem_rest h hs hq hq0 hout hC (clip s f)).mpr (Or.inl ⟨f, hf, hp, rfl⟩)
      have m2 := (mem_rest h hs hq hq0 hout hC g').mpr (Or.inr rfl)
      refine rest_disjoint h hs hq hq0 hout hC _ m1 _ m2 ?_ e h1 h2
      intro e
      obtain ⟨p, hpf, hp0⟩ := hp
      have : p ∈ g' := e ▸ (mem_clip s f p).mpr (Or.inl ⟨hpf, hp0.le⟩)
      linarith [((hC.mem p).mp this).2]
  closed := rest_closed h hs hq hq0 hout hC
  behind := rest_behind h hs hq hq0 hout hC
  solid := rest_solid h hs hq hq0 hout hC
  apart := rest_apart h hs hq hq0 hout hC

/-- what is left are the points behind the plane -/
theorem rest_hull (n0 n1 n2 k : ℚ) (e : ∀ x, s x = n0 * x 0 + n1 * x 1 + n2 * x 2 + k) (x : Fin 3 → ℝ) :
    x ∈ Hull (IsCorner (Rest faces s C)) ↔ x ∈ Hull (IsCorner faces) ∧ 0 ≤ (n0 : ℝ) * x 0 + n1 * x 1 + n2 * x 2 + k := by
  have cast : ∀ y : Pt, ((s y : ℚ) : ℝ) = n0 * real y 0 + n1 * real y 1 + n2 * real y 2 + k := by
    intro y
    rw [e y]; simp [real]
  have memC : C ∈ Rest faces s C := (mem_rest h hs hq hq0 hout hC C).mpr (Or.inr rfl)
  constructor
  · intro hx
    constructor
    · refine convexHull_min ?_ (convex_convexHull ℝ _) hx
      rintro _ ⟨p, hp, rfl⟩
      rcases rest_sub h hs hq hq0 hout hC p hp with ⟨hc, _⟩ | ⟨a, b, hab, ha, hb, rfl⟩
      · exact subset_convexHull ℝ _ ⟨p, hc, rfl⟩
      · obtain ⟨t, t0, t1, et⟩ := crossing_between s a b (mul_neg_of_neg_of_pos ha hb)
        obtain ⟨ca, cb⟩ := corner_of_edge a b hab
        have := (convex_convexHull ℝ {x | ∃ p, IsCorner faces p ∧ x = real p})
          (subset_convexHull ℝ _ ⟨a, ca, rfl⟩) (subset_convexHull ℝ _ ⟨b, cb, rfl⟩)
          (a := (1 - t : ℝ)) (b := (t : ℝ)) (by have : (t : ℝ) < 1 := by exact_mod_cast t1
                                                linarith) (by exact_mod_cast t0.le) (by ring)
        rw [et]
        convert this using 1
        funext d
        simp only [real, along, Pi.add_apply, Pi.smul_apply, smul_eq_mul]
        push_cast
        ring
    · have hconv : Convex ℝ {x : Fin 3 → ℝ | 0 ≤ (n0 : ℝ) * x 0 + n1 * x 1 + n2 * x 2 + k} := by
        intro y hy z hz u v hu hv huv
        simp only [Set.mem_ofPred_eq, Pi.add_apply, Pi.smul_apply, smul_eq_mul] at hy hz ⊢
        have : v = 1 - u := by linarith
        subst this
        have a1 := mul_nonneg hu hy
        have a2 := mul_nonneg hv hz
        nlinarith
      refine convexHull_min ?_ hconv hx
      rintro _ ⟨p, hp, rfl⟩
      have := sub_nonneg' hs p (rest_sub h hs hq hq0 hout hC p hp)
      simp only [Set.mem_ofPred_eq]
      rw [← cast p]
      exact_mod_cast this
  · rintro ⟨hx, hx0⟩
    have hne : Rest faces s C ≠ [] := List.ne_nil_of_mem memC
    rw [solid_iff _ (rest_convex h hs hq hq0 hout hC) hne]
    intro g hg a b c hab hbc
    rcases (mem_rest h hs hq hq0 hout hC g).mp hg with ⟨f, hf, hpos, rfl⟩ | rfl
    · obtain ⟨r, hr, hr0⟩ := id hpos
      obtain ⟨p, hp⟩ := exists_prev f r hr
      obtain ⟨q, hq'⟩ := exists_next f r hr
      have F := h.behind f hf p r q hp hq'
      have Fx := solid_behind faces h f hf p r q hp hq' x hx
      obtain ⟨i, hi, hif⟩ := h.solid f hf
      have hi0 : 0 < side p r q i := lt_of_le_of_ne (F i hi).1 fun e => hif ((F i hi).2.mp e.symm)
      have hn := clip_nodup h hs hf hpos
      have h3 := (kept_iff h hs ⟨q0, hq, hq0⟩ hout hf).mpr hpos
      obtain ⟨ca, cb⟩ := mem_of_step _ _ hab
      have cc := (mem_of_step _ _ hbc).2
      have T := clip_left h hs hf hpos i hi hif a b hab c cc (by
        rintro rfl
        exact swap_other _ hn h3 _ hab hbc) (by
        rintro rfl
        exact swap_other _ hn h3 (c, c) hbc hbc)
      have pl := clip_plane (s := s) hf (side p r q) (affine_side p r q) F
      have four := side_four (real p) (real r) (real q) (real a) (real b) (real c) (real i) x
      rw [side_real p r q a, side_real p r q b, side_real p r q c, pl a ca, pl b cb, pl c cc, side_real a b c i,
        side_real p r q i] at four
      have T' : (0 : ℝ) < (side a b c i : ℚ) := by exact_mod_cast T
      have hi' : (0 : ℝ) < (side p r q i : ℚ) := by exact_mod_cast hi0
      have four' : side (real a) (real b) (real c) x * ((side p r q i : ℚ) : ℝ) =
          ((side a b c i : ℚ) : ℝ) * side (real p) (real r) (real q) x := by
        rw [four]; push_cast; ring
      have := mul_nonneg T'.le Fx
      rw [← four'] at this
      exact nonneg_of_mul_nonneg_left this hi'
    · obtain ⟨T, _⟩ := cap_behind h hs hq hq0 hout hC a b c hab hbc
      obtain ⟨ca, cb⟩ := mem_of_step _ _ hab
      have cc := (mem_of_step _ _ hbc).2
      have four := affine_four (n0 : ℝ) n1 n2 k (real a) (real b) (real c) (real q0) x
      rw [← cast a, ← cast b, ← cast c, ← cast q0, ((hC.mem a).mp ca).2, ((hC.mem b).mp cb).2, ((hC.mem c).mp cc).2,
        side_real a b c q0] at four
      have T' : (0 : ℝ) < (side a b c q0 : ℚ) := by exact_mod_cast T
      have hq' : (0 : ℝ) < (s q0 : ℚ) := by exact_mod_cast hq0
      have four' : side (real a) (real b) (real c) x * ((s q0 : ℚ) : ℝ) =
          ((side a b c q0 : ℚ) : ℝ) * ((n0 : ℝ) * x 0 + n1 * x 1 + n2 * x 2 + k) := by
        rw [four]; push_cast; ring
      have := mul_nonneg T'.le hx0
      rw [← four'] at this
      exact nonneg_of_mul_nonneg_left this hq'

end

end Brille.Convex
