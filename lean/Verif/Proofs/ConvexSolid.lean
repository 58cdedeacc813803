/- The surface of a convex polyhedron meets what cutting it needs. -/
import Verif.Proofs.ConvexRest
import Verif.Proofs.SortFace

namespace Brille.Convex

open Brille.Spec Brille.Tetra

section
variable {faces : List (List Pt)} (h : ConvexPolyhedron faces) {s : Pt → ℚ}
include h

/-- two faces that share an edge share nothing else -/
theorem edge_both {f g : List Pt} (hf : f ∈ faces) (hg : g ∈ faces) (a b : Pt) (hab : (a, b) ∈ steps f) (hba : (b, a) ∈ steps g)
    (hne : g ≠ f) (p : Pt) (hpf : p ∈ f) (hpg : p ∈ g) : p = a ∨ p = b := by
  by_contra hn
  push Not at hn
  have ha := (mem_of_step g _ hba).2
  have hb := (mem_of_step g _ hba).1
  obtain ⟨i, hi, hif⟩ := h.solid f hf
  have l := edge_left h hf i hi hif a b hab p hpf hn.1 hn.2
  obtain ⟨L, hL, hLf, j, hj, hj0⟩ := face_plane h hf
  obtain ⟨M, hM, hMg, k, hk, hk0⟩ := face_plane h hg
  obtain ⟨x, hx, hxg⟩ := h.apart f hf g hg (Ne.symm hne)
  have e := hM.four a b p i x
  rw [(hMg a ⟨g, hg, ha⟩).2.mpr ha, (hMg b ⟨g, hg, hb⟩).2.mpr hb, (hMg p ⟨g, hg, hpg⟩).2.mpr hpg,
    coplanar L hL j hj0 a b p x ((hLf a ⟨g, hg, ha⟩).2.mpr (mem_of_step f _ hab).1) ((hLf b ⟨g, hg, hb⟩).2.mpr (mem_of_step f _ hab).2)
      ((hLf p ⟨g, hg, hpg⟩).2.mpr hpf) ((hLf x ⟨f, hf, hx⟩).2.mpr hx)] at e
  have : side a b p i * M x = 0 := by linarith
  exact hxg ((hMg x ⟨f, hf, hx⟩).2.mp ((mul_eq_zero.mp this).resolve_left l.ne'))

/-- edges that meet between their ends are the same -/
theorem edges_meet (a b c d : Pt) (hab : (a, b) ∈ faces.flatMap steps) (hcd : (c, d) ∈ faces.flatMap steps) (u t : ℚ)
    (u0 : 0 < u) (u1 : u < 1) (t0 : 0 < t) (t1 : t < 1) (e : along a b u = along c d t) : (a, b) = (c, d) ∨ (a, b) = (d, c) := by
  obtain ⟨f, hf, hs⟩ := List.mem_flatMap.mp hab
  obtain ⟨g, hg, hs', hne⟩ := across h hf a b hs
  obtain ⟨k, hk, hcdk⟩ := List.mem_flatMap.mp hcd
  obtain ⟨hc, hd⟩ := corner_of_edge c d hcd
  obtain ⟨ha, hb⟩ := corner_of_edge a b hab
  have on : ∀ f ∈ faces, a ∈ f → b ∈ f → c ∈ f ∧ d ∈ f := by
    intro f hf haf hbf
    obtain ⟨L, hL, hLf, _⟩ := face_plane h hf
    have z : L (along c d t) = 0 := by
      rw [← e, hL.along, (hLf a ha).2.mpr haf, (hLf b hb).2.mpr hbf]; ring
    rw [hL.along] at z
    have a1 := mul_nonneg (sub_nonneg.mpr t1.le) (hLf c hc).1
    have a2 := mul_nonneg t0.le (hLf d hd).1
    have z1 : (1 - t) * L c = 0 := by linarith
    have z2 : t * L d = 0 := by linarith
    exact ⟨(hLf c hc).2.mp ((mul_eq_zero.mp z1).resolve_left (by linarith)), (hLf d hd).2.mp ((mul_eq_zero.mp z2).resolve_left t0.ne')⟩
  have o1 := on f hf (mem_of_step f _ hs).1 (mem_of_step f _ hs).2
  have o2 := on g hg (mem_of_step g _ hs').2 (mem_of_step g _ hs').1
  have c1 := edge_both h hf hg a b hs hs' hne c o1.1 o2.1
  have c2 := edge_both h hf hg a b hs hs' hne d o1.2 o2.2
  have hcd' : c ≠ d := by
    rintro rfl
    exact swap_other k (h.simple k hk).1 (h.simple k hk).2 _ hcdk hcdk
  rcases c1 with rfl | rfl <;> rcases c2 with rfl | rfl
  · exact absurd rfl hcd'
  · exact Or.inl rfl
  · exact Or.inr rfl
  · exact absurd rfl hcd'

/-- every corner is a proper corner -/
theorem turning (f : List Pt) (hf : f ∈ faces) : Turning f := by
  intro i p q r rest e
  rintro ⟨t, t0, t1, ht⟩
  have hn : (p :: q :: r :: rest).Nodup := by rw [← e]; exact List.nodup_rotate.mpr (h.simple f hf).1
  have mem : ∀ x ∈ p :: q :: r :: rest, x ∈ f := fun x hx => by rw [← e] at hx; exact List.mem_rotate.mp hx
  have hpq : p ≠ q := fun e => by simp [e] at hn
  have hqr : q ≠ r := fun e => by simp [e] at hn
  rcases t1.lt_or_eq with t1 | t1
  · refine not_between h hf p q r (mem p (by simp)) (mem q (by simp)) (mem r (by simp)) hpq (1 - t) t (by linarith) t0 ?_
    intro d
    have := congrFun ht d
    unfold along at this
    rw [this]; ring
  · rw [t1] at ht
    exact hqr (ht.trans (funext fun d => by unfold along; ring))

/-- three faces meet at every corner -/
theorem three_at_corner : ThreeAtEachCorner faces := by
  intro f hf p hp
  obtain ⟨a, ha⟩ := exists_prev f p hp
  obtain ⟨c, hc⟩ := exists_next f p hp
  obtain ⟨g1, hg1, s1, n1⟩ := across h hf a p ha
  obtain ⟨g2, hg2, s2, n2⟩ := across h hf p c hc
  have hne : g1 ≠ g2 := by
    rintro rfl
    rcases edge_both h hf hg1 a p ha s1 n1 c (mem_of_step f _ hc).2 (mem_of_step g1 _ s2).1 with e | e
    · subst e; exact swap_other f (h.simple f hf).1 (h.simple f hf).2 _ ha hc
    · subst e; exact swap_other f (h.simple f hf).1 (h.simple f hf).2 _ hc hc
  have hnd : [f, g1, g2].Nodup := by simp [n1.symm, n2.symm, hne]
  have := (List.subperm_of_subset hnd (l₂ := faces.filter fun g => decide (p ∈ g)) (by
    intro x hx
    simp only [List.mem_cons, List.not_mem_nil, or_false] at hx
    rcases hx with rfl | rfl | rfl
    · exact List.mem_filter.mpr ⟨hf, by simpa using hp⟩
    · exact List.mem_filter.mpr ⟨hg1, by simpa using (mem_of_step _ _ s1).1⟩
    · exact List.mem_filter.mpr ⟨hg2, by simpa using (mem_of_step _ _ s2).2⟩)).length_le
  simpa using this

omit h in
theorem affine_neg (hs : Affine s) : Affine fun x => - s x := by
  obtain ⟨n0, n1, n2, c, e⟩ := hs
  exact ⟨-n0, -n1, -n2, -c, fun x => by simp only [e x]; ring⟩

/-- a corner in the plane has a neighbour beyond it -/
theorem neighbour_beyond (hs : Affine s) (hout : ∃ p, IsCorner faces p ∧ s p < 0) (y : Pt) (hy : IsCorner faces y) (h0 : s y = 0) :
    ∃ a, (a, y) ∈ faces.flatMap steps ∧ s a < 0 := by
  obtain ⟨k, w, hk, hret, hlt, hw⟩ := link faces h y hy
  obtain ⟨q, hq, hq0⟩ := hout
  obtain ⟨j, hj, hj0⟩ := neighbour_link h (affine_neg hs) y k w hk hret hlt hw q hq (by linarith)
  rw [h0] at hj0
  obtain ⟨f, hf, _, hs2, _⟩ := hw j
  exact ⟨w j, h.closed _ _ (List.mem_flatMap.mpr ⟨f, hf, hs2⟩), by linarith⟩

/-- the corners of the new face -/
theorem cap_points (hs : Affine s) (hout : ∃ p, IsCorner faces p ∧ s p < 0) (x : Pt) :
    (∃ a b, (a, b) ∈ faces.flatMap steps ∧ s a < 0 ∧ 0 ≤ s b ∧ x = crossing s a b) ↔ Sub faces s x ∧ s x = 0 := by
  constructor
  · rintro ⟨a, b, hab, ha, hb, rfl⟩
    refine ⟨?_, crossing_zero hs a b (by linarith)⟩
    rcases hb.lt_or_eq with hb | hb
    · exact Or.inr ⟨a, b, hab, ha, hb, rfl⟩
    · rw [crossing_end s a b hb.symm ha.ne]
      exact Or.inl ⟨(corner_of_edge a b hab).2, hb.le⟩
  · rintro ⟨⟨hc, _⟩ | ⟨a, b, hab, ha, hb, rfl⟩, h0⟩
    · obtain ⟨a, ha, ha0⟩ := neighbour_beyond h hs hout x hc h0
      exact ⟨a, x, ha, ha0, h0.ge, (crossing_end s a x h0 ha0.ne).symm⟩
    · exact ⟨a, b, hab, ha, hb.le, rfl⟩

/-- a face has two corners in the plane at most -/
theorem zero_two (hs : Affine s) (hin : ∃ p, IsCorner faces p ∧ 0 < s p) (hout : ∃ p, IsCorner faces p ∧ s p < 0)
    {f : List Pt} (hf : f ∈ faces) : (f.filter fun p => decide (s p = 0)).length < 3 := by
  have hn : (f.filter fun p => decide (s p = 0)).Nodup := (h.simple f hf).1.filter _
  have two : ∀ u v, (∀ p ∈ f, s p = 0 → p = u ∨ p = v) → (f.filter fun p => decide (s p = 0)).length < 3 := by
    intro u v hz
    have := (List.subperm_of_subset hn (l₂ := [u, v]) (by
      intro p hp
      obtain ⟨h1, h2⟩ := List.mem_filter.mp hp
      rcases hz p h1 (by simpa using h2) with rfl | rfl <;> simp)).length_le
    simp only [List.length_cons, List.length_nil] at this
    omega
  by_cases hz : ∃ p ∈ f, s p = 0
  · obtain ⟨z, hz, hz0⟩ := hz
    by_cases hneg : ∃ j ∈ f, s j < 0
    · obtain ⟨n1, nk, m1, ml, hM⟩ := mixed_face h hs hf ⟨z, hz, hz0.ge⟩ hneg
      exact two n1 nk fun p hp h0 => mixed_zero h hs hf hM p hp h0
    · by_cases hpos : ∃ j ∈ f, 0 < s j
      · obtain ⟨n1, nk, m1, ml, hM⟩ := mixed_face h (affine_neg hs) hf ⟨z, hz, by simp [hz0]⟩
          (by obtain ⟨j, hj, hj0⟩ := hpos; exact ⟨j, hj, by simpa using hj0⟩)
        exact two n1 nk fun p hp h0 => mixed_zero h (affine_neg hs) hf hM p hp (by simp [h0])
      · push Not at hneg hpos
        exfalso
        have h3 : 3 ≤ (clip s f).length := by
          rw [clip_nonneg s f hneg]; exact (h.simple f hf).2
        obtain ⟨p, hp, hp0⟩ := (kept_iff h hs hin hout hf).mp h3
        linarith [hpos p hp]
  · push Not at hz
    have : f.filter (fun p => decide (s p = 0)) = [] := by
      rw [List.filter_eq_nil_iff]
      intro p hp
      simpa using hz p hp
    rw [this]; simp

end

end Brille.Convex
