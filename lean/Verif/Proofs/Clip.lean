/- The loop of `one_cut` clips every face. -/
import Verif.Proofs.Cut
import Verif.Proofs.FacesVolume
import Verif.Spec.Clip

namespace Brille.Cut

open Brille.Tetra Brille.Faces Brille.FaceEdit Brille.Spec

/-- a face with the vertices put into its edges -/
def weave (ins : Nat × Nat → Option Nat) (face : Face) : Face := (steps face).flatMap fun e => e.1 :: (ins e).toList

theorem steps_fst (f : Face) : (steps f).map Prod.fst = f := by
  rw [steps, List.map_fst_zip]
  rw [List.length_rotate]

theorem steps_length (f : Face) : (steps f).length = f.length := by simp [steps]

theorem steps_get (f : Face) (i : Nat) (hi : i < f.length) :
    (steps f)[i]'(by rw [steps_length]; exact hi) = (f[i], f[(i + 1) % f.length]'(Nat.mod_lt _ (by omega))) := by
  simp only [steps, List.getElem_zip, List.getElem_rotate]

theorem weave_none (face : Face) : weave (fun _ => none) face = face := by
  conv_rhs => rw [← steps_fst face]
  rw [List.map_eq_flatMap]
  rfl

/-- behind an edge comes one which starts where it ends -/
theorem steps_next (f : Face) (S1 S2 : List (Nat × Nat)) (p q : Nat) (h : steps f = S1 ++ (p, q) :: S2) :
    ∃ e, (S2 ++ steps f).head? = some e ∧ e.1 = q := by
  have hl := steps_length f
  rw [h] at hl
  simp only [List.length_append, List.length_cons] at hl
  have h1 := steps_get f S1.length (by omega)
  have hp : (steps f)[S1.length]'(by rw [steps_length]; omega) = (p, q) := by simp [h]
  rw [hp] at h1
  have hq : q = f[(S1.length + 1) % f.length]'(Nat.mod_lt _ (by omega)) := congrArg Prod.snd h1
  cases S2 with
  | nil =>
    have h0 := steps_get f 0 (by omega)
    refine ⟨(steps f)[0]'(by rw [steps_length]; omega), ?_, ?_⟩
    · rw [List.nil_append, List.head?_eq_getElem?, List.getElem?_eq_getElem]
    · rw [h0, hq]
      simp only [List.length_nil, zero_add] at hl
      simp [hl]
  | cons e t =>
    refine ⟨e, rfl, ?_⟩
    have h2 := steps_get f (S1.length + 1) (by simp at hl; omega)
    have : (steps f)[S1.length + 1]'(by rw [steps_length]; simp at hl; omega) = e := by
      simp only [h]
      rw [List.getElem_append_right (by omega)]
      simp
    rw [this] at h2
    rw [h2, hq]
    simp only [List.length_cons] at hl
    simp only
    congr 1
    rw [Nat.mod_eq_of_lt (by omega)]

theorem mem_weave (ins : Nat × Nat → Option Nat) (face : Face) (i : Nat) :
    i ∈ weave ins face ↔ i ∈ face ∨ ∃ e ∈ steps face, ins e = some i := by
  unfold weave
  rw [List.mem_flatMap]
  constructor
  · rintro ⟨e, he, hi⟩
    rcases List.mem_cons.mp hi with h | h
    · left
      rw [← steps_fst face, h]
      exact List.mem_map_of_mem he
    · right
      exact ⟨e, he, by simpa using h⟩
  · rintro (h | ⟨e, he, h⟩)
    · rw [← steps_fst face] at h
      obtain ⟨e, he, rfl⟩ := List.mem_map.mp h
      exact ⟨e, he, by simp⟩
    · exact ⟨e, he, by simp [h]⟩

theorem flatMap_congr_mem {α β : Type} (l : List α) (f g : α → List β) (h : ∀ x ∈ l, f x = g x) :
    l.flatMap f = l.flatMap g := by
  induction l with
  | nil => rfl
  | cons a t ih => rw [List.flatMap_cons, List.flatMap_cons, h a (by simp), ih fun x hx => h x (by simp [hx])]

/-- putting a new vertex into an edge of a face -/
theorem addBetween_weave (ins : Nat × Nat → Option Nat) (face : Face) (n : Nat) (hn : face.Nodup)
    (hlt : ∀ i ∈ face, i < n) (hins : ∀ e k, ins e = some k → n ≤ k) (e : Nat × Nat) (he : e ∈ steps face)
    (hnone : ins e = none) (x : Nat) (hx : x ∉ weave ins face) :
    ListUtil.addBetweenIfMissing (weave ins face) e.1 e.2 x = some (weave (Function.update ins e (some x)) face, true) := by
  obtain ⟨S1, S2, hS⟩ := List.append_of_mem he
  have hnd : (steps face).Nodup := by
    apply List.Nodup.of_map Prod.fst
    rw [steps_fst]
    exact hn
  rw [hS] at hnd
  have hn1 : e ∉ S1 ∧ e ∉ S2 := by
    rw [List.nodup_append] at hnd
    refine ⟨fun h => ?_, ?_⟩
    · exact hnd.2.2 e h e (by simp) rfl
    · exact (List.nodup_cons.mp hnd.2.1).1
  have hw : weave ins face = (S1.flatMap fun e => e.1 :: (ins e).toList) ++ e.1 :: (S2.flatMap fun e => e.1 :: (ins e).toList) := by
    rw [weave, hS, List.flatMap_append, List.flatMap_cons, hnone]
    simp
  have hw' : weave (Function.update ins e (some x)) face = (S1.flatMap fun e => e.1 :: (ins e).toList) ++ e.1 :: x :: (S2.flatMap fun e => e.1 :: (ins e).toList) := by
    rw [weave, hS, List.flatMap_append, List.flatMap_cons]
    rw [flatMap_congr_mem S1 _ (fun e => e.1 :: (ins e).toList), flatMap_congr_mem S2 _ (fun e => e.1 :: (ins e).toList)]
    · simp
    · intro y hy
      rw [Function.update_of_ne]
      rintro rfl
      exact hn1.2 hy
    · intro y hy
      rw [Function.update_of_ne]
      rintro rfl
      exact hn1.1 hy
  refine ((Props.C41_add_between (weave ins face) e.1 e.2 x).2 hx _ _).mpr ⟨rfl, _, _, hw, ?_, ?_, hw'⟩
  · intro h
    rw [List.mem_flatMap] at h
    obtain ⟨y, hy, h⟩ := h
    rcases List.mem_cons.mp h with h | h
    · have hf := steps_fst face
      rw [hS, List.map_append, List.map_cons] at hf
      rw [← hf, List.nodup_append] at hn
      exact hn.2.2 y.1 (List.mem_map_of_mem hy) e.1 (by simp) h.symm
    · have h1 := hins y e.1 (by simpa using h)
      have h2 := hlt e.1 (by rw [← steps_fst face]; exact List.mem_map_of_mem he)
      omega
  · obtain ⟨y, h1, h2⟩ := steps_next face S1 S2 e.1 e.2 hS
    cases S2 with
    | nil =>
      rw [List.flatMap_nil, List.nil_append]
      rw [List.nil_append] at h1
      rw [weave]
      cases hst : steps face with
      | nil => rw [hst] at h1; cases h1
      | cons a t =>
        rw [hst] at h1
        cases h1
        rw [List.flatMap_cons, List.cons_append, List.head?_cons, h2]
    | cons a t =>
      rw [List.cons_append, List.head?_cons] at h1
      cases h1
      rw [List.flatMap_cons, List.cons_append, List.cons_append, List.head?_cons, h2]

theorem weave_update_of_notMem (ins : Nat × Nat → Option Nat) (face : Face) (e : Nat × Nat) (x : Option Nat)
    (h : e ∉ steps face) : weave (Function.update ins e x) face = weave ins face := by
  unfold weave
  apply flatMap_congr_mem
  intro y hy
  rw [Function.update_of_ne]
  rintro rfl
  exact h hy

/-- the same in the list of all faces -/
theorem set_weave (ins : Nat × Nat → Option Nat) (faces : List Face) (e : Nat × Nat) (x : Nat) (k : Nat)
    (hk : k < faces.length) (hother : ∀ j, (hj : j < faces.length) → j ≠ k → e ∉ steps faces[j]) :
    (faces.map (weave ins)).set k (weave (Function.update ins e (some x)) faces[k]) =
      faces.map (weave (Function.update ins e (some x))) := by
  apply List.ext_getElem
  · simp
  · intro j h1 h2
    simp only [List.length_set, List.length_map] at h1
    by_cases hjk : j = k
    · subst hjk
      simp
    · rw [List.getElem_set_ne (Ne.symm hjk)]
      simp only [List.getElem_map]
      rw [weave_update_of_notMem _ _ _ _ (hother j h1 hjk)]

/-- the point of the plane on an edge -/
def cross (P : Plane) (v : List Pt) (e : Nat × Nat) : Pt := crossing P.orient (v.getD e.1 0) (v.getD e.2 0)

theorem crossing_symm (side : Pt → ℚ) (p q : Pt) (h : side p ≠ side q) : crossing side p q = crossing side q p := by
  unfold crossing along
  funext d
  have h1 : side p - side q ≠ 0 := sub_ne_zero.mpr h
  have h2 : side q - side p ≠ 0 := sub_ne_zero.mpr (Ne.symm h)
  have h3 : side q / (side q - side p) = 1 - side p / (side p - side q) := by
    field_simp
    ring
  rw [h3]
  ring

theorem cross_along (P : Plane) (v : List Pt) (e : Nat × Nat) (h1 : P.orient (v.getD e.1 0) < 0)
    (h2 : 0 < P.orient (v.getD e.2 0)) : ∃ t, 0 < t ∧ t < 1 ∧ cross P v e = along (v.getD e.1 0) (v.getD e.2 0) t := by
  refine ⟨_, ?_, ?_, rfl⟩
  · exact div_pos_of_neg_of_neg h1 (by linarith)
  · rw [div_lt_one_of_neg (by linarith)]
    linarith

theorem cross_end (P : Plane) (v : List Pt) (e : Nat × Nat) (h1 : P.orient (v.getD e.1 0) < 0)
    (h2 : P.orient (v.getD e.2 0) = 0) : cross P v e = v.getD e.2 0 := by
  unfold cross crossing along
  funext d
  rw [h2, sub_zero, div_self h1.ne]
  ring

theorem intersection_cross (P : Plane) (v : List Pt) (e : Nat × Nat) (h1 : P.orient (v.getD e.1 0) < 0)
    (h2 : 0 ≤ P.orient (v.getD e.2 0)) : intersection P v e = some (cross P v e) := by
  have hd : dot P.normal (diff (v.getD e.2 0) (v.getD e.1 0)) = P.orient (v.getD e.1 0) - P.orient (v.getD e.2 0) := by
    rw [orient_normal, orient_normal]
    simp only [dot, diff]
    ring
  have hneg : P.orient (v.getD e.1 0) - P.orient (v.getD e.2 0) < 0 := by linarith
  have hf : dot P.normal (diff P.a (v.getD e.1 0)) / dot P.normal (diff (v.getD e.2 0) (v.getD e.1 0)) =
      P.orient (v.getD e.1 0) / (P.orient (v.getD e.1 0) - P.orient (v.getD e.2 0)) := by
    rw [hd, ← orient_normal]
  have t0 : 0 < P.orient (v.getD e.1 0) / (P.orient (v.getD e.1 0) - P.orient (v.getD e.2 0)) := div_pos_of_neg_of_neg h1 hneg
  have t1 : P.orient (v.getD e.1 0) / (P.orient (v.getD e.1 0) - P.orient (v.getD e.2 0)) ≤ 1 := by
    rw [div_le_one_of_neg hneg]; linarith
  unfold intersection
  simp only
  rw [if_neg (by rw [hd]; exact hneg.ne), hf, if_neg (not_lt.mpr t0.le), if_neg (not_lt.mpr t1)]
  rfl

/-- the edges from a vertex beyond the plane to one that is not -/
def Leaves (P : Plane) (v : List Pt) (e : Nat × Nat) : Prop := P.orient (v.getD e.1 0) < 0 ∧ 0 ≤ P.orient (v.getD e.2 0)

/-- what the loop has done after the edges of `done` -/
structure Woven (P : Plane) (vin : List Pt) (faces : List Face) (done : List (Nat × Nat)) (ins : Nat × Nat → Option Nat)
    (st : St) : Prop where
  keep : st.keep = inside P vin
  v : ∃ new, st.v = vin ++ new ∧ new.length = st.count
  f : st.f = faces.map (weave ins)
  hins : ∀ e k, ins e = some k → vin.length ≤ k ∧ st.v[k]? = some (cross P vin e) ∧ (e ∈ done ∨ e.swap ∈ done)
  pos : ∀ e ∈ done, 0 < P.orient (vin.getD e.2 0) → ∃ k, ins e = some k ∧ ins e.swap = some k
  zero : ∀ e ∈ done, P.orient (vin.getD e.2 0) = 0 → ins e = none ∧ ins e.swap = none
  new : ∀ k, vin.length ≤ k → k < st.v.length → ∃ e ∈ done, ins e = some k
  vn : st.v.Nodup
  inj : ∀ e e' k, ins e = some k → ins e' = some k → e' = e ∨ e' = e.swap
  capn : st.newFace.Nodup
  cap : ∀ i, i ∈ st.newFace ↔ ∃ e ∈ done, ins e = some i ∨ P.orient (vin.getD e.2 0) = 0 ∧ i = e.2

theorem step_unique (faces : List Face) (h : (faces.flatMap steps).Nodup) (e : Nat × Nat) (k j : Nat)
    (hk : k < faces.length) (hj : j < faces.length) (ek : e ∈ steps faces[k]) (ej : e ∈ steps faces[j]) : j = k := by
  rw [List.nodup_flatMap] at h
  by_contra hc
  have hp := List.pairwise_iff_getElem.mp h.2
  rcases Nat.lt_or_gt_of_ne hc with hlt | hlt
  · exact (hp j k hj hk hlt) ej ek
  · exact (hp k j hk hj hlt) ek ej

theorem mem_steps_faces (faces : List Face) (e : Nat × Nat) (k : Nat) (hk : k < faces.length) (h : e ∈ steps faces[k]) :
    e ∈ faces.flatMap steps := List.mem_flatMap.mpr ⟨_, List.getElem_mem hk, h⟩

theorem mem_of_step (f : Face) (e : Nat × Nat) (h : e ∈ steps f) : e.1 ∈ f ∧ e.2 ∈ f := by
  unfold steps at h
  obtain ⟨a, b⟩ := e
  have := List.of_mem_zip h
  exact ⟨this.1, List.mem_rotate.mp this.2⟩

theorem findIdx_eq_of_nodup (v : List Pt) (hn : v.Nodup) (new : List Pt) (i : Nat) (hi : i < v.length) (x : Pt)
    (hx : v[i] = x) : (v ++ new).findIdx (fun p => decide (p = x)) = i := by
  have hlen : i < (v ++ new).length := by simp; omega
  rw [List.findIdx_eq hlen]
  constructor
  · simp [List.getElem_append_left hi, hx]
  · intro j hj
    have hjv : j < v.length := by omega
    rw [List.getElem_append_left hjv]
    simp only [decide_eq_false_iff_not]
    intro h
    have := (List.Nodup.getElem_inj_iff hn).mp (h.trans hx.symm)
    omega

theorem cutStep_woven (P : Plane) (vin : List Pt) (faces : List Face) (hS : Surface vin faces) (done : List (Nat × Nat))
    (ins : Nat × Nat → Option Nat) (st : St) (hw : Woven P vin faces done ins st)
    (hdone : ∀ e ∈ done, Leaves P vin e ∧ e ∈ faces.flatMap steps) (first second : Nat) (e : Nat × Nat) (he : e ∉ done) (hl : Leaves P vin e)
    (h1 : first < faces.length) (h2 : second < faces.length) (hne : second ≠ first)
    (e1 : e ∈ steps faces[first]) (e2 : e.swap ∈ steps faces[second]) :
    ∃ st' ins', cutStep st (first, second, e, cross P vin e) = some st' ∧ Woven P vin faces (e :: done) ins' st' := by
  obtain ⟨new, hv, hnew⟩ := hw.v
  have hvalid := hS.valid
  have m1 := mem_of_step _ _ e1
  have m2 := mem_of_step _ _ e2
  have l1 := hvalid _ (List.getElem_mem h1) _ m1.1
  have l2 := hvalid _ (List.getElem_mem h1) _ m1.2
  have hkl : st.keep.length = vin.length := by rw [hw.keep]; simp [inside]
  have hvl : st.v.length = vin.length + new.length := by rw [hv, List.length_append]
  have gd : ∀ i, (hi : i < vin.length) → vin.getD i 0 = vin[i] := by
    intro i hi
    rw [List.getD_eq_getElem?_getD, List.getElem?_eq_getElem hi, Option.getD_some]
  have hsw : e.swap ∉ done := by
    intro h
    have := (hdone _ h).1.1
    have := hl.2
    simp only [Prod.fst_swap] at *
    linarith
  have hfg : ∀ (I : Nat × Nat → Option Nat) k, (hk : k < faces.length) → (faces.map (weave I)).getD k [] = weave I faces[k] := by
    intro I k hk
    rw [List.getD_eq_getElem?_getD, List.getElem?_map, List.getElem?_eq_getElem hk]
    rfl
  rcases lt_or_eq_of_le hl.2 with hpos | hzero
  · -- a new vertex
    have hcn : ∀ p ∈ st.v, p ≠ cross P vin e := by
      obtain ⟨t, t0, t1, ht⟩ := cross_along P vin e hl.1 hpos
      intro p hp
      rw [hv] at hp
      rcases List.mem_append.mp hp with h | h
      · rintro rfl
        rw [ht] at h
        exact hS.vertices e.1 e.2 (mem_steps_faces faces e first h1 e1) t t0 t1 h
      · obtain ⟨k, hk, rfl⟩ := List.getElem_of_mem h
        obtain ⟨y, hy, hyk⟩ := hw.new (vin.length + k) (by omega) (by omega)
        obtain ⟨_, hp, _⟩ := hw.hins y _ hyk
        rw [hv, List.getElem?_append_right (by omega)] at hp
        simp only [Nat.add_sub_cancel_left, List.getElem?_eq_getElem hk, Option.some.injEq] at hp
        rw [hp]
        have hyl := hdone y hy
        have hy2 : 0 < P.orient (vin.getD y.2 0) := by
          rcases lt_or_eq_of_le hyl.1.2 with h | h
          · exact h
          · rw [(hw.zero y hy h.symm).1] at hyk
            cases hyk
        obtain ⟨s, s0, s1, hs⟩ := cross_along P vin y hyl.1.1 hy2
        intro hc
        rw [hs, ht] at hc
        rcases hS.edges y.1 y.2 e.1 e.2 hyl.2 (mem_steps_faces faces e first h1 e1) s t s0 s1 t0 t1 hc with h | h
        · have : y = e := h
          exact he (this ▸ hy)
        · have : y = e.swap := h
          exact hsw (this ▸ hy)
    have hidx : (st.v.findIdx fun p => decide (p = cross P vin e)) = st.v.length := by
      rw [List.findIdx_eq_length]
      intro p hp
      simpa using hcn p hp
    have hnone : ins e = none := by
      cases hc : ins e with
      | none => rfl
      | some k => exact absurd (hw.hins e k hc).2.2 (by rintro (h | h); exacts [he h, hsw h])
    have hnone' : ins e.swap = none := by
      cases hc : ins e.swap with
      | none => rfl
      | some k => exact absurd (hw.hins _ k hc).2.2 (by rintro (h | h); exacts [hsw h, he h])
    have hesw : e ≠ e.swap := by
      intro h
      have h3 : e.1 = e.2 := congrArg Prod.fst h
      have := hl.1
      rw [h3] at this
      linarith
    have hge : ∀ y k, ins y = some k → vin.length ≤ k := fun y k h => (hw.hins y k h).1
    have hlt' : ∀ y k, ins y = some k → k < st.v.length := by
      intro y k h
      have := (hw.hins y k h).2.1
      by_contra hc
      rw [List.getElem?_eq_none (by omega)] at this
      cases this
    have hfresh : ∀ k, (hk : k < faces.length) → st.v.length ∉ weave ins faces[k] := by
      intro k hk h
      rcases (mem_weave _ _ _).mp h with h | ⟨y, _, h⟩
      · have := hvalid _ (List.getElem_mem hk) _ h
        omega
      · have := hlt' y _ h
        omega
    have a1 := addBetween_weave ins faces[first] vin.length (hS.simple _ (List.getElem_mem h1)).1
      (hvalid _ (List.getElem_mem h1)) hge e e1 hnone st.v.length (hfresh first h1)
    have hon : ∀ (y : Nat × Nat) k, (hk : k < faces.length) → y ∈ steps faces[k] → ∀ j, (hj : j < faces.length) → j ≠ k → y ∉ steps faces[j] :=
      fun y k hk hyk j hj hjk hyj => hjk (step_unique faces hS.once y k j hk hj hyk hyj)
    have s1 := set_weave ins faces e st.v.length first h1 (hon e first h1 e1)
    have hw2 : weave (Function.update ins e (some st.v.length)) faces[second] = weave ins faces[second] :=
      weave_update_of_notMem _ _ _ _ (hon e first h1 e1 second h2 hne)
    have a2 := addBetween_weave (Function.update ins e (some st.v.length)) faces[second] vin.length
      (hS.simple _ (List.getElem_mem h2)).1 (hvalid _ (List.getElem_mem h2)) (by
        intro y k h
        by_cases hy : y = e
        · subst hy
          rw [Function.update_self] at h
          cases h
          omega
        · rw [Function.update_of_ne hy] at h
          exact hge y k h) e.swap e2 (by rw [Function.update_of_ne (Ne.symm hesw)]; exact hnone') st.v.length
      (by rw [hw2]; exact hfresh second h2)
    have s2 := set_weave (Function.update ins e (some st.v.length)) faces e.swap st.v.length second h2
      (hon e.swap second h2 e2)
    simp only [Prod.fst_swap, Prod.snd_swap] at a2
    refine ⟨{ keep := st.keep, v := st.v ++ [cross P vin e], f := faces.map (weave (Function.update (Function.update ins e (some st.v.length)) e.swap (some st.v.length))), newFace := st.newFace ++ [st.v.length], count := st.count + 1 }, Function.update (Function.update ins e (some st.v.length)) e.swap (some st.v.length), ?_, ?_⟩
    · unfold cutStep
      simp only
      rw [hidx, if_neg (by omega), if_neg (by omega), if_pos rfl, if_pos rfl, hw.f, hfg ins first h1, a1]
      simp only
      rw [s1, hfg _ second h2, a2]
      simp only
      rw [s2]
      have : st.v.length ∉ st.newFace := by
        intro h
        obtain ⟨y, hy, h | h⟩ := (hw.cap _).mp h
        · have := hlt' y _ h
          omega
        · have hyl := (hdone y hy).2
          obtain ⟨g, hg, hyg⟩ := List.mem_flatMap.mp hyl
          have := hvalid g hg _ (mem_of_step g y hyg).2
          omega
      simp only [ListUtil.addIfMissing, if_neg this]
    · have hup : ∀ y, (Function.update (Function.update ins e (some st.v.length)) e.swap (some st.v.length)) y =
          if y = e ∨ y = e.swap then some st.v.length else ins y := by
        intro y
        by_cases hy2 : y = e.swap
        · subst hy2; rw [Function.update_self, if_pos (Or.inr rfl)]
        · rw [Function.update_of_ne hy2]
          by_cases hy1 : y = e
          · subst hy1; rw [Function.update_self, if_pos (Or.inl rfl)]
          · rw [Function.update_of_ne hy1, if_neg (by tauto)]
      have hdne : ∀ y ∈ done, ¬ (y = e ∨ y = e.swap) := by
        rintro y hy (rfl | rfl)
        · exact he hy
        · exact hsw hy
      have hdne' : ∀ y ∈ done, ¬ (y.swap = e ∨ y.swap = e.swap) := by
        rintro y hy (h | h)
        · apply hsw; rw [← h, Prod.swap_swap]; exact hy
        · exact he (Prod.swap_injective h ▸ hy)
      refine ⟨hw.keep, ⟨new ++ [cross P vin e], by rw [hv, List.append_assoc], by simp [hnew]⟩, rfl, ?_, ?_, ?_, ?_, ?_, ?_, ?_, ?_⟩
      · intro y k h
        rw [hup] at h
        split at h
        · rename_i hy
          cases h
          refine ⟨by omega, ?_, ?_⟩
          · simp only
            rw [List.getElem?_append_right (by omega), Nat.sub_self]
            simp only [List.getElem?_cons_zero, Option.some.injEq]
            rcases hy with rfl | rfl
            · rfl
            · exact crossing_symm _ _ _ (ne_of_lt (by have := hl.1; linarith))
          · rcases hy with rfl | rfl
            · left; simp
            · right; simp
        · obtain ⟨b1, b2, b3⟩ := hw.hins y k h
          refine ⟨b1, ?_, ?_⟩
          · simp only
            rw [List.getElem?_append_left (hlt' y k h)]
            exact b2
          · rcases b3 with h | h
            · exact Or.inl (List.mem_cons_of_mem _ h)
            · exact Or.inr (List.mem_cons_of_mem _ h)
      · intro y hy h0
        rcases List.mem_cons.mp hy with rfl | hy
        · exact ⟨st.v.length, by rw [hup, if_pos (Or.inl rfl)], by rw [hup, if_pos (Or.inr rfl)]⟩
        · rw [hup, hup, if_neg (hdne y hy), if_neg (hdne' y hy)]
          exact hw.pos y hy h0
      · intro y hy h0
        rcases List.mem_cons.mp hy with rfl | hy
        · linarith
        · rw [hup, hup, if_neg (hdne y hy), if_neg (hdne' y hy)]
          exact hw.zero y hy h0
      · intro k hk1 hk2
        simp only [List.length_append, List.length_singleton] at hk2
        by_cases hk : k < st.v.length
        · obtain ⟨y, hy, hyk⟩ := hw.new k hk1 hk
          exact ⟨y, List.mem_cons_of_mem _ hy, by rw [hup, if_neg (hdne y hy)]; exact hyk⟩
        · have : k = st.v.length := by omega
          exact ⟨e, by simp, by rw [hup, if_pos (Or.inl rfl), this]⟩
      · simp only
        rw [List.nodup_append]
        refine ⟨hw.vn, by simp, ?_⟩
        intro a ha b hb hab
        rw [List.mem_singleton] at hb
        exact hcn a ha (hab.trans hb)
      · intro y z k hy hz
        rw [hup] at hy hz
        split at hy
        · cases hy
          rename_i hy
          split at hz
          · rename_i hze
            rcases hy with rfl | rfl
            · exact hze
            · rw [Prod.swap_swap]; exact Or.symm hze
          · have := hlt' z _ hz
            omega
        · split at hz
          · cases hz
            have := hlt' y _ hy
            omega
          · exact hw.inj y z k hy hz
      · simp only
        rw [List.nodup_append]
        refine ⟨hw.capn, by simp, ?_⟩
        intro a ha b hb hab
        rw [List.mem_singleton] at hb
        subst hb hab
        obtain ⟨y, hy, h | h⟩ := (hw.cap _).mp ha
        · have := hlt' y _ h
          omega
        · have hyl := (hdone y hy).2
          obtain ⟨g, hg, hyg⟩ := List.mem_flatMap.mp hyl
          have := hvalid g hg _ (mem_of_step g y hyg).2
          omega
      · intro i
        simp only [List.mem_append, List.mem_singleton]
        constructor
        · rintro (h | h)
          · obtain ⟨y, hy, h⟩ := (hw.cap i).mp h
            exact ⟨y, List.mem_cons_of_mem _ hy, by rw [hup, if_neg (hdne y hy)]; exact h⟩
          · exact ⟨e, by simp, Or.inl (by rw [hup, if_pos (Or.inl rfl), h])⟩
        · rintro ⟨y, hy, h⟩
          rcases List.mem_cons.mp hy with rfl | hy
          · rcases h with h | h
            · rw [hup, if_pos (Or.inl rfl)] at h
              right
              exact (Option.some.inj h).symm
            · linarith [h.1]
          · rw [hup, if_neg (hdne y hy)] at h
            exact Or.inl ((hw.cap i).mpr ⟨y, hy, h⟩)
  · -- an existing vertex in the plane
    have hx : cross P vin e = vin[e.2] := by rw [cross_end P vin e hl.1 hzero.symm, gd _ l2]
    have hidx : (st.v.findIdx fun p => decide (p = cross P vin e)) = e.2 := by
      rw [hv]
      exact findIdx_eq_of_nodup vin hS.distinct new e.2 l2 _ hx.symm
    have hkeep : st.keep.set e.2 true = st.keep := by
      apply List.ext_getElem?
      intro i
      by_cases hii : i = e.2
      · subst hii
        rw [List.getElem?_set_self (by omega), hw.keep, inside_get P vin _ l2, ← hzero]
        simp
      · rw [List.getElem?_set_ne (Ne.symm hii)]
    have b1 : e.2 ∈ weave ins faces[first] := (mem_weave _ _ _).mpr (Or.inl m1.2)
    have b2 : e.2 ∈ weave ins faces[second] := (mem_weave _ _ _).mpr (Or.inl m2.1)
    have hset : ∀ k, (hk : k < faces.length) → (faces.map (weave ins)).set k (weave ins faces[k]) = faces.map (weave ins) := by
      intro k hk
      apply List.ext_getElem
      · simp
      · intro j g1 g2
        by_cases hjk : j = k
        · subst hjk; simp
        · rw [List.getElem_set_ne (Ne.symm hjk)]
    refine ⟨{ keep := st.keep, v := st.v, f := faces.map (weave ins), newFace := (ListUtil.addIfMissing st.newFace e.2).1, count := st.count }, ins, ?_, ?_⟩
    · unfold cutStep
      simp only
      simp only [hidx, if_pos (show e.2 < st.keep.length by omega), if_neg (show ¬ e.2 = st.v.length by omega)]
      rw [if_neg (show ¬ (st.keep.length ≤ e.2 ∧ e.2 < st.v.length) by omega), hw.f, hfg ins first h1,
        (Props.C41_add_between _ _ _ _).1 b1]
      simp only
      rw [hset first h1, hfg ins second h2, (Props.C41_add_between _ _ _ _).1 b2]
      simp only
      rw [hset second h2, hkeep]
    · have hnone : ins e = none := by
        cases hc : ins e with
        | none => rfl
        | some k => exact absurd (hw.hins e k hc).2.2 (by rintro (h | h); exacts [he h, hsw h])
      have hnone' : ins e.swap = none := by
        cases hc : ins e.swap with
        | none => rfl
        | some k => exact absurd (hw.hins _ k hc).2.2 (by rintro (h | h); exacts [hsw h, he h])
      refine ⟨hw.keep, ⟨new, hv, hnew⟩, rfl, ?_, ?_, ?_, ?_, ?_, ?_, ?_, ?_⟩
      · intro y k h
        obtain ⟨c1, c2, c3⟩ := hw.hins y k h
        exact ⟨c1, c2, c3.imp (List.mem_cons_of_mem _) (List.mem_cons_of_mem _)⟩
      · intro y hy h0
        rcases List.mem_cons.mp hy with rfl | hy
        · linarith
        · exact hw.pos y hy h0
      · intro y hy h0
        rcases List.mem_cons.mp hy with rfl | hy
        · exact ⟨hnone, hnone'⟩
        · exact hw.zero y hy h0
      · intro k k1 k2
        obtain ⟨y, hy, h⟩ := hw.new k k1 k2
        exact ⟨y, List.mem_cons_of_mem _ hy, h⟩
      · exact hw.vn
      · exact hw.inj
      · simp only [ListUtil.addIfMissing]
        split
        · exact hw.capn
        · rename_i hc
          simp only
          rw [List.nodup_append]
          refine ⟨hw.capn, by simp, ?_⟩
          intro a ha b hb hab
          rw [List.mem_singleton] at hb
          subst hb hab
          exact hc ha
      · intro i
        have : i ∈ (ListUtil.addIfMissing st.newFace e.2).1 ↔ i ∈ st.newFace ∨ i = e.2 := by
          simp only [ListUtil.addIfMissing]
          split
          · rename_i hc
            constructor
            · exact Or.inl
            · rintro (h | rfl)
              exacts [h, hc]
          · simp
        rw [this]
        constructor
        · rintro (h | h)
          · obtain ⟨y, hy, h⟩ := (hw.cap i).mp h
            exact ⟨y, List.mem_cons_of_mem _ hy, h⟩
          · exact ⟨e, by simp, Or.inr ⟨hzero.symm, h⟩⟩
        · rintro ⟨y, hy, h⟩
          rcases List.mem_cons.mp hy with rfl | hy
          · rcases h with h | h
            · rw [hnone] at h; cases h
            · exact Or.inr h.2
          · exact Or.inl ((hw.cap i).mpr ⟨y, hy, h⟩)


/-! ### the list of cut edges -/

theorem getD_edges (faces : List Face) (k : Nat) (hk : k < faces.length) :
    (edgesPerFace faces).getD k [] = steps faces[k] := by
  rw [edgesPerFace, List.getD_eq_getElem?_getD, List.getElem?_map, List.getElem?_eq_getElem hk]
  simp only [Option.map_some, Option.getD_some]
  exact faceEdges_eq _

theorem edges_length (faces : List Face) : (edgesPerFace faces).length = faces.length := by simp [edgesPerFace]

/-- an edge is not run along in both directions on the same face -/
theorem swap_other (f : Face) (hn : f.Nodup) (h3 : 3 ≤ f.length) (e : Nat × Nat) (h : e ∈ steps f) : e.swap ∉ steps f := by
  intro hc
  obtain ⟨i, hi, h1⟩ := List.getElem_of_mem h
  obtain ⟨j, hj, h2⟩ := List.getElem_of_mem hc
  rw [steps_length] at hi hj
  rw [steps_get f i hi] at h1
  rw [steps_get f j hj] at h2
  have e1 := congrArg Prod.fst h1
  have e2 := congrArg Prod.snd h1
  have e3 := congrArg Prod.fst h2
  have e4 := congrArg Prod.snd h2
  simp only [Prod.fst_swap, Prod.snd_swap] at e1 e2 e3 e4
  have a1 := (List.Nodup.getElem_inj_iff hn).mp (e3.trans e2.symm)
  have a2 := (List.Nodup.getElem_inj_iff hn).mp (e4.trans e1.symm)
  rcases Nat.lt_or_ge (i + 1) f.length with h | h
  · rw [Nat.mod_eq_of_lt h] at a1
    subst a1
    rcases Nat.lt_or_ge (i + 1 + 1) f.length with h' | h'
    · rw [Nat.mod_eq_of_lt h'] at a2; omega
    · have : i + 1 + 1 = f.length := by omega
      rw [this, Nat.mod_self] at a2; omega
  · have : i + 1 = f.length := by omega
    rw [this, Nat.mod_self] at a1
    subst a1
    rw [Nat.mod_eq_of_lt (by omega)] at a2
    omega

theorem cutEdges_mem (keep : List Bool) (faces : List Face) (hsim : ∀ f ∈ faces, f.Nodup ∧ 3 ≤ f.length)
    (hclosed : ∀ a b, (a, b) ∈ faces.flatMap steps → (b, a) ∈ faces.flatMap steps) (e : Nat × Nat)
    (he : e ∈ faces.flatMap steps) (h0 : e.1 < keep.length) (h1 : keep.getD e.1 false = false) (h2 : keep.getD e.2 false = true) :
    e ∈ (cutEdges keep (edgesPerFace faces)).map fun x => x.2.2 := by
  obtain ⟨f, hf, hef⟩ := List.mem_flatMap.mp he
  obtain ⟨g, hg, heg⟩ := List.mem_flatMap.mp (hclosed e.1 e.2 he)
  obtain ⟨first, hfl, rfl⟩ := List.getElem_of_mem hf
  obtain ⟨second, hsl, rfl⟩ := List.getElem_of_mem hg
  have hne : second ≠ first := by
    rintro rfl
    obtain ⟨a, b⟩ := hsim _ hf
    exact swap_other _ a b e hef heg
  rw [List.mem_map]
  refine ⟨(first, second, e), ?_, rfl⟩
  unfold cutEdges
  rw [List.mem_flatMap]
  refine ⟨e.1, List.mem_range.mpr h0, ?_⟩
  rw [if_neg (by rw [h1]; simp), List.mem_flatMap]
  refine ⟨first, List.mem_range.mpr (by rw [edges_length]; exact hfl), ?_⟩
  rw [List.mem_flatMap]
  refine ⟨e, by rw [getD_edges _ _ hfl]; exact hef, ?_⟩
  rw [if_pos ⟨rfl, h2⟩, List.mem_flatMap]
  refine ⟨second, List.mem_range.mpr (by rw [edges_length]; exact hsl), ?_⟩
  rw [if_pos hne, List.mem_flatMap]
  exact ⟨(e.2, e.1), by rw [getD_edges _ _ hsl]; exact heg, by rw [if_pos ⟨rfl, rfl⟩]; simp⟩

theorem nodup_map_flatMap {α β γ : Type} (l : List α) (f : α → List β) (g : β → γ) (hl : l.Nodup)
    (h1 : ∀ a ∈ l, ((f a).map g).Nodup) (h2 : ∀ a ∈ l, ∀ b ∈ l, ∀ x ∈ f a, ∀ y ∈ f b, g x = g y → a = b) :
    ((l.flatMap f).map g).Nodup := by
  rw [List.map_flatMap, List.nodup_flatMap]
  refine ⟨h1, ?_⟩
  rw [List.pairwise_iff_getElem]
  intro i j hi hj hij x hx hy
  obtain ⟨a, ha, rfl⟩ := List.mem_map.mp hx
  obtain ⟨b, hb, hab⟩ := List.mem_map.mp hy
  have := h2 _ (List.getElem_mem hi) _ (List.getElem_mem hj) a ha b hb hab.symm
  have := (List.Nodup.getElem_inj_iff hl).mp this
  omega

theorem cutEdges_nodup (keep : List Bool) (faces : List Face) (h : (faces.flatMap steps).Nodup) :
    ((cutEdges keep (edgesPerFace faces)).map fun x => x.2.2).Nodup := by
  have hst : ∀ k, k < faces.length → ((edgesPerFace faces).getD k []).Nodup := by
    intro k hk
    rw [getD_edges _ _ hk]
    exact (List.nodup_flatMap.mp h).1 _ (List.getElem_mem hk)
  have huniq : ∀ k j e, k < faces.length → j < faces.length → e ∈ (edgesPerFace faces).getD k [] →
      e ∈ (edgesPerFace faces).getD j [] → k = j := by
    intro k j e hk hj h1 h2
    rw [getD_edges _ _ hk] at h1
    rw [getD_edges _ _ hj] at h2
    exact (step_unique faces h e k j hk hj h1 h2).symm
  unfold cutEdges
  apply nodup_map_flatMap _ _ _ List.nodup_range
  · intro j _
    split
    · simp
    · apply nodup_map_flatMap _ _ _ List.nodup_range
      · intro first hf
        rw [List.mem_range, edges_length] at hf
        apply nodup_map_flatMap _ _ _ (hst first hf)
        · intro edge _
          split
          · apply nodup_map_flatMap _ _ _ List.nodup_range
            · intro second hs
              rw [List.mem_range, edges_length] at hs
              split
              · apply nodup_map_flatMap _ _ _ (hst second hs)
                · intro oppo _
                  split <;> simp
                · intro o1 _ o2 _ x hx y hy _
                  split at hx
                  · split at hy
                    · rename_i a b
                      exact Prod.ext (a.1.trans b.1.symm) (a.2.trans b.2.symm)
                    · simp at hy
                  · simp at hx
              · simp
            · intro s1 h1 s2 h2 x hx y hy _
              rw [List.mem_range, edges_length] at h1 h2
              split at hx
              · split at hy
                · rw [List.mem_flatMap] at hx hy
                  obtain ⟨o1, ho1, hx⟩ := hx
                  obtain ⟨o2, ho2, hy⟩ := hy
                  split at hx
                  · split at hy
                    · rename_i a b
                      have : o1 = o2 := Prod.ext (a.1.trans b.1.symm) (a.2.trans b.2.symm)
                      subst this
                      exact huniq s1 s2 o1 h1 h2 ho1 ho2
                    · simp at hy
                  · simp at hx
                · simp at hy
              · simp at hx
          · simp
        · have key : ∀ (edge : Nat × Nat) (x : Nat × Nat × (Nat × Nat)), x ∈ (if edge.1 = j ∧ keep.getD edge.2 false = true then
              (List.range (edgesPerFace faces).length).flatMap fun second =>
                if second ≠ first then
                  ((edgesPerFace faces).getD second []).flatMap fun oppo =>
                    if oppo.1 = edge.2 ∧ oppo.2 = j then [(first, second, edge)] else []
                else []
            else []) → x.2.2 = edge := by
            intro edge x hx
            split at hx
            · rw [List.mem_flatMap] at hx
              obtain ⟨s, _, hx⟩ := hx
              split at hx
              · rw [List.mem_flatMap] at hx
                obtain ⟨o, _, hx⟩ := hx
                split at hx
                · rw [List.mem_singleton] at hx
                  rw [hx]
                · simp at hx
              · simp at hx
            · simp at hx
          intro a _ b _ x hx y hy hxy
          rw [← key a x hx, ← key b y hy]
          exact hxy
      · have key : ∀ (first : Nat) (x : Nat × Nat × (Nat × Nat)), x ∈ (((edgesPerFace faces).getD first []).flatMap fun edge =>
              if edge.1 = j ∧ keep.getD edge.2 false = true then
                (List.range (edgesPerFace faces).length).flatMap fun second =>
                  if second ≠ first then
                    ((edgesPerFace faces).getD second []).flatMap fun oppo =>
                      if oppo.1 = edge.2 ∧ oppo.2 = j then [(first, second, edge)] else []
                  else []
              else []) → x.2.2 ∈ (edgesPerFace faces).getD first [] := by
          intro first x hx
          rw [List.mem_flatMap] at hx
          obtain ⟨edge, he, hx⟩ := hx
          split at hx
          · rw [List.mem_flatMap] at hx
            obtain ⟨s, _, hx⟩ := hx
            split at hx
            · rw [List.mem_flatMap] at hx
              obtain ⟨o, _, hx⟩ := hx
              split at hx
              · rw [List.mem_singleton] at hx
                rw [hx]
                exact he
              · simp at hx
            · simp at hx
          · simp at hx
        intro a ha b hb x hx y hy hxy
        rw [List.mem_range, edges_length] at ha hb
        have k1 := key a x hx
        have k2 := key b y hy
        rw [← hxy] at k2
        exact huniq a b _ ha hb k1 k2
  · have key : ∀ (j : Nat) (x : Nat × Nat × (Nat × Nat)), x ∈ (if keep.getD j false = true then [] else
        (List.range (edgesPerFace faces).length).flatMap fun first =>
          ((edgesPerFace faces).getD first []).flatMap fun edge =>
            if edge.1 = j ∧ keep.getD edge.2 false = true then
              (List.range (edgesPerFace faces).length).flatMap fun second =>
                if second ≠ first then
                  ((edgesPerFace faces).getD second []).flatMap fun oppo =>
                    if oppo.1 = edge.2 ∧ oppo.2 = j then [(first, second, edge)] else []
                else []
            else []) → x.2.2.1 = j := by
      intro j x hx
      split at hx
      · simp at hx
      · rw [List.mem_flatMap] at hx
        obtain ⟨first, _, hx⟩ := hx
        rw [List.mem_flatMap] at hx
        obtain ⟨edge, _, hx⟩ := hx
        split at hx
        · rename_i hc
          rw [List.mem_flatMap] at hx
          obtain ⟨s, _, hx⟩ := hx
          split at hx
          · rw [List.mem_flatMap] at hx
            obtain ⟨o, _, hx⟩ := hx
            split at hx
            · rw [List.mem_singleton] at hx
              rw [hx]
              exact hc.1
            · simp at hx
          · simp at hx
        · simp at hx
    intro a _ b _ x hx y hy hxy
    rw [← key a x hx, ← key b y hy, hxy]

/-- the whole loop -/
theorem fold_woven (P : Plane) (vin : List Pt) (faces : List Face) (hS : Surface vin faces) :
    ∀ (xs : List (Nat × Nat × (Nat × Nat))) (done : List (Nat × Nat)) (ins : Nat × Nat → Option Nat) (st : St),
    Woven P vin faces done ins st → (∀ e ∈ done, Leaves P vin e ∧ e ∈ faces.flatMap steps) →
    (∀ x ∈ xs, Leaves P vin x.2.2 ∧ x.2.2 ∉ done ∧ x.2.1 ≠ x.1 ∧ ∃ h1 : x.1 < faces.length, ∃ h2 : x.2.1 < faces.length,
      x.2.2 ∈ steps faces[x.1] ∧ x.2.2.swap ∈ steps faces[x.2.1]) →
    (xs.map fun x => x.2.2).Nodup →
    ∃ st' ins' done', (intersections P vin xs).foldlM cutStep st = some st' ∧ Woven P vin faces done' ins' st' ∧
      ∀ e, e ∈ done' ↔ e ∈ done ∨ e ∈ xs.map fun x => x.2.2
  | [], done, ins, st, hw, _, _, _ => ⟨st, ins, done, rfl, hw, by simp⟩
  | x :: xs, done, ins, st, hw, hd, hx, hn => by
    obtain ⟨hl, hnd, hne, h1, h2, e1, e2⟩ := hx x (by simp)
    obtain ⟨st1, ins1, hs1, hw1⟩ := cutStep_woven P vin faces hS done ins st hw hd x.1 x.2.1 x.2.2 hnd hl h1 h2 hne e1 e2
    rw [List.map_cons, List.nodup_cons] at hn
    obtain ⟨st', ins', done', hf, hw', hdone'⟩ := fold_woven P vin faces hS xs (x.2.2 :: done) ins1 st1 hw1 (by
        intro e he
        rcases List.mem_cons.mp he with rfl | he
        · exact ⟨hl, mem_steps_faces faces _ _ h1 e1⟩
        · exact hd e he) (by
        intro y hy
        obtain ⟨a, b, c⟩ := hx y (by simp [hy])
        refine ⟨a, ?_, c⟩
        intro h
        rcases List.mem_cons.mp h with h | h
        · exact hn.1 (List.mem_map.mpr ⟨y, hy, h⟩)
        · exact b h) hn.2
    refine ⟨st', ins', done', ?_, hw', ?_⟩
    · have : intersections P vin (x :: xs) = (x.1, x.2.1, x.2.2, cross P vin x.2.2) :: intersections P vin xs := by
        unfold intersections
        rw [List.filterMap_cons, intersection_cross P vin x.2.2 hl.1 hl.2]
        rfl
      rw [this, List.foldlM_cons, hs1]
      exact hf
    · intro e
      rw [hdone']
      simp only [List.mem_cons, List.map_cons]
      tauto


/-! ### what the loop leaves -/

theorem filter_flatMap' {α β : Type} (p : β → Bool) (f : α → List β) : ∀ l : List α,
    (l.flatMap f).filter p = l.flatMap fun a => (f a).filter p
  | [] => rfl
  | a :: t => by rw [List.flatMap_cons, List.filter_append, filter_flatMap' p f t, List.flatMap_cons]

theorem clip_steps (side : Pt → ℚ) (v : List Pt) (face : Face) :
    clip side (face.map fun i => v.getD i 0) = (steps face).flatMap fun e =>
      (if 0 ≤ side (v.getD e.1 0) then [v.getD e.1 0] else []) ++
        if side (v.getD e.1 0) * side (v.getD e.2 0) < 0 then [crossing side (v.getD e.1 0) (v.getD e.2 0)] else [] := by
  unfold clip
  rw [← List.map_rotate, List.zip_map, List.flatMap_map]
  rfl

theorem weave_nodup (P : Plane) (vin : List Pt) (faces : List Face) (hS : Surface vin faces) (done : List (Nat × Nat))
    (ins : Nat × Nat → Option Nat) (st : St) (hw : Woven P vin faces done ins st) (face : Face) (hf : face ∈ faces) :
    (weave ins face).Nodup := by
  obtain ⟨hn, h3⟩ := hS.simple face hf
  have hsn : (steps face).Nodup := (List.nodup_flatMap.mp hS.once).1 face hf
  have hlt : ∀ e ∈ steps face, e.1 < vin.length := fun e he => hS.valid face hf _ (mem_of_step face e he).1
  unfold weave
  rw [List.nodup_flatMap]
  constructor
  · intro e he
    rw [List.nodup_cons]
    refine ⟨?_, by cases ins e <;> simp⟩
    intro h
    have := (hw.hins e e.1 (by simpa using h)).1
    have := hlt e he
    omega
  · have hp : (steps face).Pairwise (fun a b => a.1 ≠ b.1) := by
      have := steps_fst face
      rw [← this] at hn
      exact List.pairwise_map.mp hn
    have hq : (steps face).Pairwise (fun a b => a ≠ b) := hsn
    refine (hp.and hq).imp_of_mem ?_
    intro a b ha hb hab x hxa hxb
    rcases List.mem_cons.mp hxa with h1 | h1
    · rcases List.mem_cons.mp hxb with h2 | h2
      · exact hab.1 (h1.symm.trans h2)
      · have := (hw.hins b x (by simpa using h2)).1
        have := hlt a ha
        omega
    · rcases List.mem_cons.mp hxb with h2 | h2
      · have := (hw.hins a x (by simpa using h1)).1
        have := hlt b hb
        omega
      · rcases hw.inj a b x (by simpa using h1) (by simpa using h2) with h | h
        · exact hab.2 h.symm
        · rw [h] at hb
          exact swap_other face hn h3 a ha hb

/-- which vertices are kept -/
theorem keep_get (P : Plane) (vin : List Pt) (faces : List Face) (done : List (Nat × Nat))
    (ins : Nat × Nat → Option Nat) (st : St) (hw : Woven P vin faces done ins st) (i : Nat) (hi : i < st.v.length) :
    (st.keep ++ List.replicate st.count true)[i]? = some (decide (vin.length ≤ i ∨ 0 ≤ P.orient (vin.getD i 0))) := by
  obtain ⟨new, hv, hnew⟩ := hw.v
  have hl : (inside P vin).length = vin.length := by simp [inside]
  rw [hv, List.length_append] at hi
  rw [hw.keep]
  by_cases h : i < vin.length
  · rw [List.getElem?_append_left (by omega), inside_get P vin i h]
    simp [Nat.not_le.mpr h]
  · rw [List.getElem?_append_right (by omega), List.getElem?_replicate, if_pos (by omega)]
    simp [Nat.not_lt.mp h]

/-- the corners of a face that are kept are those of the clipped face -/
theorem clip_weave (P : Plane) (vin : List Pt) (faces : List Face) (hS : Surface vin faces) (done : List (Nat × Nat))
    (ins : Nat × Nat → Option Nat) (st : St) (hw : Woven P vin faces done ins st)
    (hdone : ∀ e, e ∈ done ↔ e ∈ faces.flatMap steps ∧ Leaves P vin e) (face : Face) (hf : face ∈ faces) :
    ((weave ins face).filter fun i => decide ((st.keep ++ List.replicate st.count true)[i]? = some true)).map (st.v[·]?) =
      (clip P.orient (face.map fun i => vin.getD i 0)).map some := by
  obtain ⟨new, hv, hnew⟩ := hw.v
  rw [clip_steps, weave, filter_flatMap', List.map_flatMap, List.map_flatMap]
  apply flatMap_congr_mem
  intro e he
  have hem : e ∈ faces.flatMap steps := List.mem_flatMap.mpr ⟨face, hf, he⟩
  have m := mem_of_step face e he
  have l1 := hS.valid face hf _ m.1
  have l2 := hS.valid face hf _ m.2
  have hvl : vin.length ≤ st.v.length := by rw [hv, List.length_append]; omega
  have g1 : st.v[e.1]? = some (vin.getD e.1 0) := by
    rw [hv, List.getElem?_append_left l1, List.getD_eq_getElem?_getD, List.getElem?_eq_getElem l1, Option.getD_some]
  have k1 := keep_get P vin faces done ins st hw e.1 (by omega)
  have hsplit : (e.1 :: (ins e).toList) = [e.1] ++ (ins e).toList := rfl
  rw [hsplit, List.filter_append, List.map_append, List.map_append]
  congr 1
  · by_cases h0 : 0 ≤ P.orient (vin.getD e.1 0)
    · rw [if_pos h0, List.filter_cons_of_pos (by rw [k1, decide_eq_true (Or.inr h0)]; rfl)]
      simp [g1]
    · rw [if_neg h0, List.filter_cons_of_neg (by rw [k1]; simpa [Nat.not_le.mpr l1] using h0)]
      rfl
  · by_cases hc : P.orient (vin.getD e.1 0) * P.orient (vin.getD e.2 0) < 0
    · rw [if_pos hc]
      have : ∃ k, ins e = some k := by
        rcases mul_neg_iff.mp hc with ⟨h1, h2⟩ | ⟨h1, h2⟩
        · have hd : e.swap ∈ done := (hdone _).mpr ⟨hS.closed e.1 e.2 hem, h2, h1.le⟩
          obtain ⟨k, _, hk⟩ := hw.pos _ hd h1
          exact ⟨k, by rwa [Prod.swap_swap] at hk⟩
        · have hd : e ∈ done := (hdone _).mpr ⟨hem, h1, h2.le⟩
          obtain ⟨k, hk, _⟩ := hw.pos _ hd h2
          exact ⟨k, hk⟩
      obtain ⟨k, hk⟩ := this
      obtain ⟨b1, b2, _⟩ := hw.hins e k hk
      have hkl : k < st.v.length := by
        by_contra hcc
        rw [List.getElem?_eq_none (by omega)] at b2
        cases b2
      have k2 := keep_get P vin faces done ins st hw k hkl
      rw [hk, Option.toList_some, List.filter_cons_of_pos (by rw [k2]; simp [b1])]
      simp only [List.filter_nil, List.map_cons, List.map_nil, b2]
      rfl
    · rw [if_neg hc]
      have : ins e = none := by
        cases hk : ins e with
        | none => rfl
        | some k =>
          exfalso
          rcases (hw.hins e k hk).2.2 with h | h
          · have hL := ((hdone e).mp h).2
            rcases lt_or_eq_of_le hL.2 with h2 | h2
            · exact hc (mul_neg_of_neg_of_pos hL.1 h2)
            · rw [(hw.zero e h h2.symm).1] at hk; cases hk
          · have hL := ((hdone _).mp h).2
            unfold Leaves at hL
            simp only [Prod.fst_swap, Prod.snd_swap] at hL
            rcases lt_or_eq_of_le hL.2 with h2 | h2
            · exact hc (mul_neg_of_pos_of_neg h2 hL.1)
            · have := (hw.zero e.swap h h2.symm).2
              rw [Prod.swap_swap] at this
              rw [this] at hk; cases hk
      rw [this]
      rfl

end Brille.Cut
