/-
The tetrahedra of a node of the hybrid grid, and the vertices they use.
-/
import Verif.Proofs.NodeRequests
import Verif.Proofs.NodeContainer
import Verif.Props.Tetra

namespace Brille.Props

open Brille.TrellisWire Brille.TrellisBuild Brille.Spec Brille.Tetra Brille.Cut Brille.SortFace Brille.Zone Brille.VMap
open Brille.IrCheck (Poly facePlane)
open Brille.Faces (contains indexes)
open Brille.Trellis hiding Pt

/-! ### looking up the points of a triangulation -/

/-- the numbers are those of the points -/
def At (vertices : List Pt) (ks : List Nat) (ps : List Pt) : Prop := List.Forall₂ (fun k p => vertices[k]? = some p) ks ps

theorem At.append {vertices : List Pt} {ks : List Nat} {ps : List Pt} (h : At vertices ks ps) (new : List Pt) : At (vertices ++ new) ks ps := by
  refine List.Forall₂.imp (fun k p e => ?_) h
  rw [List.getElem?_append_left (List.getElem?_eq_some_iff.mp e).1]; exact e

theorem At.mapM {vertices : List Pt} : ∀ {ks : List Nat} {ps : List Pt}, At vertices ks ps → (ks.mapM fun k => vertices[k]?) = some ps
  | _, _, .nil => rfl
  | _, _, .cons h r => by
    have := At.mapM (vertices := vertices) r
    simp [List.mapM_cons, h, this]

theorem At.get {vertices : List Pt} {ks : List Nat} {ps : List Pt} (h : At vertices ks ps) {n : Nat} (hn : n < ps.length) :
    vertices[ks.getD n 0]? = some (ps.getD n 0) := by
  have hl := List.Forall₂.length_eq h
  have := (List.forall₂_iff_get.mp h).2 n (by omega) hn
  rw [Convex.getD_lt _ _ (by omega), Convex.getD_lt _ _ hn]
  exact this

theorem lookup_points (idx : List Nat) (verts : List Pt) (hvn : verts.Nodup) : ∀ (rest : List Pt) (s : Lookup), rest.Nodup → s.vertices.Nodup →
    At s.vertices idx verts → (rest.countP (fun p => decide (p ∉ s.vertices)) : Int) ≤ s.added →
    ∃ (s' : Lookup) (new : List Pt) (ks : List Nat), rest.foldlM (lookup idx verts) s = some s' ∧ s'.vertices = s.vertices ++ new ∧ s'.vertices.Nodup ∧
      (∀ p ∈ new, p ∈ rest) ∧ s'.found = s.found ++ ks ∧ At s'.vertices ks rest
  | [], s, _, hs, _, _ => ⟨s, [], [], rfl, by simp, hs, by simp, by simp, .nil⟩
  | p :: rest, s, hr, hs, hat, hc => by
    have hrest := (List.nodup_cons.mp hr).2
    have hp := (List.nodup_cons.mp hr).1
    by_cases hv : p ∈ verts
    · have hf := findIdx_same hv
      have hfl := (List.getElem?_eq_some_iff.mp hf).1
      have hidx : idx[verts.findIdx fun v => same v p]? = some (idx.getD (verts.findIdx fun v => same v p) 0) := by
        have := List.Forall₂.length_eq hat
        rw [Convex.getD_lt _ _ (by omega), List.getElem?_eq_getElem]
      have hval := hat.get hfl
      rw [Convex.getD_lt _ _ hfl] at hval
      rw [List.getElem?_eq_getElem hfl] at hf
      rw [Option.some.inj hf] at hval
      have hmem : p ∈ s.vertices := List.mem_of_getElem? hval
      obtain ⟨s', new, ks, e1, e2, e3, e4, e5, e6⟩ := lookup_points idx verts hvn rest { s with found := s.found ++ [idx.getD (verts.findIdx fun v => same v p) 0] }
        hrest hs hat (by
          rw [List.countP_cons_of_neg (by simpa using hmem)] at hc
          exact hc)
      refine ⟨s', new, _ :: ks, ?_, e2, e3, fun q hq => by simp [e4 q hq], by rw [e5, List.append_assoc]; rfl, ?_⟩
      · rw [List.foldlM_cons]
        have : lookup idx verts s p = some { s with found := s.found ++ [idx.getD (verts.findIdx fun v => same v p) 0] } := by
          unfold lookup
          rw [count_same hvn, if_pos hv, hidx]
          rfl
        rw [this]
        exact e1
      · refine .cons ?_ e6
        rw [e2, List.getElem?_append_left (List.getElem?_eq_some_iff.mp hval).1]; exact hval
    · by_cases hm : p ∈ s.vertices
      · have hf := findIdx_same hm
        obtain ⟨s', new, ks, e1, e2, e3, e4, e5, e6⟩ := lookup_points idx verts hvn rest { s with found := s.found ++ [s.vertices.findIdx fun v => same v p] }
          hrest hs hat (by
            rw [List.countP_cons_of_neg (by simpa using hm)] at hc
            exact hc)
        refine ⟨s', new, _ :: ks, ?_, e2, e3, fun q hq => by simp [e4 q hq], by rw [e5, List.append_assoc]; rfl, ?_⟩
        · rw [List.foldlM_cons]
          have : lookup idx verts s p = some { s with found := s.found ++ [s.vertices.findIdx fun v => same v p] } := by
            simp [lookup, count_same hvn, count_same hs, hv, hm]
          rw [this]
          exact e1
        · refine .cons ?_ e6
          rw [e2, List.getElem?_append_left (List.getElem?_eq_some_iff.mp hf).1]; exact hf
      · rw [List.countP_cons_of_pos (by simpa using hm)] at hc
        push_cast at hc
        have hcount : rest.countP (fun q => decide (q ∉ s.vertices ++ [p])) = rest.countP (fun q => decide (q ∉ s.vertices)) := by
          refine List.countP_congr fun q hq => ?_
          have : q ≠ p := by rintro rfl; exact hp hq
          simp [this]
        have hs' : (s.vertices ++ [p]).Nodup := by
          refine List.nodup_append.mpr ⟨hs, by simp, ?_⟩
          intro a ha b hb e
          simp only [List.mem_singleton] at hb
          exact hm (hb ▸ e ▸ ha)
        obtain ⟨s', new, ks, e1, e2, e3, e4, e5, e6⟩ := lookup_points idx verts hvn rest
          { vertices := s.vertices ++ [p], found := s.found ++ [s.vertices.length], added := s.added - 1 } hrest hs' (hat.append [p]) (by
            simp only [hcount]; omega)
        refine ⟨s', p :: new, _ :: ks, ?_, by rw [e2]; simp, e3, ?_, by rw [e5, List.append_assoc]; rfl, ?_⟩
        · rw [List.foldlM_cons]
          have hpos : 0 < s.added := by omega
          have : lookup idx verts s p = some { vertices := s.vertices ++ [p], found := s.found ++ [s.vertices.length], added := s.added - 1 } := by
            simp [lookup, count_same hvn, count_same hs, hv, hm, hpos]
          rw [this]
          exact e1
        · intro q hq
          rcases List.mem_cons.mp hq with rfl | hq
          · simp
          · simp [e4 q hq]
        · refine .cons ?_ e6
          rw [e2]; simp

/-! ### the volumes -/

theorem volume_vol6 (T : Triangulation) (t : Fin 4 → Nat) : T.volume t * 6 = vol6 (T.corners t) := by
  unfold Triangulation.volume vol6
  simp only [Tetra.orient3d, dot, diff, Tetra.cross]
  simp

theorem vol6_swap (p : Fin 4 → Pt) : vol6 (p ∘ Equiv.swap 0 1) = - vol6 p := by
  have e0 : (p ∘ Equiv.swap 0 1) 0 = p 1 := by simp
  have e1 : (p ∘ Equiv.swap 0 1) 1 = p 0 := by simp
  have e2 : (p ∘ Equiv.swap 0 1) 2 = p 2 := by simp [Function.comp, Equiv.swap_apply_of_ne_of_ne]
  have e3 : (p ∘ Equiv.swap 0 1) 3 = p 3 := by simp [Function.comp, Equiv.swap_apply_of_ne_of_ne]
  unfold vol6
  rw [e0, e1, e2, e3]
  ring

theorem inTet_perm (p : Fin 4 → Pt) (σ : Equiv.Perm (Fin 4)) (x : Pt) (h : InTet p x) : InTet (p ∘ σ) x := by
  obtain ⟨w, hw, h1, h2⟩ := h
  refine ⟨w ∘ σ, fun j => hw _, ?_, fun d => ?_⟩
  · rw [← h1]; exact Equiv.sum_comp σ w
  · rw [h2 d]; exact (Equiv.sum_comp σ fun j => w j * p j d).symm

/-- after the correction all volumes are positive, and the tetrahedra are the same -/
theorem correct_spec {P : Poly} {gamma : Bool} {T : Triangulation} (h : Triangulates P gamma T) :
    (∀ t ∈ T.correct.tets, (∀ j, t j < T.points.length) ∧ 0 < T.correct.volume t) ∧
      ∀ x, real x ∈ Hull (· ∈ P.1) → ∃ t ∈ T.correct.tets, InTet (T.correct.corners t) x := by
  have hv : ∀ t, T.correct.volume t = T.volume t := fun _ => rfl
  have hcs : ∀ (t : Fin 4 → Nat) (σ : Equiv.Perm (Fin 4)), T.corners (t ∘ σ) = T.corners t ∘ σ := fun _ _ => rfl
  constructor
  · intro t ht
    simp only [Triangulation.correct, List.mem_map] at ht
    obtain ⟨t', ht', rfl⟩ := ht
    have hne := h.solid t' ht'
    have hvol := volume_vol6 T t'
    split
    · rename_i hlt
      refine ⟨fun j => h.valid t' ht' _, ?_⟩
      rw [hv]
      have := volume_vol6 T (t' ∘ Equiv.swap 0 1)
      rw [hcs, vol6_swap] at this
      linarith
    · rename_i hlt
      refine ⟨h.valid t' ht', ?_⟩
      rw [hv]
      rcases lt_or_eq_of_le (not_lt.mp hlt) with h1 | h1
      · exact h1
      · exact absurd (by rw [← hvol, ← h1]; ring) hne
  · intro x hx
    obtain ⟨t, ht, hin⟩ := h.cover x hx
    refine ⟨_, List.mem_map_of_mem ht, ?_⟩
    split
    · exact inTet_perm _ _ x hin
    · exact hin

/-! ### one polyhedron -/

/-- the tetrahedra of a node and the vertices they use -/
structure TetsFit (vertices : List Pt) (part : Poly) (tets : List Tet) : Prop where
  valid : ∀ t ∈ tets, ∀ j, t.vi j < vertices.length
  fits : ∀ t ∈ tets, Fits (fun k => vertices.getD k 0) t
  cover : ∀ x, real x ∈ Hull (· ∈ part.1) → ∃ t ∈ tets, InTet (fun j => vertices.getD (t.vi j) 0) x
  inside : ∀ t ∈ tets, ∀ j, real (vertices.getD (t.vi j) 0) ∈ Hull (· ∈ part.1)

theorem TetsFit.append {vertices : List Pt} {part : Poly} {tets : List Tet} (h : TetsFit vertices part tets) (new : List Pt) :
    TetsFit (vertices ++ new) part tets := by
  have e : ∀ t ∈ tets, ∀ j, (vertices ++ new).getD (t.vi j) 0 = vertices.getD (t.vi j) 0 := by
    intro t ht j
    rw [List.getD_eq_getElem?_getD, List.getD_eq_getElem?_getD, List.getElem?_append_left (h.valid t ht j)]
  refine ⟨fun t ht j => by rw [List.length_append]; exact Nat.lt_add_right _ (h.valid t ht j), fun t ht => ?_, fun x hx => ?_,
    fun t ht j => by rw [e t ht j]; exact h.inside t ht j⟩
  · obtain ⟨h1, h2, h3⟩ := h.fits t ht
    have e' : (fun j => (vertices ++ new).getD (t.vi j) 0) = fun j => vertices.getD (t.vi j) 0 := funext (e t ht)
    exact ⟨by rw [h1, e'], h2, by rw [e']; exact h3⟩
  · obtain ⟨t, ht, hin⟩ := h.cover x hx
    refine ⟨t, ht, ?_⟩
    rw [show (fun j => (vertices ++ new).getD (t.vi j) 0) = fun j => vertices.getD (t.vi j) 0 from funext (e t ht)]
    exact hin

theorem four_points {v : List Pt} {faces : List Faces.Face} (h : ConvexSolid v faces) (hne : faces ≠ []) : 4 ≤ v.length := by
  obtain ⟨f, hf⟩ := List.exists_mem_of_ne_nil _ hne
  have hf' : f.map (fun i => v.getD i 0) ∈ polygons v faces := List.mem_map_of_mem hf
  obtain ⟨hn, h3⟩ := h.convex.simple _ hf'
  obtain ⟨p, ⟨g, hg, hp⟩, hpf⟩ := h.convex.solid _ hf'
  have hin : ∀ g ∈ polygons v faces, ∀ x ∈ g, x ∈ v := by
    intro g hg x hx
    obtain ⟨g', hg', rfl⟩ := List.mem_map.mp hg
    obtain ⟨k, hk, rfl⟩ := List.mem_map.mp hx
    rw [Convex.getD_lt _ _ (h.valid g' hg' k hk)]
    exact List.getElem_mem _
  have := (List.subperm_of_subset (List.nodup_cons.mpr ⟨hpf, hn⟩) (l₂ := v) (by
    intro x hx
    rcases List.mem_cons.mp hx with rfl | hx
    · exact hin g hg _ hp
    · exact hin _ hf' x hx)).length_le
  simp only [List.length_cons] at this
  omega

theorem addsGamma_eq {part : Poly} (h : part.1.Nodup) :
    addsGamma part (contains part.2 (fun i => part.1.getD i 0) 0) = wantsGamma part := by
  unfold addsGamma wantsGamma
  rw [count_same h]
  congr 1
  by_cases h0 : (0 : Pt) ∈ part.1
  · simp [h0, same]
  · have : (part.1.any fun p => same p 0) = false := by
      rw [List.any_eq_false]
      intro p hp hs
      exact h0 (of_decide_eq_true hs ▸ hp)
    simp [h0, this]

theorem polyNode_spec {G : TetGen} (hG : Reliable G) {m : VIM} {kept i : Nat} {parts : List Poly} {part : Poly} {lo hi : Pt} {types : List NodeType}
    {c : Container} {vertices : List Pt} {idx : List Nat} (hc : c.Ok types) (hti : types[i]? = some .poly) (hparts : parts[i]? = some part)
    (hs : ConvexSolid part.1 part.2) (hne : part.2 ≠ []) (hidx : decode m kept i = some idx) (hat : At vertices idx (nodePoints .poly lo hi part))
    (hnd : (nodePoints .poly lo hi part).Nodup) (hv : vertices.Nodup) :
    ∃ c' new tets, polyNode G m kept parts (c, vertices) i = some (c', vertices ++ new) ∧ c'.Ok types ∧ (vertices ++ new).Nodup ∧
      (∀ p ∈ new, real p ∈ Hull (· ∈ part.1)) ∧ c'.get i = some (.poly tets) ∧ (∀ j, j ≠ i → c'.get j = c.get j) ∧
      TetsFit (vertices ++ new) part tets := by
  obtain ⟨T, hT, tri⟩ := hG.tets part (wantsGamma part) hs hne fun h => (wantsGamma_iff hs hne).mp h
  obtain ⟨more, hmore⟩ := tri.points
  have hpts : T.points = nodePoints .poly lo hi part ++ more := hmore
  have h4 := four_points hs hne
  have hlen : T.points.length = (nodePoints .poly lo hi part).length + more.length := by rw [hpts, List.length_append]
  have hin : ∀ p ∈ nodePoints .poly lo hi part, p ∈ vertices := by
    intro p hp
    obtain ⟨k, hk⟩ := List.getElem?_of_mem hp
    have hkl := (List.getElem?_eq_some_iff.mp hk).1
    have := hat.get hkl
    rw [Convex.getD_lt _ _ hkl] at this
    rw [List.getElem?_eq_getElem hkl] at hk
    rw [Option.some.inj hk] at this
    exact List.mem_of_getElem? this
  have hextra : (T.points.length : Int) - part.1.length - (if wantsGamma part then 1 else 0) = more.length := by
    rw [hlen]
    simp only [nodePoints, List.length_append]
    split
    · simp; ring
    · simp
  have hcount : (T.points.countP (fun p => decide (p ∉ vertices)) : Int) ≤ more.length := by
    rw [hpts, List.countP_append]
    have h0 : (nodePoints .poly lo hi part).countP (fun p => decide (p ∉ vertices)) = 0 := by
      rw [List.countP_eq_zero]; intro p hp; simpa using hin p hp
    rw [h0, Nat.zero_add]
    exact_mod_cast List.countP_le_length
  obtain ⟨s', new, ks, e1, e2, e3, e4, e5, e6⟩ := lookup_points idx (nodePoints .poly lo hi part) hnd T.points
    { vertices := vertices, found := [], added := if 0 < (more.length : Int) then (more.length : Int) else 0 } tri.distinct hv hat (by
      dsimp only
      split
      · exact hcount
      · omega)
  simp only [List.nil_append] at e5 e2
  obtain ⟨cpos, ccov⟩ := correct_spec tri
  have hTne : T.correct.tets ≠ [] := by
    obtain ⟨p, hp⟩ := List.exists_mem_of_length_pos (l := part.1) (by omega)
    obtain ⟨t, ht, -⟩ := ccov p (mem_hull hp)
    exact List.ne_nil_of_mem ht
  obtain ⟨c', f1, f2, f3, f4⟩ := setPoly_spec hc hti (T.correct.tets.map (tetOf G T.correct s'.found))
  refine ⟨c', new, T.correct.tets.map (tetOf G T.correct s'.found), ?_, f2, e2 ▸ e3, ?_, f3, f4, ?_⟩
  · have hq : lqPolyTet G part (contains part.2 (fun i => part.1.getD i 0) 0) = some ((more.length : Int), T.correct) := by
      unfold lqPolyTet
      rw [addsGamma_eq hs.distinct, hT, Option.map_some, hextra]
    unfold polyNode
    have hge : ¬ T.points.length < 4 := by
      rw [hlen]; simp only [nodePoints, List.length_append]; omega
    have hpc : T.correct.points = T.points := rfl
    simp only [hidx, hat.mapM, hparts, Option.bind_eq_bind, Option.bind_some, hq, hpc, hge, if_false, hTne, e1, f1, e2]
  · intro p hp
    exact tri.inside p (e4 p hp)
  · rw [← e2]
    have hcorner : ∀ t ∈ T.correct.tets, (fun j => s'.vertices.getD ((tetOf G T.correct s'.found t).vi j) 0) = T.correct.corners t ∧
        ∀ j, (tetOf G T.correct s'.found t).vi j < s'.vertices.length := by
      intro t ht
      have : ∀ j, s'.vertices[s'.found.getD (t j) 0]? = some (T.points.getD (t j) 0) := fun j => by
        rw [e5]; exact e6.get ((cpos t ht).1 j)
      refine ⟨funext fun j => ?_, fun j => (List.getElem?_eq_some_iff.mp (this j)).1⟩
      change s'.vertices.getD (s'.found.getD (t j) 0) 0 = T.points.getD (t j) 0
      rw [List.getD_eq_getElem?_getD, this j, Option.getD_some]
    refine ⟨?_, ?_, ?_, ?_⟩
    · intro t ht
      obtain ⟨t', ht', rfl⟩ := List.mem_map.mp ht
      exact (hcorner t' ht').2
    · intro t ht
      obtain ⟨t', ht', rfl⟩ := List.mem_map.mp ht
      have hvol := volume_vol6 T.correct t'
      have hp := (cpos t' ht').2
      refine ⟨?_, hp, ?_⟩
      · rw [(hcorner t' ht').1]; exact hvol
      · rw [(hcorner t' ht').1]
        exact hG.sphere _ (by rw [← hvol]; exact (mul_pos hp (by norm_num)).ne')
    · intro x hx
      obtain ⟨t, ht, hin⟩ := ccov x hx
      exact ⟨_, List.mem_map_of_mem ht, by rw [(hcorner t ht).1]; exact hin⟩
    · intro t ht j
      obtain ⟨t', ht', rfl⟩ := List.mem_map.mp ht
      rw [congrFun (hcorner t' ht').1 j]
      refine tri.inside _ ?_
      change T.points.getD (t' j) 0 ∈ T.points
      rw [Convex.getD_lt _ _ ((cpos t' ht').1 j)]
      exact List.getElem_mem _

/-! ### all of them -/

theorem cubes_fold {m : VIM} {kept : Nat} {types : List NodeType} (Q : Nat → (Fin 8 → Nat) → Prop) : ∀ (l : List Nat) (c : Container), l.Nodup → c.Ok types →
    (∀ i ∈ l, types[i]? = some .cube ∧ ∃ n, Q i n ∧ ∀ c, cubeNode m kept c i = c.setCube i n) →
    ∃ c', l.foldlM (cubeNode m kept) c = some c' ∧ c'.Ok types ∧ (∀ i ∈ l, ∃ n, c'.get i = some (.cube n) ∧ Q i n) ∧ ∀ j, j ∉ l → c'.get j = c.get j
  | [], c, _, hc, _ => ⟨c, rfl, hc, by simp, fun _ _ => rfl⟩
  | i :: l, c, hl, hc, h => by
    obtain ⟨hil, hl'⟩ := List.nodup_cons.mp hl
    obtain ⟨hty, n, hq, hset⟩ := h i (by simp)
    obtain ⟨c1, e1, e2, e3, e4⟩ := setCube_spec hc hty n
    obtain ⟨c', f1, f2, f3, f4⟩ := cubes_fold Q l c1 hl' e2 fun j hj => h j (by simp [hj])
    refine ⟨c', by rw [List.foldlM_cons, hset, e1]; exact f1, f2, ?_, ?_⟩
    · intro j hj
      rcases List.mem_cons.mp hj with rfl | hj
      · exact ⟨n, by rw [f4 j hil, e3], hq⟩
      · exact f3 j hj
    · intro j hj
      rw [List.mem_cons, not_or] at hj
      rw [f4 j hj.2, e4 j hj.1]

theorem polys_fold {G : TetGen} (hG : Reliable G) {m : VIM} {kept : Nat} {parts : List Poly} {types : List NodeType} :
    ∀ (l : List Nat) (c : Container) (vertices : List Pt), l.Nodup → c.Ok types → vertices.Nodup →
    (∀ i ∈ l, types[i]? = some .poly ∧ ∃ (part : Poly) (lo hi : Pt) (idx : List Nat), parts[i]? = some part ∧ ConvexSolid part.1 part.2 ∧ part.2 ≠ [] ∧
      decode m kept i = some idx ∧ At vertices idx (nodePoints .poly lo hi part) ∧ (nodePoints .poly lo hi part).Nodup) →
    ∃ c' new, l.foldlM (polyNode G m kept parts) (c, vertices) = some (c', vertices ++ new) ∧ c'.Ok types ∧ (vertices ++ new).Nodup ∧
      (∀ p ∈ new, ∃ i ∈ l, ∃ part, parts[i]? = some part ∧ real p ∈ Hull (· ∈ part.1)) ∧
      (∀ i ∈ l, ∃ part tets, parts[i]? = some part ∧ c'.get i = some (.poly tets) ∧ TetsFit (vertices ++ new) part tets) ∧
      ∀ j, j ∉ l → c'.get j = c.get j
  | [], c, vertices, _, hc, hv, _ => ⟨c, [], by simp, hc, by simpa using hv, by simp, by simp, fun _ _ => rfl⟩
  | i :: l, c, vertices, hl, hc, hv, h => by
    obtain ⟨hil, hl'⟩ := List.nodup_cons.mp hl
    obtain ⟨hty, part, lo, hi, idx, h1, h2, h3, h4, h5, h6⟩ := h i (by simp)
    obtain ⟨c1, new1, tets, e1, e2, e3, e4, e5, e6, e7⟩ := polyNode_spec hG hc hty h1 h2 h3 h4 h5 h6 hv
    obtain ⟨c', new, f1, f2, f3, f4, f5, f6⟩ := polys_fold hG l c1 (vertices ++ new1) hl' e2 e3 fun j hj => by
      obtain ⟨g0, part, lo, hi, idx, g1, g2, g3, g4, g5, g6⟩ := h j (by simp [hj])
      exact ⟨g0, part, lo, hi, idx, g1, g2, g3, g4, g5.append _, g6⟩
    refine ⟨c', new1 ++ new, by rw [List.foldlM_cons, e1, ← List.append_assoc]; exact f1, f2, by rw [← List.append_assoc]; exact f3, ?_, ?_, ?_⟩
    · intro p hp
      rcases List.mem_append.mp hp with hp | hp
      · exact ⟨i, by simp, part, h1, e4 p hp⟩
      · obtain ⟨j, hj, r⟩ := f4 p hp
        exact ⟨j, by simp [hj], r⟩
    · intro j hj
      rcases List.mem_cons.mp hj with rfl | hj
      · exact ⟨part, tets, h1, by rw [f6 j hil, e5], by rw [← List.append_assoc]; exact e7.append new⟩
      · obtain ⟨part, tets, g1, g2, g3⟩ := f5 j hj
        exact ⟨part, tets, g1, g2, by rw [← List.append_assoc]; exact g3⟩
    · intro j hj
      rw [List.mem_cons, not_or] at hj
      rw [f6 j hj.2, e6 j hj.1]

/-! ### who asks for what -/

theorem requestsOf_tasks (R : Nat → List (Op Pt)) (i : Nat) : ∀ l : List Nat, l.Nodup →
    requestsOf (l.flatMap fun k => (R k).map fun op => (k, op)) i = if i ∈ l then R i else []
  | [], _ => rfl
  | k :: l, hl => by
    obtain ⟨hk, hl'⟩ := List.nodup_cons.mp hl
    have ih := requestsOf_tasks R i l hl'
    unfold requestsOf at ih ⊢
    rw [List.flatMap_cons, List.filter_append, List.map_append, ih]
    by_cases e : i = k
    · subst e
      simp [hk, List.filter_map, Function.comp_def]
    · have : (List.filter (fun t => t.1 == i) ((R k).map fun op => (k, op))) = [] := by
        simp only [List.filter_eq_nil_iff, List.mem_map]
        rintro _ ⟨op, -, rfl⟩
        simpa using Ne.symm e
      simp [this, e]

theorem tasks_flatten (t : Grid) (parts : List Poly) (threads : List (List Nat)) :
    (threads.map (tasks t parts)).flatten =
      threads.flatten.flatMap fun i => (requests t i (t.types.getD i .null) (parts.getD i ([], []))).map fun op => (i, op) := by
  induction threads with
  | nil => rfl
  | cons l r ih => rw [List.map_cons, List.flatten_cons, ih, List.flatten_cons, List.flatMap_append]; rfl

theorem tasks_different (t : Grid) (parts : List Poly) : ∀ threads : List (List Nat), threads.flatten.Nodup → DifferentNodes (threads.map (tasks t parts)) := by
  intro threads h
  unfold DifferentNodes
  rw [List.pairwise_map]
  refine (List.nodup_flatten.mp h).2.imp fun {a b} hab => ?_
  intro t1 h1 t2 h2 e
  simp only [tasks, List.mem_flatMap, List.mem_map] at h1 h2
  obtain ⟨i, hi, op, -, rfl⟩ := h1
  obtain ⟨j, hj, op', -, rfl⟩ := h2
  have e : i = j := e
  exact hab hi (e ▸ hj)

end Brille.Props
