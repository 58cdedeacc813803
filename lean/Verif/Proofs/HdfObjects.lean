import Verif.Proofs.HdfClasses

/-! Saving and loading of the composite objects. -/
namespace Brille.Hdf
open Brille.Spec
variable {R : Type}

theorem saves_trellis {T S : Type} [Cell R T] [Cell R S] (x : Trellis R T S) (ht : GoodTable x.data.table)
    (hn : GoodNodes x.nodes) :
    Saves (R := R) x.to Trellis.from ((reloadDual x.data).map fun d => { x with data := d }) := by
  obtain ⟨o1, w1, r1⟩ := saves_lists (R := R) x.boundary
  obtain ⟨o2, w2, r2⟩ := saves_dual (R := R) x.data ht
  obtain ⟨o3, w3, r3⟩ := saves_a2 (R := R) x.vertices
  obtain ⟨o4, w4, r4⟩ := saves_nodes (R := R) x.nodes hn
  obtain ⟨o5, w5, r5⟩ := saves_lists (R := R) (List.ofFn x.knots)
  obtain ⟨o6, w6, r6⟩ := saves_config (R := R) x.approx
  refine saves_group _ (by simp [w1, w2, w3, w4, w5, w6, -List.ofFn_succ]; rfl) ?_
  simp [r1 _ "boundary", r2 _ "data", r3 _ "vertices", r4 _ "container", r5 _ "knots", r6 _ "approx",
    -List.ofFn_succ]
  cases reloadDual x.data <;> rfl

@[simp] theorem readFlag_flag (b : Bool) : readFlag (flag b : Data R) = some b := by
  cases b <;> simp [readFlag, flag]

theorem saves_bz (env : Env R) (z : BZ R) : Saves (R := R) z.to (BZ.from env) (reloadBZ env z) := by
  obtain ⟨o1, w1, r1⟩ := saves_latt env z.inner
  obtain ⟨o2, w2, r2⟩ := saves_latt env z.outer
  obtain ⟨o3, w3, r3⟩ := saves_poly (rv := reloadLVec env) z.first (saves_lvec env _)
  obtain ⟨o4, w4, r4⟩ := saves_poly (rv := reloadLVec env) z.irreducible (saves_lvec env _)
  obtain ⟨o5, w5, r5⟩ := saves_a2 (R := R) z.wedgeNormals
  refine saves_group _ (by simp [attr_eq, w1, w2, w3, w4, w5]; rfl) ?_
  simp [r1 _ "inner", r2 _ "outer", r3 _ "first", r4 _ "irreducible", r5 _ "ir_wedge_normals"]
  rfl

theorem saves_bzTrellis {T S : Type} [Cell R T] [Cell R S] (env : Env R) (x : BZTrellis R T S)
    (ht : GoodTable x.trellis.data.table) (hn : GoodNodes x.trellis.nodes) :
    Saves (R := R) x.to (BZTrellis.from env) (do
      let d ← reloadDual x.trellis.data
      let b ← reloadBZ env x.bz
      return ⟨{ x.trellis with data := d }, b⟩) := by
  obtain ⟨o1, w1, r1⟩ := saves_trellis x.trellis ht hn
  obtain ⟨o2, w2, r2⟩ := saves_bz env x.bz
  refine saves_group _ (by simp [w1, w2]; rfl) ?_
  simp [r1 _ "trellis", r2 _ "bz_"]
  cases reloadDual x.trellis.data <;> rfl

theorem saves_layer (x : Layer R) : Saves (R := R) x.to Layer.from (some x) := by
  obtain ⟨o1, w1, r1⟩ := saves_a2 (R := R) x.positions
  obtain ⟨o2, w2, r2⟩ := saves_a2 (R := R) x.tetrahedra
  obtain ⟨o3, w3, r3⟩ := saves_lists (R := R) x.tetsPerVertex
  obtain ⟨o4, w4, r4⟩ := saves_lists (R := R) x.neighbours
  obtain ⟨o5, w5, r5⟩ := saves_a2 (R := R) x.centres
  refine saves_group _ (by simp [attr_eq, dataSet_eq, w1, w2, w3, w4, w5]; rfl) ?_
  simp only [Grp.getData]
  simp [r1 _ "positions", r2 _ "vertices_per_tetrahedron", r3 _ "tetrahedra_per_vertex",
    r4 _ "neighbours_per_tetrahedron", r5 _ "circumsphere_centers"]

theorem saves_tetTri (x : TetTri R) (h : GoodTetTri x) : Saves (R := R) x.to TetTri.from (some x) := by
  obtain ⟨l', hl, hla, -, hlr⟩ := writeAll_spec (R := R) (w := Layer.to) (rd := Layer.from) (r := some) x.layers 0
    (Grp.empty : Grp R)
    (fun c _ => by obtain ⟨o, w, r⟩ := saves_layer (R := R) c; exact ⟨o, fun g e _ => w g e, r⟩)
    (fun j _ => rfl)
  obtain ⟨c', hc, hca, -, hcr⟩ := writeAll_spec (R := R) (w := listsTo) (rd := listsFrom) (r := some)
    x.connections 0 (Grp.empty : Grp R)
    (fun c _ => by obtain ⟨o, w, r⟩ := saves_lists (R := R) c; exact ⟨o, fun g e _ => w g e, r⟩)
    (fun j _ => rfl)
  have gl : ∀ (n : String) (d : Data R) , l'.attr n d = some (l'.addA n d) :=
    fun n d => attr_eq _ _ _ (by rw [hla]; simp)
  have gc : ∀ (n : String) (d : Data R) , c'.attr n d = some (c'.addA n d) :=
    fun n d => attr_eq _ _ _ (by rw [hca]; simp)
  have g1 : ∀ (g : Grp R) (e : String) (s : Grp R), g.get e = some (Obj.ofGrp s) → g.getGroup e = some s :=
    fun g e s h => getGroup_of h
  have hl2 : readAll Layer.from x.layers.length (l'.addA "length" (scalar x.layers.length)) = some x.layers := by
    rw [← mapM_some x.layers]
    exact readAll_of (rd := Layer.from) (g := l'.addA "length" (scalar x.layers.length)) hlr
  have hc2 : readAll listsFrom x.connections.length (c'.addA "length" (scalar x.connections.length)) =
      some x.connections := by
    rw [← mapM_some x.connections]
    exact readAll_of (rd := listsFrom) (g := c'.addA "length" (scalar x.connections.length)) hcr
  unfold GoodTetTri at h
  refine saves_group _ (by simp [attr_eq, newGroup_eq, hl, hc, gl, gc]; rfl) ?_
  rw [g1 _ "layers" (l'.addA "length" (scalar x.layers.length)) (by simp),
    g1 _ "connections" (c'.addA "length" (scalar x.connections.length)) (by simp)]
  simp only [getAttr_put, getAttr_addA, getAttr_empty, hla, hca, Option.bind_eq_bind, Option.bind_some, if_true,
    Option.none_or, readScalar_scalar, ne_eq, not_true_eq_false, if_false, hl2]
  rw [if_neg (by omega), show x.layers.length - 1 = x.connections.length by omega, hc2]
  rfl

theorem saves_mesh {T S : Type} [Cell R T] [Cell R S] (x : Mesh R T S) (ht : GoodTable x.data.table)
    (hm : GoodTetTri x.mesh) :
    Saves (R := R) x.to Mesh.from ((reloadDual x.data).map fun d => { x with data := d }) := by
  obtain ⟨o1, w1, r1⟩ := saves_tetTri x.mesh hm
  obtain ⟨o2, w2, r2⟩ := saves_dual (R := R) x.data ht
  obtain ⟨o3, w3, r3⟩ := saves_config (R := R) x.approx
  refine saves_group _ (by simp [w1, w2, w3]; rfl) ?_
  simp [r1 _ "triangulation", r2 _ "data", r3 _ "approx"]
  cases reloadDual x.data <;> rfl

theorem saves_bzMesh {T S : Type} [Cell R T] [Cell R S] (env : Env R) (dflt : Config R) (x : BZMesh R T S)
    (ht : GoodTable x.mesh.data.table) (hm : GoodTetTri x.mesh.mesh) :
    Saves (R := R) x.to (BZMesh.from env dflt) (do
      let d ← reloadDual x.mesh.data
      let b ← reloadBZ env x.bz
      return ⟨{ x.mesh with data := d, approx := dflt }, b⟩) := by
  obtain ⟨o1, w1, r1⟩ := saves_mesh x.mesh ht hm
  obtain ⟨o2, w2, r2⟩ := saves_bz env x.bz
  refine saves_group _ (by simp [w1, w2]; rfl) ?_
  simp [r1 _ "mesh", r2 _ "bz_"]
  cases reloadDual x.mesh.data <;> rfl

/-! What loading leaves alone -/

theorem reloadLattice_settled (env : Env R) (l : Latt R) (h : SettledLattice env l) :
    reloadLattice env l = some l := by
  obtain ⟨hb, hs, ho⟩ := h
  unfold reloadLattice
  rw [show reloadBasis l.basis = l.basis from if_pos hb, hs]
  simp [Env.snap, ho]

theorem length_moveAll (b : Basis R) (F : Basis R → ℕ → (Fin 3 → R)) (ks : List ℕ) :
    (ks.foldl (fun b k => { b with positions := b.positions.set k (F b k) }) b).positions.length
      = b.positions.length ∧
    (ks.foldl (fun b k => { b with positions := b.positions.set k (F b k) }) b).types = b.types := by
  induction ks generalizing b with
  | nil => exact ⟨rfl, rfl⟩
  | cons k ks ih =>
    rw [List.foldl_cons]
    have := ih { b with positions := b.positions.set k (F b k) }
    exact ⟨this.1.trans (by simp), this.2⟩

theorem snap_good (env : Env R) (ops : List (Motion9 R)) (b b' : Basis R) (hb : GoodBasis b)
    (h : env.snap ops b = some b') : GoodBasis b' ∧ env.allOk ops b' = true := by
  unfold Env.snap at h
  by_cases h1 : env.allOk ops b = true
  · rw [if_pos h1] at h
    cases h
    exact ⟨hb, h1⟩
  · rw [if_neg h1] at h
    dsimp only at h
    by_cases h2 : env.allOk ops (env.moveAll ops b) = true
    · rw [if_pos h2] at h
      cases h
      refine ⟨?_, h2⟩
      have := length_moveAll b (fun b k => env.moved b ops k)
        ((List.range b.positions.length).filter fun k => !(ops.all fun op => env.equivalent b k op))
      unfold GoodBasis Env.moveAll
      rw [this.1, this.2]
      exact hb
    · rw [if_neg h2] at h
      cases h

theorem reloadBasis_good (b : Basis R) : GoodBasis (reloadBasis b) := by
  unfold reloadBasis GoodBasis
  split
  · assumption
  · simp

theorem settled_of_reload (env : Env R) (hs : ∀ M, env.sort (env.sort M) = env.sort M) (l l' : Latt R)
    (h : reloadLattice env l = some l') : SettledLattice env l' := by
  unfold reloadLattice at h
  rw [Option.map_eq_some_iff] at h
  obtain ⟨b, hb, rfl⟩ := h
  have := snap_good env l.space _ b (reloadBasis_good _) hb
  exact ⟨this.1, hs _, this.2⟩

theorem reloadBZ_settled (env : Env R) (z : BZ R) (h : SettledBZ env z) : reloadBZ env z = some z := by
  obtain ⟨h1, h2, h3, h4⟩ := h
  unfold reloadBZ reloadPoly reloadLVec
  rw [reloadLattice_settled env _ h1, reloadLattice_settled env _ h2, reloadLattice_settled env _ h3,
    reloadLattice_settled env _ h4]
  rfl

theorem reloadInterp_settled {T : Type} (x : Interp R T) (h : SettledInterp x) : reloadInterp x = some x := by
  obtain ⟨h1, h2, h3⟩ := h
  obtain ⟨d, sh, el, rl, lu, c, f, v⟩ := x
  dsimp only at h1 h2 h3
  unfold reloadInterp
  dsimp only
  rw [h1, h3 1, h2]
  simp only [Option.map_some, Option.some.injEq, Interp.mk.injEq, true_and]
  refine ⟨?_, rfl⟩
  funext i
  rw [h3 i]
  split <;> rfl

theorem reloadDual_settled {T S : Type} (x : Dual R T S) (h : SettledDual x) : reloadDual x = some x := by
  unfold reloadDual
  rw [reloadInterp_settled _ h.1, reloadInterp_settled _ h.2.1]
  rfl

theorem vectorFunOf_zero {v : ℤ} (h : v < 1 ∨ 4 < v) : vectorFunOf v = 0 := by
  unfold vectorFunOf
  rw [if_neg (by omega), if_neg (by omega), if_neg (by omega), if_neg (by omega)]

theorem vectorFunOf_ne {v : ℤ} (h : 1 ≤ v ∧ v ≤ 4) : vectorFunOf v ≠ 0 := by
  unfold vectorFunOf
  split_ifs <;> omega

/-- the elements after the first line of each case of `check_elements` -/
def fillElements (e : Fin 3 → ℕ) (k : Fin 3) (v : ℕ) : Fin 3 → ℕ :=
  if branchSpan e = 0 then fun i => if i = k then v else e i else e

theorem span_fill (e : Fin 3 → ℕ) (k : Fin 3) (v : ℕ) :
    branchSpan (fillElements e k v) = if branchSpan e = 0 then v else branchSpan e := by
  unfold fillElements
  by_cases h : branchSpan e = 0
  · rw [if_pos h, if_pos h]
    unfold branchSpan at h ⊢
    fin_cases k <;> simp <;> omega
  · rw [if_neg h, if_neg h]

theorem fill_fill (e : Fin 3 → ℕ) (k : Fin 3) (v : ℕ) :
    fillElements (fillElements e k v) k v = fillElements e k v := by
  conv_lhs => unfold fillElements
  rw [show (if branchSpan e = 0 then fun i => if i = k then v else e i else e) = fillElements e k v from rfl]
  split
  · funext i
    by_cases hi : i = k
    · rw [if_pos hi]
      subst hi
      rename_i h0
      rw [span_fill] at h0
      by_cases h : branchSpan e = 0
      · simp [fillElements, h]
      · rw [if_neg h] at h0
        exact absurd h0 h
    · rw [if_neg hi]
  · rfl

def spanOr (e : Fin 3 → ℕ) (v : ℕ) : ℕ := if branchSpan e = 0 then v else branchSpan e

theorem span_span (e : Fin 3 → ℕ) (k : Fin 3) (v : ℕ) : spanOr (fillElements e k v) v = spanOr e v := by
  unfold spanOr
  rw [span_fill]
  by_cases h : branchSpan e = 0
  · rw [if_pos h]
    split <;> rfl
  · rw [if_neg h, if_neg h]

theorem checkElements_again {sh : List ℕ} {e e' : Fin 3 → ℕ} (h : checkElements sh e = some e') :
    checkElements sh e' = some e' := by
  match sh, h with
  | [], h => rfl
  | [_], h =>
    change (if spanOr e (1) > 1 then none else some (fillElements e 0 1)) = _ at h
    split at h
    · cases h
    · rename_i h1
      cases h
      change (if spanOr _ (1) > 1 then none else some (fillElements _ 0 1)) = _
      rw [span_span, if_neg h1, fill_fill]
  | [_, b], h =>
    change (if spanOr e (b) = 0 then none else
      if b % spanOr e (b) ≠ 0 then none else some (fillElements e 0 b)) = _ at h
    split at h
    · cases h
    split at h
    · cases h
    · rename_i h1 h2
      cases h
      change (if spanOr _ (b) = 0 then none else
        if b % spanOr _ (b) ≠ 0 then none else some (fillElements _ 0 b)) = _
      rw [span_span, if_neg h1, if_neg h2, fill_fill]
  | [_, _, y], h =>
    change (if y ≠ spanOr e (y) then none else some (fillElements e 0 y)) = _ at h
    split at h
    · cases h
    · rename_i h1
      cases h
      change (if y ≠ spanOr _ (y) then none else some (fillElements _ 0 y)) = _
      rw [span_span, if_neg h1, fill_fill]
  | [_, _, v, t], h =>
    change (if t ≠ 3 then none else if v * 3 ≠ spanOr e (v * 3) then none else
      some (fillElements e 1 (v * 3))) = _ at h
    split at h
    · cases h
    split at h
    · cases h
    · rename_i h1 h2
      cases h
      change (if t ≠ 3 then none else if v * 3 ≠ spanOr _ (v * 3) then none else
        some (fillElements _ 1 (v * 3))) = _
      rw [span_span, if_neg h1, if_neg h2, fill_fill]
  | [_, _, m, t, u], h =>
    change (if t ≠ 3 ∨ u ≠ 3 then none else if m * 9 ≠ spanOr e (m * 9) then none
      else some (fillElements e 2 (m * 9))) = _ at h
    split at h
    · cases h
    split at h
    · cases h
    · rename_i h1 h2
      cases h
      change (if t ≠ 3 ∨ u ≠ 3 then none else if m * 9 ≠ spanOr _ (m * 9) then
        none else some (fillElements _ 2 (m * 9))) = _
      rw [span_span, if_neg h1, if_neg h2, fill_fill]
  | _ :: _ :: _ :: _ :: _ :: _ :: _, h => cases h

theorem make_facts {T : Type} {d : A2 T} {sh : List ℕ} {el : Fin 3 → ℕ} {rl lu : EnumVal} {csf cvf : ℤ}
    {wg : Fin 3 → R} {x : Interp R T} (h : Interp.make d sh el rl lu csf cvf wg = some x) :
    checkElements x.shape x.elements = some x.elements ∧ x.vectorFun = vectorFunOf cvf ∧
      x.funtype = fun i => if i = 0 then vectorFunOf cvf else 0 := by
  unfold Interp.make at h
  rw [Option.map_eq_some_iff] at h
  obtain ⟨e, he, rfl⟩ := h
  exact ⟨checkElements_again he, rfl, rfl⟩

theorem settled_of_make {T : Type} {d : A2 T} {sh : List ℕ} {el : Fin 3 → ℕ} {rl lu : EnumVal} {csf cvf : ℤ}
    {wg : Fin 3 → R} {x : Interp R T} (h : Interp.make d sh el rl lu csf cvf wg = some x)
    (hv : vectorFunOf cvf = 0) : SettledInterp x := by
  obtain ⟨h1, h2, h3⟩ := make_facts h
  exact ⟨h1, h2.trans hv, fun i => by rw [h3, hv]; dsimp only; split <;> rfl⟩

theorem reloadInterp_make {T : Type} {d : A2 T} {sh : List ℕ} {el : Fin 3 → ℕ} {rl lu : EnumVal} {csf cvf : ℤ}
    {wg : Fin 3 → R} {x : Interp R T} (h : Interp.make d sh el rl lu csf cvf wg = some x) :
    reloadInterp x = some { x with vectorFun := 0, funtype := fun _ => 0 } := by
  obtain ⟨h1, h2, h3⟩ := make_facts h
  unfold reloadInterp
  rw [h1, h3]
  simp [vectorFunOf]

theorem vectorFun_make_ne {T : Type} {d : A2 T} {sh : List ℕ} {el : Fin 3 → ℕ} {rl lu : EnumVal} {csf cvf : ℤ}
    {wg : Fin 3 → R} {x : Interp R T} (h : Interp.make d sh el rl lu csf cvf wg = some x)
    (hv : 1 ≤ cvf ∧ cvf ≤ 4) : x.vectorFun ≠ 0 := by
  rw [(make_facts h).2.1]
  exact vectorFunOf_ne hv

end Brille.Hdf
