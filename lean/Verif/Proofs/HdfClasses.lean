import Verif.Proofs.Hdf
import Verif.Spec.Hdf
import Mathlib.Tactic.FinCases

/-! Saving and loading of each class. -/
namespace Brille.Hdf
open Brille.Spec
variable {R : Type}

theorem getAttr_of {g : Grp R} {n : String} {d : Data R} (h : g.getAttr n = some d) : g.getAttr n = some d := h

theorem saves_config (c : Config R) : Saves (R := R) c.to Config.from (some c) := by
  refine saves_group _ (by simp [attr_eq]; rfl) ?_
  simp

theorem mat_ofFn {T : Type} [Cell R T] (n m : ℕ) (f : Fin n → Fin m → T) (h : n ≠ 0) :
    (mat (List.ofFn fun i => List.ofFn (f i)) : Option (Data R)) =
      some ⟨[n, m], Cell.enc (List.ofFn fun i => List.ofFn (f i)).flatten⟩ := by
  obtain ⟨n, rfl⟩ := Nat.exists_eq_succ_of_ne_zero h
  have hh : ((List.ofFn fun i => List.ofFn (f i)).headD []).length = m := by
    simp [List.ofFn_succ]
  unfold mat
  simp only [hh, List.length_ofFn]
  rw [if_pos]
  simp [List.mem_ofFn]

theorem flatten_ofFn_length {T : Type} (n m : ℕ) (f : Fin n → Fin m → T) :
    (List.ofFn fun i => List.ofFn (f i)).flatten.length = n * m := by
  simp [List.length_flatten, List.map_ofFn, Function.comp_def]

theorem flatten_ofFn_get {T : Type} (n m : ℕ) (f : Fin n → Fin m → T) (i : Fin n) (j : Fin m) :
    (List.ofFn fun i => List.ofFn (f i)).flatten[i.val * m + j.val]? = some (f i j) := by
  induction n with
  | zero => exact i.elim0
  | succ n ih =>
    rw [List.ofFn_succ, List.flatten_cons]
    obtain ⟨i, hi⟩ := i
    cases i with
    | zero =>
      rw [List.getElem?_append_left (by simp)]
      simp
    | succ i =>
      rw [List.getElem?_append_right (by simp [Nat.succ_mul]; omega)]
      have := ih (fun i j => f i.succ j) ⟨i, by omega⟩
      rw [List.length_ofFn, show (i + 1) * m + j.val - m = i * m + j.val by rw [Nat.succ_mul]; omega]
      exact this

theorem saves_a2 {T : Type} [Cell R T] (a : A2 T) : Saves (R := R) a.to A2.from (some a) := by
  obtain ⟨n, m, val⟩ := a
  by_cases h : n * m = 0
  · refine ⟨Obj.ofGrp (((Grp.empty : Grp R).addA "size" (scalar (n * m))).addA "shape" (vec [n, m])), ?_, ?_⟩
    · intro g e
      unfold A2.to
      rw [if_neg (fun h' => h' h), overwriteGroup_eq]
      simp [attr_eq]
    · intro g e hg
      unfold A2.from
      rw [hg]
      have e2 : (vec [n, m] : Data R) = vec (List.ofFn ![n, m]) := rfl
      unfold Obj.ofGrp
      dsimp only
      have ha : ∀ (s : Grp R) x, Grp.getAttr ⟨s.attrs, s.kids⟩ x = s.getAttr x := fun _ _ => rfl
      simp only [ha, getAttr_addA, getAttr_empty]
      simp [e2, h]
      refine ⟨by simpa using h, ?_⟩
      funext i j
      exact absurd h (Nat.mul_pos (Nat.lt_of_le_of_lt (Nat.zero_le _) i.2)
        (Nat.lt_of_le_of_lt (Nat.zero_le _) j.2)).ne'
  · have hn : n ≠ 0 := fun h' => h (by simp [h'])
    refine ⟨.data ⟨[n, m], Cell.enc (List.ofFn fun i => List.ofFn (val i)).flatten⟩
      [("size", scalar (n * m)), ("shape", vec [n, m])], ?_, ?_⟩
    · intro g e
      unfold A2.to
      rw [if_pos h]
      simp only [mat_ofFn n m val hn]
      simp [overwriteData_eq]
    · intro g e hg
      unfold A2.from
      rw [hg]
      simp only [Cell.dec_enc]
      rw [dif_pos (flatten_ofFn_length n m val)]
      congr 2
      funext i j
      have := flatten_ofFn_get n m val i j
      rw [List.getElem?_eq_some_iff] at this
      exact this.2

theorem rowsOf_flatten {T : Type} (m : ℕ) (l : List (List T)) (h : ∀ r ∈ l, r.length = m) :
    rowsOf m l.length l.flatten = l := by
  induction l with
  | nil => rfl
  | cons r l ih =>
    have hr := h r (by simp)
    rw [List.length_cons, rowsOf, List.flatten_cons, ← hr, List.take_left', List.drop_left', hr,
      ih (fun r hr => h r (by simp [hr]))] <;> rfl

theorem mat_rows {T : Type} [Cell R T] (k : ℕ) (l : List (Fin k → T)) :
    ∃ d : Data R, mat (l.map List.ofFn) = some d ∧ readMat d = some (l.map List.ofFn) ∧
      (l ≠ [] → d.dims = [l.length, k]) := by
  have hm : ∀ r ∈ l.map List.ofFn, r.length = ((l.map List.ofFn).headD []).length := by
    cases l with
    | nil => simp
    | cons a l => simp
  refine ⟨⟨[(l.map List.ofFn).length, ((l.map List.ofFn).headD []).length],
    Cell.enc (l.map List.ofFn).flatten⟩, ?_, ?_, ?_⟩
  · unfold mat
    dsimp only
    rw [if_pos]
    rw [List.all_eq_true]
    exact fun r hr => decide_eq_true (hm r hr)
  · simp only [readMat, Cell.dec_enc, Option.map_some, rowsOf_flatten _ _ hm]
  · intro hne
    cases l with
    | nil => exact absurd rfl hne
    | cons a l => simp

theorem tuple_of (m : Motion9 R) : (HFMotion.of m).tuple = m := by
  obtain ⟨W, w⟩ := m
  unfold HFMotion.of HFMotion.tuple
  congr 1
  · funext i; fin_cases i <;> rfl
  · funext i; fin_cases i <;> rfl

theorem array_of (m : Fin 9 → ℤ) : (HFMatrix.of m).array = m := by
  funext i; fin_cases i <;> rfl

theorem saves_motion (m : Motion9 R) : Saves (R := R) m.to Motion9.from (some m) := by
  refine saves_data ?_
  simp [tuple_of]

theorem saves_sym (M : List (Motion9 R)) : Saves (R := R) (symTo M) symFrom (some M) := by
  refine saves_data ?_
  simp [tuple_of, Function.comp_def]

theorem saves_point (env : Env R) (M : List (Fin 9 → ℤ)) :
    Saves (R := R) (pointTo M) (pointFrom env) (some (env.sort M)) := by
  refine saves_data ?_
  simp [array_of, Function.comp_def]

theorem mapM_ofFn {T : Type} (k : ℕ) (F : List T → Option (Fin k → T)) (l : List (Fin k → T))
    (h : ∀ f, F (List.ofFn f) = some f) : (l.map List.ofFn).mapM F = some l := by
  rw [List.mapM_map, mapM_some' _ id]
  · simp
  · intro x _
    exact h x

theorem saves_basis (b : Basis R) : Saves (R := R) b.to Basis.from (some (reloadBasis b)) := by
  obtain ⟨p, t⟩ := b
  obtain ⟨d, hd, hr, hdim⟩ := mat_rows (R := R) 3 p
  by_cases hp : p = []
  · subst hp
    refine saves_group _ (by simp [attr_eq]; rfl) ?_
    simp [Basis.mk', reloadBasis]
  · refine saves_group _ (by simp [attr_eq, dataSet_eq, hd, hp]; rfl) ?_
    have hm : (p.map List.ofFn).mapM (fun r : List R =>
        if h : r.length = 3 then some (fun i : Fin 3 => r[i.val]'(by omega)) else none) = some p :=
      mapM_ofFn 3 _ p fun f => by simp [-List.ofFn_succ]
    simp only [Grp.getData, get_put, getAttr_put, getAttr_addA]
    simp [hp, hdim hp, hr, Basis.mk', reloadBasis, -List.mapM_map]
    rw [hm]
    rfl

theorem saves_latt (env : Env R) (l : Latt R) : Saves (R := R) l.to (Latt.from env) (reloadLattice env l) := by
  obtain ⟨o1, w1, r1⟩ := saves_sym l.space
  obtain ⟨o2, w2, r2⟩ := saves_point env l.point
  obtain ⟨o3, w3, r3⟩ := saves_basis l.basis
  refine saves_group _ (by simp only [attr_eq, w1, w2, w3, getAttr_addA, getAttr_empty, Option.bind_eq_bind,
    Option.bind_some, String.reduceEq, if_false, Option.or_none, Option.none_or]; rfl) ?_
  simp only [getAttr_put, getAttr_addA, getAttr_empty, Option.bind_eq_bind, Option.bind_some, String.reduceEq,
    if_false, if_true, Option.or_none, Option.none_or, Option.some_or, readArr_vec, readScalar_scalar]
  rw [r1 _ _ (by simp), r2 _ _ (by simp), r3 _ _ (by simp)]
  unfold reloadLattice
  simp only [Option.bind_some]
  cases env.snap l.space (reloadBasis l.basis) <;> rfl

theorem saves_lvec (env : Env R) (v : LVec R) : Saves (R := R) v.to (LVec.from env) (reloadLVec env v) := by
  obtain ⟨o1, w1, r1⟩ := saves_latt env v.lattice
  obtain ⟨o2, w2, r2⟩ := saves_a2 (R := R) v.components
  refine saves_group _ (by simp [attr_eq, w1, w2]; rfl) ?_
  simp [r1 _ "lattice", r2 _ "components"]
  unfold reloadLVec
  cases reloadLattice env v.lattice <;> rfl

theorem saves_poly {V : Type} {vto : V → Grp R → String → Option (Grp R)} {vfrom : Grp R → String → Option V}
    {rv : V → Option V} (p : Poly V) (h : Saves (R := R) (vto p.vertices) vfrom (rv p.vertices)) :
    Saves (R := R) (p.to vto) (Poly.from vfrom) (reloadPoly rv p) := by
  obtain ⟨o1, w1, r1⟩ := h
  obtain ⟨o2, w2, r2⟩ := saves_lists (R := R) p.faces
  refine saves_group _ (by simp [w1, w2]; rfl) ?_
  simp [r1 _ "vertices", r2 _ "faces"]
  unfold reloadPoly
  cases rv p.vertices <;> rfl

theorem saves_oldPoly (p : OldPoly R) : Saves (R := R) p.to OldPoly.from (some p) := by
  obtain ⟨o1, w1, r1⟩ := saves_a2 (R := R) p.vertices
  obtain ⟨o2, w2, r2⟩ := saves_lists (R := R) p.verticesPerFace
  refine saves_group _ (by simp [w1, w2]; rfl) ?_
  simp [r1 _ "vertices", r2 _ "vertices_per_face"]

theorem saves_table (t : PTable) (h : GoodTable t) : Saves (R := R) t.to PTable.from (some t) := by
  obtain ⟨o1, w1, r1⟩ := saves_map (R := R) t.ijmap h
  obtain ⟨o2, w2, r2⟩ := saves_lists (R := R) t.permutations
  refine saves_group _ (by simp [attr_eq, w1, w2]; rfl) ?_
  simp [r1 _ "map", r2 _ "permutations"]

theorem saves_interp {T : Type} [Cell R T] (x : Interp R T) :
    Saves (R := R) x.to Interp.from (reloadInterp x) := by
  obtain ⟨o1, w1, r1⟩ := saves_a2 (R := R) x.data
  refine saves_group _ (by simp [dataSet_eq, w1, -List.ofFn_succ]; rfl) ?_
  simp only [Grp.getData]
  simp [r1 _ "data", -List.ofFn_succ]
  unfold reloadInterp Interp.make Interp.setCostInfo
  cases checkElements x.shape x.elements <;> rfl

theorem saves_dual {T S : Type} [Cell R T] [Cell R S] (x : Dual R T S) (h : GoodTable x.table) :
    Saves (R := R) x.to Dual.from (reloadDual x) := by
  obtain ⟨o1, w1, r1⟩ := saves_interp (R := R) x.values
  obtain ⟨o2, w2, r2⟩ := saves_interp (R := R) x.vectors
  obtain ⟨o3, w3, r3⟩ := saves_table (R := R) x.table h
  refine saves_group _ (by simp [w1, w2, w3]; rfl) ?_
  simp [r1 _ "values", r2 _ "vectors", r3 _ "permutation_table"]
  rfl

theorem saves_cube (c : Fin 8 → ℕ) : Saves (R := R) (cubeTo c) cubeFrom (some c) := by
  refine saves_group _ (by simp [dataSet_eq, -List.ofFn_succ]; rfl) ?_
  simp only [Grp.getData]
  simp [-List.ofFn_succ]

theorem saves_polyNode (p : PolyNode R) : Saves (R := R) p.to PolyNode.from (some p) := by
  obtain ⟨d1, h1, r1, -⟩ := mat_rows (R := R) 4 p.vi
  obtain ⟨d2, h2, r2, -⟩ := mat_rows (R := R) 4 p.ci
  refine saves_group _ (by simp [dataSet_eq, h1, h2]; rfl) ?_
  have m1 : (p.vi.map List.ofFn).mapM four = some p.vi := mapM_ofFn 4 _ _ fun f => by simp [four, -List.ofFn_succ]
  have m2 : (p.ci.map List.ofFn).mapM four = some p.ci := mapM_ofFn 4 _ _ fun f => by simp [four, -List.ofFn_succ]
  simp only [Grp.getData]
  simp [r1, r2, m1, m2, -List.mapM_map]

theorem saves_nodes (x : Nodes R) (h : GoodNodes x) : Saves (R := R) x.to Nodes.from (some x) := by
  obtain ⟨c', hc, hca, -, hcr⟩ := writeAll_spec (R := R) (w := cubeTo) (rd := cubeFrom) (r := some) x.cubes 0
    ((Grp.empty : Grp R).addA "length" (scalar x.cubes.length))
    (fun c _ => by obtain ⟨o, w, r⟩ := saves_cube (R := R) c; exact ⟨o, fun g e _ => w g e, r⟩)
    (fun j _ => rfl)
  obtain ⟨p', hp, hpa, -, hpr⟩ := writeAll_spec (R := R) (w := PolyNode.to) (rd := PolyNode.from) (r := some)
    x.polys 0 ((Grp.empty : Grp R).addA "length" (scalar x.polys.length))
    (fun c _ => by obtain ⟨o, w, r⟩ := saves_polyNode (R := R) c; exact ⟨o, fun g e _ => w g e, r⟩)
    (fun j _ => rfl)
  obtain ⟨h1, h2⟩ := h
  have hc2 := readAll_of hcr
  have hp2 := readAll_of hpr
  rw [mapM_some] at hc2 hp2
  have g1 : ∀ (g : Grp R) (e : String) (s : Grp R), g.get e = some (Obj.ofGrp s) → g.getGroup e = some s :=
    fun g e s h => getGroup_of h
  have n1 : (x.nodes.map Prod.fst).countP (fun t => decide (t = typeCube)) = x.cubes.length := by
    rw [List.countP_map, h1, List.countP_eq_length_filter]; rfl
  have n2 : (x.nodes.map Prod.fst).countP (fun t => decide (t = typePoly)) = x.polys.length := by
    rw [List.countP_map, h2, List.countP_eq_length_filter]; rfl
  refine saves_group _ (by simp [dataSet_eq, newGroup_eq, attr_eq, hc, hp]; rfl) ?_
  simp only [Grp.getData]
  simp only [get_put, String.reduceEq, if_false, if_true, readVec_vec, Option.bind_eq_bind, Option.bind_some,
    List.length_map, ne_eq, not_true_eq_false]
  rw [g1 _ "cube_nodes" c' (by simp), g1 _ "poly_nodes" p' (by simp)]
  simp only [Option.bind_some, hca, hpa, getAttr_addA, getAttr_empty, if_true, Option.none_or,
    readScalar_scalar, n1, n2, not_true_eq_false, if_false, hc2, hp2]
  rw [show x.nodes.map Prod.fst = x.nodes.unzip.1 by simp, show x.nodes.map Prod.snd = x.nodes.unzip.2 by simp,
    List.zip_unzip]
  rfl

end Brille.Hdf
