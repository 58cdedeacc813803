/-
C63: the results of interpolating the data of a grid.
-/
import Verif.Proofs.GridInterp
import Verif.Props.Fill
import Mathlib.Algebra.Order.Ring.Rat

namespace Brille.Spec

/-- The weighted sum of element `s` of mode `b`, where the mode of every vertex is first multiplied by the phase
that belongs to the pair of it and mode `b` of the pivot. -/
def phasedMode {K : Type} [Semiring K] (span : Nat) (phase : Nat → (Nat → K) → (Nat → K) → K) (pivot : Nat → K)
    (cs : List (Contribution K)) (b s : Nat) : K :=
  (cs.map fun c => c.weight *
    phase span (fun k => modeElem span pivot b k) (fun k => modeElem span c.row (c.perm.getD b 0) k) *
    modeElem span c.row (c.perm.getD b 0) s).sum

end Brille.Spec

namespace Brille.Props
open Brille.Fill Brille.Spec Brille.GridInterp
open Brille.PermTable (Table safeGet)

section
variable {T R : Type} [Zero T] [Zero R]

/-- data as they are held after they were accepted: with a documented layout and without gaps -/
structure Stored {α : Type} (h : Held α) : Prop where
  layout : ∃ e, Layout h.shape e h.rows h.branches h.elements.triple
  span : h.elements.span = h.elements.scalars + h.elements.vectors + h.elements.matrices
  cols : h.cols = h.branches * h.elements.span

theorem layout_shape {shape : List Nat} {e t : Nat × Nat × Nat} {p b : Nat} (h : Layout shape e p b t) :
    ∃ tail, shape = p :: tail ∧ tail.prod = b * (t.1 + t.2.1 + t.2.2) ∧ ∀ n, Layout (n :: tail) e n b t := by
  cases h with
  | one _ s v m h => exact ⟨[], rfl, by simp [h], fun n => .one n s v m h⟩
  | oneDefault => exact ⟨[], rfl, by simp, fun n => .oneDefault n⟩
  | two _ _ s v m h => exact ⟨_, rfl, by simp, fun n => .two n b s v m h⟩
  | twoDefault _ y h => exact ⟨_, rfl, by simp, fun n => .twoDefault n y h⟩
  | three _ _ s v m h => exact ⟨_, rfl, by simp, fun n => .three n b s v m h⟩
  | threeDefault _ _ y => exact ⟨_, rfl, by simp, fun n => .threeDefault n b y⟩
  | four _ _ k s v m h hn => exact ⟨_, rfl, by simp [hn], fun n => .four n b k s v m h hn⟩
  | fourDefault _ _ k => exact ⟨_, rfl, by simp, fun n => .fourDefault n b k⟩
  | five _ _ k s v m h hn => exact ⟨_, rfl, by simp [hn], fun n => .five n b k s v m h hn⟩
  | fiveDefault _ _ k => exact ⟨_, rfl, by simp, fun n => .fiveDefault n b k⟩

theorem stored_of_holds {α : Type} {h : Held α} {s : List Nat} {e : Nat × Nat × Nat} {m : Nat → α} {p b : Nat}
    {t : Nat × Nat × Nat} (hl : Layout s e p b t) (hh : Holds h s m p b t) : Stored h := by
  have ht := hh.elements
  refine ⟨⟨e, ?_⟩, ?_, ?_⟩
  · rw [hh.shape, hh.rows, hh.modes, ht]; exact hl
  · rw [hh.span, ← ht]; rfl
  · rw [hh.cols, hh.modes, hh.span]

/-- data are stored, or there are none yet -/
def Fine {α : Type} (h : Held α) : Prop := h.rows = 0 ∨ Stored h

/-- the table can be used for data with `b` modes -/
structure Usable (t : Table) (b : Nat) : Prop where
  first : t.permutations[0]? = some (List.range b)
  maps : ∀ p ∈ t.permutations, ModeMap b p
  known : ∀ k v, t.ijmap k = some v → v ≤ t.permutations.length

theorem usable_get {t : Table} {b : Nat} (h : Usable t b) (i j : Nat) :
    ∃ p, safeGet t i j = some p ∧ ModeMap b p := by
  have h0 := h.first
  have hmem : List.range b ∈ t.permutations := List.mem_of_getElem? h0
  simp only [safeGet]
  cases hk : t.ijmap (PermTable.ij2key t i j) with
  | none => exact ⟨_, h0, h.maps _ hmem⟩
  | some v =>
    simp only
    split
    · rename_i hv
      have hl := h.known _ v hk
      have hlt : v - PermTable.offset < t.permutations.length := by
        have : 0 < t.permutations.length := by
          rw [List.getElem?_eq_some_iff] at h0
          exact h0.1
        simp only [PermTable.offset] at hv ⊢; omega
      exact ⟨_, List.getElem?_eq_getElem hlt, h.maps _ (List.getElem_mem hlt)⟩
    · exact ⟨_, h0, h.maps _ hmem⟩

theorem modeMap_range (b : Nat) : ModeMap b (List.range b) := ⟨by simp, by simp⟩

theorem usable_refresh {t t' : Table} {b n b' : Nat} (h : Usable t b)
    (ht : PermTable.step t (.refresh n b') = some t') : Usable t' b' := by
  obtain ⟨p0, ps, hp⟩ : ∃ p0 ps, t.permutations = p0 :: ps := by
    have := h.first
    cases hp : t.permutations with
    | nil => rw [hp] at this; simp at this
    | cons a b => exact ⟨a, b, rfl⟩
  have hp0 : p0 = List.range b := by have := h.first; rw [hp] at this; simpa using this
  simp only [PermTable.step, PermTable.refresh] at ht
  have key : ∀ t1 : Table, t1.permutations = t.permutations → (∀ k v, t1.ijmap k = some v → v ≤ t.permutations.length) →
      ∀ x : Bool, Option.map (fun y : Table × Bool => y.1) (match t1.permutations with
        | [] => none
        | p0 :: _ =>
          if (b' != p0.length) = true then
            some (PermTable.addZeroth { t1 with ijmap := fun k => (t1.ijmap k).map fun _ => 0, permutations := [] } b', x)
          else some (t1, x)) = some t' → Usable t' b' := by
    intro t1 e1 e2 x hx
    rw [e1, hp] at hx
    simp only at hx
    split at hx
    · simp only [Option.map_some, Option.some.injEq] at hx
      subst hx
      refine ⟨by simp [PermTable.addZeroth], ?_, ?_⟩
      · intro p hp'
        simp only [PermTable.addZeroth, List.drop_nil, List.mem_singleton] at hp'
        subst hp'; exact modeMap_range b'
      · intro k v hv
        simp only [PermTable.addZeroth, PermTable.mapSet, PermTable.offset] at hv ⊢
        split at hv
        · simp only [Option.some.injEq] at hv; subst hv; simp
        · cases hq : t1.ijmap k with
          | none => rw [hq] at hv; simp at hv
          | some y => rw [hq] at hv; simp at hv; subst hv; simp
    · rename_i hb
      simp only [Option.map_some, Option.some.injEq] at hx
      subst hx
      have hbb : b' = b := by
        simp only [bne_iff_ne, ne_eq, not_not] at hb
        rw [hb, hp0]; simp
      subst hbb
      exact ⟨by rw [e1]; exact h.first, by rw [e1]; exact h.maps, by rw [e1]; exact e2⟩
  refine key (if (n != t.indexSize) = true then { t with ijmap := fun _ => none, indexSize := n } else t) ?_ ?_ _ ht
  · split <;> rfl
  · split
    · simp
    · exact h.known

theorem findPermutation_le (ps : List (List Nat)) (v : List Nat) :
    (PermTable.findPermutation ps v).2 + 1 ≤
      (if (PermTable.findPermutation ps v).1 then ps else ps ++ [v]).length := by
  obtain ⟨h, _⟩ := PermTable.findPermutation_get ps v
  rw [List.getElem?_eq_some_iff] at h
  exact h.1

theorem usable_store {t t' : Table} {b i j : Nat} {p : List Nat} {x : Nat} (h : Usable t b) (hp : ModeMap b p)
    (ht : PermTable.overwrite t i j p = some (t', x)) : Usable t' b := by
  simp only [PermTable.overwrite] at ht
  split at ht
  · cases ht
  · simp only [Option.some.injEq, Prod.mk.injEq] at ht
    obtain ⟨rfl, _⟩ := ht
    refine ⟨PermTable.getElem?_extend _ _ _ _ _ h.first, ?_, ?_⟩
    · intro q hq
      simp only at hq
      split at hq
      · exact h.maps q hq
      · rcases List.mem_append.mp hq with hq | hq
        · exact h.maps q hq
        · rw [List.mem_singleton.mp hq]; exact hp
    · intro k v hv
      simp only [PermTable.mapSet, PermTable.offset] at hv ⊢
      split at hv
      · simp only [Option.some.injEq] at hv
        subst hv
        exact findPermutation_le _ _
      · have := h.known k v hv
        split
        · exact this
        · simp; omega

/-- what a call has to be given: sizes below `2^32`; a replacement has dimensions and ends normally; a
permutation is stored for the present modes -/
def Proper (g : Grid T R) : Op T R → Prop
  | .fill vals valel vecs vecel =>
    (∃ e, Numbers valel e ∧ Sized vals.shape e) ∧ ∃ f, Numbers vecel f ∧ Sized vecs.shape f
  | .fillCost vals valel vecs vecel =>
    (∃ e, Numbers valel e ∧ Sized vals.shape e ∧ valel.stride = 1) ∧
      ∃ f, Numbers vecel f ∧ Sized vecs.shape f ∧ vecel.stride = 1
  | .replaceValues a e rl lu =>
    a.shape ≠ [] ∧ Sized a.shape e.triple ∧ (step g (.replaceValues a e rl lu)).2 = none
  | .replaceVectors a e rl lu =>
    a.shape ≠ [] ∧ Sized a.shape e.triple ∧ (step g (.replaceVectors a e rl lu)).2 = none
  | .store _ _ p => ModeMap g.values.branches p

/-- what every grid with a proper history satisfies -/
structure Healthy (g : Grid T R) : Prop where
  consistent : Consistent g
  values : Fine g.values
  vectors : Fine g.vectors
  table : Usable g.table g.values.branches

theorem fine_setupFake {α : Type} [Zero α] (h : Held α) (n b : Nat) : Stored (setupFake h n b) := by
  have hb := setupFake_branches h n b
  have hspan : (setupFake h n b).elements.span = 1 := by simp [setupFake, Elements.span, ind]
  refine ⟨⟨(1, 0, 0), ?_⟩, ?_, ?_⟩
  · rw [hb]
    have := Layout.two n b 1 0 0 (by decide)
    simpa [setupFake, Elements.triple] using this
  · rw [hspan]; rfl
  · rw [hb, hspan]; simp [setupFake]

omit [Zero T] [Zero R] in
theorem healthy_update {g0 g' : Grid T R} {b : Nat} (h1 : Consistent g0) (h2 : Fine g0.values) (h3 : Fine g0.vectors)
    (h4 : Usable g0.table b) (hu : updateTable g0 = .ok g') : Healthy g' := by
  obtain ⟨_, e1, e2, e3⟩ := updateTable_ok hu
  refine ⟨⟨by rw [e1, e2]; exact h1.points, by rw [e1, e2]; exact h1.modes⟩, by rw [e1]; exact h2,
    by rw [e2]; exact h3, ?_⟩
  rw [e1]
  exact usable_refresh h4 e3

omit [Zero T] in
theorem replace_stored {h : Held T} {a : Nd T} {e : Elements} {rl : Rot.RotatesLike} {lu : Rot.LengthUnit}
    {h' : Held T} (hne : a.shape ≠ []) (hs : Sized a.shape e.triple) (hr : h.replace a e rl lu = (h', none)) :
    Stored h' := by
  simp only [Held.replace] at hr
  split at hr
  · simp at hr
  · split at hr
    · simp at hr
    · split at hr
      · rename_i e' hc
        simp only [Prod.mk.injEq, and_true] at hr
        subst hr
        have hm : make a e rl lu = .ok ⟨(rowsCols a.shape).1, (rowsCols a.shape).2, a.mem, a.shape, e', rl, lu⟩ := by
          simp only [make, hc]
        obtain ⟨p, b, t, hl, hh⟩ := make_holds (small_of_sized hs rfl) hne hm
        exact stored_of_holds hl hh
      · simp at hr

theorem healthy_step (g : Grid T R) (o : Op T R) (hg : Healthy g) (ho : Proper g o) : Healthy (step g o).1 := by
  have hfin : ∀ (cv : Except Fault (Held T)) (cw : Except Fault (Held R)), (∀ h, cv = .ok h → Stored h) →
      (∀ h, cw = .ok h → Stored h) → Healthy (finish g cv cw).1 := by
    intro cv cw h1 h2
    cases cv with
    | error x => exact hg
    | ok val =>
      cases cw with
      | error x => exact hg
      | ok vec =>
        simp only [finish, replaceData]
        split
        · exact hg
        · rename_i hc
          cases hu : updateTable { g with values := val, vectors := vec } with
          | error f => exact hg
          | ok g' =>
            refine healthy_update (g0 := { g with values := val, vectors := vec }) ⟨?_, ?_⟩ (Or.inr (h1 val rfl))
              (Or.inr (h2 vec rfl)) hg.table hu
            · simp only; omega
            · simp only; omega
  cases o with
  | fill vals valel vecs vecel =>
    obtain ⟨⟨e, he, hs⟩, f, hf, hs'⟩ := ho
    refine hfin (fillCheck vals valel.contiguous g.vertices) _ ?_ ?_
    · intro h hh
      obtain ⟨_, p, b, t, hl, hk⟩ := (fillCheck_iff he hs _).1 h hh
      exact stored_of_holds hl hk
    · intro h hh
      obtain ⟨_, p, b, t, hl, hk⟩ := (fillCheck_iff hf hs' _).1 h hh
      exact stored_of_holds hl hk
  | fillCost vals valel vecs vecel =>
    obtain ⟨⟨e, he, hs, hd⟩, f, hf, hs', hd'⟩ := ho
    have hcol : ∀ {sh : List Nat} {e t : Nat × Nat × Nat} {p b : Nat}, Layout sh e p b t → Layout (columned sh) e p b t := by
      intro sh e t p b hl
      match sh, hl with
      | [n], hl => exact layout_column.mpr hl
      | _ :: _ :: _, hl => exact hl
    refine hfin (fillCheckCost vals valel g.vertices) _ ?_ ?_
    · intro h hh
      obtain ⟨_, p, b, t, hl, hk⟩ := (fillCheckCost_iff he hs hd _).1 h hh
      exact stored_of_holds (hcol hl) hk
    · intro h hh
      obtain ⟨_, p, b, t, hl, hk⟩ := (fillCheckCost_iff hf hs' hd' _).1 h hh
      exact stored_of_holds (hcol hl) hk
  | replaceValues a e rl lu =>
    obtain ⟨hne, hs, ho⟩ := ho
    simp only [step] at ho ⊢
    generalize hx : g.values.replace a e rl lu = x at ho ⊢
    obtain ⟨h, _ | x⟩ := x
    case some => simp at ho
    case none =>
      have hst := replace_stored hne hs hx
      simp only at ho ⊢
      split at ho
      · rename_i hc
        rw [if_pos hc]
        cases hu : updateTable ({ g with values := h, vectors := setupFake g.vectors h.rows h.branches } : Grid T R) with
        | error f => rw [hu] at ho; simp [ended] at ho
        | ok g' =>
          exact healthy_update (g0 := { g with values := h, vectors := setupFake g.vectors h.rows h.branches })
            ⟨rfl, (setupFake_branches _ _ _).symm⟩ (Or.inr hst) (Or.inr (fine_setupFake _ _ _)) hg.table hu
      · rename_i hc
        rw [if_neg hc]
        cases hu : updateTable ({ g with values := h } : Grid T R) with
        | error f => rw [hu] at ho; simp [ended] at ho
        | ok g' =>
          exact healthy_update (g0 := { g with values := h })
            ⟨not_not.mp fun hx => hc (Or.inl hx), not_not.mp fun hx => hc (Or.inr hx)⟩ (Or.inr hst) hg.vectors hg.table hu
  | replaceVectors a e rl lu =>
    obtain ⟨hne, hs, ho⟩ := ho
    simp only [step] at ho ⊢
    generalize hx : g.vectors.replace a e rl lu = x at ho ⊢
    obtain ⟨h, _ | x⟩ := x
    case some => simp at ho
    case none =>
      have hst := replace_stored hne hs hx
      simp only at ho ⊢
      split at ho
      · rename_i hc
        rw [if_pos hc]
        cases hu : updateTable ({ g with values := setupFake g.values h.rows h.branches, vectors := h } : Grid T R) with
        | error f => rw [hu] at ho; simp [ended] at ho
        | ok g' =>
          exact healthy_update (g0 := { g with values := setupFake g.values h.rows h.branches, vectors := h })
            ⟨rfl, setupFake_branches _ _ _⟩ (Or.inr (fine_setupFake _ _ _)) (Or.inr hst) hg.table hu
      · rename_i hc
        rw [if_neg hc]
        cases hu : updateTable ({ g with vectors := h } : Grid T R) with
        | error f => rw [hu] at ho; simp [ended] at ho
        | ok g' =>
          exact healthy_update (g0 := { g with vectors := h })
            ⟨not_not.mp fun hx => hc (Or.inl hx), not_not.mp fun hx => hc (Or.inr hx)⟩ hg.values (Or.inr hst) hg.table hu
  | store i j p =>
    simp only [step]
    cases hov : PermTable.overwrite g.table i j p with
    | none => exact hg
    | some x =>
      obtain ⟨t, idx⟩ := x
      exact ⟨⟨hg.consistent.points, hg.consistent.modes⟩, hg.values, hg.vectors, usable_store hg.table ho hov⟩

/-- every proper history -/
theorem healthy_run (n : Nat) (keys : List Nat) (ops : List (Op T R))
    (h : Along Proper (newGrid n keys : Grid T R) ops) : Healthy (run (newGrid n keys : Grid T R) ops) := by
  suffices key : ∀ (ops : List (Op T R)) (g : Grid T R), Healthy g → Along Proper g ops → Healthy (run g ops) by
    refine key ops _ ⟨⟨rfl, rfl⟩, Or.inl rfl, Or.inl rfl, ?_⟩ h
    obtain ⟨k1, k2, k3⟩ := PermTable.insertKeys_spec keys (PermTable.mk0 n 1)
    have hb : (emptyHeld T).branches = 1 := rfl
    simp only [newGrid, PermTable.mkKeys, hb]
    refine ⟨?_, ?_, ?_⟩
    · rw [k2]; rfl
    · rw [k2]
      intro p hp
      simp only [PermTable.mk0, PermTable.addZeroth, List.drop_nil, List.mem_singleton] at hp
      subst hp; exact modeMap_range 1
    · rw [k2]
      intro k v hv
      rw [k3 k] at hv
      simp only [PermTable.mk0, PermTable.addZeroth, PermTable.mapSet, PermTable.offset, List.drop_nil,
        List.length_singleton] at hv ⊢
      by_cases hk : k = 0
      · simp [hk] at hv; omega
      · simp only [hk, if_false] at hv
        split at hv
        · simp at hv; omega
        · cases hv
  intro ops
  induction ops with
  | nil => intro g hg _; exact hg
  | cons o os ih => intro g hg h; exact ih _ (healthy_step g o hg h.1) h.2

end

section
variable {W T R : Type} [Semiring T] [Semiring R]

/-- the vertices of a point as the specification sees them: their weight, their data, and the stored
permutation of the first vertex and them -/
def verticesOf {K : Type} (h : Held K) (t : Table) (wt : W → K) (iw : List (Nat × W)) : List (Contribution K) :=
  iw.map fun x => ⟨wt x.2, heldRow h x.1, (safeGet t ((iw.map Prod.fst).headD 0) x.1).getD []⟩

/-- the row of an array of results that belongs to a point -/
def resultRow {K : Type} (a : Nd K) (i : Nat) : Nat → K := fun k => a.mem (i * (a.shape.drop 1).prod + k)

theorem resultOf_values {K : Type} [Semiring K] (h : Held K) (t : Table) (wt : W → K) (iw : List (Nat × W)) (b s : Nat) :
    resultOf h none t iw wt b s = weightedMode h.elements.span (verticesOf h t wt iw) b s := by
  simp only [resultOf, permsFor, verticesOf, weightedMode]
  rw [List.zip_map', List.map_map, List.map_map]
  congr 1
  apply List.map_congr_left
  intro x _
  simp [contribution, factorOf, modeElem, heldRow]

theorem resultOf_vectors {K : Type} [Semiring K] (h : Held K) (f : Nat → (Nat → K) → (Nat → K) → K) (t : Table)
    (wt : W → K) (iw : List (Nat × W)) (b s : Nat) :
    resultOf h (some f) t iw wt b s =
      phasedMode h.elements.span f (heldRow h ((iw.map Prod.fst).headD 0)) (verticesOf h t wt iw) b s := by
  simp only [resultOf, permsFor, verticesOf, phasedMode]
  rw [List.zip_map', List.map_map, List.map_map]
  congr 1
  apply List.map_congr_left
  intro x _
  simp [contribution, factorOf, modeElem, heldRow, Nat.add_assoc]

/-- **C63 (results).** Take a grid with any proper history that holds data, and locate every one of `n` points
at one or more of the points that have data.  Then `interpolate_at` (of a trellis or mesh) ends normally: it
never reads or writes outside of its arrays.  The results have the layouts of the stored arrays with `n` in
place of the number of points.  Element `s` of mode `b` of point `i` is the weighted sum over the vertices of
the elements `s` of the modes that belong to `b`, in the vectors with the phases removed. -/
theorem C63_results (vertices : Nat) (keys : List Nat) (ops : List (Op T R))
    (h : Along Proper (newGrid vertices keys : Grid T R) ops) (c : Numeric W T R) (locate : Nat → List (Nat × W)) (n : Nat) :
    let g : Grid T R := run (newGrid vertices keys) ops
    g.values.rows ≠ 0 → (∀ i, i < n → locate i ≠ [] ∧ ∀ x ∈ locate i, x.1 < g.values.rows) →
    ∃ vals vecs, interpolate .trellis c g locate n = .ok vals vecs ∧
      (∃ e tail, g.values.shape = g.values.rows :: tail ∧ vals.shape = n :: tail ∧
        Layout vals.shape e n g.values.branches g.values.elements.triple) ∧
      (∃ e tail, g.vectors.shape = g.vectors.rows :: tail ∧ vecs.shape = n :: tail ∧
        Layout vecs.shape e n g.values.branches g.vectors.elements.triple) ∧
      (∀ i b s, i < n → b < g.values.branches → s < g.values.elements.span →
        modeElem g.values.elements.span (resultRow vals i) b s =
          weightedMode g.values.elements.span (verticesOf g.values g.table c.weightT (locate i)) b s) ∧
      (∀ i b s, i < n → b < g.values.branches → s < g.vectors.elements.span →
        modeElem g.vectors.elements.span (resultRow vecs i) b s =
          phasedMode g.vectors.elements.span c.phase (heldRow g.vectors (((locate i).map Prod.fst).headD 0))
            (verticesOf g.vectors g.table c.weightR (locate i)) b s) := by
  intro g hrows hloc
  have hg : Healthy g := healthy_run vertices keys ops h
  have hv : Stored g.values := hg.values.resolve_left hrows
  have hw : Stored g.vectors := hg.vectors.resolve_left (by rw [← hg.consistent.points]; exact hrows)
  clear_value g
  obtain ⟨e, hl⟩ := hv.layout
  obtain ⟨tail, s1, s2, s3⟩ := layout_shape hl
  obtain ⟨f, hl'⟩ := hw.layout
  obtain ⟨tail', s1', s2', s3'⟩ := layout_shape hl'
  have c1 : tail.prod = g.values.cols := by rw [s2, hv.cols, hv.span]; rfl
  have c2 : tail'.prod = g.vectors.cols := by rw [s2', hw.cols, hw.span]; rfl
  have ht : TableOk g := by
    intro i j
    obtain ⟨p, hp, hm⟩ := usable_get hg.table i j
    exact ⟨p, hp, hm, hg.consistent.modes ▸ hm⟩
  obtain ⟨o, p1, p2, p3, p4, p5, p6, p7⟩ := points_spec .trellis c g locate n hv.cols hw.cols ht
    (fun i hi => ⟨(hloc i hi).1, fun x hx => ⟨(hloc i hi).2 x hx, by
      rw [← hg.consistent.points]; exact (hloc i hi).2 x hx⟩⟩)
    (zeros (n :: tail), zeros (n :: tail')) (by simp [zeros, c1]) (by simp [zeros, c2]) n le_rfl
  refine ⟨⟨n :: tail, o.1.val⟩, ⟨n :: tail', o.2.val⟩, ?_, ⟨e, tail, s1, rfl, s3 n⟩, ⟨f, tail', s1', rfl, ?_⟩, ?_, ?_⟩
  · simp only [interpolate, vectorShape, if_neg hrows, s1, s1', withRows, rowsCols, c1, c2]
    rw [if_neg (by simp), p1]
  · rw [hg.consistent.modes]; exact s3' n
  · intro i b s hi hb hs
    simp only [modeElem, resultRow, List.drop_succ_cons, List.drop_zero, c1]
    rw [p4 i b s hi hb hs, ← resultOf_values]
    simp [zeros]
  · intro i b s hi hb hs
    simp only [modeElem, resultRow, List.drop_succ_cons, List.drop_zero, c2]
    rw [p5 i b s hi (by rw [← hg.consistent.modes]; exact hb) hs, ← resultOf_vectors]
    simp [zeros]

theorem points_append (kind : Kind) (c : Numeric W T R) (g : Grid T R) (locate : Nat → List (Nat × W)) (cv cw : Nat)
    (l1 l2 : List Nat) (o o1 : Buf T × Buf R) (h : points kind c g locate cv cw l1 o = .ok o1) :
    points kind c g locate cv cw (l1 ++ l2) o = points kind c g locate cv cw l2 o1 := by
  induction l1 generalizing o with
  | nil => simp only [points, Except.ok.injEq] at h; rw [h]; rfl
  | cons i is ih =>
    rw [List.cons_append]
    cases hi : locate i with
    | nil =>
      cases kind with
      | trellis => simp [points, hi] at h
      | nest =>
        simp only [points, hi] at h ⊢
        cases hd : dualInto c g [] cv cw i o with
        | none => rw [hd] at h; simp at h
        | some o2 => rw [hd] at h; exact ih o2 h
    | cons x xs =>
      simp only [points, hi] at h ⊢
      cases hd : dualInto c g (x :: xs) cv cw i o with
      | none => rw [hd] at h; simp at h
      | some o2 => rw [hd] at h; exact ih o2 h

/-- **C63 (no undefined behaviour).** After any proper history, and for points that are each located nowhere or
at points that have data, `interpolate_at` of a trellis or mesh has no undefined behaviour.  It throws exactly
if there are no data or a point is located nowhere. -/
theorem C63_safe (vertices : Nat) (keys : List Nat) (ops : List (Op T R))
    (h : Along Proper (newGrid vertices keys : Grid T R) ops) (c : Numeric W T R) (locate : Nat → List (Nat × W)) (n : Nat) :
    let g : Grid T R := run (newGrid vertices keys) ops
    (∀ i, i < n → ∀ x ∈ locate i, x.1 < g.values.rows) →
    interpolate .trellis c g locate n ≠ .ub ∧
      (interpolate .trellis c g locate n = .threw ↔ g.values.rows = 0 ∨ ∃ i, i < n ∧ locate i = []) := by
  intro g hin
  by_cases hrows : g.values.rows = 0
  · have : interpolate .trellis c g locate n = .threw := by simp [interpolate, hrows]
    rw [this]
    exact ⟨by simp, by simp [hrows]⟩
  by_cases hall : ∀ i, i < n → locate i ≠ []
  · obtain ⟨vals, vecs, h1, _⟩ := C63_results vertices keys ops h c locate n hrows fun i hi => ⟨hall i hi, hin i hi⟩
    have h1' : interpolate .trellis c g locate n = .ok vals vecs := h1
    rw [h1']
    refine ⟨by simp, by simp only [reduceCtorEq, hrows, false_or, false_iff]; rintro ⟨i, hi, hl⟩; exact hall i hi hl⟩
  have hex : ∃ i, i < n ∧ locate i = [] := by
    by_contra hc
    exact hall fun i hi hl => hc ⟨i, hi, hl⟩
  suffices hthrew : interpolate .trellis c g locate n = .threw by
    rw [hthrew]
    exact ⟨by simp, by simp only [true_iff]; exact Or.inr hex⟩
  classical
  obtain ⟨hm, hl⟩ := Nat.find_spec hex
  have hmin : ∀ i, i < Nat.find hex → locate i ≠ [] := fun i hi hli =>
    Nat.find_min hex hi ⟨by omega, hli⟩
  generalize Nat.find hex = m at hm hl hmin
  have hg : Healthy g := healthy_run vertices keys ops h
  have hv : Stored g.values := hg.values.resolve_left hrows
  have hw : Stored g.vectors := hg.vectors.resolve_left (by rw [← hg.consistent.points]; exact hrows)
  clear_value g
  obtain ⟨e, hla⟩ := hv.layout
  obtain ⟨tail, s1, s2, s3⟩ := layout_shape hla
  obtain ⟨f, hla'⟩ := hw.layout
  obtain ⟨tail', s1', s2', s3'⟩ := layout_shape hla'
  have c1 : tail.prod = g.values.cols := by rw [s2, hv.cols, hv.span]; rfl
  have c2 : tail'.prod = g.vectors.cols := by rw [s2', hw.cols, hw.span]; rfl
  have ht : TableOk g := by
    intro i j
    obtain ⟨p, hp, hmm⟩ := usable_get hg.table i j
    exact ⟨p, hp, hmm, hg.consistent.modes ▸ hmm⟩
  have hfind : ∀ o : Buf T × Buf R, o.1.size = n * g.values.cols → o.2.size = n * g.vectors.cols →
      points .trellis c g locate g.values.cols g.vectors.cols (List.range n) o = .error .threw := by
    intro o z1 z2
    -- the points after the first that is not found do not matter
    have hpre : ∃ o1, points .trellis c g locate g.values.cols g.vectors.cols (List.range m) o = .ok o1 := by
      obtain ⟨o1, p1, _⟩ := points_spec .trellis c g locate m hv.cols hw.cols ht
        (fun i hi => ⟨hmin i hi, fun x hx => ⟨hin i (by omega) x hx, by
          rw [← hg.consistent.points]; exact hin i (by omega) x hx⟩⟩)
        o (by rw [z1]; exact Nat.mul_le_mul_right _ hm.le) (by rw [z2]; exact Nat.mul_le_mul_right _ hm.le) m le_rfl
      exact ⟨o1, p1⟩
    obtain ⟨o1, p1⟩ := hpre
    obtain ⟨k, rfl⟩ := Nat.exists_eq_add_of_lt hm
    rw [show m + k + 1 = m + (k + 1) by omega, List.range_add, points_append _ _ _ _ _ _ _ _ _ _ p1,
      List.range_succ_eq_map, List.map_cons]
    simp [points, hl]
  simp only [interpolate, vectorShape, if_neg hrows, s1, s1', withRows, rowsCols, c1, c2]
  rw [if_neg (by simp), hfind _ (by simp [zeros, c1]) (by simp [zeros, c2])]

/-- a fold whose first step fails -/
theorem foldlM_range_none {σ : Type} (f : σ → Nat → Option σ) (o : σ) {n : Nat} (hn : n ≠ 0) (h : f o 0 = none) :
    (List.range n).foldlM f o = none := by
  obtain ⟨k, rfl⟩ := Nat.exists_eq_succ_of_ne_zero hn
  rw [List.range_succ_eq_map, List.foldlM_cons, h]
  rfl

/-- **C63 (outside).** The condition on the vertices is needed: a point whose first vertex has no data is undefined
behaviour, since elements after the end of the data are read. -/
theorem C63_outside (vertices : Nat) (keys : List Nat) (ops : List (Op T R))
    (h : Along Proper (newGrid vertices keys : Grid T R) ops) (c : Numeric W T R) (locate : Nat → List (Nat × W)) (n : Nat) :
    let g : Grid T R := run (newGrid vertices keys) ops
    g.values.rows ≠ 0 → g.values.branches ≠ 0 → g.values.elements.span ≠ 0 → n ≠ 0 →
    (∃ j w rest, locate 0 = (j, w) :: rest ∧ g.values.rows ≤ j) →
    interpolate .trellis c g locate n = .ub := by
  intro g hrows hbr hsp hn
  rintro ⟨j, w, rest, hl, hj⟩
  have hg : Healthy g := healthy_run vertices keys ops h
  have hv : Stored g.values := hg.values.resolve_left hrows
  have hw : Stored g.vectors := hg.vectors.resolve_left (by rw [← hg.consistent.points]; exact hrows)
  clear_value g
  obtain ⟨e, hla⟩ := hv.layout
  obtain ⟨tail, s1, s2, s3⟩ := layout_shape hla
  obtain ⟨f, hla'⟩ := hw.layout
  obtain ⟨tail', s1', s2', s3'⟩ := layout_shape hla'
  have hmix : ∀ (p : List Nat) (ps : List (List Nat)) (x : T) (xs : List (Nat × T)) (cols : Nat) (o : Buf T),
      mixInto g.values none (p :: ps) ((j, x) :: xs) cols 0 o = none := by
    intro p ps x xs cols o
    simp only [mixInto, vertexInto]
    rw [show branchInto g.values none p x j j (0 * cols) o = none from ?_]
    · rfl
    · unfold branchInto
      refine foldlM_range_none _ _ hbr ?_
      cases hp : p[0]? with
      | none => rfl
      | some q =>
        simp only [Option.bind_some, factor]
        unfold spanInto
        refine foldlM_range_none _ _ hsp ?_
        have : ¬ j * g.values.cols + q * g.values.elements.span + 0 < g.values.rows * g.values.cols := by
          have := Nat.mul_le_mul_right g.values.cols hj
          omega
        simp only [GridInterp.read, if_neg this, Option.bind_none]
  have hdual : ∀ cv cw (o : Buf T × Buf R), dualInto c g (locate 0) cv cw 0 o = none := by
    intro cv cw o
    unfold dualInto
    cases hp : Interp.getPermutations g.table (locate 0) with
    | none => rfl
    | some perms =>
      rw [Option.bind_some, hl, List.map_cons]
      cases perms with
      | nil => simp [mixInto, vertexInto]
      | cons p ps => rw [hmix]; rfl
  obtain ⟨k, rfl⟩ := Nat.exists_eq_succ_of_ne_zero hn
  simp only [interpolate, vectorShape, if_neg hrows, s1, s1', withRows, rowsCols]
  rw [if_neg (by simp), List.range_succ_eq_map]
  have : ∀ cv cw (l : List Nat) (o : Buf T × Buf R), points .trellis c g locate cv cw (0 :: l) o = .error .ub := by
    intro cv cw l o
    have hd := hdual cv cw o
    rw [hl] at hd
    simp only [points, hl, hd]
  rw [this]

/-- `PARTIAL`: the full property is `C63_results` and `C63_safe` for every kind of grid.  A nest behaves like
the other grids only if every point is located and the two stored arrays have the same shape, see
`C63_nest_shape_counterexample` and `C63_nest_missing_counterexample`. -/
theorem C63_nest_partial (c : Numeric W T R) (g : Grid T R) (locate : Nat → List (Nat × W)) (n : Nat)
    (hs : g.vectors.shape = g.values.shape) (hloc : ∀ i, i < n → locate i ≠ []) :
    interpolate .nest c g locate n = interpolate .trellis c g locate n := by
  have hp : ∀ (l : List Nat) (cv cw : Nat) (o : Buf T × Buf R), (∀ i ∈ l, i < n) →
      points .nest c g locate cv cw l o = points .trellis c g locate cv cw l o := by
    intro l cv cw
    induction l with
    | nil => intro o _; rfl
    | cons i is ih =>
      intro o hi
      have := hloc i (hi i List.mem_cons_self)
      cases hl : locate i with
      | nil => exact absurd hl this
      | cons x xs =>
        simp only [points, hl]
        cases dualInto c g (x :: xs) cv cw i o with
        | none => rfl
        | some o2 => exact ih o2 fun j hj => hi j (List.mem_cons_of_mem _ hj)
  simp only [interpolate, vectorShape, hs]
  rw [hp _ _ _ _ fun i hi => List.mem_range.mp hi]
  rfl

end

/-! Concrete grids. -/

/-- numbers in place of the weights and phases -/
def plain : Numeric Int Int Int := ⟨id, id, fun _ _ _ => 1⟩

/-- the call ended with undefined behaviour -/
def isUb {T R : Type} : Ended T R → Bool
  | .ub => true
  | _ => false

/-- the results -/
def resultsOf {T R : Type} : Ended T R → Option (List Nat × List T × List Nat × List R)
  | .ok v w => some (v.shape, (List.range v.shape.prod).map v.mem, w.shape, (List.range w.shape.prod).map w.mem)
  | _ => none

/-- the energies and vectors of two points with three modes; mode 0 of point 0 belongs to mode 1 of point 1 -/
def sortedGrid : List (Op Int Int) := [fillPhonons, .store 0 1 [1, 0, 2]]

example : Along Proper (newGrid 2 [1, 2] : Grid Int Int) sortedGrid :=
  ⟨⟨⟨(1, 0, 0), ⟨by decide, by decide, by decide⟩, ⟨by decide, by decide, by decide⟩⟩,
    ⟨(0, 3, 0), ⟨by decide, by decide, by decide⟩, ⟨by decide, by decide, by decide⟩⟩⟩,
    ⟨by decide, by decide⟩, trivial⟩

/-- two points, one at vertex 1 and one with the weights 2 and 1 at the two vertices -/
def twoPoints (i : Nat) : List (Nat × Int) := if i = 0 then [(1, 1)] else [(0, 2), (1, 1)]

example : (run (newGrid 2 [1, 2] : Grid Int Int) sortedGrid).values.rows ≠ 0 ∧
    ∀ i, i < 2 → twoPoints i ≠ [] ∧ ∀ x ∈ twoPoints i, x.1 < (run (newGrid 2 [1, 2] : Grid Int Int) sortedGrid).values.rows := by
  decide

/-- energies `0 1 2` and `3 4 5`: modes 0, 1, 2 of the second result are `2·0 + 4`, `2·1 + 3` and `2·2 + 5` -/
example : (resultsOf (interpolate .trellis plain (run (newGrid 2 [1, 2]) sortedGrid) twoPoints 2)).map
    (fun r => (r.1, r.2.1, r.2.2.1)) = some ([2, 3], [3, 4, 5, 4, 5, 9], [2, 3, 1, 3]) := by decide

/-- **Counterexample for a nest (shape).** The array for the vectors gets the shape of the values: interpolating
three energies and three vectors per point, the usual data, writes outside of it. -/
theorem C63_nest_shape_counterexample :
    isUb (interpolate .nest plain (run (newGrid 2 [1, 2]) [fillPhonons]) (fun _ => [(0, 1)]) 1) = true ∧
    isUb (interpolate .trellis plain (run (newGrid 2 [1, 2]) [fillPhonons]) (fun _ => [(0, 1)]) 1) = false := by decide

/-- **Counterexample for a nest (missing).** A point outside of a nest is undefined behaviour, not an exception. -/
theorem C63_nest_missing_counterexample :
    isUb (interpolate .nest plain (run (newGrid 2 [1, 2]) [fillPhonons]) (fun _ => []) 1) = true ∧
    resultsOf (interpolate .trellis plain (run (newGrid 2 [1, 2]) [fillPhonons]) (fun _ => []) 1) = none := by decide

/-- **Counterexample (count).** Data for two points are accepted by a grid with three vertices (`C62_count_counterexample`);
interpolating at the third vertex then reads outside of them. -/
theorem C63_count_counterexample :
    Along Proper (newGrid 3 [1, 2] : Grid Int Int) [fillPhonons] ∧
    isUb (interpolate .trellis plain (run (newGrid 3 [1, 2]) [fillPhonons]) (fun _ => [(2, 1)]) 1) = true :=
  ⟨⟨⟨⟨(1, 0, 0), ⟨by decide, by decide, by decide⟩, ⟨by decide, by decide, by decide⟩⟩,
    ⟨(0, 3, 0), ⟨by decide, by decide, by decide⟩, ⟨by decide, by decide, by decide⟩⟩⟩, trivial⟩, by decide⟩

end Brille.Props
