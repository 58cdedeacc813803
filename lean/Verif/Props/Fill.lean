/-
C62: filling a grid with data.
-/
import Verif.Proofs.Fill
import Verif.Spec.Interpolate
import Verif.Props.PermutationTable
import Verif.Props.SortPermutations
import Mathlib.Tactic.NormNum

namespace Brille.Props
open Brille.Fill Brille.Spec
open Brille.PermTable (mk0 Table safeGet Sim)
open Rot (LengthUnit RotatesLike)

variable {T R : Type} [Zero T] [Zero R]

/-- The documented reading of an array of element numbers: the first three numbers, where a missing one is
zero, are the numbers of scalar, vector and matrix elements. -/
structure Numbers (v : PyInts) (e : Nat × Nat × Nat) : Prop where
  scalars : (if 0 < v.len then v.value 0 else 0) = (e.1 : Int)
  vectors : (if 1 < v.len then v.value 1 else 0) = (e.2.1 : Int)
  matrices : (if 2 < v.len then v.value 2 else 0) = (e.2.2 : Int)

/-- The documented values of the fourth and fifth number. -/
structure Roles (v : PyInts) : Prop where
  rotates : 3 < v.len → 0 ≤ v.value 3 ∧ v.value 3 ≤ 2
  unit : 4 < v.len → 0 ≤ v.value 4 ∧ v.value 4 ≤ 4

/-- No size reaches `2^32`. -/
structure Sized (shape : List Nat) (e : Nat × Nat × Nat) : Prop where
  elements : e.1 + e.2.1 + e.2.2 < 2 ^ 32
  mode : (shape.drop 2).prod < 2 ^ 32
  row : (shape.drop 1).prod < 2 ^ 32

theorem read_numbers {v : PyInts} {e : Nat × Nat × Nat} (hn : Numbers v e) (hs : e.1 + e.2.1 + e.2.2 < 2 ^ 32) :
    (readElements v.len v.value).triple = e := by
  obtain ⟨a, b, c⟩ := e
  have h1 := hn.scalars; have h2 := hn.vectors; have h3 := hn.matrices
  simp only at h1 h2 h3 hs
  have key : ∀ (i x : Nat), (if i < v.len then v.value i else 0) = (x : Int) → x < 2 ^ 32 →
      (if i < v.len then indOfInt (v.value i) else 0) = x := by
    intro i x h hx
    by_cases hi : i < v.len
    · rw [if_pos hi] at h ⊢; rw [h, indOfInt_nat hx]
    · rw [if_neg hi] at h ⊢; omega
  simp only [readElements, Elements.triple]
  rw [key 0 a h1 (by omega), key 1 b h2 (by omega), key 2 c h3 (by omega)]

theorem small_of_sized {shape : List Nat} {e : Elements} {t : Nat × Nat × Nat} (h : Sized shape t)
    (he : e.triple = t) : Small shape e := by
  subst he; exact ⟨h.elements, h.mode, h.row⟩

omit [Zero T] in
/-- what an accepted array of data is stored as -/
theorem checked_iff {a : Nd T} {v : PyInts} {e : Nat × Nat × Nat} (hn : Numbers v e) (hs : Sized a.shape e)
    (hne : a.shape ≠ []) :
    (∀ h, checked a v.len v.value = .ok h → Roles v ∧ ∃ p b t, Layout a.shape e p b t ∧ Holds h a.shape a.mem p b t) ∧
    (Roles v → ∀ p b t, Layout a.shape e p b t →
      ∃ h, checked a v.len v.value = .ok h ∧ Holds h a.shape a.mem p b t) := by
  have hr := read_numbers hn hs.elements
  have hsm := small_of_sized hs hr
  constructor
  · intro h hh
    obtain ⟨rl, lu, h1, h2, h3⟩ := (checked_ok _ _ _ _).mp hh
    refine ⟨⟨(readRotatesLike_ok _ _).mp ⟨_, h1⟩, (readLengthUnit_ok _ _).mp ⟨_, h2⟩⟩, ?_⟩
    obtain ⟨p, b, t, hl, hh⟩ := make_holds hsm hne h3
    rw [hr] at hl
    exact ⟨p, b, t, hl, hh⟩
  · intro hro p b t hl
    obtain ⟨rl, h1⟩ := (readRotatesLike_ok v.len v.value).mpr hro.rotates
    obtain ⟨lu, h2⟩ := (readLengthUnit_ok v.len v.value).mpr hro.unit
    rw [← hr] at hl
    obtain ⟨h, h3, hh⟩ := make_of_layout rl lu hsm hl
    exact ⟨h, (checked_ok _ _ _ _).mpr ⟨rl, lu, h1, h2, h3⟩, hh⟩

theorem holds_unique {α : Type} {h : Held α} {s s' : List Nat} {m m' : Nat → α} {p b p' b' : Nat}
    {t t' : Nat × Nat × Nat} (h1 : Holds h s m p b t) (h2 : Holds h s' m' p' b' t') : p = p' ∧ b = b' ∧ t = t' :=
  ⟨h1.rows.symm.trans h2.rows, h1.modes.symm.trans h2.modes, h1.elements.symm.trans h2.elements⟩

/-- the grids that calls can produce always have a first permutation -/
theorem table_nonempty (n : Nat) (keys : List Nat) (ops : List (Op T R)) :
    (run (newGrid n keys : Grid T R) ops).table.permutations ≠ [] := by
  suffices h : ∀ (ops : List (Op T R)) (g : Grid T R), g.table.permutations ≠ [] →
      (run g ops).table.permutations ≠ [] by
    apply h
    simp only [newGrid, PermTable.mkKeys]
    rw [(PermTable.insertKeys_spec keys _).2.1]
    simp [PermTable.mk0, PermTable.addZeroth]
  intro ops
  induction ops with
  | nil => intro g h; exact h
  | cons o os ih =>
    intro g h
    refine ih _ ?_
    have hup : ∀ (g0 left : Grid T R), g0.table = g.table → left.table = g.table →
        (ended left (updateTable g0)).1.table.permutations ≠ [] := by
      intro g0 left h0 h1
      cases hu : updateTable g0 with
      | error f => simp only [ended]; rw [h1]; exact h
      | ok g' =>
        simp only [ended]
        simp only [updateTable] at hu
        cases hr : PermTable.refresh g0.table g0.values.rows g0.values.branches with
        | none => rw [hr] at hu; cases hu
        | some x =>
          obtain ⟨t, b⟩ := x
          rw [hr] at hu
          injection hu with hu; subst hu
          simp only [PermTable.refresh] at hr
          split at hr
          · cases hr
          · rename_i hp
            split at hr
            · injection hr with hr; injection hr with hr _; subst hr
              simp [PermTable.addZeroth]
            · injection hr with hr; injection hr with hr _; subst hr
              simp only [hp]; simp
    have hrep : ∀ (val : Held T) (vec : Held R), (ended g (replaceData g val vec)).1.table.permutations ≠ [] := by
      intro val vec
      simp only [replaceData]
      split
      · exact h
      · exact hup _ _ rfl rfl
    cases o with
    | fill vals valel vecs vecel =>
      simp only [step]
      split
      · exact h
      · split
        · exact h
        · exact hrep _ _
    | fillCost vals valel vecs vecel =>
      simp only [step]
      split
      · exact h
      · split
        · exact h
        · exact hrep _ _
    | replaceValues a e rl lu =>
      simp only [step]
      split
      · exact h
      · exact hup _ _ (by split <;> rfl) (by split <;> rfl)
    | replaceVectors a e rl lu =>
      simp only [step]
      split
      · exact h
      · exact hup _ _ (by split <;> rfl) (by split <;> rfl)
    | store i j p =>
      simp only [step, PermTable.overwrite]
      split
      · exact h
      · rename_i t _ ho
        split at ho
        · cases ho
        · injection ho with ho; injection ho with ho _; subst ho
          simp only
          split
          · exact h
          · simp

omit [Zero T] [Zero R] in
theorem replaceData_none {g : Grid T R} (hg : g.table.permutations ≠ []) (val : Held T) (vec : Held R) :
    ((ended g (replaceData g val vec)).2 = none ↔ vec.rows = val.rows ∧ vec.branches = val.branches) ∧
    ((ended g (replaceData g val vec)).2 = none →
      (ended g (replaceData g val vec)).1.values = val ∧ (ended g (replaceData g val vec)).1.vectors = vec) := by
  simp only [replaceData]
  split
  · rename_i h
    refine ⟨⟨fun h' => by simp [ended] at h', fun h' => ?_⟩, fun h' => by simp [ended] at h'⟩
    omega
  · rename_i h
    obtain ⟨g', hg'⟩ := updateTable_total (g := { g with values := val, vectors := vec }) hg
    obtain ⟨_, h1, h2, _⟩ := updateTable_ok hg'
    rw [hg']
    refine ⟨⟨fun _ => by omega, fun _ => rfl⟩, fun _ => ⟨h1, h2⟩⟩

omit [Zero T] in
theorem fillCheck_iff {a : Nd T} {v : PyInts} {e : Nat × Nat × Nat} (hn : Numbers v e) (hs : Sized a.shape e)
    (count : Nat) :
    (∀ h, fillCheck a v.contiguous count = .ok h →
      Roles v ∧ ∃ p b t, Layout a.shape e p b t ∧ Holds h a.shape a.mem p b t) ∧
    (Roles v → ∀ p b t, Layout a.shape e p b t →
      ∃ h, fillCheck a v.contiguous count = .ok h ∧ Holds h a.shape a.mem p b t) := by
  by_cases hne : a.shape = []
  · refine ⟨fun h hh => by simp [fillCheck, hne] at hh, fun _ p b t hl => ?_⟩
    rw [hne] at hl; cases hl
  · simp only [fillCheck, if_neg hne]
    exact checked_iff hn hs hne

/-- with cost information, a row of numbers is stored as a column -/
def columned : List Nat → List Nat
  | [n] => [n, 1]
  | s => s

omit [Zero T] in
theorem fillCheckCost_iff {a : Nd T} {v : PyInts} {e : Nat × Nat × Nat} (hn : Numbers v e) (hs : Sized a.shape e)
    (hstr : v.stride = 1) (count : Nat) :
    (∀ h, fillCheckCost a v count = .ok h →
      Roles v ∧ ∃ p b t, Layout a.shape e p b t ∧ Holds h (columned a.shape) a.mem p b t) ∧
    (Roles v → ∀ p b t, Layout a.shape e p b t →
      ∃ h, fillCheckCost a v count = .ok h ∧ Holds h (columned a.shape) a.mem p b t) := by
  have hraw : v.raw = v.value := by funext i; simp [PyInts.raw, PyInts.value, hstr]
  obtain ⟨shape, m⟩ := a
  simp only at hs ⊢
  match shape, hs with
  | [], hs =>
    exact ⟨fun h hh => by simp [fillCheckCost] at hh, fun _ p b t hl => by cases hl⟩
  | [n], hs =>
    simp only [fillCheckCost, hraw, columned]
    have hs1 : Sized [n, 1] e := ⟨hs.elements, by simp, by simp⟩
    obtain ⟨h1, h2⟩ := checked_iff (a := ⟨[n, 1], m⟩) hn hs1 (by simp)
    simp only [layout_column] at h1 h2
    exact ⟨h1, h2⟩
  | x :: y :: r, hs =>
    simp only [fillCheckCost, hraw, columned]
    exact checked_iff (a := ⟨x :: y :: r, m⟩) hn hs (by simp)

/-- the two ways of filling a grid once the arrays are checked -/
def finish (g : Grid T R) (cv : Except Fault (Held T)) (cw : Except Fault (Held R)) : Grid T R × Option Fault :=
  match cv with
  | .error f => (g, some f)
  | .ok val =>
    match cw with
    | .error f => (g, some f)
    | .ok vec => ended g (replaceData g val vec)

omit [Zero T] [Zero R] in
theorem finish_iff {g : Grid T R} (hg : g.table.permutations ≠ []) {cv : Except Fault (Held T)}
    {cw : Except Fault (Held R)} {Ro Ro' : Prop} {L L' : Nat → Nat → Nat × Nat × Nat → Prop}
    {s s' : List Nat} {m : Nat → T} {m' : Nat → R}
    (hv : (∀ h, cv = .ok h → Ro ∧ ∃ p b t, L p b t ∧ Holds h s m p b t) ∧
      (Ro → ∀ p b t, L p b t → ∃ h, cv = .ok h ∧ Holds h s m p b t))
    (hw : (∀ h, cw = .ok h → Ro' ∧ ∃ p b t, L' p b t ∧ Holds h s' m' p b t) ∧
      (Ro' → ∀ p b t, L' p b t → ∃ h, cw = .ok h ∧ Holds h s' m' p b t)) :
    ((finish g cv cw).2 = none ↔ Ro ∧ Ro' ∧ ∃ p b t u, L p b t ∧ L' p b u) ∧
    ((finish g cv cw).2 = none → ∀ p b t p' b' u, L p b t → L' p' b' u →
      Holds (finish g cv cw).1.values s m p b t ∧ Holds (finish g cv cw).1.vectors s' m' p' b' u) := by
  obtain ⟨a1, a2⟩ := hv
  obtain ⟨c1, c2⟩ := hw
  cases cv with
  | error x =>
    refine ⟨⟨fun h => by simp [finish] at h, ?_⟩, fun h => by simp [finish] at h⟩
    rintro ⟨hro, _, p, b, t, u, hl, _⟩
    obtain ⟨h, hh, _⟩ := a2 hro p b t hl
    cases hh
  | ok val =>
    obtain ⟨ro1, p1, b1, t1, l1, k1⟩ := a1 val rfl
    cases cw with
    | error x =>
      refine ⟨⟨fun h => by simp [finish] at h, ?_⟩, fun h => by simp [finish] at h⟩
      rintro ⟨_, hro, p, b, t, u, _, hl⟩
      obtain ⟨h, hh, _⟩ := c2 hro p b u hl
      cases hh
    | ok vec =>
      obtain ⟨ro2, p2, b2, t2, l2, k2⟩ := c1 vec rfl
      obtain ⟨d1, d2⟩ := replaceData_none hg val vec
      simp only [finish]
      constructor
      · rw [d1]
        constructor
        · rintro ⟨h1, h2⟩
          have e1 : p2 = p1 := by rw [← k1.rows, ← k2.rows, h1]
          have e2 : b2 = b1 := by rw [← k1.modes, ← k2.modes, h2]
          subst e1 e2
          exact ⟨ro1, ro2, _, _, _, _, l1, l2⟩
        · rintro ⟨_, _, p, b, t, u, m1, m2⟩
          obtain ⟨h, hh, hk⟩ := a2 ro1 p b t m1
          obtain rfl : val = h := Except.ok.inj hh
          obtain ⟨h', hh', hk'⟩ := c2 ro2 p b u m2
          obtain rfl : vec = h' := Except.ok.inj hh'
          exact ⟨by rw [hk.rows, hk'.rows], by rw [hk.modes, hk'.modes]⟩
      · intro hnone p b t p' b' u m1 m2
        obtain ⟨e1, e2⟩ := d2 hnone
        obtain ⟨h, hh, hk⟩ := a2 ro1 p b t m1
        obtain rfl : val = h := Except.ok.inj hh
        obtain ⟨h', hh', hk'⟩ := c2 ro2 p' b' u m2
        obtain rfl : vec = h' := Except.ok.inj hh'
        rw [e1, e2]
        exact ⟨hk, hk'⟩

/-- **C62 (what is accepted).** Fill a grid, after any history of calls, with data for values and vectors.
The call ends normally exactly if the roles are known and the two arrays have a documented layout with the
same number of points and the same number of modes, and then the grid holds these data: the points, modes and
elements of the layout, a row of numbers for each point. -/
theorem C62_fill (n : Nat) (keys : List Nat) (before : List (Op T R))
    (vals : Nd T) (valel : PyInts) (vecs : Nd R) (vecel : PyInts) (e f : Nat × Nat × Nat)
    (he : Numbers valel e) (hf : Numbers vecel f) (hs : Sized vals.shape e) (hs' : Sized vecs.shape f) :
    let g : Grid T R := run (newGrid n keys) before
    let r := step g (.fill vals valel vecs vecel)
    (r.2 = none ↔ Roles valel ∧ Roles vecel ∧
      ∃ p b t u, Layout vals.shape e p b t ∧ Layout vecs.shape f p b u) ∧
    (r.2 = none → ∀ p b t p' b' u, Layout vals.shape e p b t → Layout vecs.shape f p' b' u →
      Holds r.1.values vals.shape vals.mem p b t ∧ Holds r.1.vectors vecs.shape vecs.mem p' b' u) :=
  finish_iff (table_nonempty n keys before) (fillCheck_iff he hs _) (fillCheck_iff hf hs' _)

/-- **C62 (what is accepted, with costs).** The same for filling a grid with cost information, if the numbers
of the two element arrays are next to each other in memory (see `C62_strided_counterexample`). -/
theorem C62_fill_cost (n : Nat) (keys : List Nat) (before : List (Op T R))
    (vals : Nd T) (valel : PyInts) (vecs : Nd R) (vecel : PyInts) (e f : Nat × Nat × Nat)
    (he : Numbers valel e) (hf : Numbers vecel f) (hs : Sized vals.shape e) (hs' : Sized vecs.shape f)
    (hd : valel.stride = 1) (hd' : vecel.stride = 1) :
    let g : Grid T R := run (newGrid n keys) before
    let r := step g (.fillCost vals valel vecs vecel)
    (r.2 = none ↔ Roles valel ∧ Roles vecel ∧
      ∃ p b t u, Layout vals.shape e p b t ∧ Layout vecs.shape f p b u) ∧
    (r.2 = none → ∀ p b t p' b' u, Layout vals.shape e p b t → Layout vecs.shape f p' b' u →
      Holds r.1.values (columned vals.shape) vals.mem p b t ∧
      Holds r.1.vectors (columned vecs.shape) vecs.mem p' b' u) :=
  finish_iff (table_nonempty n keys before) (fillCheckCost_iff he hs hd _) (fillCheckCost_iff hf hs' hd' _)

/-- **C62 (all or nothing).** A call to fill the grid that does not end normally leaves the grid as it was. -/
theorem C62_atomic (g : Grid T R) (vals : Nd T) (valel : PyInts) (vecs : Nd R) (vecel : PyInts) :
    ((step g (.fill vals valel vecs vecel)).2 ≠ none → (step g (.fill vals valel vecs vecel)).1 = g) ∧
    ((step g (.fillCost vals valel vecs vecel)).2 ≠ none → (step g (.fillCost vals valel vecs vecel)).1 = g) := by
  have key : ∀ (cv : Except Fault (Held T)) (cw : Except Fault (Held R)),
      (finish g cv cw).2 ≠ none → (finish g cv cw).1 = g := by
    intro cv cw h
    cases cv with
    | error x => rfl
    | ok val =>
      cases cw with
      | error x => rfl
      | ok vec =>
        simp only [finish] at h ⊢
        cases hr : replaceData g val vec with
        | error x => rfl
        | ok g' => rw [hr] at h; exact absurd rfl h
  exact ⟨key (fillCheck vals valel.contiguous g.vertices) (fillCheck vecs vecel.contiguous g.vertices),
    key (fillCheckCost vals valel g.vertices) (fillCheckCost vecs vecel g.vertices)⟩

/-- the element of an array at a subscript -/
def Nd.elem {α : Type} (a : Nd α) (sub : List Nat) : α := a.mem (rowMajor a.shape sub)

/-- the row of numbers held for a point -/
def heldRow {α : Type} (h : Held α) (i : Nat) : Nat → α := fun k => h.mem (i * h.cols + k)

/-- a subscript lies within a shape -/
def Within : List Nat → List Nat → Prop
  | [], [] => True
  | n :: shape, i :: sub => i < n ∧ Within shape sub
  | _, _ => False

theorem rowMajor_lt : ∀ (shape sub : List Nat), Within shape sub → rowMajor shape sub < shape.prod
  | [], [], _ => by simp [rowMajor]
  | n :: shape, i :: sub, h => by
    have h1 := rowMajor_lt shape sub h.2
    have h2 : i + 1 ≤ n := h.1
    simp only [rowMajor, List.prod_cons]
    calc i * shape.prod + rowMajor shape sub < i * shape.prod + shape.prod := by omega
      _ = (i + 1) * shape.prod := by ring
      _ ≤ n * shape.prod := Nat.mul_le_mul_right _ h2
  | [], _ :: _, h => h.elim
  | _ :: _, [], h => h.elim

omit [Zero T] in
/-- **C62 (where the numbers are).** Let data with a documented layout be held.  In an array with three or
more dimensions the element `(i, b, …)` is an element of mode `b` of point `i`, in row order; in an array with
two dimensions the column `b·Y + s` is element `s` of mode `b`; a one-dimensional array has one mode with one
element.  Every number that is held for a point belongs to one mode as one element. -/
theorem C62_elements (h : Held T) (a : Nd T) (e : Nat × Nat × Nat) (p b : Nat) (t : Nat × Nat × Nat)
    (hl : Layout a.shape e p b t) (hh : Holds h a.shape a.mem p b t) :
    (∀ rest, a.shape = p :: b :: rest → 0 < rest.length →
      rest.prod = t.1 + t.2.1 + t.2.2 ∧
      ∀ i m sub, i < p → m < b → Within rest sub →
        rowMajor rest sub < t.1 + t.2.1 + t.2.2 ∧
        Nd.elem a (i :: m :: sub) = modeElem (t.1 + t.2.1 + t.2.2) (heldRow h i) m (rowMajor rest sub)) ∧
    (a.shape.length = 2 → a.shape = [p, b * (t.1 + t.2.1 + t.2.2)] ∧
      ∀ i m s, i < p → m < b → s < t.1 + t.2.1 + t.2.2 →
        Nd.elem a [i, m * (t.1 + t.2.1 + t.2.2) + s] = modeElem (t.1 + t.2.1 + t.2.2) (heldRow h i) m s) ∧
    (a.shape.length = 1 → b = 1 ∧ t.1 + t.2.1 + t.2.2 = 1 ∧
      ∀ i, i < p → Nd.elem a [i] = modeElem 1 (heldRow h i) 0 0) ∧
    (∀ c, c < h.cols → ∃! ms : Nat × Nat, ms.1 < b ∧ ms.2 < t.1 + t.2.1 + t.2.2 ∧
      c = ms.1 * (t.1 + t.2.1 + t.2.2) + ms.2) := by
  have hcols := hh.cols
  refine ⟨?_, ?_, ?_, ?_⟩
  · intro rest hsh hr
    have hspan : rest.prod = t.1 + t.2.1 + t.2.2 := by
      rw [hsh] at hl
      generalize hs : p :: b :: rest = sh at hl
      cases hl with
      | one => simp at hs
      | oneDefault => simp at hs
      | two =>
        simp only [List.cons.injEq] at hs
        rw [hs.2.2] at hr; simp at hr
      | twoDefault =>
        simp only [List.cons.injEq] at hs
        rw [hs.2.2] at hr; simp at hr
      | three => simp at hs; rw [hs]; simp
      | threeDefault => simp at hs; rw [hs]; simp
      | four _ _ _ _ _ _ _ hn => simp at hs; rw [hs]; simp [hn]
      | fourDefault => simp at hs; rw [hs]; simp
      | five _ _ _ _ _ _ _ hn => simp at hs; rw [hs]; simp [hn]
      | fiveDefault => simp at hs; rw [hs]; simp
    refine ⟨hspan, ?_⟩
    intro i m sub hi hm hw
    refine ⟨hspan ▸ rowMajor_lt rest sub hw, ?_⟩
    simp only [Nd.elem, modeElem, heldRow, hh.mem, hsh, rowMajor, List.prod_cons, hcols, hspan]
  · intro h2
    have hsh : a.shape = [p, b * (t.1 + t.2.1 + t.2.2)] := by
      generalize a.shape = sh at hl h2
      cases hl <;> simp at h2 ⊢
    refine ⟨hsh, ?_⟩
    intro i m s _ _ _
    simp [Nd.elem, modeElem, heldRow, hh.mem, hsh, rowMajor, hcols]
  · intro h1
    have hsh : a.shape = [p] ∧ b = 1 ∧ t.1 + t.2.1 + t.2.2 = 1 := by
      generalize a.shape = sh at hl h1
      cases hl with
      | one _ _ _ _ h => exact ⟨rfl, rfl, h⟩
      | oneDefault => exact ⟨rfl, rfl, rfl⟩
      | _ => simp at h1
    refine ⟨hsh.2.1, hsh.2.2, ?_⟩
    intro i _
    simp [Nd.elem, modeElem, heldRow, hh.mem, hsh.1, rowMajor, hcols, hsh.2.1, hsh.2.2]
  · intro c hc
    rw [hcols] at hc
    generalize t.1 + t.2.1 + t.2.2 = w at hc
    have hw : 0 < w := by
      rcases Nat.eq_zero_or_pos w with rfl | h
      · simp at hc
      · exact h
    refine ⟨(c / w, c % w), ⟨(Nat.div_lt_iff_lt_mul hw).mpr hc, Nat.mod_lt _ hw, ?_⟩, ?_⟩
    · simp only; rw [Nat.mul_comm]; exact (Nat.div_add_mod c w).symm
    · rintro ⟨x, y⟩ ⟨_, hy, hxy⟩
      simp only at hy hxy
      subst hxy
      have e1 : (x * w + y) / w = x := by
        rw [Nat.mul_comm, Nat.mul_add_div hw, Nat.div_eq_of_lt hy, Nat.add_zero]
      have e2 : (x * w + y) % w = y := by
        rw [Nat.mul_comm, Nat.mul_add_mod, Nat.mod_eq_of_lt hy]
      rw [e1, e2]

/-! ### histories -/

/-- every call of a history satisfies `P` when it is made -/
def Along (P : Grid T R → Op T R → Prop) (g : Grid T R) : List (Op T R) → Prop
  | [] => True
  | o :: os => P g o ∧ Along P (step g o).1 os

/-- a call that replaces only the values or only the vectors ends normally -/
def ReplacesEnd (g : Grid T R) : Op T R → Prop
  | .replaceValues a e rl lu => (step g (.replaceValues a e rl lu)).2 = none
  | .replaceVectors a e rl lu => (step g (.replaceVectors a e rl lu)).2 = none
  | _ => True

/-- the values and the vectors are data of the same points with the same modes -/
structure Consistent (g : Grid T R) : Prop where
  points : g.values.rows = g.vectors.rows
  modes : g.values.branches = g.vectors.branches

theorem setupFake_branches {α : Type} [Zero α] (h : Held α) (n b : Nat) : (setupFake h n b).branches = b := by
  simp [setupFake, Held.branches, branches, Elements.span, ind]

theorem consistent_step (g : Grid T R) (o : Op T R) (hg : Consistent g) (ho : ReplacesEnd g o) :
    Consistent (step g o).1 := by
  have hup : ∀ (g0 left : Grid T R), (Consistent g0) → Consistent left →
      Consistent (ended left (updateTable g0)).1 := by
    intro g0 left h0 h1
    cases hu : updateTable g0 with
    | error f => exact h1
    | ok g' =>
      obtain ⟨_, e1, e2, _⟩ := updateTable_ok hu
      exact ⟨by simp only [ended]; rw [e1, e2]; exact h0.points,
        by simp only [ended]; rw [e1, e2]; exact h0.modes⟩
  have hfin : ∀ (cv : Except Fault (Held T)) (cw : Except Fault (Held R)), Consistent (finish g cv cw).1 := by
    intro cv cw
    cases cv with
    | error x => exact hg
    | ok val =>
      cases cw with
      | error x => exact hg
      | ok vec =>
        simp only [finish, replaceData]
        split
        · exact hg
        · rename_i h
          exact hup _ _ ⟨by simp only; omega, by simp only; omega⟩ hg
  cases o with
  | fill vals valel vecs vecel => exact hfin (fillCheck vals valel.contiguous g.vertices) _
  | fillCost vals valel vecs vecel => exact hfin (fillCheckCost vals valel g.vertices) _
  | replaceValues a e rl lu =>
    simp only [ReplacesEnd, step] at ho ⊢
    generalize g.values.replace a e rl lu = x at ho ⊢
    obtain ⟨h, _ | x⟩ := x
    case some => simp at ho
    case none =>
      simp only
      apply hup
      all_goals
        split
        · exact ⟨rfl, (setupFake_branches _ _ _).symm⟩
        · rename_i hne
          exact ⟨not_not.mp fun hc => hne (Or.inl hc), not_not.mp fun hc => hne (Or.inr hc)⟩
  | replaceVectors a e rl lu =>
    simp only [ReplacesEnd, step] at ho ⊢
    generalize g.vectors.replace a e rl lu = x at ho ⊢
    obtain ⟨h, _ | x⟩ := x
    case some => simp at ho
    case none =>
      simp only
      apply hup
      all_goals
        split
        · exact ⟨rfl, setupFake_branches _ _ _⟩
        · rename_i hne
          exact ⟨not_not.mp fun hc => hne (Or.inl hc), not_not.mp fun hc => hne (Or.inr hc)⟩
  | store i j p =>
    simp only [step]
    split
    · exact hg
    · exact ⟨hg.points, hg.modes⟩

/-- **C62 (consistent).** Whatever calls are made, in any order and whether or not calls to fill the grid
throw: the grid holds values and vectors for the same number of points with the same number of modes — as long
as no call that replaces only the values or only the vectors throws (see `C62_replace_counterexample`). -/
theorem C62_consistent (n : Nat) (keys : List Nat) (ops : List (Op T R))
    (h : Along ReplacesEnd (newGrid n keys : Grid T R) ops) :
    Consistent (run (newGrid n keys : Grid T R) ops) := by
  suffices key : ∀ (ops : List (Op T R)) (g : Grid T R), Consistent g → Along ReplacesEnd g ops →
      Consistent (run g ops) from key ops _ ⟨rfl, rfl⟩ h
  intro ops
  induction ops with
  | nil => intro g h _; exact h
  | cons o os ih => intro g hg h; exact ih _ (consistent_step g o hg h.1) h.2

/-- the data have one row for each of `n` vertices, and a permutation is stored for two different vertices -/
def RightCount (n : Nat) : Op T R → Prop
  | .fill vals _ vecs _ => vals.shape.head? = some n ∧ vecs.shape.head? = some n
  | .fillCost vals _ vecs _ => vals.shape.head? = some n ∧ vecs.shape.head? = some n
  | .replaceValues a _ _ _ => a.shape.head? = some n
  | .replaceVectors a _ _ _ => a.shape.head? = some n
  | .store i j _ => i < n ∧ j < n ∧ i ≠ j

/-- the state of the permutation table that sorting needs -/
structure Ready (n : Nat) (keys : List Nat) (g : Grid T R) : Prop where
  /-- it has a valid history -/
  history : ∃ tops, ValidHistory (PairMap.empty n 1) tops ∧ PermTable.run (mk0 n 1) tops = some g.table
  size : g.table.indexSize = n
  /-- equal points are related by the identity of the modes that the data have -/
  diagonal : ∀ i, safeGet g.table i i = some (List.range g.values.branches)
  /-- exactly the pairs of the grid are announced -/
  keys : KeysOf g.table (0 :: keys)

/-- stronger than `Ready` -/
structure Kept (n : Nat) (keys : List Nat) (g : Grid T R) : Prop where
  history : ∃ tops m, ValidHistory (PairMap.empty n 1) tops ∧ (PairMap.empty n 1).run tops = some m ∧
    PermTable.run (mk0 n 1) tops = some g.table ∧ Sim g.table m ∧ m.n = n ∧ m.modes = g.values.branches
  diagonal : g.table.ijmap 0 = some 0 ∨ g.table.ijmap 0 = some 1
  keys : KeysOf g.table (0 :: keys)

theorem validHistory_append (m : PairMap) (tops : List TableOp) (o : TableOp) (m1 : PairMap)
    (hv : ValidHistory m tops) (hm : m.run tops = some m1) (ho : OpOk m1.n o) : ValidHistory m (tops ++ [o]) := by
  induction tops generalizing m with
  | nil =>
    obtain rfl : m = m1 := Option.some.inj hm
    exact ⟨ho, fun _ _ => trivial⟩
  | cons x xs ih =>
    refine ⟨hv.1, fun m' hm' => ih m' (hv.2 m' hm') ?_⟩
    simpa [PairMap.run, hm'] using hm

theorem pairRun_append (m : PairMap) (tops : List TableOp) (o : TableOp) :
    m.run (tops ++ [o]) = (m.run tops).bind (·.step o) := by
  induction tops generalizing m with
  | nil =>
    simp only [List.nil_append, PairMap.run, Option.bind_some]
    cases m.step o <;> rfl
  | cons x xs ih =>
    simp only [List.cons_append, PairMap.run]
    cases m.step x with
    | none => rfl
    | some m1 => simp only [Option.bind_some]; exact ih m1

theorem tableRun_append (t : Table) (tops : List TableOp) (o : TableOp) :
    PermTable.run t (tops ++ [o]) = (PermTable.run t tops).bind (PermTable.step · o) := by
  induction tops generalizing t with
  | nil =>
    simp only [List.nil_append, PermTable.run, Option.bind_some]
    cases PermTable.step t o <;> rfl
  | cons x xs ih =>
    simp only [List.cons_append, PermTable.run]
    cases PermTable.step t x with
    | none => rfl
    | some t1 => simp only [Option.bind_some]; exact ih t1

omit [Zero T] [Zero R] in
theorem ready_of_kept {n : Nat} {keys : List Nat} {g : Grid T R} (h : Kept n keys g) : Ready n keys g := by
  obtain ⟨tops, m, h1, h2, h3, h4, h5, h6⟩ := h.history
  refine ⟨⟨tops, h1, h3⟩, by rw [h4.size, h5], ?_, h.keys⟩
  intro i
  simp only [safeGet, PermTable.ij2key, if_true]
  rcases h.diagonal with h0 | h0
  · rw [h0]; simp [PermTable.offset, h4.zero, h6]
  · rw [h0]; simp [PermTable.offset, h4.zero, h6]

omit [Zero T] [Zero R] in
/-- one more operation of the table -/
theorem kept_op {n : Nat} {keys : List Nat} {g g' : Grid T R} (h : Kept n keys g) (o : TableOp) (ho : OpOk n o)
    (ht : PermTable.step g.table o = some g'.table)
    (hm : ∀ m m' : PairMap, m.n = n → m.modes = g.values.branches → m.step o = some m' →
      m'.n = n ∧ m'.modes = g'.values.branches)
    (hd : g'.table.ijmap 0 = some 0 ∨ g'.table.ijmap 0 = some 1) (hk : KeysOf g'.table (0 :: keys)) :
    Kept n keys g' := by
  obtain ⟨tops, m, h1, h2, h3, h4, h5, h6⟩ := h.history
  subst h5
  obtain ⟨s1, s2⟩ := PermTable.sim_step h4 o ho
  cases hs : m.step o with
  | none => rw [s2 hs] at ht; cases ht
  | some m' =>
    obtain ⟨t', ht', hsim⟩ := s1 m' hs
    obtain rfl : t' = g'.table := by rw [ht] at ht'; exact (Option.some.inj ht').symm
    obtain ⟨e1, e2⟩ := hm m m' rfl h6 hs
    refine ⟨⟨tops ++ [o], m', validHistory_append _ _ _ m h1 h2 ho, ?_, ?_, hsim, e1, e2⟩, hd, hk⟩
    · rw [pairRun_append, h2]; exact hs
    · rw [tableRun_append, h3]; exact ht

omit [Zero T] [Zero R] in
/-- refreshing the table for data with one row for each vertex -/
theorem kept_update {n : Nat} {keys : List Nat} {g g0 g' : Grid T R} (h : Kept n keys g) (h0 : g0.table = g.table)
    (hr : g0.values.rows = n) (hu : updateTable g0 = .ok g') : Kept n keys g' := by
  obtain ⟨_, e1, _, e3⟩ := updateTable_ok hu
  rw [h0, hr] at e3
  have hsz : g.table.indexSize = n := (ready_of_kept h).size
  obtain ⟨p0, ps, hp⟩ : ∃ p0 ps, g.table.permutations = p0 :: ps := by
    obtain ⟨_, m, _, _, _, h4, _, _⟩ := h.history
    have := h4.zero
    cases hp : g.table.permutations with
    | nil => rw [hp] at this; simp at this
    | cons a b => exact ⟨a, b, rfl⟩
  have hcalc := e3
  simp only [PermTable.step, PermTable.refresh, hsz, bne_self_eq_false, Bool.false_eq_true, if_false, hp] at hcalc
  have hfacts : (g'.table.ijmap 0 = some 0 ∨ g'.table.ijmap 0 = some 1) ∧ KeysOf g'.table (0 :: keys) := by
    split at hcalc
    · simp only [Option.map_some, Option.some.injEq] at hcalc
      rw [← hcalc]
      constructor
      · right; simp [PermTable.addZeroth, PermTable.mapSet, PermTable.offset]
      · intro k
        rw [h.keys k]
        simp only [PermTable.addZeroth, PermTable.mapSet]
        by_cases hk : k = 0
        · subst hk
          simp only [if_true]
          have := h.diagonal
          constructor
          · intro _; simp
          · intro _ hc; rw [hc] at this; simp at this
        · simp only [hk, if_false]
          cases g.table.ijmap k <;> simp
    · simp only [Option.map_some, Option.some.injEq] at hcalc
      rw [← hcalc]
      exact ⟨h.diagonal, h.keys⟩
  refine kept_op h (.refresh n g0.values.branches) trivial e3 ?_ hfacts.1 hfacts.2
  intro m m' hm1 hm2 hs
  subst hm1
  simp only [PairMap.step, if_true] at hs
  injection hs with hs
  subst hs
  rw [e1]
  split
  · rename_i hb; exact ⟨rfl, hb.symm⟩
  · exact ⟨rfl, rfl⟩

omit [Zero T] in
theorem checked_rows {a : Nd T} {len : Nat} {get : Nat → Int} {h : Held T} (hh : checked a len get = .ok h) :
    h.rows = (rowsCols a.shape).1 := by
  obtain ⟨rl, lu, _, _, h3⟩ := (checked_ok _ _ _ _).mp hh
  simp only [make] at h3
  split at h3
  · cases h3
  · injection h3 with h3; subst h3; rfl

theorem rowsCols_head {shape : List Nat} {n : Nat} (h : shape.head? = some n) : (rowsCols shape).1 = n := by
  cases shape with
  | nil => simp at h
  | cons a s => simpa [rowsCols] using h

omit [Zero T] in
theorem fillCheck_rows {a : Nd T} {v : PyInts} {n c : Nat} {h : Held T} (ha : a.shape.head? = some n)
    (hh : fillCheck a v c = .ok h) : h.rows = n := by
  simp only [fillCheck] at hh
  split at hh
  · cases hh
  · rw [checked_rows hh, rowsCols_head ha]

omit [Zero T] in
theorem fillCheckCost_rows {a : Nd T} {v : PyInts} {n c : Nat} {h : Held T} (ha : a.shape.head? = some n)
    (hh : fillCheckCost a v c = .ok h) : h.rows = n := by
  simp only [fillCheckCost] at hh
  split at hh
  · cases hh
  · rename_i x hx
    rw [hx] at ha
    rw [checked_rows hh]
    simpa [rowsCols] using ha
  · rw [checked_rows hh, rowsCols_head ha]

omit [Zero T] [Zero R] in
theorem kept_finish {n : Nat} {keys : List Nat} {g : Grid T R} (hg : Kept n keys g)
    (cv : Except Fault (Held T)) (cw : Except Fault (Held R)) (hc : ∀ h, cv = .ok h → h.rows = n) :
    Kept n keys (finish g cv cw).1 := by
  cases cv with
  | error x => exact hg
  | ok val =>
    cases cw with
    | error x => exact hg
    | ok vec =>
      simp only [finish]
      cases hr : replaceData g val vec with
      | error x => exact hg
      | ok g' =>
        simp only [ended]
        simp only [replaceData] at hr
        split at hr
        · cases hr
        · exact kept_update (g0 := { g with values := val, vectors := vec }) hg rfl (hc val rfl) hr

theorem kept_step {n : Nat} {keys : List Nat} {g : Grid T R} (hg : Kept n keys g) (o : Op T R)
    (h1 : RightCount n o) (h2 : ReplacesEnd g o) : Kept n keys (step g o).1 := by
  cases o with
  | fill vals valel vecs vecel =>
    exact kept_finish hg (fillCheck vals valel.contiguous g.vertices) _ fun h hh => fillCheck_rows h1.1 hh
  | fillCost vals valel vecs vecel =>
    exact kept_finish hg (fillCheckCost vals valel g.vertices) _ fun h hh => fillCheckCost_rows h1.1 hh
  | replaceValues a e rl lu =>
    simp only [ReplacesEnd, step] at h2 ⊢
    have hrows : (g.values.replace a e rl lu).1.rows = n := by
      simp only [RightCount] at h1
      simp only [Held.replace]
      split
      · exact rowsCols_head h1
      · split
        · exact rowsCols_head h1
        · split <;> exact rowsCols_head h1
    generalize g.values.replace a e rl lu = x at h2 hrows ⊢
    obtain ⟨h, _ | x⟩ := x
    case some => simp at h2
    case none =>
      simp only at h2 hrows ⊢
      split at h2
      · rename_i hc
        rw [if_pos hc]
        cases hu : updateTable ({ g with values := h, vectors := setupFake g.vectors h.rows h.branches } : Grid T R) with
        | error f => rw [hu] at h2; simp [ended] at h2
        | ok g' =>
          exact kept_update (g0 := { g with values := h, vectors := setupFake g.vectors h.rows h.branches })
            hg rfl hrows hu
      · rename_i hc
        rw [if_neg hc]
        cases hu : updateTable ({ g with values := h } : Grid T R) with
        | error f => rw [hu] at h2; simp [ended] at h2
        | ok g' => exact kept_update (g0 := { g with values := h }) hg rfl hrows hu
  | replaceVectors a e rl lu =>
    simp only [ReplacesEnd, step] at h2 ⊢
    have hrows : (g.vectors.replace a e rl lu).1.rows = n := by
      simp only [RightCount] at h1
      simp only [Held.replace]
      split
      · exact rowsCols_head h1
      · split
        · exact rowsCols_head h1
        · split <;> exact rowsCols_head h1
    generalize g.vectors.replace a e rl lu = x at h2 hrows ⊢
    obtain ⟨h, _ | x⟩ := x
    case some => simp at h2
    case none =>
      simp only at h2 hrows ⊢
      split at h2
      · rename_i hc
        rw [if_pos hc]
        cases hu : updateTable ({ g with values := setupFake g.values h.rows h.branches, vectors := h } : Grid T R) with
        | error f => rw [hu] at h2; simp [ended] at h2
        | ok g' =>
          exact kept_update (g0 := { g with values := setupFake g.values h.rows h.branches, vectors := h })
            hg rfl hrows hu
      · rename_i hc
        rw [if_neg hc]
        have hv : g.values.rows = n := by
          rw [not_or, not_not, not_not] at hc
          exact hc.1.trans hrows
        cases hu : updateTable ({ g with vectors := h } : Grid T R) with
        | error f => rw [hu] at h2; simp [ended] at h2
        | ok g' => exact kept_update (g0 := { g with vectors := h }) hg rfl hv hu
  | store i j p =>
    simp only [step]
    cases ho : PermTable.overwrite g.table i j p with
    | none => exact hg
    | some x =>
      obtain ⟨t, idx⟩ := x
      simp only
      obtain ⟨hi, hj, hij⟩ := h1
      have hsz : g.table.indexSize = n := (ready_of_kept hg).size
      have hkey : PermTable.ij2key g.table i j = i * n + j := by simp [PermTable.ij2key, hij, hsz]
      have hk0 : i * n + j ≠ 0 := PermTable.key_pos hj hij
      have hmap : g.table.ijmap (i * n + j) ≠ none ∧ ∃ v, t.ijmap = PermTable.mapSet g.table.ijmap (i * n + j) v := by
        simp only [PermTable.overwrite, hkey] at ho
        split at ho
        · cases ho
        · rename_i y hy
          injection ho with ho; injection ho with ho _
          exact ⟨by rw [hy]; simp, _, by rw [← ho]⟩
      obtain ⟨hm1, v, hm2⟩ := hmap
      refine kept_op hg (.overwrite i j p) ⟨hi, hj, hij⟩ (g' := { g with table := t }) ?_ ?_ ?_ ?_
      · simp [PermTable.step, ho]
      · intro m m' e1 e2 hs
        simp only [PairMap.step] at hs
        split at hs
        · cases hs
        · injection hs with hs; subst hs
          exact ⟨e1, e2⟩
      · simp only [hm2, PermTable.mapSet, if_neg hk0.symm]; exact hg.diagonal
      · intro k
        rw [hg.keys k]
        simp only [hm2, PermTable.mapSet]
        by_cases hk : k = i * n + j
        · subst hk; simp [hm1]
        · simp [hk]

/-- **C62 (ready for sorting).** Let a grid with `n` vertices be filled and refilled, its values or vectors be
replaced, and permutations be stored for pairs of different vertices, in any order and whether or not calls to
fill it throw, every array of data with one row for each vertex.  Then the permutation table is what
sorting needs (`C31_sort`, `C61_sort`): the announced pairs are those of the grid, equal vertices are related by
the identity of the present modes. -/
theorem C62_ready (n : Nat) (keys : List Nat) (ops : List (Op T R)) (hc : ∀ o ∈ ops, RightCount n o)
    (h : Along ReplacesEnd (newGrid n keys : Grid T R) ops) :
    Ready n keys (run (newGrid n keys : Grid T R) ops) := by
  apply ready_of_kept
  suffices key : ∀ (ops : List (Op T R)) (g : Grid T R), Kept n keys g → (∀ o ∈ ops, RightCount n o) →
      Along ReplacesEnd g ops → Kept n keys (run g ops) by
    refine key ops _ ?_ hc h
    obtain ⟨k1, k2, k3⟩ := PermTable.insertKeys_spec keys (mk0 n 1)
    obtain ⟨s1, _⟩ := PermTable.sim_run (PermTable.sim_mk0 n 1) [.insertKeys keys] ⟨trivial, fun _ _ => trivial⟩
    obtain ⟨t, ht, hsim⟩ := s1 _ rfl
    have hb : (emptyHeld T).branches = 1 := rfl
    refine ⟨⟨[.insertKeys keys], _, ⟨trivial, fun _ _ => trivial⟩, rfl, ?_, ?_, rfl, ?_⟩, ?_, ?_⟩
    · simp [PermTable.run, PermTable.step, newGrid, PermTable.mkKeys, hb]
    · simp only [PermTable.run, PermTable.step, Option.bind_some, Option.some.injEq] at ht
      subst ht
      exact hsim
    · rfl
    · right
      simp only [newGrid, PermTable.mkKeys, hb]
      rw [k3 0]
      simp [mk0, PermTable.addZeroth, PermTable.mapSet, PermTable.offset]
    · intro k
      simp only [newGrid, PermTable.mkKeys, hb]
      rw [k3 k]
      simp only [mk0, PermTable.addZeroth, PermTable.mapSet, List.mem_cons]
      by_cases hk : k = 0
      · simp [hk]
      · simp [hk]
  intro ops
  induction ops with
  | nil => intro g hg _ _; exact hg
  | cons o os ih =>
    intro g hg hc h
    exact ih _ (kept_step hg o (hc o (by simp)) h.1) (fun o' ho' => hc o' (by simp [ho'])) h.2

/-! ### what the documentation promises but the code does not do -/

/-- an element array with the given numbers next to each other -/
def given (l : List Int) : PyInts := ⟨l.length, 1, fun i => l.getD i 0⟩

/-- **C62 (counterexample: number of points).** The first dimension "must be equal in size to the number of
grid-vertices", but a wrong number is accepted; then all pairs of the grid are forgotten, so that every attempt
to store a permutation for one of them throws. -/
theorem C62_count_counterexample :
    let g : Grid Int Int := newGrid 2 [1, 2]
    let r := step g (.fill ⟨[3], fun _ => 0⟩ (given []) ⟨[3], fun _ => 0⟩ (given []))
    r.2 = none ∧ r.1.vertices = 2 ∧ r.1.values.rows = 3 ∧
      (step g (.store 0 1 [0])).2 = none ∧ ∀ i j p, (step r.1 (.store i j p)).2 = some .threw := by
  refine ⟨by decide, rfl, by decide, by decide, ?_⟩
  intro i j p
  rfl

/-- **C62 (counterexample: whole vectors).** The number of vector elements is documented to be a multiple of
three.  Filling a grid accepts other numbers, while replacing the same data throws. -/
theorem C62_multiple_counterexample :
    let g : Grid Int Int := newGrid 1 []
    (step g (.fill ⟨[1, 4], fun _ => 0⟩ (given [0, 4, 0]) ⟨[1, 4], fun _ => 0⟩ (given [0, 4, 0]))).2 = none ∧
    (step g (.replaceValues ⟨[1, 4], fun _ => 0⟩ ⟨0, 4, 0⟩ .vector .realLattice)).2 = some .threw := by
  decide

/-- **C62 (counterexample: negative numbers).** A negative number of elements is accepted, if the sum is right
modulo `2^32`. -/
theorem C62_negative_counterexample :
    let g : Grid Int Int := newGrid 1 []
    let r := step g (.fill ⟨[1, 2], fun _ => 0⟩ (given [-1, 3, 0]) ⟨[1, 2], fun _ => 0⟩ (given [-1, 3, 0]))
    r.2 = none ∧ r.1.values.elements = ⟨4294967295, 3, 0⟩ := by
  decide

/-- **C62 (counterexample: no columns).** Data with no columns and no element numbers divide by zero. -/
theorem C62_zero_columns_counterexample (p : Nat) :
    (step (newGrid p [] : Grid Int Int) (.fill ⟨[p, 0], fun _ => 0⟩ (given []) ⟨[p, 0], fun _ => 0⟩ (given []))).2
      = some .ub := by
  rfl

/-- the numbers 3, 0, 0 with one place left out after each -/
def spaced : PyInts := ⟨3, 2, fun i => [3, 3, 0, 0, 0, 0].getD i 0⟩

/-- **C62 (counterexample: spaced numbers).** With cost information, the strides of the element array are
ignored: two modes with three scalars are taken for one mode with three scalars and three vector elements. -/
theorem C62_strided_counterexample :
    let g : Grid Int Int := newGrid 1 []
    let r := step g (.fillCost ⟨[1, 6], fun _ => 0⟩ spaced ⟨[1, 6], fun _ => 0⟩ spaced)
    Numbers spaced (3, 0, 0) ∧ Layout [1, 6] (3, 0, 0) 1 2 (3, 0, 0) ∧
      r.2 = none ∧ r.1.values.branches = 1 ∧ r.1.values.elements = ⟨3, 3, 0⟩ ∧
      (step g (.fill ⟨[1, 6], fun _ => 0⟩ spaced ⟨[1, 6], fun _ => 0⟩ spaced)).1.values.branches = 2 := by
  refine ⟨⟨by decide, by decide, by decide⟩, Layout.two 1 2 3 0 0 (by decide), by decide, by decide, by decide,
    by decide⟩

/-- **C62 (counterexample: unknown units).** A length unit outside of the mapped range is documented to be
replaced by 3, but the call throws; a missing one is replaced. -/
theorem C62_unit_counterexample :
    let g : Grid Int Int := newGrid 1 []
    (step g (.fill ⟨[1], fun _ => 0⟩ (given [1, 0, 0, 0, 7]) ⟨[1], fun _ => 0⟩ (given [1]))).2 = some .threw ∧
    (step g (.fill ⟨[1], fun _ => 0⟩ (given [1, 0, 0, 0]) ⟨[1], fun _ => 0⟩ (given [1]))).2 = none := by
  decide

/-- **C62 (counterexample: replacing).** Replacing only the values is not all or nothing: when it throws, the
grid is left with values and vectors for different numbers of points. -/
theorem C62_replace_counterexample :
    let g : Grid Int Int := run (newGrid 1 []) [.fill ⟨[1, 2], fun _ => 0⟩ (given [1]) ⟨[1, 2], fun _ => 0⟩ (given [1])]
    let r := step g (.replaceValues ⟨[2, 4], fun _ => 0⟩ ⟨0, 4, 0⟩ .vector .realLattice)
    Consistent g ∧ r.2 = some .threw ∧ ¬ Consistent r.1 := by
  refine ⟨⟨by decide, by decide⟩, by decide, ?_⟩
  intro h
  exact absurd h.points (by decide)

/-! ### examples -/

/-- phonon data: two points, three modes with an energy and an eigenvector of one atom -/
def energies : Nd Int := ⟨[2, 3], fun i => i⟩
def eigenvectors : Nd Int := ⟨[2, 3, 1, 3], fun i => i⟩

/-- `C62_fill` applies: the data are accepted; point 1, mode 2 of the vectors holds the numbers 15, 16, 17 -/
example : Numbers (given [1, 0, 0, 0, 0]) (1, 0, 0) ∧ Numbers (given [0, 3, 0, 0, 3]) (0, 3, 0) ∧
    Sized energies.shape (1, 0, 0) ∧ Sized eigenvectors.shape (0, 3, 0) ∧
    Roles (given [1, 0, 0, 0, 0]) ∧ Roles (given [0, 3, 0, 0, 3]) ∧
    Layout energies.shape (1, 0, 0) 2 3 (1, 0, 0) ∧ Layout eigenvectors.shape (0, 3, 0) 2 3 (0, 3, 0) := by
  refine ⟨⟨by decide, by decide, by decide⟩, ⟨by decide, by decide, by decide⟩, ⟨by decide, by decide, by decide⟩,
    ⟨by decide, by decide, by decide⟩, ⟨by decide, by decide⟩, ⟨by decide, by decide⟩, Layout.two 2 3 1 0 0 (by decide),
    Layout.four 2 3 1 0 3 0 (by decide) rfl⟩

/-- the call -/
def fillPhonons : Op Int Int := .fill energies (given [1, 0, 0, 0, 0]) eigenvectors (given [0, 3, 0, 0, 3])

example : (step (newGrid 2 [1, 2] : Grid Int Int) fillPhonons).2 = none := by decide

/-- one mode less for the vectors: the call throws -/
example : (step (newGrid 2 [1, 2] : Grid Int Int)
    (.fill energies (given [1]) ⟨[2, 2, 1, 3], fun i => i⟩ (given [0, 3]))).2 = some .threw := by decide

example : (List.range 3).map (fun s => modeElem 3 (heldRow (step (newGrid 2 [1, 2]) fillPhonons).1.vectors 1) 2 s) =
    [15, 16, 17] := by decide

example : Nd.elem eigenvectors [1, 2, 0, 1] = 16 := by decide

/-- a history for `C62_consistent` and `C62_ready`: filled, sorted, values replaced by other modes (the vectors
are then placeholders), filled with bad data in vain -/
def history : List (Op Int Int) :=
  [fillPhonons, .store 0 1 [1, 0, 2], .replaceValues ⟨[2, 4], fun i => i⟩ ⟨1, 0, 0⟩ .vector .realLattice,
    .fill energies (given [2]) eigenvectors (given [0, 3])]

example : (∀ o ∈ history, RightCount 2 o) ∧ Along ReplacesEnd (newGrid 2 [1, 2] : Grid Int Int) history := by
  constructor
  · intro o ho
    simp only [history, List.mem_cons, List.not_mem_nil, or_false] at ho
    rcases ho with rfl | rfl | rfl | rfl
    · exact ⟨rfl, rfl⟩
    · exact ⟨by decide, by decide, by decide⟩
    · rfl
    · exact ⟨rfl, rfl⟩
  · exact ⟨trivial, trivial, by simp only [ReplacesEnd]; decide, trivial, trivial⟩

example : (run (newGrid 2 [1, 2]) history).values.branches = 4 ∧
    safeGet (run (newGrid 2 [1, 2]) history).table 0 1 = some [0, 1, 2, 3] := by decide

end Brille.Props
