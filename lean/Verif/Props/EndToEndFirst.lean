/-
C88: interpolating without rotation, and without moving points.
-/
import Verif.Model.EndToEndFirst
import Verif.Props.EndToEndMesh

namespace Brille.Props

open Brille.EndToEnd Brille.Spec Brille.Tetra Brille.IrCheck Brille.IrInterp Brille.Rot
open Brille.Fill (Held)
open Brille.Faces (contains)

/-- The function has the same rows at points that differ by a vector of the reciprocal lattice. -/
def Periodic (c : Centring) (F : Pt → ℕ → ℚ) : Prop :=
  ∀ (q : Pt) (tau : Fin 3 → ℤ), IsReciprocalPoint c (fun i => tau i) → F (fun i => q i + tau i) = F q

/-- Where the point is moved to in the first zone is in the irreducible zone. -/
def LandsInside (S : Wedge.Setup) (st : Wedge.St) (c : Centring) (z : Move.Zone) (inside : Prim.OnLattice → Pt → Bool) (Q : Pt) : Prop :=
  ∀ q tau, Move.moveinto (letter c) z inside .standard Q = some (q, tau) → real (cartesian S.B q) ∈ Hull (· ∈ st.ir.1)

/-- **C88 (which points).** `interpolate_at` gives for each point the row of the grid at a point of the first zone that differs from it by a
vector of the reciprocal lattice. -/
theorem C88_points (B : Fin 3 → Pt) (c : Centring) (z : Move.Zone) (inside : Prim.OnLattice → Pt → Bool) (T : TrellisWire.PolyTrellis)
    (n : GridInterp.Numeric ℚ ℚ ℚ) (g : Fill.Grid ℚ ℚ) (Qs : List Pt) (out : List ((ℕ → ℚ) × (ℕ → ℚ)))
    (ho : pyInterpolateAt B (letter c) z inside T n g false Qs = some out) :
    out.length = Qs.length ∧ ∀ (i : ℕ) (Q : Pt), Qs[i]? = some Q → ∃ o q tau, out[i]? = some o ∧
      Move.moveinto (letter c) z inside .standard Q = some (q, tau) ∧ (∀ d, Q d = q d + tau d) ∧ IsReciprocalPoint c (fun i => tau i) ∧
      inside .standard q = true ∧ gridAt B T n g q = some o := by
  unfold pyInterpolateAt firstInterpolateAt at ho
  simp only [Bool.false_eq_true, if_false] at ho
  split at ho
  · cases ho
  · rename_i moved e
    obtain ⟨l1, h1⟩ := mapM_some_get _ _ _ e
    obtain ⟨l2, h2⟩ := mapM_some_get _ _ _ ho
    refine ⟨by omega, fun i Q hQ => ?_⟩
    obtain ⟨⟨q, tau⟩, hm, hq⟩ := h1 i Q hQ
    obtain ⟨o, ho1, ho2⟩ := h2 i _ hq
    obtain ⟨a1, a2, a3⟩ := C33_moveinto_standard c z inside Q q tau hm
    exact ⟨o, q, tau, ho2, hm, a1, a2, a3, ho1⟩

section
variable {S : Wedge.Setup} {st : Wedge.St} {inside : Prim.OnLattice → Pt → Bool} {edge : ℚ} {T : TrellisWire.PolyTrellis}
  {g : Fill.Grid ℚ ℚ}

/-- **C88 (no symmetry).** If the unit operation is the only one, all points land in the irreducible zone: then the theorems below hold for
all points of reciprocal space. -/
theorem C88_whole (h : Assembled S st inside edge T g) (c : Centring) (z : Move.Zone)
    (hone : ∀ r ∈ operations S.timeReversal S.R, Matrix.of r = 1) (Q : Pt) : LandsInside S st c z inside Q := by
  intro q tau hm
  obtain ⟨-, -, h3⟩ := C33_moveinto_standard c z inside Q q tau hm
  rw [h.first, C67_contains _ _ h.lattice.solid h.lattice.faces] at h3
  obtain ⟨r, hr, y, hy, u, hu, hx⟩ := h.zone.fills _ h3
  have e : (fun i => ∑ j, (r j i : ℝ) * u j) = u := by
    have := hone r hr
    funext i
    have hij : ∀ j, r j i = if j = i then 1 else 0 := by
      intro j
      have := congrFun (congrFun this j) i
      simpa [Matrix.one_apply] using this
    simp [hij]
  rw [hx, e, ← hu]
  exact hy

/-- **C88 (where there are results).** If all points land in the irreducible zone, interpolation fails only if one of them cannot be moved into
the first zone. -/
theorem C88_total_partial (h : Assembled S st inside edge T g) (c : Centring) (z : Move.Zone) (n : GridInterp.Numeric ℚ ℚ ℚ)
    (hn : n.weightT = id) (hrows : g.values.rows = T.vertices.length) (Qs : List Pt) (hQ : ∀ Q ∈ Qs, LandsInside S st c z inside Q) :
    pyInterpolateAt S.B (letter c) z inside T n g false Qs = none ↔ ∃ Q ∈ Qs, Move.moveinto (letter c) z inside .standard Q = none := by
  rw [← mapM_none_iff]
  unfold pyInterpolateAt firstInterpolateAt
  simp only [Bool.false_eq_true, if_false]
  split
  · rename_i e; simp [e]
  · rename_i moved e
    rw [e]
    simp only [reduceCtorEq, iff_false]
    rw [mapM_none_iff]
    rintro ⟨p, hp, e'⟩
    obtain ⟨l, hget⟩ := mapM_some_get _ _ _ e
    obtain ⟨i, hi⟩ := List.getElem?_of_mem hp
    have hlt : i < Qs.length := by
      have := (List.getElem?_eq_some_iff.mp hi).1; omega
    obtain ⟨o, h1, h2⟩ := hget i _ (List.getElem?_eq_getElem hlt)
    rw [hi] at h2
    obtain rfl := Option.some.inj h2
    obtain ⟨iw, y, e2, -⟩ := h.row n hn hrows p.1 (hQ _ (List.getElem_mem hlt) p.1 p.2 h1)
    rw [e2] at e'
    cases e'

/-- the row that a point of the irreducible zone gets is close to the function -/
theorem row_close (h : Assembled S st inside edge T g) (n : GridInterp.Numeric ℚ ℚ ℚ) (hn : n.weightT = id) (F : Pt → ℕ → ℚ)
    (hg : Sampled S.B T g.values F) (k : ℕ) (hk : k < g.values.cols) (ε : ℚ)
    (hε : ∀ q q', (∀ d, |cartesian S.B q' d - cartesian S.B q d| ≤ edge) → |F q' k - F q k| ≤ ε) (q : Pt)
    (hq : real (cartesian S.B q) ∈ Hull (· ∈ st.ir.1)) (o : (ℕ → ℚ) × (ℕ → ℚ)) (ho : gridAt S.B T n g q = some o) : |o.1 k - F q k| ≤ ε := by
  obtain ⟨iw, y, e, a1, a2, -⟩ := h.row n hn (by rw [hg.rows]; simp [hkl]) q hq
  rw [e] at ho
  rw [← Option.some.inj ho]
  simp only [hk, if_true]
  have := combine_close iw (fun i => heldRow g.values i k) (F q k) ε ε (fun a ha => (a1 a ha).2.1) a2 fun a ha => by
    obtain ⟨h1, -, h3⟩ := a1 a ha
    rw [hg.data _ _ (hkl_get a.1 h1) k hk]
    have := hε q (relative S.B (T.vertices.getD a.1 0)) (by rwa [cartesian_relative S.B h.lattice.basis])
    rw [abs_le] at this
    constructor <;> linarith [this.1, this.2]
  rw [abs_le]
  constructor <;> linarith [this.1, this.2]

/-- the row that a point of the irreducible zone gets is within the range of the data -/
theorem row_between (h : Assembled S st inside edge T g) (n : GridInterp.Numeric ℚ ℚ ℚ) (hn : n.weightT = id)
    (hrows : g.values.rows = T.vertices.length) (k : ℕ) (hk : k < g.values.cols) (lo hi : ℚ)
    (hd : ∀ i < g.values.rows, lo ≤ heldRow g.values i k ∧ heldRow g.values i k ≤ hi) (q : Pt)
    (hq : real (cartesian S.B q) ∈ Hull (· ∈ st.ir.1)) (o : (ℕ → ℚ) × (ℕ → ℚ)) (ho : gridAt S.B T n g q = some o) :
    lo ≤ o.1 k ∧ o.1 k ≤ hi := by
  obtain ⟨iw, y, e, a1, a2, -⟩ := h.row n hn hrows q hq
  rw [e] at ho
  rw [← Option.some.inj ho]
  simp only [hk, if_true]
  have := combine_close iw (fun i => heldRow g.values i k) 0 (-lo) hi (fun a ha => (a1 a ha).2.1) a2 fun a ha => by
    have := hd a.1 (by rw [hrows]; exact (a1 a ha).1)
    constructor <;> linarith [this.1, this.2]
  constructor <;> linarith [this.1, this.2]

/-- the row that a point of the irreducible zone gets is that of a function which is linear there -/
theorem row_exact (h : Assembled S st inside edge T g) (n : GridInterp.Numeric ℚ ℚ ℚ) (hn : n.weightT = id) (F : Pt → ℕ → ℚ)
    (hg : Sampled S.B T g.values F) (hlong : ∀ q k, g.values.cols ≤ k → F q k = 0)
    (haff : ∀ k < g.values.cols, ∃ f, Spec.AffineMap f ∧ ∀ q, real (cartesian S.B q) ∈ Hull (· ∈ st.ir.1) → F q k = f (cartesian S.B q))
    (q : Pt) (hq : real (cartesian S.B q) ∈ Hull (· ∈ st.ir.1)) (o : (ℕ → ℚ) × (ℕ → ℚ)) (ho : gridAt S.B T n g q = some o) : o.1 = F q := by
  obtain ⟨iw, y, e, a1, a2, a3⟩ := h.row n hn (by rw [hg.rows]; simp [hkl]) q hq
  rw [e] at ho
  rw [← Option.some.inj ho]
  funext k
  dsimp only
  split
  · rename_i hk
    obtain ⟨f, hf, hfq⟩ := haff k hk
    rw [hfq _ hq, ← a3 f hf]
    unfold Spec.combine
    congr 1
    refine List.map_congr_left fun a ha => ?_
    have hlt := (a1 a ha).1
    dsimp only
    rw [hg.data _ _ (hkl_get a.1 hlt) k hk, hfq, cartesian_relative S.B h.lattice.basis]
    rw [cartesian_relative S.B h.lattice.basis, Convex.getD_lt _ _ hlt]
    exact h.vertices _ (List.getElem_mem hlt)
  · rename_i hk
    exact (hlong _ _ (by omega)).symm

/-- **C88 (error).** A periodic function is sampled at the vertices of the grid.  If it changes by no more than `ε` between points whose
Cartesian coordinates differ by no more than the length of the edges of the nodes, then at every point that lands in the irreducible zone the
interpolated value is no further than `ε` from the value of the function.  It needs no symmetry, and the data need not be scalars, since
nothing is turned.  Missing: points that land elsewhere in the first zone, for which this is wrong (`C88_counterexample`). -/
theorem C88_error_partial (h : Assembled S st inside edge T g) (c : Centring) (z : Move.Zone) (n : GridInterp.Numeric ℚ ℚ ℚ)
    (hn : n.weightT = id) (F : Pt → ℕ → ℚ) (hF : Periodic c F) (hg : Sampled S.B T g.values F) (k : ℕ) (hk : k < g.values.cols) (ε : ℚ)
    (hε : ∀ q q', (∀ d, |cartesian S.B q' d - cartesian S.B q d| ≤ edge) → |F q' k - F q k| ≤ ε) (Qs : List Pt)
    (out : List ((ℕ → ℚ) × (ℕ → ℚ))) (ho : pyInterpolateAt S.B (letter c) z inside T n g false Qs = some out) :
    out.length = Qs.length ∧ ∀ (i : ℕ) (Q : Pt), Qs[i]? = some Q → LandsInside S st c z inside Q →
      ∃ o, out[i]? = some o ∧ |o.1 k - F Q k| ≤ ε := by
  obtain ⟨hl, hp⟩ := C88_points S.B c z inside T n g Qs out ho
  refine ⟨hl, fun i Q hQ hin => ?_⟩
  obtain ⟨o, q, tau, e, hm, hs, ht, -, hgr⟩ := hp i Q hQ
  refine ⟨o, e, ?_⟩
  rw [show Q = fun d => q d + tau d from funext hs, hF q tau ht]
  exact row_close h n hn F hg k hk ε hε q (hin q tau hm) o hgr

/-- **C88 (no overshoot).** At points that land in the irreducible zone interpolated numbers are never smaller than the smallest and never larger
than the largest of the data. -/
theorem C88_between_partial (h : Assembled S st inside edge T g) (c : Centring) (z : Move.Zone) (n : GridInterp.Numeric ℚ ℚ ℚ)
    (hn : n.weightT = id) (hrows : g.values.rows = T.vertices.length) (k : ℕ) (hk : k < g.values.cols) (lo hi : ℚ)
    (hd : ∀ i < g.values.rows, lo ≤ heldRow g.values i k ∧ heldRow g.values i k ≤ hi) (Qs : List Pt)
    (out : List ((ℕ → ℚ) × (ℕ → ℚ))) (ho : pyInterpolateAt S.B (letter c) z inside T n g false Qs = some out) :
    ∀ (i : ℕ) (Q : Pt), Qs[i]? = some Q → LandsInside S st c z inside Q → ∃ o, out[i]? = some o ∧ lo ≤ o.1 k ∧ o.1 k ≤ hi := by
  obtain ⟨hl, hp⟩ := C88_points S.B c z inside T n g Qs out ho
  intro i Q hQ hin
  obtain ⟨o, q, tau, e, hm, hs, ht, -, hgr⟩ := hp i Q hQ
  exact ⟨o, e, row_between h n hn hrows k hk lo hi hd q (hin q tau hm) o hgr⟩

/-- **C88 (exactness).** A periodic function that depends linearly on the position within the irreducible zone is reproduced exactly at all points
that land there. -/
theorem C88_exact_partial (h : Assembled S st inside edge T g) (c : Centring) (z : Move.Zone) (n : GridInterp.Numeric ℚ ℚ ℚ)
    (hn : n.weightT = id) (F : Pt → ℕ → ℚ) (hF : Periodic c F) (hg : Sampled S.B T g.values F)
    (hlong : ∀ q k, g.values.cols ≤ k → F q k = 0)
    (haff : ∀ k < g.values.cols, ∃ f, Spec.AffineMap f ∧ ∀ q, real (cartesian S.B q) ∈ Hull (· ∈ st.ir.1) → F q k = f (cartesian S.B q))
    (Qs : List Pt) (out : List ((ℕ → ℚ) × (ℕ → ℚ))) (ho : pyInterpolateAt S.B (letter c) z inside T n g false Qs = some out) :
    ∀ (i : ℕ) (Q : Pt), Qs[i]? = some Q → LandsInside S st c z inside Q → ∃ o, out[i]? = some o ∧ o.1 = F Q := by
  obtain ⟨hl, hp⟩ := C88_points S.B c z inside T n g Qs out ho
  intro i Q hQ hin
  obtain ⟨o, q, tau, e, hm, hs, ht, -, hgr⟩ := hp i Q hQ
  refine ⟨o, e, ?_⟩
  rw [show Q = fun d => q d + tau d from funext hs, hF q tau ht]
  exact row_exact h n hn F hg hlong haff q (hin q tau hm) o hgr

/-- **C88 (points not moved).** With `do_not_move_points` no function need be periodic: at points of the irreducible zone the grid always answers,
and within the error; a function that is linear there is reproduced exactly. -/
theorem C88_not_moved (h : Assembled S st inside edge T g) (b : Prim.Bravais) (z : Move.Zone) (n : GridInterp.Numeric ℚ ℚ ℚ)
    (hn : n.weightT = id) (F : Pt → ℕ → ℚ) (hg : Sampled S.B T g.values F) (Qs : List Pt)
    (hQ : ∀ Q ∈ Qs, real (cartesian S.B Q) ∈ Hull (· ∈ st.ir.1)) :
    ∃ out, pyInterpolateAt S.B b z inside T n g true Qs = some out ∧ out.length = Qs.length ∧
      (∀ k < g.values.cols, ∀ ε, (∀ q q', (∀ d, |cartesian S.B q' d - cartesian S.B q d| ≤ edge) → |F q' k - F q k| ≤ ε) →
        ∀ (i : ℕ) (Q : Pt), Qs[i]? = some Q → ∃ o, out[i]? = some o ∧ |o.1 k - F Q k| ≤ ε) ∧
      ((∀ q k, g.values.cols ≤ k → F q k = 0) →
        (∀ k < g.values.cols, ∃ f, Spec.AffineMap f ∧ ∀ q, real (cartesian S.B q) ∈ Hull (· ∈ st.ir.1) → F q k = f (cartesian S.B q)) →
        out.map Prod.fst = Qs.map F) := by
  cases hout : Qs.mapM (gridAt S.B T n g) with
  | none =>
    rw [mapM_none_iff] at hout
    obtain ⟨Q, hm, e⟩ := hout
    obtain ⟨iw, y, e2, -⟩ := h.row n hn (by rw [hg.rows]; simp [hkl]) Q (hQ Q hm)
    rw [e2] at e
    cases e
  | some out =>
    obtain ⟨hl, hp⟩ := mapM_some_get _ _ _ hout
    refine ⟨out, by simp [pyInterpolateAt, hout], hl, fun k hk ε hε i Q hi => ?_, fun hlong haff => ?_⟩
    · obtain ⟨o, h1, h2⟩ := hp i Q hi
      exact ⟨o, h2, row_close h n hn F hg k hk ε hε Q (hQ Q (List.mem_of_getElem? hi)) o h1⟩
    · refine List.ext_getElem? fun i => ?_
      rw [List.getElem?_map, List.getElem?_map]
      cases hi : Qs[i]? with
      | none =>
        rw [List.getElem?_eq_none_iff] at hi
        rw [List.getElem?_eq_none_iff.2 (by omega)]
        rfl
      | some Q =>
        obtain ⟨o, h1, h2⟩ := hp i Q hi
        rw [h2, Option.map_some, Option.map_some, row_exact h n hn F hg hlong haff Q (hQ Q (List.mem_of_getElem? hi)) o h1]

end

/-- **C88 (points not moved, rotating form).** `ir_interpolate_at` with `do_not_move_points` gives, for data that are not phonon eigenvectors, the
rows of the grid at the points themselves: what `interpolate_at` with `do_not_move_points` gives. -/
theorem C88_not_moved_ir (S : Wedge.Setup) (hid : Mot.idMat ∈ operations S.timeReversal S.R) (st : Wedge.St) (b : Prim.Bravais)
    (z : Move.Zone) (inside : Prim.OnLattice → Pt → Bool) (kind : GridInterp.Kind) (locate : Pt → Option (List (ℕ × ℚ)))
    (n : GridInterp.Numeric ℚ ℚ ℚ) (g : Fill.Grid ℚ ℚ) (s : Turning ℚ)
    (hv : g.values.rotlike ≠ .gamma) (hw : g.vectors.rotlike ≠ .gamma) (Qs : List Pt) (out : List ((ℕ → ℚ) × (ℕ → ℚ)))
    (ho : pyIrInterpolateAt kind locate S st b z inside n g s true Qs = some out) : Qs.mapM (locatedAt kind S.B locate n g) = some out := by
  unfold pyIrInterpolateAt at ho
  simp only [if_true] at ho
  exact C60_no_move _ hid _ s _ _ hv hw Qs out ho

theorem locatedAt_trellis (B : Fin 3 → Pt) (T : TrellisWire.PolyTrellis) (n : GridInterp.Numeric ℚ ℚ ℚ) (g : Fill.Grid ℚ ℚ)
    (hc : (Fill.rowsCols g.vectors.shape).2 = g.vectors.cols) : locatedAt .trellis B (trellisLocate T) n g = gridAt B T n g := by
  funext q
  unfold locatedAt gridAt trellisLocate
  cases T.indicesWeights (cartesian B q) with
  | found iw =>
    simp only [GridInterp.vectorShape, hc]
    cases GridInterp.interpolate .trellis n g (fun _ => iw) 1 <;> rfl
  | notFound => rfl
  | bad => rfl

theorem mapM_option_map {α β γ : Type} (f : α → Option β) (f' : α → Option γ) (k : β → γ) : ∀ l : List α, (∀ a ∈ l, f' a = (f a).map k) →
    l.mapM f' = (l.mapM f).map (List.map k)
  | [], _ => rfl
  | a :: l, h => by
    rw [List.mapM_cons, List.mapM_cons, h a (by simp), mapM_option_map f f' k l fun b hb => h b (by simp [hb])]
    cases f a with
    | none => rfl
    | some b => cases l.mapM f <;> rfl

/-- **C88 (agreement).** For points that land in the irreducible zone `ir_interpolate_at` does the same as `interpolate_at`, except to phonon
eigenvectors. -/
theorem C88_agree {S : Wedge.Setup} {st : Wedge.St} {inside : Prim.OnLattice → Pt → Bool} {edge : ℚ} {T : TrellisWire.PolyTrellis}
    {g : Fill.Grid ℚ ℚ} (h : Assembled S st inside edge T g) (c : Centring) (z : Move.Zone) (n : GridInterp.Numeric ℚ ℚ ℚ) (s : Turning ℚ)
    (hv : g.values.rotlike ≠ .gamma) (hw : g.vectors.rotlike ≠ .gamma) (Qs : List Pt) (hQ : ∀ Q ∈ Qs, LandsInside S st c z inside Q)
    (out : List ((ℕ → ℚ) × (ℕ → ℚ))) (ho : interpolateAt S st (letter c) z inside T n g s Qs = some out) :
    pyInterpolateAt S.B (letter c) z inside T n g false Qs = some out := by
  let i0 := Sym.findIndex (operations S.timeReversal S.R) Mot.idMat
  have hmove : ∀ Q ∈ Qs, Move.irMoveinto (letter c) z inside (wedge S st) (operations S.timeReversal S.R) Q =
      (Move.moveinto (letter c) z inside .standard Q).map fun p => ((⟨p.1, i0, i0⟩ : Move.IrPoint), p.2) := by
    intro Q hm
    unfold Move.irMoveinto
    cases e : Move.moveinto (letter c) z inside .standard Q with
    | none => rfl
    | some p =>
      have hin := hQ Q hm p.1 p.2 e
      have hwedge : wedge S st p.1 = true := by
        have hn := (h.zone.normals _ (h.zone.part hin)).mp hin
        have hd : ∀ m ∈ st.normals, 0 ≤ dot m (cartesian S.B p.1) := by
          intro m hm
          have := hn m hm
          simp only [Fin.sum_univ_three, real] at this
          unfold dot
          exact_mod_cast this
        unfold wedge Move.insideWedge
        cases hnil : st.normals with
        | nil => simp
        | cons a l =>
          rw [hnil] at hd
          simpa using Or.inl ⟨hd a (by simp), fun x hx => hd x (by simp [hx])⟩
      simp only [Move.irPoint, hwedge, if_true, Option.map_some]
      rfl
  unfold interpolateAt irInterpolateAt at ho
  rw [mapM_option_map _ _ _ Qs hmove] at ho
  unfold pyInterpolateAt firstInterpolateAt
  simp only [Bool.false_eq_true, if_false]
  cases e : Qs.mapM fun Q => Move.moveinto (letter c) z inside .standard Q with
  | none => rw [e] at ho; cases ho
  | some moved =>
    rw [e] at ho
    simp only [Option.map_some] at ho
    have := C60_no_move (operations S.timeReversal S.R) h.identity (gridAt S.B T n g) s (kindOf g.values false) (kindOf g.vectors false) hv hw
      (moved.map Prod.fst) out (by
        unfold irInterpolateNoMove
        rw [List.mapM_map]
        rw [List.mapM_map] at ho
        exact ho)
    rw [List.mapM_map] at this
    exact this

/-! ### the conditions can be met -/

theorem toothed_periodic : Periodic .P toothed := by
  intro q tau ht
  have := toothed_symmetric Mot.idMat (tooth_assembled 1 (by norm_num)).choose_spec.1.identity q tau ht
  rw [← this]
  congr 1
  funext i
  fin_cases i <;> simp [Mot.idMat]

/-- a point that is moved by a lattice vector and lands in the quarter -/
theorem tooth_lands : LandsInside toothSetup quarterSt .P cubic toothInside ![5/4, 1/8, 3/8] := by
  intro q tau h
  have e : Move.moveinto (letter .P) cubic toothInside .standard ![5/4, 1/8, 3/8] = some (![1/4, 1/8, 3/8], ![1, 0, 0]) := by decide +kernel
  rw [e] at h
  obtain ⟨rfl, rfl⟩ := Prod.mk.inj (Option.some.inj h)
  refine (C67_contains _ _ tooth_zone.solid (by decide) _).mp ?_
  decide +kernel

/-- the grid answers there, with numbers that are not further than half the edge of the nodes from the function, in its range, and the same
that `ir_interpolate_at` gives -/
example (edge : ℚ) (hedge : 0 < edge) : ∃ T out, let g := filled toothSetup.B T toothed
    pyInterpolateAt toothSetup.B .P cubic toothInside T plainNumbers g false [![5/4, 1/8, 3/8]] = some out ∧
    interpolateAt toothSetup quarterSt .P cubic toothInside T plainNumbers g turning0 [![5/4, 1/8, 3/8]] = some out ∧
    ∃ o, out[0]? = some o ∧ |o.1 0 - 1 / 4| ≤ edge / 2 := by
  obtain ⟨T, hA, hD, hS, hS'⟩ := tooth_assembled edge hedge
  have hQ : ∀ Q ∈ [(![5/4, 1/8, 3/8] : Pt)], LandsInside toothSetup quarterSt .P cubic toothInside Q := by
    intro Q hQ; rw [List.mem_singleton.mp hQ]; exact tooth_lands
  have hcols : 0 < (filled toothSetup.B T toothed).values.cols := by rw [(filled_held _ _ _).1]; exact Nat.zero_lt_one
  have hrows : (filled toothSetup.B T toothed).values.rows = T.vertices.length := by rw [hD.rows]; simp [hkl]
  have hmove : ¬ ∃ Q ∈ [(![5/4, 1/8, 3/8] : Pt)], Move.moveinto (letter .P) cubic toothInside .standard Q = none := by
    rintro ⟨Q, hQ, h⟩
    rw [List.mem_singleton.mp hQ] at h
    revert h
    decide +kernel
  cases hout : interpolateAt toothSetup quarterSt .P cubic toothInside T plainNumbers (filled toothSetup.B T toothed) turning0
      [![5/4, 1/8, 3/8]] with
  | none => exact absurd ((C81_total hA .P _ _ rfl hrows hS hS' _ _).mp hout) hmove
  | some out =>
    have hag := C88_agree hA .P cubic plainNumbers turning0 (by rw [hS.like]; simp) (by rw [hS'.like]; simp) _ hQ out hout
    refine ⟨T, out, hag, hout, ?_⟩
    obtain ⟨-, he⟩ := C88_error_partial hA .P cubic plainNumbers rfl toothed toothed_periodic hD 0 hcols (edge / 2) (by
      intro q q' h
      have h0 := h 0
      have e : ∀ q : Pt, cartesian toothSetup.B q 0 = 2 * q 0 := by
        intro q
        simp [cartesian, toothSetup, cubeSetup, cubicBasis]; ring
      rw [e, e] at h0
      simp only [toothed, if_true]
      have hd : |q' 0 - q 0| ≤ edge / 2 := by
        rw [abs_le] at h0 ⊢
        constructor <;> linarith [h0.1, h0.2]
      have lip : ∀ x y : ℚ, |x - round x| ≤ |x - y| + |y - round y| := fun x y =>
        (toothed_le x (round y)).trans ((le_of_eq (by congr 1; ring)).trans (abs_add_le (x - y) (y - round y)))
      have h1 := lip (q' 0) (q 0)
      have h2 := lip (q 0) (q' 0)
      rw [abs_sub_comm (q 0) (q' 0)] at h2
      rw [abs_le]
      constructor <;> linarith) _ out hag
    obtain ⟨o, h1, h2⟩ := he 0 _ rfl tooth_lands
    have ht : toothed ![5/4, 1/8, 3/8] 0 = 1 / 4 := by decide +kernel
    rw [ht] at h2
    exact ⟨o, h1, h2⟩

/-- a cube without symmetry, which is its own irreducible zone -/
def plainSetup : Wedge.Setup := cubeSetup [Mot.idMat] fun _ => none

def plainSt : Wedge.St := ⟨plainSetup.first, [], true⟩

theorem plain_one : ∀ r ∈ operations plainSetup.timeReversal plainSetup.R, Matrix.of r = 1 := by
  decide +kernel

theorem plain_zone : Circumstances plainSetup ∧ Irreducible plainSetup plainSt := by
  have hg : PointGroup [Mot.idMat] := by
    refine ⟨by decide, ⟨Mot.idMat, by simp, by decide +kernel⟩, ?_, ?_⟩ <;> decide +kernel
  have hc : Circumstances plainSetup := cube_circumstances _ hg (by
    intro r hr
    rw [List.mem_singleton.mp hr]
    exact ⟨1, 1, 1, Or.inl rfl, Or.inl rfl, Or.inl rfl, by decide +kernel⟩) _
  have hlen : (operations plainSetup.timeReversal plainSetup.R).length = 1 := by decide +kernel
  refine ⟨hc, hc.solid, subset_rfl, ?_, fun r hr hne => absurd (plain_one r hr) hne, fun x hx => ?_, fun x hx => ?_, rfl⟩
  · rw [hlen]; simp [plainSt]
  · obtain ⟨r, hr, -⟩ := hc.group.one
    refine ⟨r, hr, x, hx, ?_⟩
    have hr1 := plain_one r hr
    rw [carries_iff plainSetup.B hc.basis, realOp_one plainSetup.B hc.basis r hr1, Matrix.one_mulVec]
  · exact ⟨fun _ n hn => by simp [plainSt] at hn, fun _ => hx⟩

/-- without symmetry every periodic function that is sampled is met within the error at all points, whatever the grid -/
example (edge : ℚ) (hedge : 0 < edge) (F : Pt → ℕ → ℚ) (hF : Periodic .P F) (inside : Prim.OnLattice → Pt → Bool)
    (hi : ∀ q, inside .standard q = contains plainSetup.first.2 (fun i => plainSetup.first.1.getD i 0) (cartesian plainSetup.B q)) (ε : ℚ)
    (hε : ∀ q q', (∀ d, |cartesian plainSetup.B q' d - cartesian plainSetup.B q d| ≤ edge) → |F q' 0 - F q 0| ≤ ε) : ∃ T,
    ∀ (Qs : List Pt) (out : List ((ℕ → ℚ) × (ℕ → ℚ))),
      pyInterpolateAt plainSetup.B .P cubic inside T plainNumbers (filledAt plainSetup.B T.vertices F) false Qs = some out →
      ∀ (i : ℕ) (Q : Pt), Qs[i]? = some Q → ∃ o, out[i]? = some o ∧ |o.1 0 - F Q 0| ≤ ε := by
  obtain ⟨hC, hst⟩ := plain_zone
  have hf : plainSt.ir.2 ≠ [] := by decide
  obtain ⟨turns, ht⟩ : ∃ turns : ℕ, ∀ d : Fin 3, (⌈(Zone.largest plainSt.ir.1 d - Zone.least plainSt.ir.1 d) / edge⌉ : ℤ) ≤ turns := by
    refine ⟨∑ d : Fin 3, (⌈(Zone.largest plainSt.ir.1 d - Zone.least plainSt.ir.1 d) / edge⌉ : ℤ).toNat, fun d => ?_⟩
    refine (Int.self_le_toNat _).trans ?_
    exact_mod_cast Finset.single_le_sum (f := fun d => (⌈(Zone.largest plainSt.ir.1 d - Zone.least plainSt.ir.1 d) / edge⌉ : ℤ).toNat)
      (fun _ _ => Nat.zero_le _) (Finset.mem_univ d)
  obtain ⟨schedule, hS⟩ : ∃ schedule, ∀ t parts, TrellisBuild.build false turns edge plainSt.ir = some (t, parts) → Distributed schedule t.types := by
    cases hb : TrellisBuild.build false turns edge plainSt.ir with
    | none => exact ⟨alone [], by simp⟩
    | some r => exact ⟨alone r.1.types, fun t parts e => by obtain rfl := Option.some.inj e; exact alone_ok _⟩
  obtain ⟨T, hT, -⟩ := C76_construct someTetGen someTetGen_reliable false turns edge plainSt.ir hst.solid hf hedge ht schedule hS
  have hA : Assembled plainSetup plainSt inside edge T (filledAt plainSetup.B T.vertices F) :=
    ⟨hC, hst, hi, hedge, ⟨someTetGen, false, turns, schedule, someTetGen_reliable, ht, hS, hT⟩, filledAt_history _ _ _⟩
  have hD := filledAt_sampled plainSetup.B T.vertices F
  refine ⟨T, fun Qs out ho i Q hQ => ?_⟩
  exact (C88_error_partial hA .P cubic plainNumbers rfl F hF ⟨hD.rows, hD.data⟩ 0 (by rw [(filledAt_held _ _ _).1]; exact Nat.zero_lt_one) ε hε
    Qs out ho).2 i Q hQ (C88_whole hA .P cubic plain_one Q)

/-! ### points that land elsewhere -/

/-- one number everywhere -/
def ones (_ : Pt) : ℕ → ℚ := fun k => if k = 0 then 1 else 0

set_option maxRecDepth 100000 in
theorem quarter_build : (TrellisBuild.build false 4 (1 / 2) quarterSt.ir).map (fun r => (r.1.types[12]?,
    r.1.nodeIndex (fun a b => decide (a = b)) ![-1/2, 1/4, 3/4],
    (List.finRange 3).map fun d => ((r.1.knots d)[r.1.idx2sub 12 d]?, (r.1.knots d)[r.1.idx2sub 12 d + 1]?))) =
    some (some .cube, 12, [(some 0, some (1 / 2)), (some 0, some (1 / 2)), (some (1 / 2), some 1)]) := by decide +kernel

/-- The grid is made for the quarter of the zone that is irreducible and holds one number everywhere.  At a point of the first zone outside that
quarter `interpolate_at` answers without an error, three times the number; `ir_interpolate_at` gives the number. -/
theorem C88_counterexample : ∃ T,
    let g := filledAt toothSetup.B T.vertices ones
    Assembled toothSetup quarterSt toothInside (1 / 2) T g ∧ Sampled toothSetup.B T g.values ones ∧ Periodic .P ones ∧
    SymmetricScalar .P (operations false groupMm2) ones ∧
    (∃ out, pyInterpolateAt toothSetup.B .P cubic toothInside T plainNumbers g false [![-1/4, 1/8, 3/8]] = some out ∧
      out.map (fun o => o.1 0) = [3]) ∧
    ∃ out, pyIrInterpolateAt .trellis (trellisLocate T) toothSetup quarterSt .P cubic toothInside plainNumbers g turning0 false
      [![-1/4, 1/8, 3/8]] = some out ∧ out.map (fun o => o.1 0) = [1] := by
  have hst := tooth_zone
  have hf : quarterSt.ir.2 ≠ [] := by decide
  have ht : ∀ d : Fin 3, (⌈(Zone.largest quarterSt.ir.1 d - Zone.least quarterSt.ir.1 d) / (1 / 2 : ℚ)⌉ : ℤ) ≤ (4 : ℕ) := by decide +kernel
  obtain ⟨schedule, hS⟩ : ∃ schedule, ∀ t parts, TrellisBuild.build false 4 (1 / 2) quarterSt.ir = some (t, parts) → Distributed schedule t.types := by
    cases hb : TrellisBuild.build false 4 (1 / 2) quarterSt.ir with
    | none => exact ⟨alone [], by simp⟩
    | some r => exact ⟨alone r.1.types, fun t parts e => by obtain rfl := Option.some.inj e; exact alone_ok _⟩
  obtain ⟨T, parts, hb, hT, -, -, -, hnodes, -⟩ := wire someTetGen_reliable hst.solid hf (by norm_num) ht hS
  have hA : Assembled toothSetup quarterSt toothInside (1 / 2) T (filledAt toothSetup.B T.vertices ones) :=
    ⟨tooth_circumstances, hst, fun _ => rfl, by norm_num, ⟨someTetGen, false, 4, schedule, someTetGen_reliable, ht, hS, hT⟩, filledAt_history _ _ _⟩
  have hD := filledAt_sampled toothSetup.B T.vertices ones
  have hD' : Sampled toothSetup.B T (filledAt toothSetup.B T.vertices ones).values ones := ⟨hD.rows, hD.data⟩
  have hsym : SymmetricScalar .P (operations false groupMm2) ones := fun _ _ _ _ _ => rfl
  have hrows : (filledAt toothSetup.B T.vertices ones).values.rows = T.vertices.length := by rw [(filledAt_held _ _ _).1]
  have hcols : (filledAt toothSetup.B T.vertices ones).values.cols = 1 := by rw [(filledAt_held _ _ _).1]
  have hmove : Move.moveinto .P cubic toothInside .standard ![-1/4, 1/8, 3/8] = some (![-1/4, 1/8, 3/8], ![0, 0, 0]) := by decide +kernel
  refine ⟨T, hA, hD', fun _ _ _ => rfl, hsym, ?_, ?_⟩
  · have hq := quarter_build
    rw [hb] at hq
    simp only [Option.map_some, Option.some.injEq, Prod.mk.injEq] at hq
    obtain ⟨h1, h2, h3⟩ := hq
    obtain ⟨part, lo, hi, hp, ⟨n, hget, hn⟩, -⟩ := hnodes 12 .cube h1 (Or.inl rfl)
    have hbox : lo = ![0, 0, 1/2] ∧ hi = ![1/2, 1/2, 1] := by
      have hb0 := hp.box
      simp only [List.finRange_succ, List.finRange_zero, List.map_cons, List.map_nil, List.cons.injEq, Prod.mk.injEq] at h3
      obtain ⟨⟨a0, b0⟩, ⟨a1, b1⟩, ⟨a2, b2⟩, -⟩ := h3
      have e0 := Option.some.inj ((hb0 0).1.symm.trans a0)
      have e1 := Option.some.inj ((hb0 1).1.symm.trans a1)
      have e2 := Option.some.inj ((hb0 2).1.symm.trans a2)
      have f0 := Option.some.inj ((hb0 0).2.symm.trans b0)
      have f1 := Option.some.inj ((hb0 1).2.symm.trans b1)
      have f2 := Option.some.inj ((hb0 2).2.symm.trans b2)
      constructor <;> funext d <;> fin_cases d <;> simp [e0, e1, e2, f0, f1, f2]
    obtain ⟨rfl, rfl⟩ := hbox
    have hv : (fun i => T.vertices.getD (n i) 0) = Spec.boxCorner ![0, 0, 1/2] ![1/2, 1/2, 1] := by
      funext j; rw [List.getD_eq_getElem?_getD, hn j, Option.getD_some]
    have hcart : cartesian toothSetup.B ![-1/4, 1/8, 3/8] = ![-1/2, 1/4, 3/4] := by decide +kernel
    set w := Trellis.cubeW (Spec.boxCorner ![0, 0, 1/2] ![1/2, 1/2, 1]) ![-1/2, 1/4, 3/4] with hw
    set iw := ((List.finRange 8).filter fun i => decide (0 < w i)).map (fun i => (n (7 - i), w i)) with hiw
    have hfound : T.indicesWeights ![-1/2, 1/4, 3/4] = .found iw := by
      unfold TrellisWire.PolyTrellis.indicesWeights
      rw [h2, hget]
      simp only [Trellis.cubeIndicesWeights, hv, Bool.not_true, Bool.and_false, Bool.false_eq_true, if_false]
      rfl
    have hsum : (((List.finRange 8).filter fun i => decide (0 < w i)).map w).sum = 3 := by rw [hw]; decide +kernel
    have hlt : ∀ p ∈ iw, p.1 < T.vertices.length := by
      intro p hp
      obtain ⟨j, -, rfl⟩ := List.mem_map.mp hp
      exact (List.getElem?_eq_some_iff.mp (hn (7 - j))).1
    have hne : iw ≠ [] := by
      intro e
      rw [hiw, List.map_eq_nil_iff] at e
      rw [e] at hsum
      norm_num at hsum
    obtain ⟨vals, vecs, e, hval⟩ := hA.summed plainNumbers rfl hrows iw hne hlt
    have h0 : vals.mem 0 = 3 := by
      rw [hval 0 (by rw [hcols]; omega), ← hsum]
      unfold Spec.combine
      rw [hiw, List.map_map]
      refine congrArg List.sum (List.map_congr_left fun j _ => ?_)
      have hj := (List.getElem?_eq_some_iff.mp (hn (7 - j))).1
      simp only [Function.comp]
      rw [hD'.data _ _ (hkl_get (S := toothSetup) _ hj) 0 (by rw [hcols]; omega)]
      simp [ones]
    have hgrid : gridAt toothSetup.B T plainNumbers (filledAt toothSetup.B T.vertices ones) ![-1/4, 1/8, 3/8] =
        some (fun k => if k < (filledAt toothSetup.B T.vertices ones).values.cols then vals.mem k else 0,
          fun k => if k < (filledAt toothSetup.B T.vertices ones).vectors.cols then vecs.mem k else 0) := by
      unfold gridAt
      rw [hcart, hfound]
      simp only [e]
    refine ⟨[(fun k => if k < (filledAt toothSetup.B T.vertices ones).values.cols then vals.mem k else 0,
      fun k => if k < (filledAt toothSetup.B T.vertices ones).vectors.cols then vecs.mem k else 0)], ?_, ?_⟩
    · unfold pyInterpolateAt firstInterpolateAt
      simp only [Bool.false_eq_true, if_false]
      rw [List.mapM_cons, List.mapM_nil, hmove]
      show List.mapM _ [_] = _
      rw [List.mapM_cons, List.mapM_nil, hgrid]
      rfl
    · simp [hcols, h0]
  · have hc : (Fill.rowsCols (filledAt toothSetup.B T.vertices ones).vectors.shape).2 = (filledAt toothSetup.B T.vertices ones).vectors.cols := by
      rw [(filledAt_held _ _ _).2]
      simp [Fill.rowsCols]
    have heq : pyIrInterpolateAt .trellis (trellisLocate T) toothSetup quarterSt .P cubic toothInside plainNumbers
        (filledAt toothSetup.B T.vertices ones) turning0 false [![-1/4, 1/8, 3/8]] =
        interpolateAt toothSetup quarterSt .P cubic toothInside T plainNumbers (filledAt toothSetup.B T.vertices ones) turning0 [![-1/4, 1/8, 3/8]] := by
      unfold pyIrInterpolateAt interpolateWith interpolateAt
      rw [locatedAt_trellis _ _ _ _ hc]
      rfl
    rw [heq]
    have hsc := filledAt_scalars toothSetup.B T.vertices ones
    cases hout : interpolateAt toothSetup quarterSt .P cubic toothInside T plainNumbers (filledAt toothSetup.B T.vertices ones) turning0
        [![-1/4, 1/8, 3/8]] with
    | none =>
      obtain ⟨Q, hQ, hm⟩ := (C81_total hA .P _ _ rfl hrows hsc.1 hsc.2 _ _).mp hout
      rw [List.mem_singleton.mp hQ] at hm
      rw [show letter .P = .P from rfl, hmove] at hm
      cases hm
    | some out =>
      obtain ⟨hl, ho⟩ := C81_error hA .P _ _ rfl hsc.1 ones hsym hD' _ 0 (by rw [hcols]; omega) 0 (fun _ _ _ => by simp [ones]) _ out hout
      obtain ⟨o, h1, h2⟩ := ho 0 _ rfl
      have h3 : o.1 0 = 1 := by
        have := abs_nonpos_iff.mp h2
        simp only [ones, if_true] at this
        linarith
      have : out = [o] := by
        cases out with
        | nil => simp at h1
        | cons a l =>
          have hl' : l = [] := by simpa using hl
          subst hl'
          simpa using h1
      exact ⟨out, rfl, by rw [this]; simp [h3]⟩

end Brille.Props
