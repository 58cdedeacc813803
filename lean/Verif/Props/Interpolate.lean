import Verif.Proofs.Interpolate
import Verif.Proofs.PermutationTable
import Mathlib.Algebra.Order.Field.Rat
import Mathlib.Tactic.NormNum
import Mathlib.Tactic.LinearCombination

/-! C24: linear interpolation of stored modes. -/
namespace Brille.Props
open Brille.Interp Brille.Spec

/-- The vertices of an interpolation as the specification sees them. -/
def contributionsOf {K : Type} (d : Data K) (perms : List (List Nat)) (iw : List (Nat × K)) :
    List (Contribution K) :=
  (perms.zip iw).map fun x => ⟨x.2.2, d.row x.2.1, x.1⟩

/-- **C24 (value).** With one mode map per vertex, interpolating onto a fresh (zero) row succeeds, gives
in every element of every mode the weighted sum of the corresponding elements of the vertices, and
writes nothing beyond the row. -/
theorem C24_weighted_sum {K : Type} [Semiring K] (d : Data K) (perms : List (List Nat))
    (iw : List (Nat × K)) (hne : iw ≠ []) (hl : perms.length = iw.length)
    (hp : ∀ p ∈ perms, ModeMap d.branches p) :
    ∃ r, mix d noPhase perms iw (fun _ => 0) = some r ∧
      (∀ b s, b < d.branches → s < d.span →
        modeElem d.span r b s = weightedMode d.span (contributionsOf d perms iw) b s) ∧
      ∀ k, d.branches * d.span ≤ k → r k = 0 := by
  cases iw with
  | nil => exact absurd rfl hne
  | cons x iw =>
    obtain ⟨i0, w0⟩ := x
    obtain ⟨r, h1, h2, h3⟩ := mix_spec d noPhase perms i0 w0 iw (fun _ => 0) (by simp_all) hp
    refine ⟨r, h1, ?_, h3⟩
    intro b s hb hs
    rw [modeElem, h2 b s hb hs, zero_add, weightedMode, contributionsOf, List.map_map]
    congr 1
    apply List.map_congr_left
    intro x _
    simp [factor, noPhase, modeElem]

/-- two vertices, two modes of two elements -/
def exampleData : Data ℚ where
  branches := 2
  span := 2
  row := fun i k => (10 * i + k : ℚ)

example : ([(0, 1/4), (1, 3/4)] : List (Nat × ℚ)) ≠ [] ∧
    (∀ p ∈ [[0, 1], [1, 0]], ModeMap exampleData.branches p) ∧
    weightedMode 2 (contributionsOf exampleData [[0, 1], [1, 0]] [(0, 1/4), (1, 3/4)]) 1 0 = 8 := by
  refine ⟨by simp, ?_, ?_⟩
  · simp [ModeMap, exampleData]
  · norm_num [weightedMode, contributionsOf, exampleData, modeElem]

/-- **C24 (exact).** If one vertex has weight one and every other vertex weight zero, the result is that
vertex' stored modes in the order given by its mode map. -/
theorem C24_exact_at_vertex {K : Type} [Semiring K] (d : Data K) (perms : List (List Nat))
    (iw : List (Nat × K)) (hl : perms.length = iw.length)
    (hp : ∀ p ∈ perms, ModeMap d.branches p) (j : Nat) (hj : j < iw.length)
    (h1 : (iw[j]).2 = 1) (h0 : ∀ k (hk : k < iw.length), k ≠ j → (iw[k]).2 = 0) :
    ∃ r, mix d noPhase perms iw (fun _ => 0) = some r ∧
      ∀ b s, b < d.branches → s < d.span →
        modeElem d.span r b s = modeElem d.span (d.row (iw[j]).1) ((perms[j]'(hl ▸ hj)).getD b 0) s := by
  obtain ⟨r, hr, h2, _⟩ := C24_weighted_sum d perms iw (by rintro rfl; simp at hj) hl hp
  refine ⟨r, hr, ?_⟩
  intro b s hb hs
  rw [h2 b s hb hs, weightedMode]
  have hzip : j < (perms.zip iw).length := by simp [hl, hj]
  have hlen : (contributionsOf d perms iw).length = (perms.zip iw).length := by simp [contributionsOf]
  generalize hg : (fun c : Contribution K => c.weight * modeElem d.span c.row (c.perm.getD b 0) s) = g
  have hval : ∀ k (hk : k < iw.length), g ((contributionsOf d perms iw)[k]'(by simp [contributionsOf, hl, hk])) =
      if k = j then modeElem d.span (d.row (iw[j]).1) ((perms[j]'(hl ▸ hj)).getD b 0) s else 0 := by
    intro k hk
    rw [← hg]
    by_cases hkj : k = j
    · subst hkj
      simp [contributionsOf, h1]
    · simp [contributionsOf, h0 k hk hkj, hkj]
  -- the sum has a single non-zero term
  have hsum : ((contributionsOf d perms iw).map g) = (List.range iw.length).map fun k =>
      if k = j then modeElem d.span (d.row (iw[j]).1) ((perms[j]'(hl ▸ hj)).getD b 0) s else 0 := by
    apply List.ext_getElem
    · simp [contributionsOf, hl]
    · intro k hk1 hk2
      simp only [List.length_map, List.length_range] at hk2
      rw [List.getElem_map, hval k hk2]
      simp
  rw [hsum, sum_range_single iw.length j fun _ => _, if_pos hj]

example : ∃ iw : List (Nat × ℚ), ∃ hj : 1 < iw.length, (iw[1]).2 = 1 ∧
    ∀ k (hk : k < iw.length), k ≠ 1 → (iw[k]).2 = 0 := by
  refine ⟨[(0, 0), (5, 1), (7, 0)], by simp, by simp, ?_⟩
  intro k hk hk1
  simp only [List.length_cons, List.length_nil] at hk
  have : k = 0 ∨ k = 2 := by omega
  rcases this with rfl | rfl <;> rfl

/-- **C24 (constants).** If the weights sum to one and all vertices, after their mode maps, hold the
same datum in some element of some mode, the result has that datum there. -/
theorem C24_common_datum {K : Type} [Semiring K] (d : Data K) (perms : List (List Nat))
    (iw : List (Nat × K)) (hne : iw ≠ []) (hl : perms.length = iw.length)
    (hp : ∀ p ∈ perms, ModeMap d.branches p) (hw : (iw.map (·.2)).sum = 1) :
    ∃ r, mix d noPhase perms iw (fun _ => 0) = some r ∧
      ∀ b s v, b < d.branches → s < d.span →
        (∀ x ∈ perms.zip iw, modeElem d.span (d.row x.2.1) (x.1.getD b 0) s = v) →
        modeElem d.span r b s = v := by
  obtain ⟨r, hr, h2, _⟩ := C24_weighted_sum d perms iw hne hl hp
  refine ⟨r, hr, ?_⟩
  intro b s v hb hs hv
  rw [h2 b s hb hs, weightedMode, contributionsOf, List.map_map]
  have h3 : ((perms.zip iw).map ((fun c : Contribution K => c.weight * modeElem d.span c.row (c.perm.getD b 0) s) ∘
      fun x => ⟨x.2.2, d.row x.2.1, x.1⟩)) = (perms.zip iw).map fun x => x.2.2 * v := by
    apply List.map_congr_left
    intro x hx
    simp only [Function.comp]
    rw [hv x hx]
  rw [h3, List.sum_map_mul_right]
  have h4 : ((perms.zip iw).map fun x => x.2.2) = iw.map (·.2) := by
    have : ((perms.zip iw).map Prod.snd) = iw := by
      rw [List.map_snd_zip]; omega
    have h5 := congrArg (List.map fun x : Nat × K => x.2) this
    simpa [List.map_map, Function.comp_def] using h5
  rw [h4, hw, one_mul]

example : (([(0, 1/4), (1, 3/4)] : List (Nat × ℚ)).map (·.2)).sum = 1 := by norm_num

/-- **C24 (linear).** Interpolating `a·d₁ + b·d₂` gives `a` times the interpolation of `d₁` plus `b`
times that of `d₂`. -/
theorem C24_linear {K : Type} [CommSemiring K] (branches span : Nat) (row1 row2 : Nat → Nat → K) (a b : K)
    (perms : List (List Nat)) (iw : List (Nat × K)) (hne : iw ≠ []) (hl : perms.length = iw.length)
    (hp : ∀ p ∈ perms, ModeMap branches p) :
    ∃ r r1 r2,
      mix ⟨branches, span, fun i k => a * row1 i k + b * row2 i k⟩ noPhase perms iw (fun _ => 0) = some r ∧
      mix ⟨branches, span, row1⟩ noPhase perms iw (fun _ => 0) = some r1 ∧
      mix ⟨branches, span, row2⟩ noPhase perms iw (fun _ => 0) = some r2 ∧
      ∀ m s, m < branches → s < span →
        modeElem span r m s = a * modeElem span r1 m s + b * modeElem span r2 m s := by
  obtain ⟨r, hr, h, _⟩ := C24_weighted_sum
    ⟨branches, span, fun i k => a * row1 i k + b * row2 i k⟩ perms iw hne hl hp
  obtain ⟨r1, hr1, h1, _⟩ := C24_weighted_sum ⟨branches, span, row1⟩ perms iw hne hl hp
  obtain ⟨r2, hr2, h2, _⟩ := C24_weighted_sum ⟨branches, span, row2⟩ perms iw hne hl hp
  refine ⟨r, r1, r2, hr, hr1, hr2, ?_⟩
  intro m s hm hs
  have e := h m s hm hs
  have e1 := h1 m s hm hs
  have e2 := h2 m s hm hs
  dsimp only at e e1 e2
  rw [e, e1, e2]
  simp only [weightedMode, contributionsOf, List.map_map, Function.comp_def, modeElem]
  clear e e1 e2 hr hr1 hr2 h h1 h2
  induction perms.zip iw with
  | nil => simp
  | cons x l ih =>
    simp only [List.map_cons, List.sum_cons, ih]
    ring

/-- **C24 (order).** Listing the vertices with their mode maps and weights in another order does not
change the result. -/
theorem C24_order {K : Type} [Semiring K] (d : Data K) (perms perms' : List (List Nat))
    (iw iw' : List (Nat × K)) (hne : iw ≠ []) (hl : perms.length = iw.length)
    (hl' : perms'.length = iw'.length) (hp : ∀ p ∈ perms, ModeMap d.branches p)
    (h : (perms.zip iw).Perm (perms'.zip iw')) :
    ∃ r r', mix d noPhase perms iw (fun _ => 0) = some r ∧
      mix d noPhase perms' iw' (fun _ => 0) = some r' ∧
      ∀ b s, b < d.branches → s < d.span → modeElem d.span r b s = modeElem d.span r' b s := by
  have hm : ∀ {p : List (List Nat)} {q : List (Nat × K)}, p.length = q.length →
      (p.zip q).map Prod.fst = p := by
    intro p q hpq; rw [List.map_fst_zip]; omega
  have hs : ∀ {p : List (List Nat)} {q : List (Nat × K)}, p.length = q.length →
      (p.zip q).map Prod.snd = q := by
    intro p q hpq; rw [List.map_snd_zip]; omega
  have hpp : perms.Perm perms' := by
    have := h.map Prod.fst
    rwa [hm hl, hm hl'] at this
  have hii : iw.Perm iw' := by
    have := h.map Prod.snd
    rwa [hs hl, hs hl'] at this
  have hne' : iw' ≠ [] := by
    rintro rfl; exact hne hii.eq_nil
  obtain ⟨r, hr, h1, _⟩ := C24_weighted_sum d perms iw hne hl hp
  obtain ⟨r', hr', h2, _⟩ := C24_weighted_sum d perms' iw' hne' hl'
    (fun p hp' => hp p (hpp.mem_iff.mpr hp'))
  refine ⟨r, r', hr, hr', ?_⟩
  intro b s hb hs
  rw [h1 b s hb hs, h2 b s hb hs, weightedMode, weightedMode, contributionsOf, contributionsOf,
    List.map_map, List.map_map]
  exact (h.map _).sum_eq

example : ([[0, 1], [1, 0]].zip [(3, (1:ℚ)/4), (4, 3/4)]).Perm
    ([[1, 0], [0, 1]].zip [(4, 3/4), (3, 1/4)]) := List.Perm.swap _ _ _

/-! ### with the stored mode permutations -/

/-- **C24 (limits).** Through `DualInterpolator`, whose mode maps are those from the *first* vertex, the
order matters: two vertices with crossing modes, listed the other way round, give the modes in the
other order. -/
theorem C24_pivot_counterexample :
    ∃ (d : Data ℚ) (t : PermTable.Table) (iw iw' : List (Nat × ℚ)) (p p' : List (List Nat)),
      iw.Perm iw' ∧ getPermutations t iw = some p ∧ getPermutations t iw' = some p' ∧
      (mix d noPhase p iw (fun _ => 0)).map (fun r => (r 0, r 1)) = some (1, 2) ∧
      (mix d noPhase p' iw' (fun _ => 0)).map (fun r => (r 0, r 1)) = some (2, 1) := by
  refine ⟨⟨2, 1, fun i k => if i = 0 then 1 + k else 2 - k⟩,
    ⟨2, fun k => if k = 0 then some 1 else if k = 1 ∨ k = 2 then some 2 else none, [[0, 1], [1, 0]]⟩,
    [(0, 1/2), (1, 1/2)], [(1, 1/2), (0, 1/2)], [[0, 1], [1, 0]], [[0, 1], [1, 0]],
    List.Perm.swap _ _ _, by rfl, by rfl, by decide +kernel, by decide +kernel⟩

/-- **C24 (order, stored permutations).** If `π` (in practice the permutation stored for `(p, q)`) makes
the stored permutations consistent — going from the first vertex `p` to any vertex agrees with going
over `q` — then listing the vertices with `q` first instead of `p` gives the same modes, relabelled by
`π`. -/
theorem C24_pivot_relabels_partial {K : Type} [Semiring K] (d : Data K) (t : PermTable.Table)
    (iw iw' : List (Nat × K)) (p q : Nat) (hperm : iw.Perm iw')
    (hhead : iw.head?.map (·.1) = some p) (hhead' : iw'.head?.map (·.1) = some q)
    (π : List Nat)
    (hget : ∀ x ∈ iw, ∃ a b, PermTable.safeGet t p x.1 = some a ∧ PermTable.safeGet t q x.1 = some b ∧
      ModeMap d.branches a ∧ ModeMap d.branches b ∧
      ∀ m, m < d.branches → b.getD (π.getD m 0) 0 = a.getD m 0) (hπm : ModeMap d.branches π) :
    ∃ ps ps' r r', getPermutations t iw = some ps ∧ getPermutations t iw' = some ps' ∧
      mix d noPhase ps iw (fun _ => 0) = some r ∧ mix d noPhase ps' iw' (fun _ => 0) = some r' ∧
      ∀ m s, m < d.branches → s < d.span →
        modeElem d.span r m s = modeElem d.span r' (π.getD m 0) s := by
  have hgp : ∀ (pv : Nat) (l : List (Nat × K)), l.head?.map (·.1) = some pv →
      getPermutations t l = l.mapM fun x => PermTable.safeGet t pv x.1 := by
    intro pv l hl
    cases l with
    | nil => simp at hl
    | cons x l => simp only [List.head?_cons, Option.map_some, Option.some.injEq] at hl; subst hl; rfl
  let fa : Nat × K → List Nat := fun x => (PermTable.safeGet t p x.1).getD []
  let fb : Nat × K → List Nat := fun x => (PermTable.safeGet t q x.1).getD []
  have ha : ∀ x ∈ iw, PermTable.safeGet t p x.1 = some (fa x) := by
    intro x hx
    obtain ⟨a, b, h1, h2, _⟩ := hget x hx
    simp [fa, h1]
  have hb : ∀ x ∈ iw', PermTable.safeGet t q x.1 = some (fb x) := by
    intro x hx
    obtain ⟨a, b, h1, h2, _⟩ := hget x (hperm.mem_iff.mpr hx)
    simp [fb, h2]
  have h1 := mapM_some _ fa iw ha
  have h2 := mapM_some _ fb iw' hb
  have hne : iw ≠ [] := by rintro rfl; simp at hhead
  have hne' : iw' ≠ [] := by rintro rfl; simp at hhead'
  obtain ⟨r, hr, hv, _⟩ := C24_weighted_sum d (iw.map fa) iw hne (by simp) (by
    intro x hx
    obtain ⟨y, hy, rfl⟩ := List.mem_map.mp hx
    obtain ⟨a, b, g1, g2, g3, g4, _⟩ := hget y hy
    simp only [fa, g1]; exact g3)
  obtain ⟨r', hr', hv', _⟩ := C24_weighted_sum d (iw'.map fb) iw' hne' (by simp) (by
    intro x hx
    obtain ⟨y, hy, rfl⟩ := List.mem_map.mp hx
    obtain ⟨a, b, g1, g2, g3, g4, _⟩ := hget y (hperm.mem_iff.mpr hy)
    simp only [fb, g2]; exact g4)
  refine ⟨iw.map fa, iw'.map fb, r, r', by rw [hgp p iw hhead, h1], by rw [hgp q iw' hhead', h2],
    hr, hr', ?_⟩
  intro m s hm hs
  have hπlt : π.getD m 0 < d.branches := by
    obtain ⟨hl, hlt⟩ := hπm
    have : m < π.length := by omega
    rw [List.getD_eq_getElem?_getD, List.getElem?_eq_getElem this, Option.getD_some]
    exact hlt _ (List.getElem_mem this)
  rw [hv m s hm hs, hv' _ s hπlt hs]
  have hz : ∀ (f : Nat × K → List Nat) (l : List (Nat × K)),
      (l.map f).zip l = l.map fun x => (f x, x) := by
    intro f l
    induction l with
    | nil => rfl
    | cons x l ih => simp [ih]
  simp only [weightedMode, contributionsOf, hz, List.map_map]
  rw [← (hperm.map _).sum_eq]
  congr 1
  apply List.map_congr_left
  intro x hx
  obtain ⟨a, b, g1, g2, g3, g4, g5⟩ := hget x hx
  simp only [Function.comp, fa, fb, g1, g2, Option.getD_some, g5 m hm]

/-- the same two crossing vertices as in the counterexample are consistent -/
example : let t : PermTable.Table :=
      ⟨2, fun k => if k = 0 then some 1 else if k = 1 ∨ k = 2 then some 2 else none, [[0, 1], [1, 0]]⟩
    PermTable.safeGet t 0 1 = some [1, 0] ∧
    ∀ x ∈ ([(0, 1/2), (1, 1/2)] : List (Nat × ℚ)), ∃ a b,
      PermTable.safeGet t 0 x.1 = some a ∧ PermTable.safeGet t 1 x.1 = some b ∧
      ∀ m, m < 2 → b.getD ([1, 0].getD m 0) 0 = a.getD m 0 := by
  refine ⟨by decide, ?_⟩
  intro x hx
  simp only [List.mem_cons, List.not_mem_nil, or_false] at hx
  rcases hx with rfl | rfl
  · exact ⟨[0, 1], [1, 0], by decide, by decide, by decide⟩
  · exact ⟨[1, 0], [0, 1], by decide, by decide, by decide⟩

/-! ### complex modes: the arbitrary phase -/

/-- the Hermitian product `Σ conj(a) b` of two vectors -/
noncomputable def hermitian (n : Nat) (a b : Nat → ℂ) : ℂ :=
  ((List.range n).map fun i => (starRingEnd ℂ) (a i) * b i).sum

theorem antiphase_eq (n : Nat) (a b : Nat → ℂ) :
    antiphase n a b = Complex.exp (-(Complex.arg (hermitian n a b)) * Complex.I) := by
  have h : (⟨(List.range n).foldl (fun s i => s + ((a i).re * (b i).re + (a i).im * (b i).im)) 0,
      (List.range n).foldl (fun s i => s + ((a i).re * (b i).im - (a i).im * (b i).re)) 0⟩ : ℂ) =
      hermitian n a b := by
    unfold hermitian
    induction n with
    | zero => rfl
    | succ n ih =>
      rw [List.range_succ]
      simp only [List.foldl_append, List.foldl_cons, List.foldl_nil, List.map_append, List.map_cons,
        List.map_nil, List.sum_append, List.sum_cons, List.sum_nil, add_zero]
      rw [← ih]
      apply Complex.ext
      · simp
      · simp [sub_eq_add_neg]
  simp only [antiphase, h]

/-- **C24 (phase).** The factor applied to a vertex' mode is a pure phase, and after it the mode's
Hermitian product with the reference mode is real and not negative (it is the absolute value). -/
theorem C24_phase_aligns (n : Nat) (a b : Nat → ℂ) :
    ‖antiphase n a b‖ = 1 ∧
      hermitian n a (fun k => antiphase n a b * b k) = (‖hermitian n a b‖ : ℂ) := by
  constructor
  · rw [antiphase_eq, show -((Complex.arg (hermitian n a b) : ℝ) : ℂ) = ((-Complex.arg (hermitian n a b) : ℝ) : ℂ) by simp]
    exact Complex.norm_exp_ofReal_mul_I _
  · have h1 : hermitian n a (fun k => antiphase n a b * b k) = antiphase n a b * hermitian n a b := by
      simp only [hermitian]
      rw [← List.sum_map_mul_left]
      congr 1
      apply List.map_congr_left
      intro i _
      ring
    rw [h1, antiphase_eq]
    conv_lhs => rw [← Complex.norm_mul_exp_arg_mul_I (hermitian n a b)]
    rw [Complex.norm_mul_exp_arg_mul_I]
    set z := hermitian n a b
    conv_lhs => arg 2; rw [← Complex.norm_mul_exp_arg_mul_I z]
    rw [mul_left_comm, ← Complex.exp_add]
    simp

/-- **C24 (gauge).** Multiplying the stored mode of a vertex by any phase does not change what it
contributes, as long as it is not orthogonal to the reference mode. -/
theorem C24_phase_invariance (n : Nat) (a b : Nat → ℂ) (c : ℂ) (hc : ‖c‖ = 1)
    (hz : hermitian n a b ≠ 0) (k : Nat) :
    antiphase n a (fun i => c * b i) * (c * b k) = antiphase n a b * b k := by
  have h0 : ∀ z : ℂ, z ≠ 0 → Complex.exp (-(Complex.arg z) * Complex.I) = (‖z‖ : ℂ) / z := by
    intro z hz
    rw [eq_div_iff hz]
    conv_lhs => arg 2; rw [← Complex.norm_mul_exp_arg_mul_I z]
    rw [mul_left_comm, ← Complex.exp_add]
    simp
  have h1 : hermitian n a (fun i => c * b i) = c * hermitian n a b := by
    simp only [hermitian]
    rw [← List.sum_map_mul_left]
    congr 1
    apply List.map_congr_left
    intro i _
    ring
  have hc0 : c ≠ 0 := by rintro rfl; simp at hc
  rw [antiphase_eq, antiphase_eq, h1, h0 _ hz, h0 _ (mul_ne_zero hc0 hz), norm_mul, hc, one_mul]
  field_simp

example : hermitian 2 (fun _ => 1) (fun i => if i = 0 then Complex.I else 0) ≠ 0 := by
  simp [hermitian, List.range_succ]

/-- **C24 (limits).** If the mode is orthogonal to the reference mode the phase is not removed: the
factor is one, so the contribution changes with the arbitrary phase. -/
theorem C24_phase_orthogonal_counterexample :
    ∃ (a b : Nat → ℂ) (c : ℂ), ‖c‖ = 1 ∧ b 1 ≠ 0 ∧
      antiphase 2 a (fun i => c * b i) * (c * b 1) ≠ antiphase 2 a b * b 1 := by
  refine ⟨fun i => if i = 0 then 1 else 0, fun i => if i = 1 then 1 else 0, -1, by simp, by simp, ?_⟩
  rw [antiphase_eq, antiphase_eq]
  simp [hermitian, List.range_succ]
  norm_num

/-- **C24 (first vertex).** For complex eigenvectors with an allowed phase, giving all weight to the
first vertex (whose own mode map is the identity) returns its stored modes unchanged. -/
theorem C24_exact_at_first_vertex (d : Data ℂ) (perms : List (List Nat)) (i0 : Nat) (iw : List (Nat × ℂ))
    (hl : perms.length = iw.length + 1) (hp : ∀ p ∈ perms, ModeMap d.branches p)
    (hid : perms.head? = some (List.range d.branches)) (h0 : ∀ x ∈ iw, x.2 = 0) :
    ∃ r, mix d antiphase perms ((i0, 1) :: iw) (fun _ => 0) = some r ∧
      ∀ b s, b < d.branches → s < d.span →
        modeElem d.span r b s = modeElem d.span (d.row i0) b s := by
  obtain ⟨r, h1, h2, _⟩ := mix_spec d antiphase perms i0 1 iw (fun _ => 0) (by omega) hp
  refine ⟨r, h1, ?_⟩
  intro b s hb hs
  rw [modeElem, h2 b s hb hs]
  cases perms with
  | nil => simp at hl
  | cons p ps =>
    simp only [List.head?_cons, Option.some.injEq] at hid
    subst hid
    have hz : ∀ (ps : List (List Nat)) (iw : List (Nat × ℂ)), (∀ x ∈ iw, x.2 = 0) →
        ((ps.zip iw).map fun x => x.2.2 * factor d antiphase (d.row i0) (d.row x.2.1) x.1 b *
            d.row x.2.1 (x.1.getD b 0 * d.span + s)).sum = 0 := by
      intro ps iw h0
      apply List.sum_eq_zero
      intro y hy
      obtain ⟨x, hx, rfl⟩ := List.mem_map.mp hy
      rw [h0 x.2 (List.of_mem_zip hx).2]; ring
    rw [List.zip_cons_cons, List.map_cons, List.sum_cons, hz ps iw h0]
    have hgd : (List.range d.branches).getD b 0 = b := by
      simp [List.getD_eq_getElem?_getD, hb]
    have hself : ∀ (n : Nat) (a : Nat → ℂ), antiphase n a a = 1 := by
      intro n a
      rw [antiphase_eq]
      have : hermitian n a a = (((List.range n).map fun i => Complex.normSq (a i)).sum : ℝ) := by
        simp only [hermitian]
        rw [← Complex.ofRealHom_eq_coe, map_list_sum, List.map_map]
        congr 1
        apply List.map_congr_left
        intro i _
        simp [Complex.normSq_eq_conj_mul_self]
      rw [this, Complex.arg_ofReal_of_nonneg]
      · simp
      · apply List.sum_nonneg
        intro x hx
        obtain ⟨i, _, rfl⟩ := List.mem_map.mp hx
        exact Complex.normSq_nonneg _
    dsimp only
    rw [factor, hgd, hself, modeElem]
    ring

example : ∃ (perms : List (List Nat)) (iw : List (Nat × ℂ)), perms.length = iw.length + 1 ∧
    (∀ p ∈ perms, ModeMap 2 p) ∧ perms.head? = some (List.range 2) ∧ ∀ x ∈ iw, x.2 = 0 :=
  ⟨[[0, 1], [1, 0]], [(4, 0)], by simp, by simp [ModeMap], by decide, by simp⟩

end Brille.Props
