/-
C75: the search for the node of a point of the polyhedron succeeds.
-/
import Verif.Proofs.NodeSearch

namespace Brille.Props

open Brille.TrellisBuild Brille.Spec Brille.Tetra Brille.Cut Brille.SortFace Brille.Zone
open Brille.IrCheck (Poly facePlane)
open Brille.Trellis hiding Pt

/-- **C75 (cover).** Every point of the polyhedron is a point of the part of some node that is used, the points of all those parts are points of the
polyhedron. -/
theorem C75_cover (always : Bool) (turns : Nat) (edge : ℚ) (P : Poly) (h : ConvexSolid P.1 P.2) (hne : P.2 ≠ []) (hedge : 0 < edge)
    (hturns : ∀ d : Fin 3, (⌈(largest P.1 d - least P.1 d) / edge⌉ : ℤ) ≤ turns) (t : Grid) (parts : List Poly)
    (hbuild : build always turns edge P = some (t, parts)) (x : Fin 3 → ℝ) :
    x ∈ Hull (· ∈ P.1) ↔ ∃ (i : Nat) (ty : NodeType) (part : Poly), t.types[i]? = some ty ∧ parts[i]? = some part ∧ (ty = .cube ∨ ty = .poly) ∧ x ∈ Hull (· ∈ part.1) := by
  obtain ⟨t', parts', e, hk, hl, -, hn⟩ := C74_build always turns edge P h hne hedge hturns
  rw [hbuild] at e
  obtain ⟨rfl, rfl⟩ := (Prod.mk.injEq ..).mp (Option.some.inj e)
  constructor
  · intro hx
    obtain ⟨sub, lo, hi, hb, hbox, hin⟩ := cover_box h hne hk hx
    obtain ⟨ty, part, e1, e2, hfit⟩ := hn sub lo hi hb
    have hu := hfit.used.mpr hin
    refine ⟨_, ty, part, e1, e2, hu, ?_⟩
    rw [(hfit.part hu).2.2]; exact ⟨hx, hbox⟩
  · rintro ⟨i, ty, part, e1, e2, hu, hx⟩
    have hi : i < t.nodeCount := by rw [← hl]; exact (List.getElem?_eq_some_iff.mp e1).1
    obtain ⟨lo, hi', hb, -⟩ := node_corners t i hi
    obtain ⟨ty', part', f1, f2, hfit⟩ := hn _ lo hi' hb
    rw [(sub2idx_idx2sub t i hi).1] at f1 f2
    rw [e1] at f1; rw [e2] at f2
    obtain rfl := Option.some.inj f1
    obtain rfl := Option.some.inj f2
    rw [(hfit.part hu).2.2] at hx
    exact hx.1

theorem interior_box (lo hi : Pt) : interior (Box lo hi) ⊆ OpenBox lo hi := by
  intro x hx d
  have ho : IsOpen ((fun x : Fin 3 → ℝ => x d) '' interior (Box lo hi)) := isOpenMap_eval d _ isOpen_interior
  have hs : (fun x : Fin 3 → ℝ => x d) '' interior (Box lo hi) ⊆ Set.Icc (lo d : ℝ) (hi d) := by
    rintro _ ⟨y, hy, rfl⟩
    exact interior_subset hy d
  have := interior_maximal hs ho ⟨x, hx, rfl⟩
  rw [interior_Icc] at this
  exact this

/-- **C75 (apart).** The parts of two different nodes that are used have no inner points in common. -/
theorem C75_apart (always : Bool) (turns : Nat) (edge : ℚ) (P : Poly) (h : ConvexSolid P.1 P.2) (hne : P.2 ≠ []) (hedge : 0 < edge)
    (hturns : ∀ d : Fin 3, (⌈(largest P.1 d - least P.1 d) / edge⌉ : ℤ) ≤ turns) (t : Grid) (parts : List Poly)
    (hbuild : build always turns edge P = some (t, parts)) (i j : Nat) (hij : i ≠ j) (ti tj : NodeType) (pi pj : Poly)
    (hti : t.types[i]? = some ti) (hpi : parts[i]? = some pi) (hui : ti = .cube ∨ ti = .poly)
    (htj : t.types[j]? = some tj) (hpj : parts[j]? = some pj) (huj : tj = .cube ∨ tj = .poly) :
    interior (Hull (· ∈ pi.1)) ∩ interior (Hull (· ∈ pj.1)) = ∅ := by
  obtain ⟨t', parts', e, hk, hl, -, hn⟩ := C74_build always turns edge P h hne hedge hturns
  rw [hbuild] at e
  obtain ⟨rfl, rfl⟩ := (Prod.mk.injEq ..).mp (Option.some.inj e)
  have key : ∀ (i : Nat) (ty : NodeType) (part : Poly), t.types[i]? = some ty → parts[i]? = some part → (ty = .cube ∨ ty = .poly) →
      ∃ lo hi : Pt, i < t.nodeCount ∧ (∀ d, (t.knots d)[t.idx2sub i d]? = some (lo d) ∧ (t.knots d)[t.idx2sub i d + 1]? = some (hi d)) ∧
        interior (Hull (· ∈ part.1)) ⊆ OpenBox lo hi := by
    intro i ty part e1 e2 hu
    have hi : i < t.nodeCount := by rw [← hl]; exact (List.getElem?_eq_some_iff.mp e1).1
    obtain ⟨lo, hi', hb, -⟩ := node_corners t i hi
    obtain ⟨ty', part', f1, f2, hfit⟩ := hn _ lo hi' hb
    rw [(sub2idx_idx2sub t i hi).1] at f1 f2
    rw [e1] at f1; rw [e2] at f2
    obtain rfl := Option.some.inj f1
    obtain rfl := Option.some.inj f2
    refine ⟨lo, hi', hi, hb, ?_⟩
    rw [(hfit.part hu).2.2]
    exact (interior_mono Set.inter_subset_right).trans (interior_box lo hi')
  obtain ⟨lo, hi, li, hb, hin⟩ := key i ti pi hti hpi hui
  obtain ⟨lo', hi', lj, hb', hin'⟩ := key j tj pj htj hpj huj
  rw [Set.eq_empty_iff_forall_notMem]
  rintro x ⟨hx, hx'⟩
  have a := hin hx
  have b := hin' hx'
  apply hij
  rw [← (sub2idx_idx2sub t i li).1, ← (sub2idx_idx2sub t j lj).1]
  congr 1
  have le : ∀ (d : Fin 3) (m n : Nat) (u v : ℚ), m + 1 ≤ n → (t.knots d)[m + 1]? = some u → (t.knots d)[n]? = some v → (u : ℝ) ≤ v := by
    intro d m n u v hmn hu hv
    rcases hmn.lt_or_eq with hlt | rfl
    · exact_mod_cast (knots_lt (hk d) hlt hu hv).le
    · rw [hu] at hv; rw [Option.some.inj hv]
  funext d
  rcases lt_trichotomy (t.idx2sub i d) (t.idx2sub j d) with hlt | heq | hlt
  · have := le d _ _ _ _ hlt (hb d).2 (hb' d).1
    linarith [(a d).2, (b d).1]
  · exact heq
  · have := le d _ _ _ _ hlt (hb' d).2 (hb d).1
    linarith [(b d).2, (a d).1]

/-- where `find_bin` puts a number between the first and the last knot -/
theorem bin_facts {knots : List ℚ} (hinc : Increasing knots) {x mn mx : ℚ} (h1 : knots.head? = some mn) (h2 : knots.getLast? = some mx)
    (hmn : mn ≤ x) (hmx : x ≤ mx) :
    (∃ a, knots[findBin knots x]? = some a ∧ a ≤ x) ∧ ∀ c, knots[findBin knots x + 1]? = some c → x < c := by
  have hlast : knots[knots.length - 1]? = some mx := by rw [← List.getLast?_eq_getElem?]; exact h2
  rcases hmx.lt_or_eq with hlt | rfl
  · obtain ⟨a, b, ha, hb, h3, h4⟩ := inBin_findBin hinc ⟨mn, h1, hmn⟩ ⟨mx, List.mem_of_getElem? hlast, hlt⟩
    exact ⟨⟨a, ha, h3⟩, fun c hc => by rw [hb] at hc; rwa [← Option.some.inj hc]⟩
  · have hall : ∀ b ∈ knots, b ≤ x := by
      intro b hb
      obtain ⟨j, hj, rfl⟩ := List.getElem_of_mem hb
      obtain ⟨hl, e⟩ := List.getElem?_eq_some_iff.mp hlast
      rcases (show j < knots.length - 1 ∨ j = knots.length - 1 by omega) with hlt | rfl
      · rw [← e]; exact (List.pairwise_iff_getElem.mp hinc _ _ hj hl hlt).le
      · exact e.le
    rw [findBin_above hall]
    refine ⟨⟨x, hlast, le_refl _⟩, fun c hc => ?_⟩
    have := (List.getElem?_eq_some_iff.mp hc).1
    have h0 : 0 < knots.length := by
      cases knots with
      | nil => simp at h1
      | cons => simp
    omega

/-- the closed bin of a number is the one found, or the one below and the number is the knot between them -/
theorem bin_closed {knots : List ℚ} (hinc : Increasing knots) {x a b : ℚ} {j : Nat} (ha : knots[j]? = some a) (hb : knots[j + 1]? = some b)
    (h1 : a ≤ x) (h2 : x ≤ b) : (x < b ∧ findBin knots x = j) ∨ (x = b ∧ findBin knots x = j + 1) := by
  rcases h2.lt_or_eq with hlt | rfl
  · exact Or.inl ⟨hlt, findBin_spec hinc ⟨a, b, ha, hb, h1, hlt⟩⟩
  · refine Or.inr ⟨rfl, ?_⟩
    obtain ⟨l2, e2⟩ := List.getElem?_eq_some_iff.mp hb
    by_cases hl : j + 2 < knots.length
    · have hc : knots[j + 1 + 1]? = some (knots[j + 2]) := List.getElem?_eq_getElem hl
      refine findBin_spec hinc ⟨x, _, hb, hc, le_refl _, ?_⟩
      rw [← e2]
      exact List.pairwise_iff_getElem.mp hinc _ _ l2 hl (by omega)
    · have hall : ∀ c ∈ knots, c ≤ x := by
        intro c hc
        obtain ⟨k, hk, rfl⟩ := List.getElem_of_mem hc
        rcases (show k < j + 1 ∨ k = j + 1 by omega) with hlt | rfl
        · rw [← e2]; exact (List.pairwise_iff_getElem.mp hinc _ _ hk l2 hlt).le
        · exact e2.le
      rw [findBin_above hall]
      omega

theorem knot_boundary {near : ℚ → ℚ → Bool} {knots : List ℚ} (hinc : Increasing knots) (hnear : ∀ a ∈ knots, ∀ b ∈ knots, near a b = decide (a = b)) {x : ℚ} {i : Nat}
    (hx : knots[i]? = some x) (hi : 0 < i) : onBoundary near knots x i = -1 := by
  unfold onBoundary
  have hm := List.mem_of_getElem? hx
  rw [if_neg, if_pos]
  · refine ⟨hi, ?_⟩
    rw [List.getD_eq_getElem?_getD, hx, Option.getD_some, hnear x hm x hm]; simp
  · rintro ⟨h1, h2⟩
    rw [List.getD_eq_getElem?_getD, List.getElem?_eq_getElem (by omega), Option.getD_some, hnear _ (List.getElem_mem _) x hm, decide_eq_true_eq] at h2
    obtain ⟨l, e⟩ := List.getElem?_eq_some_iff.mp hx
    have := List.pairwise_iff_getElem.mp hinc _ _ l (show i + 1 < knots.length by omega) (by omega)
    rw [e, h2] at this
    exact lt_irrefl _ this

/-- **C75 (search).** For every convex polyhedron, every grid built in it, and every approximate comparison that tells the knots apart, the search for
the node of a point of the polyhedron ends at an existing node that is used, and along each axis the point is in the bin of the node or close to
one of its two edges. -/
theorem C75_search (always : Bool) (turns : Nat) (edge : ℚ) (P : Poly) (h : ConvexSolid P.1 P.2) (hne : P.2 ≠ []) (hedge : 0 < edge)
    (hturns : ∀ d : Fin 3, (⌈(largest P.1 d - least P.1 d) / edge⌉ : ℤ) ≤ turns) (t : Grid) (parts : List Poly)
    (hbuild : build always turns edge P = some (t, parts)) (near : ℚ → ℚ → Bool)
    (hnear : ∀ d, ∀ a ∈ t.knots d, ∀ b ∈ t.knots d, near a b = decide (a = b)) (p : Pt) (hp : real p ∈ Hull (· ∈ P.1)) :
    ∃ (sub : Fin 3 → Nat) (lo hi : Pt) (ty : NodeType), (∀ d, t.nodeSubscript near p d = sub d) ∧ t.nodeIndex near p = t.sub2idx sub ∧
      (∀ d, (t.knots d)[sub d]? = some (lo d) ∧ (t.knots d)[sub d + 1]? = some (hi d)) ∧
      t.types[t.sub2idx sub]? = some ty ∧ (ty = .cube ∨ ty = .poly) ∧
      ∀ d, (lo d ≤ p d ∧ p d < hi d) ∨ near (lo d) (p d) = true ∨ near (hi d) (p d) = true := by
  obtain ⟨t', parts', e, hk, hl, -, hn⟩ := C74_build always turns edge P h hne hedge hturns
  rw [hbuild] at e
  obtain ⟨rfl, rfl⟩ := (Prod.mk.injEq ..).mp (Option.some.inj e)
  have hinc := fun d => (hk d).increasing
  have hfacts : ∀ d, (∃ a, (t.knots d)[findBin (t.knots d) (p d)]? = some a ∧ a ≤ p d) ∧
      ∀ c, (t.knots d)[findBin (t.knots d) (p d) + 1]? = some c → p d < c := by
    intro d
    obtain ⟨mn, mx, e1, e2, h1, h2⟩ := knots_range hk hp d
    exact bin_facts (hinc d) e1 e2 (by simp only [real] at h1; exact_mod_cast h1) (by simp only [real] at h2; exact_mod_cast h2)
  -- a node in terms of its inner points
  have hok : ∀ (s : Fin 3 → Int), t.okNotNull s = true ↔ ∃ (sub : Fin 3 → Nat) (lo hi : Pt), (∀ d, s d = sub d) ∧
      (∀ d, (t.knots d)[sub d]? = some (lo d) ∧ (t.knots d)[sub d + 1]? = some (hi d)) ∧ (Hull (· ∈ P.1) ∩ OpenBox lo hi).Nonempty := by
    intro s
    rw [C27_ok_iff]
    constructor
    · rintro ⟨hs, ty, hty, hu⟩
      have hb : ∀ d, (t.knots d)[(s d).toNat]? = some ((t.knots d).getD (s d).toNat 0) ∧
          (t.knots d)[(s d).toNat + 1]? = some ((t.knots d).getD ((s d).toNat + 1) 0) := by
        intro d
        have := hs d
        rw [List.getD_eq_getElem?_getD, List.getD_eq_getElem?_getD, List.getElem?_eq_getElem (by omega), List.getElem?_eq_getElem (by omega)]
        exact ⟨rfl, rfl⟩
      refine ⟨fun d => (s d).toNat, _, _, fun d => ?_, hb, ?_⟩
      · rw [Int.toNat_of_nonneg (hs d).1]
      · obtain ⟨ty', part, f1, f2, hfit⟩ := hn _ _ _ hb
        rw [hty] at f1
        obtain rfl := Option.some.inj f1
        exact hfit.used.mp hu
    · rintro ⟨sub, lo, hi, hs, hb, hin⟩
      obtain ⟨ty, part, f1, f2, hfit⟩ := hn sub lo hi hb
      refine ⟨fun d => ?_, ty, ?_, hfit.used.mpr hin⟩
      · have := (List.getElem?_eq_some_iff.mp (hb d).2).1
        rw [hs d]; constructor <;> omega
      · rw [show (fun d => (s d).toNat) = sub from funext fun d => by rw [hs d]; simp]
        exact f1
  -- there is a node within reach
  have hfound : t.okNotNull (t.nodeSubscript near p) = true := by
    obtain ⟨sub, lo, hi, hb, hbox, hin⟩ := cover_box h hne hk hp
    have hbd : ∀ d, lo d ≤ p d ∧ p d ≤ hi d := by
      intro d
      obtain ⟨h1, h2⟩ := hbox d
      simp only [real] at h1 h2
      exact ⟨by exact_mod_cast h1, by exact_mod_cast h2⟩
    refine C27_node_found near t p (fun d => decide (p d = hi d)) ((hok _).mpr ⟨sub, lo, hi, fun d => ?_, hb, hin⟩)
    rcases bin_closed (hinc d) (hb d).1 (hb d).2 (hbd d).1 (hbd d).2 with ⟨h1, h2⟩ | ⟨h1, h2⟩
    · rw [if_neg (by simpa using h1.ne), h2]
    · rw [if_pos (by simpa using h1), h2, knot_boundary (hinc d) (hnear d) (by rw [h1]; exact (hb d).2) (by omega)]
      push_cast; ring
  -- two steps along one axis are not taken
  have hone : ∀ d, |t.nodeSubscript near p d - (findBin (t.knots d) (p d) : Int)| ≤ 1 := by
    have hcl : ∀ d, |onBoundary near (t.knots d) (p d) (findBin (t.knots d) (p d))| ≤ 1 := by
      intro d
      rcases onBoundary_cases near (t.knots d) (p d) (findBin (t.knots d) (p d)) with ⟨h1, -⟩ | ⟨h1, -⟩ | h1 <;> rw [h1] <;> decide
    have single : (∀ d, t.nodeSubscript near p d = (findBin (t.knots d) (p d) : Int) ∨ t.nodeSubscript near p d =
        (findBin (t.knots d) (p d) : Int) + onBoundary near (t.knots d) (p d) (findBin (t.knots d) (p d))) →
        ∀ d, |t.nodeSubscript near p d - (findBin (t.knots d) (p d) : Int)| ≤ 1 := by
      intro hs d
      rcases hs d with e | e
      · rw [e]; simp
      · rw [e, add_sub_cancel_left]; exact hcl d
    by_cases hsub : t.okNotNull (fun d => (findBin (t.knots d) (p d) : Int)) = true
    · apply single
      intro d
      left
      unfold Grid.nodeSubscript
      simp only [hsub, if_true]
    · have hdef : t.nodeSubscript near p = match (candidates (fun d => (findBin (t.knots d) (p d) : Int))
          (fun d => onBoundary near (t.knots d) (p d) (findBin (t.knots d) (p d)))).find? t.okNotNull with
          | some s => s
          | none => (fun d => (findBin (t.knots d) (p d) : Int)) := by
        unfold Grid.nodeSubscript
        simp only [hsub, Bool.false_eq_true, if_false]
        rfl
      cases hf : (candidates (fun d => (findBin (t.knots d) (p d) : Int))
          (fun d => onBoundary near (t.knots d) (p d) (findBin (t.knots d) (p d)))).find? t.okNotNull with
      | none =>
        rw [hf] at hdef
        apply single
        intro d
        left; rw [hdef]
      | some s =>
        rw [hf] at hdef
        simp only at hdef
        rcases find_double _ _ _ _ hf with hs | ⟨i, hi0, hs, hnot⟩
        · apply single
          intro d
          rw [hdef]; exact hs d
        · exfalso
          rw [← Bool.not_eq_true] at hnot
          apply hnot
          have hsok := List.find?_some hf
          obtain ⟨sub2, lo2, hi2, hs2, hb2, q, hq, hqo⟩ := (hok s).mp hsok
          have hother : ∀ d, d ≠ i → sub2 d = findBin (t.knots d) (p d) := by
            intro d hd
            have := hs2 d
            rw [hs] at this
            simp only [bump, if_neg hd] at this
            omega
          have hsi : (sub2 i : Int) = (findBin (t.knots i) (p i) : Int) + onBoundary near (t.knots i) (p i) (findBin (t.knots i) (p i)) +
              onBoundary near (t.knots i) (p i) (findBin (t.knots i) (p i)) := by
            have := hs2 i
            rw [hs] at this
            simp only [bump, if_true] at this
            omega
          have hpi := hfacts i
          -- the bin between, and a number in it between the coordinates of the two points
          have hmid : ∃ (j : Nat) (a b : ℚ), bump (fun d => (findBin (t.knots d) (p d) : Int))
              (fun d => onBoundary near (t.knots d) (p d) (findBin (t.knots d) (p d))) i i = j ∧ (t.knots i)[j]? = some a ∧
              (t.knots i)[j + 1]? = some b ∧ a < b ∧ (((p i : ℝ) < (a + b) / 2 ∧ ((a : ℝ) + b) / 2 < q i) ∨ (q i < ((a : ℝ) + b) / 2 ∧ ((a : ℝ) + b) / 2 < p i)) := by
            simp only [bump, if_true]
            obtain ⟨l2, e2⟩ := List.getElem?_eq_some_iff.mp (hb2 i).2
            obtain ⟨l1, e1⟩ := List.getElem?_eq_some_iff.mp (hb2 i).1
            rcases onBoundary_cases near (t.knots i) (p i) (findBin (t.knots i) (p i)) with ⟨h1, -⟩ | ⟨h1, h3, -⟩ | h1
            · rw [h1] at hsi ⊢
              have ej : sub2 i = findBin (t.knots i) (p i) + 2 := by omega
              have hj1 : findBin (t.knots i) (p i) + 1 < (t.knots i).length := by omega
              refine ⟨findBin (t.knots i) (p i) + 1, (t.knots i)[findBin (t.knots i) (p i) + 1], lo2 i, by push_cast; ring, List.getElem?_eq_getElem hj1, ?_, ?_, Or.inl ?_⟩
              · rw [← (hb2 i).1, ej]
              · exact knots_lt (hk i) (by omega) (List.getElem?_eq_getElem hj1) (hb2 i).1
              · have g1 := hpi.2 _ (List.getElem?_eq_getElem hj1)
                have g2 := knots_lt (hk i) (by omega) (List.getElem?_eq_getElem hj1) (hb2 i).1
                have g1' : (p i : ℝ) < ((t.knots i)[findBin (t.knots i) (p i) + 1] : ℚ) := by exact_mod_cast g1
                have g2' : (((t.knots i)[findBin (t.knots i) (p i) + 1] : ℚ) : ℝ) < lo2 i := by exact_mod_cast g2
                have g3 := (hqo i).1
                constructor <;> linarith
            · rw [h1] at hsi ⊢
              have ej : sub2 i + 2 = findBin (t.knots i) (p i) := by omega
              obtain ⟨a, ha, hap⟩ := hpi.1
              refine ⟨sub2 i + 1, hi2 i, a, by push_cast; omega, (hb2 i).2, by rw [show sub2 i + 1 + 1 = findBin (t.knots i) (p i) by omega]; exact ha, ?_, Or.inr ?_⟩
              · exact knots_lt (hk i) (by omega) (hb2 i).2 ha
              · have g2 := knots_lt (hk i) (by omega) (hb2 i).2 ha
                have g1' : ((a : ℚ) : ℝ) ≤ p i := by exact_mod_cast hap
                have g2' : ((hi2 i : ℚ) : ℝ) < a := by exact_mod_cast g2
                have g3 := (hqo i).2
                constructor <;> linarith
            · exact absurd h1 hi0
          obtain ⟨j, a, b, hj, ha, hb, hab, hmid⟩ := hmid
          refine (hok _).mpr ⟨fun d => if d = i then j else sub2 d, fun d => if d = i then a else lo2 d, fun d => if d = i then b else hi2 d, ?_, ?_, ?_⟩
          · intro d
            by_cases hd : d = i
            · subst hd; simpa using hj
            · simp only [if_neg hd, bump]; rw [hother d hd]
          · intro d
            by_cases hd : d = i
            · subst hd; simp only [if_true]; exact ⟨ha, hb⟩
            · simp only [if_neg hd]; exact hb2 d
          · have hne' : q i - p i ≠ 0 := by
              rcases hmid with ⟨h1, h2⟩ | ⟨h1, h2⟩
              · exact (by linarith : 0 < q i - (p i : ℝ)).ne'
              · exact (by linarith : q i - (p i : ℝ) < 0).ne
            obtain ⟨θ, hθ⟩ : ∃ θ, θ = (((a : ℝ) + b) / 2 - p i) / (q i - p i) := ⟨_, rfl⟩
            have hθe : θ * (q i - p i) = ((a : ℝ) + b) / 2 - p i := by rw [hθ, div_mul_cancel₀ _ hne']
            have h0 : 0 < θ ∧ θ < 1 := by
              rcases hmid with ⟨h1, h2⟩ | ⟨h1, h2⟩
              · have hp' : 0 < q i - (p i : ℝ) := by linarith
                rw [hθ]; exact ⟨div_pos (by linarith) hp', (div_lt_one hp').mpr (by linarith)⟩
              · have hp' : q i - (p i : ℝ) < 0 := by linarith
                rw [hθ]; exact ⟨div_pos_of_neg_of_neg (by linarith) hp', (div_lt_one_of_neg hp').mpr (by linarith)⟩
            refine ⟨(1 - θ) • real p + θ • q, ?_, ?_⟩
            · exact (convex_convexHull ℝ _) hp hq (by linarith [h0.2]) h0.1.le (by ring)
            · intro d
              simp only [Pi.add_apply, Pi.smul_apply, smul_eq_mul, real]
              by_cases hd : d = i
              · subst hd
                simp only [if_true]
                have hz : (1 - θ) * ((p d : ℚ) : ℝ) + θ * q d = ((a : ℝ) + b) / 2 := by linarith
                have hab' : (a : ℝ) < b := by exact_mod_cast hab
                rw [hz]
                constructor <;> linarith
              · simp only [if_neg hd]
                obtain ⟨⟨c, hc, hcp⟩, hup⟩ := hfacts d
                rw [← hother d hd] at hc hup
                rw [(hb2 d).1] at hc
                obtain rfl := Option.some.inj hc
                have g1 : ((lo2 d : ℚ) : ℝ) ≤ p d := by exact_mod_cast hcp
                have g2 : ((p d : ℚ) : ℝ) < hi2 d := by exact_mod_cast hup _ (hb2 d).2
                have g3 := (hqo d).1
                have g4 := (hqo d).2
                constructor <;> nlinarith [h0.1, h0.2]
  obtain ⟨hsz, ty, hty, hu⟩ := (C27_ok_iff t _).mp hfound
  have hcont := C27_node_contains_partial near t p hinc (by
    intro d
    obtain ⟨mn, mx, e1, e2, h1, h2⟩ := knots_range hk hp d
    exact ⟨mn, e1, by simp only [real] at h1; exact_mod_cast h1⟩) hfound hone
  choose sub lo hi f1 f2 f3 f4 using hcont
  refine ⟨sub, lo, hi, ty, f1, ?_, fun d => ⟨f2 d, f3 d⟩, ?_, hu, f4⟩
  · unfold Grid.nodeIndex
    rw [show (fun d => (t.nodeSubscript near p d).toNat) = sub from funext fun d => by rw [f1 d]; simp]
  · rw [show (fun d => (t.nodeSubscript near p d).toNat) = sub from funext fun d => by rw [f1 d]; simp] at hty
    exact hty

/-- **C75 (exact).** With exact comparisons the point is a point of the part of the node found. -/
theorem C75_search_exact (always : Bool) (turns : Nat) (edge : ℚ) (P : Poly) (h : ConvexSolid P.1 P.2) (hne : P.2 ≠ []) (hedge : 0 < edge)
    (hturns : ∀ d : Fin 3, (⌈(largest P.1 d - least P.1 d) / edge⌉ : ℤ) ≤ turns) (t : Grid) (parts : List Poly)
    (hbuild : build always turns edge P = some (t, parts)) (p : Pt) (hp : real p ∈ Hull (· ∈ P.1)) :
    ∃ (ty : NodeType) (part : Poly), t.types[t.nodeIndex (fun a b => decide (a = b)) p]? = some ty ∧ (ty = .cube ∨ ty = .poly) ∧
      parts[t.nodeIndex (fun a b => decide (a = b)) p]? = some part ∧ real p ∈ Hull (· ∈ part.1) := by
  obtain ⟨sub, lo, hi, ty, -, hidx, hb, hty, hu, hin⟩ := C75_search always turns edge P h hne hedge hturns t parts hbuild (fun a b => decide (a = b))
    (fun _ _ _ _ _ => rfl) p hp
  obtain ⟨t', parts', e, hk, -, -, hn⟩ := C74_build always turns edge P h hne hedge hturns
  rw [hbuild] at e
  obtain ⟨rfl, rfl⟩ := (Prod.mk.injEq ..).mp (Option.some.inj e)
  obtain ⟨ty', part, f1, f2, hfit⟩ := hn sub lo hi hb
  rw [hty] at f1
  obtain rfl := Option.some.inj f1
  rw [hidx]
  refine ⟨ty, part, hty, hu, f2, ?_⟩
  rw [(hfit.part hu).2.2]
  refine ⟨hp, fun d => ?_⟩
  have hlt := knots_lt (hk d) (Nat.lt_succ_self _) (hb d).1 (hb d).2
  have : lo d ≤ p d ∧ p d ≤ hi d := by
    rcases hin d with ⟨h1, h2⟩ | h1 | h1
    · exact ⟨h1, h2.le⟩
    · have e := of_decide_eq_true h1; exact ⟨e.le, e ▸ hlt.le⟩
    · have e := of_decide_eq_true h1; exact ⟨e ▸ hlt.le, e.ge⟩
  simp only [real]
  exact ⟨by exact_mod_cast this.1, by exact_mod_cast this.2⟩

set_option maxRecDepth 100000 in
/-- the middle of the longest edge of the tetrahedron is on the boundary of four nodes, of which the one found first is not used -/
example : Faces.contains tetrahedron.2 (fun i => tetrahedron.1.getD i 0) ![2, 2, 1] = true ∧
    (build false 2 1 tetrahedron).map (fun r => (findBin (r.1.knots 0) 2, findBin (r.1.knots 1) 2, findBin (r.1.knots 2) 1,
      r.1.isNull 3, r.1.nodeIndex (fun a b => decide (a = b)) ![2, 2, 1])) = some (1, 1, 0, true, 2) := by
  decide +kernel

end Brille.Props
