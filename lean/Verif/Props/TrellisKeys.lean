/-
C82: after sorting, interpolation anywhere in the hybrid grid follows the modes.
-/
import Verif.Model.TrellisKeys
import Verif.Props.TrellisWire
import Verif.Props.ModeSort
import Verif.Props.EndToEnd

namespace Brille.Props

open Brille.Spec Brille.Tetra Brille.IrCheck Brille.TrellisWire Brille.Trellis Brille.TrellisBuild Brille.PermTable Brille.SortPerm Brille.ModeCost Brille.Convex Brille.Zone

/-! ### the container keeps its types -/

theorem setCube_nodes {c c' : Container} {i : Nat} {n : Fin 8 → Nat} (h : c.setCube i n = some c') : c'.nodes = c.nodes := by
  unfold Container.setCube at h
  split at h
  · split at h
    · rw [← Option.some.inj h]
    · cases h
  · cases h

theorem setPoly_nodes {c c' : Container} {i : Nat} {n : List Tet} (h : c.setPoly i n = some c') : c'.nodes = c.nodes := by
  unfold Container.setPoly at h
  split at h
  · split at h
    · rw [← Option.some.inj h]
    · cases h
  · cases h

theorem cubes_nodes {m : VMap.VIM} {kept : Nat} (l : List Nat) : ∀ {c c' : Container}, l.foldlM (cubeNode m kept) c = some c' → c'.nodes = c.nodes := by
  induction l with
  | nil => intro c c' h; exact congrArg _ (Option.some.inj h).symm
  | cons i l ih =>
    intro c c' h
    rw [List.foldlM_cons] at h
    obtain ⟨c1, h1, h2⟩ := Option.bind_eq_some_iff.mp h
    rw [ih h2]
    obtain ⟨f, -, h3⟩ := Option.bind_eq_some_iff.mp h1
    split at h3
    · cases h3
    · exact setCube_nodes h3

theorem polys_nodes {G : TetGen} {m : VMap.VIM} {kept : Nat} {parts : List Poly} (l : List Nat) :
    ∀ {s s' : Container × List Tetra.Pt}, l.foldlM (polyNode G m kept parts) s = some s' → s'.1.nodes = s.1.nodes := by
  induction l with
  | nil => intro c c' h; rw [← Option.some.inj h]
  | cons i l ih =>
    intro c c' h
    rw [List.foldlM_cons] at h
    obtain ⟨c1, h1, h2⟩ := Option.bind_eq_some_iff.mp h
    rw [ih h2]
    unfold polyNode at h1
    simp only [bind, Option.bind_eq_some_iff] at h1
    obtain ⟨a1, -, a2, -, a3, -, a4, -, h1⟩ := h1
    split at h1
    · cases h1
    obtain ⟨a5, -, h1⟩ := Option.bind_eq_some_iff.mp h1
    split at h1
    · cases h1
    obtain ⟨a6, h3, h1⟩ := Option.bind_eq_some_iff.mp h1
    rw [← Option.some.inj h1]
    exact setPoly_nodes h3

theorem construct_nodes {G : TetGen} {always : Bool} {turns : Nat} {edge : ℚ} {S : Schedule} {P : Poly} {T : PolyTrellis}
    (h : TrellisWire.construct G always turns edge S P = some T) : T.nodes.nodes = (Container.make T.grid.types).nodes := by
  unfold TrellisWire.construct at h
  simp only [bind, Option.bind_eq_some_iff] at h
  obtain ⟨b, -, r, -, s, -, f, -, c, hc, n, hn, h⟩ := h
  rw [← Option.some.inj h]
  exact (polys_nodes _ hn).trans (cubes_nodes _ hc)

theorem node_type {G : TetGen} {always : Bool} {turns : Nat} {edge : ℚ} {S : Schedule} {P : Poly} {T : PolyTrellis}
    (h : TrellisWire.construct G always turns edge S P = some T) {i : Nat} {ty : NodeType} {k : Nat} (hi : T.nodes.nodes[i]? = some (ty, k)) :
    T.grid.types[i]? = some ty := by
  rw [construct_nodes h] at hi
  exact (make_ok _).type i ty k hi

theorem mem_node_keys (T : PolyTrellis) (i k : Nat) : k ∈ T.collectKeysNode i ↔
    (∃ n, T.nodes.get i = some (.cube n) ∧ ∃ a b, n a ≠ n b ∧ k = n a * T.vertices.length + n b) ∨
    ∃ tets, T.nodes.get i = some (.poly tets) ∧ ∃ t ∈ tets, ∃ a b, t.vi a ≠ t.vi b ∧ k = t.vi a * T.vertices.length + t.vi b := by
  unfold PolyTrellis.collectKeysNode Container.isNull Container.isPoly Container.vertices Container.verticesPerTetrahedron Container.get
  rcases hn : T.nodes.nodes[i]? with _ | ⟨ty, m⟩
  · simp
  · cases ty
    case cube =>
      cases hc : T.nodes.cubes[m]? with
      | none => simp [hc, keysFromIndices]
      | some n => simp [hc, C07_keys_from_indices]
    case poly =>
      cases hc : T.nodes.polys[m]? with
      | none => simp [hc]
      | some tets => simp [hc, C07_keys_from_indices]
    all_goals simp

/-- `T` is the hybrid grid made of the convex polyhedron `P` with nodes of at most the size `edge`, by any threads. -/
structure GridOf (G : TetGen) (always : Bool) (turns : Nat) (edge : ℚ) (P : Poly) (S : Schedule) (T : PolyTrellis) : Prop where
  reliable : Reliable G
  solid : ConvexSolid P.1 P.2
  faces : P.2 ≠ []
  size : 0 < edge
  pieces : ∀ d : Fin 3, (⌈(largest P.1 d - least P.1 d) / edge⌉ : ℤ) ≤ turns
  shared : ∀ t parts, build always turns edge P = some (t, parts) → Distributed S t.types
  made : TrellisWire.construct G always turns edge S P = some T

theorem box_close {edge : ℚ} {lo hi a b : Tetra.Pt} (hw : ∀ d, hi d - lo d ≤ edge) (ha : ∀ d, lo d ≤ a d ∧ a d ≤ hi d)
    (hb : ∀ d, lo d ≤ b d ∧ b d ≤ hi d) (d : Fin 3) : |a d - b d| ≤ edge := by
  have h1 := ha d
  have h2 := hb d
  have h3 := hw d
  rw [abs_le]
  constructor <;> linarith [h1.1, h1.2, h2.1, h2.2]

variable {G : TetGen} {always : Bool} {turns : Nat} {edge : ℚ} {P : Poly} {S : Schedule} {T : PolyTrellis}

/-- the vertices of a node are close together -/
theorem node_close (h : GridOf G always turns edge P S T) (i : Nat) :
    (∀ n, T.nodes.get i = some (.cube n) → ∀ a, n a < T.vertices.length ∧ ∀ b, ∀ d, |T.vertices.getD (n a) 0 d - T.vertices.getD (n b) 0 d| ≤ edge) ∧
    ∀ tets, T.nodes.get i = some (.poly tets) → ∀ t ∈ tets, ∀ a, t.vi a < T.vertices.length ∧
      ∀ b, ∀ d, |T.vertices.getD (t.vi a) 0 d - T.vertices.getD (t.vi b) 0 d| ≤ edge := by
  obtain ⟨T', parts, hb, hc, hk, -, -, hnodes, -⟩ := wire h.reliable h.solid h.faces h.size h.pieces h.shared
  rw [h.made] at hc
  obtain rfl := Option.some.inj hc
  have key : ∀ ty k, T.nodes.nodes[i]? = some (ty, k) → ty = .cube ∨ ty = .poly → ∃ part lo hi, (∀ d, hi d - lo d ≤ edge) ∧ (∀ d, lo d < hi d) ∧
      (∀ y : Tetra.Pt, real y ∈ Hull (· ∈ part.1) → ∀ d, lo d ≤ y d ∧ y d ≤ hi d) ∧ Wired T i ty part lo hi := by
    intro ty k hi hu
    obtain ⟨part, lo, hi', hp, hw, -⟩ := hnodes i ty (node_type h.made hi) hu
    obtain ⟨hpn, hps, hph⟩ := hp.fits.part hu
    refine ⟨part, lo, hi', fun d => ?_, hp.lt, fun y hy d => ?_, hw⟩
    · obtain ⟨step, hs, hst⟩ := (hk d).steps
      rw [hst _ _ _ (hp.box d).1 (hp.box d).2]; exact hs
    · rw [hph] at hy
      obtain ⟨h1, h2⟩ := hy.2 d
      simp only [real] at h1 h2
      exact ⟨by exact_mod_cast h1, by exact_mod_cast h2⟩
  refine ⟨fun n hn => ?_, fun tets hn => ?_⟩
  · unfold Container.get at hn
    split at hn
    · rename_i k hi
      obtain ⟨part, lo, hi', hw, hlt, hin, hwired⟩ := key _ k hi (Or.inl rfl)
      obtain ⟨n', hget, hn'⟩ := hwired
      unfold Container.get at hget
      rw [hi] at hget
      simp only at hget
      rw [hget] at hn
      obtain rfl : n' = n := by simpa using hn
      have hcorner : ∀ a, ∀ d, lo d ≤ T.vertices.getD (n' a) 0 d ∧ T.vertices.getD (n' a) 0 d ≤ hi' d := by
        intro a d
        rw [List.getD_eq_getElem?_getD, hn' a, Option.getD_some]
        unfold Spec.boxCorner
        have := (hlt d).le
        split
        · exact ⟨this, le_refl _⟩
        · exact ⟨le_refl _, this⟩
      exact fun a => ⟨(List.getElem?_eq_some_iff.mp (hn' a)).1, fun b => box_close hw (hcorner a) (hcorner b)⟩
    · rename_i k hi
      simp at hn
    · cases hn
  · unfold Container.get at hn
    split at hn
    · simp at hn
    · rename_i k hi
      obtain ⟨part, lo, hi', hw, hlt, hin, hwired⟩ := key _ k hi (Or.inr rfl)
      obtain ⟨n', hget, hn'⟩ := hwired
      unfold Container.get at hget
      rw [hi] at hget
      simp only at hget
      rw [hget] at hn
      obtain rfl : n' = tets := by simpa using hn
      exact fun t ht a => ⟨hn'.valid t ht a, fun b => box_close hw (hin _ (hn'.inside t ht a)) (hin _ (hn'.inside t ht b))⟩
    · cases hn

/-- **C82 (keys).** Whatever the order in which the threads collect them: the announced pairs of vertices are pairs of different vertices that
are not further apart than the size of a node, in both directions, and with every point of the polyhedron come only vertices of which any two
different ones are an announced pair. -/
theorem C82_keys (h : GridOf G always turns edge P S T) (order : List Nat) (ho : ∀ i, i ∈ order ↔ i < T.nodes.nodes.length) :
    (∀ k ∈ T.collectKeys order, ∃ a b, a ≠ b ∧ a < T.vertices.length ∧ b < T.vertices.length ∧ k = a * T.vertices.length + b ∧
      ∀ d, |T.vertices.getD a 0 d - T.vertices.getD b 0 d| ≤ edge) ∧
    Symmetric T.vertices.length (T.collectKeys order) ∧
    ∀ x : Tetra.Pt, ∀ iw, T.indicesWeights x = .found iw →
      ∀ p ∈ iw, ∀ q ∈ iw, p.1 ≠ q.1 → p.1 * T.vertices.length + q.1 ∈ T.collectKeys order := by
  have hmem : ∀ k, k ∈ T.collectKeys order ↔ ∃ i, i < T.nodes.nodes.length ∧
      ((∃ n, T.nodes.get i = some (.cube n) ∧ ∃ a b, n a ≠ n b ∧ k = n a * T.vertices.length + n b) ∨
      ∃ tets, T.nodes.get i = some (.poly tets) ∧ ∃ t ∈ tets, ∃ a b, t.vi a ≠ t.vi b ∧ k = t.vi a * T.vertices.length + t.vi b) := by
    intro k
    unfold PolyTrellis.collectKeys
    simp only [List.mem_flatMap, ho, mem_node_keys]
  refine ⟨?_, ?_, ?_⟩
  · intro k hk
    obtain ⟨i, -, ⟨n, hn, a, b, hab, rfl⟩ | ⟨tets, hn, t, ht, a, b, hab, rfl⟩⟩ := (hmem k).mp hk
    · have hc := (node_close h i).1 n hn
      exact ⟨_, _, hab, (hc a).1, (hc b).1, rfl, (hc a).2 b⟩
    · have hc := (node_close h i).2 tets hn t ht
      exact ⟨_, _, hab, (hc a).1, (hc b).1, rfl, (hc a).2 b⟩
  · intro p q hp hq hpq hk
    rw [hmem] at hk ⊢
    obtain ⟨i, hi, ⟨n, hn, a, b, hab, e⟩ | ⟨tets, hn, t, ht, a, b, hab, e⟩⟩ := hk
    · have hc := (node_close h i).1 n hn
      obtain ⟨rfl, rfl⟩ := PermTable.key_inj hq (hc b).1 e
      exact ⟨i, hi, Or.inl ⟨n, hn, b, a, hab.symm, rfl⟩⟩
    · have hc := (node_close h i).2 tets hn t ht
      obtain ⟨rfl, rfl⟩ := PermTable.key_inj hq (hc b).1 e
      exact ⟨i, hi, Or.inr ⟨tets, hn, t, ht, b, a, hab.symm, rfl⟩⟩
  · intro x iw hiw p hp q hq hpq
    rw [hmem]
    unfold PolyTrellis.indicesWeights at hiw
    generalize T.grid.nodeIndex (fun a b => decide (a = b)) x = i at hiw
    have hlt : ∀ m, T.nodes.get i = some m → i < T.nodes.nodes.length := by
      intro m hm
      by_contra hcon
      unfold Container.get at hm
      rw [List.getElem?_eq_none (by omega)] at hm
      cases hm
    simp only at hiw
    split at hiw
    · rename_i n hn
      unfold cubeIndicesWeights at hiw
      split at hiw
      · rename_i iw' hc
        cases hiw
        simp only at hc
        split at hc
        · cases hc
        · cases hc
          simp only [List.mem_map] at hp hq
          obtain ⟨a, -, rfl⟩ := hp
          obtain ⟨b, -, rfl⟩ := hq
          exact ⟨i, hlt _ hn, Or.inl ⟨n, hn, _, _, hpq, rfl⟩⟩
      · cases hiw
    · rename_i tets hn
      have : ∃ t ∈ tets, iw = nonzero (fun w => decide (w = 0)) t (baryW (fun i => T.vertices.getD i 0) t x) := by
        unfold polyIndicesWeights at hiw
        split at hiw
        · rename_i t ht
          exact ⟨t, List.mem_of_find?_eq_some ht, by cases hiw; rfl⟩
        · simp only [if_true] at hiw
          split at hiw
          · cases hiw
          · rename_i t ht
            split at hiw
            · cases hiw
            · exact ⟨t, bestTet_mem ht, by cases hiw; rfl⟩
      obtain ⟨t, ht, rfl⟩ := this
      unfold nonzero at hp hq
      simp only [List.mem_map] at hp hq
      obtain ⟨a, -, rfl⟩ := hp
      obtain ⟨b, -, rfl⟩ := hq
      exact ⟨i, hlt _ hn, Or.inr ⟨tets, hn, t, ht, _, _, hpq, rfl⟩⟩
    · cases hiw

/-! ### sorting -/

section
variable {K : Type} [RCLike K]

/-- The modes of all points have labels: at point `i` the mode with label `l` is in place `ρ i l`.  For every announced pair of points modes
with equal labels belong together: the mode of the second point fits better to the mode of the first point with its label than to any other. -/
def Connected (values : ModeCost.Data K) (vectors : ModeCost.Data ℂ) (n : Nat) (keys : List Nat)
    (ρ : Nat → Equiv.Perm (Fin values.branches)) : Prop :=
  ∀ i j, i < j → j < n → i * n + j ∈ keys → ∀ l m, m ≠ l →
    modePairCost values vectors i j (ρ i l) (ρ j l) < modePairCost values vectors i j (ρ i m) (ρ j l)

theorem connected_determine (st : ModeCost.Scalars K) (values : ModeCost.Data K) (vectors : ModeCost.Data ℂ) (hd : PhononData values vectors)
    {n : Nat} {keys : List Nat} {ρ : Nat → Equiv.Perm (Fin values.branches)} (hc : Connected values vectors n keys ρ) (fuel i j : Nat)
    (hij : i < j) (hj : j < n) (hk : i * n + j ∈ keys) :
    determine st complexes values vectors i j (fuel + 1) = some (images ((ρ i).symm.trans (ρ j)), images ((ρ j).symm.trans (ρ i))) := by
  have h := C61_closest st values vectors hd i j (by omega) ((ρ i).symm.trans (ρ j)) (by
    intro b c hcb
    have := hc i j hij hj hk ((ρ i).symm b) ((ρ i).symm c) (fun e => hcb ((ρ i).symm.injective e))
    simpa using this) fuel
  rw [h]
  rfl

omit [RCLike K] in
theorem connected_sort (values : ModeCost.Data K) {n : Nat} (hn : 0 < n) {keys : List Nat} (hsym : Symmetric n keys)
    (ρ : Nat → Equiv.Perm (Fin values.branches)) {A B : Type} {g : Fill.Grid A B} (hg : Ready n keys g)
    (hb : g.values.branches = values.branches) :
    ∃ tri, triPairs n (0 :: keys) = some tri ∧
      ∀ (Q : Nat) (wk : Fin Q → List (Nat × Nat)), (∀ p, p ∈ tri ↔ ∃ k, p ∈ wk k) →
      ∀ sched : List (Fin Q), ∃ s, SortPerm.run (fun i j => (images ((ρ i).symm.trans (ρ j)), images ((ρ j).symm.trans (ρ i))))
          (start g.table wk) sched = some s ∧
        (∃ more s', SortPerm.run (fun i j => (images ((ρ i).symm.trans (ρ j)), images ((ρ j).symm.trans (ρ i)))) s more = some s' ∧ Finished s') ∧
        (Finished s → ∀ i j, i < n → j < n → (i ≠ j → i * n + j ∈ keys) →
          safeGet s.table i j = some (images ((ρ i).symm.trans (ρ j)))) := by
  obtain ⟨ops, hv, ht⟩ := hg.history
  have hsym0 : Symmetric n (0 :: keys) := by
    intro i j hi hj hij hk
    rcases List.mem_cons.mp hk with h0 | hk
    · have h1 : i = 0 := by
        rcases Nat.eq_zero_or_pos i with h | h
        · exact h
        · have := Nat.mul_pos h hn; omega
      subst h1
      simp only [zero_mul, zero_add] at h0
      omega
    · exact List.mem_cons_of_mem _ (hsym i j hi hj hij hk)
  obtain ⟨tri, h1, h2⟩ := C31_sort n 1 hn ops hv g.table ht hg.size (0 :: keys) hg.keys hsym0
    (fun i j => (images ((ρ i).symm.trans (ρ j)), images ((ρ j).symm.trans (ρ i))))
  refine ⟨tri, h1, fun Q wk hw sched => ?_⟩
  obtain ⟨s, e, a, f⟩ := h2 Q wk hw sched
  refine ⟨s, e, a, fun hf i j hi hj hkey => ?_⟩
  rcases Nat.lt_trichotomy i j with hlt | rfl | hlt
  · exact ((f hf).1 i j hlt hj (List.mem_cons_of_mem _ (hkey (by omega)))).1
  · have := sort_diagonal (by rw [hg.size]; exact hn) wk (by
      intro k p hp
      have hp' := (hw p).mpr ⟨k, hp⟩
      have htri : tri = (0 :: keys).filterMap (triOf n) := by
        rw [triPairs, if_neg (by omega)] at h1; exact (Option.some.inj h1).symm
      rw [htri] at hp'
      exact ((mem_tri hn p.1 p.2 (tri_lt hn p.1 p.2 hp')).mp hp').2) e (hg.diagonal i)
    rw [this, hb, Equiv.symm_trans_self, images_refl]
  · exact ((f hf).1 j i hlt hi (List.mem_cons_of_mem _ (hsym i j hi hj (by omega) (hkey (by omega))))).2

/-- a sum over the contributions -/
theorem sum_contributions {A : Type} [RCLike A] (ρ : Nat → List Nat) (g : List Nat → Nat → A) : ∀ iw : List (Nat × ℝ),
    (((iw.map fun v => ρ v.1).zip (castWeights A iw)).map fun u => u.2.2 * g u.1 u.2.1).sum = (iw.map fun v => (v.2 : A) * g (ρ v.1) v.1).sum := by
  intro iw
  induction iw with
  | nil => simp [castWeights]
  | cons v r ih =>
    simp only [castWeights, List.map_cons, List.zip_cons_cons, List.sum_cons] at ih ⊢
    rw [ih]

/-- interpolating with the sorted table: in every place of the result there are the modes with one label -/
theorem connected_mix (values : ModeCost.Data K) (vectors : ModeCost.Data ℂ) (hd : PhononData values vectors)
    (ρ : Nat → Equiv.Perm (Fin values.branches)) (t : Table) (p : Nat) (w0 : ℝ) (rest : List (Nat × ℝ))
    (htab : ∀ v ∈ (p, w0) :: rest, safeGet t p v.1 = some (images ((ρ p).symm.trans (ρ v.1)))) :
    ∃ perms r q, Interp.getPermutations t ((p, w0) :: rest) = some perms ∧
      Interp.mix (forMix values) Interp.noPhase perms (castWeights K ((p, w0) :: rest)) (fun _ => 0) = some r ∧
      Interp.mix (forMix vectors) Interp.antiphase perms (castWeights ℂ ((p, w0) :: rest)) (fun _ => 0) = some q ∧
      ∀ l : Fin values.branches,
        (∀ k, k < values.scalars → r (ρ p l * values.scalars + k) = (((p, w0) :: rest).map fun v => (v.2 : K) * scalarsOf values v.1 (ρ v.1 l) k).sum) ∧
        (∀ k, k < vectors.vectors → q (ρ p l * vectors.vectors + k) = (((p, w0) :: rest).map fun v =>
          (v.2 : ℂ) * (Interp.antiphase vectors.vectors (vectorsOf vectors p (ρ p l)) (vectorsOf vectors v.1 (ρ v.1 l)) *
            vectorsOf vectors v.1 (ρ v.1 l) k)).sum) := by
  have hperms := mapM_images t (fun j => images ((ρ p).symm.trans (ρ j))) p ((p, w0) :: rest) htab
  have hmm : ∀ l ∈ ((p, w0) :: rest).map (fun v => images ((ρ p).symm.trans (ρ v.1))), ModeMap values.branches l := by
    intro l hl
    simp only [List.mem_map] at hl
    obtain ⟨v, _, rfl⟩ := hl
    exact images_modeMap _
  have s1 : values.span = values.scalars := by
    simp [ModeCost.Data.span, hd.values_vectors, hd.values_matrices]
  have s2 : vectors.span = vectors.vectors := by
    simp [ModeCost.Data.span, hd.vectors_scalars, hd.vectors_matrices]
  obtain ⟨r, r1, r2, _⟩ := Interp.mix_spec (forMix values) Interp.noPhase
    (((p, w0) :: rest).map fun v => images ((ρ p).symm.trans (ρ v.1))) p (w0 : K) (castWeights K rest) (fun _ => 0)
    (by simp [castWeights]) hmm
  obtain ⟨q, q1, q2, _⟩ := Interp.mix_spec (forMix vectors) Interp.antiphase
    (((p, w0) :: rest).map fun v => images ((ρ p).symm.trans (ρ v.1))) p (w0 : ℂ) (castWeights ℂ rest)
    (fun _ => 0) (by simp [castWeights]) (by
      intro l hl
      have := hmm l hl
      rwa [← hd.branches] at this)
  refine ⟨_, r, q, hperms, r1, q1, fun l => ⟨fun k hk => ?_, fun k hk => ?_⟩⟩
  · have e := r2 (ρ p l) k (ρ p l).isLt (by simpa [forMix, s1] using hk)
    have f := sum_contributions (A := K) (fun j => images ((ρ p).symm.trans (ρ j)))
      (fun m j => values.row j (m.getD (ρ p l) 0 * values.scalars + k)) ((p, w0) :: rest)
    simp only [images_getD, Equiv.trans_apply, Equiv.symm_apply_apply] at f
    simp only [forMix, s1, Interp.factor, Interp.noPhase, mul_one, zero_add] at e
    exact e.trans f
  · have e := q2 (ρ p l) k (by simp [forMix, hd.branches]) (by simpa [forMix, s2] using hk)
    have f := sum_contributions (A := ℂ) (fun j => images ((ρ p).symm.trans (ρ j)))
      (fun m j => Interp.antiphase vectors.vectors (fun k => vectors.row p ((ρ p l).val * vectors.vectors + k))
        (fun k => vectors.row j (m.getD (ρ p l) 0 * vectors.vectors + k)) * vectors.row j (m.getD (ρ p l) 0 * vectors.vectors + k)) ((p, w0) :: rest)
    simp only [images_getD, Equiv.trans_apply, Equiv.symm_apply_apply] at f
    simp only [forMix, s2, Interp.factor, zero_add, mul_assoc] at e
    exact e.trans f

/-- weights as real numbers -/
def realWeights (iw : List (Nat × ℚ)) : List (Nat × ℝ) := iw.map fun v => (v.1, (v.2 : ℝ))

/-- only the results for the pairs that the threads have to compare matter -/
theorem run_congr {Q : Nat} {f g : Nat → Nat → List Nat × List Nat} : ∀ (sched : List (Fin Q)) (s : State Q),
    (∀ k, ∀ p ∈ (s.threads k).todo, f p.1 p.2 = g p.1 p.2) → SortPerm.run f s sched = SortPerm.run g s sched := by
  intro sched
  induction sched with
  | nil => intro s _; rfl
  | cons k ks ih =>
    intro s hs
    have hstep : SortPerm.step f s k = SortPerm.step g s k := by
      unfold SortPerm.step
      cases hpc : (s.threads k).pc with
      | idle =>
        simp only
        cases htd : (s.threads k).todo with
        | nil => rfl
        | cons p r => simp only; rw [hs k p (by rw [htd]; simp)]
      | _ => simp only [hpc]
    simp only [SortPerm.run]
    rw [hstep]
    cases hst : SortPerm.step g s k with
    | none => rfl
    | some s' =>
      refine ih s' fun j p hp => hs j p ?_
      have hset : ∀ {t : Thread}, p ∈ (setThread s.threads k t j).todo → (∀ q ∈ t.todo, q ∈ (s.threads k).todo) → p ∈ (s.threads j).todo := by
        intro t hp ht
        unfold setThread at hp
        split at hp
        · rename_i e; rw [e]; exact ht p hp
        · exact hp
      unfold SortPerm.step at hst
      simp only at hst
      split at hst
      · split at hst
        · cases hst; exact hp
        · rename_i htd
          cases hst; exact hset hp (fun q hq => by rw [htd]; simp [hq])
      · split at hst
        · cases hst; exact hp
        · cases hst; exact hset hp (fun _ h => h)
      · split at hst
        · cases hst
        · cases hst; exact hset hp (fun _ h => h)
      · cases hst; exact hset hp (fun _ h => h)
      · split at hst
        · cases hst
        · cases hst; exact hset hp (fun _ h => h)
      · cases hst; exact hset hp (fun _ h => h)
      · cases hst; exact hset hp (fun _ h => h)

/-- the data of an interpolator with its weights and function for the cost -/
def costData {A : Type} (h : Fill.Held A) (mult : ℝ × ℝ × ℝ) (vcf : Int) : ModeCost.Data A :=
  ⟨fun i k => h.mem (i * h.cols + k), h.elements.scalars, h.elements.vectors, h.elements.matrices, h.branches, mult, vcf⟩

/-- The modes of the vertices are sorted: the threads, of which there is any number, compare every announced pair once, and have written all
results into the table, which was that of the grid. -/
def SortedBy (st : ModeCost.Scalars K) (values : ModeCost.Data K) (vectors : ModeCost.Data ℂ) (n : Nat) (keys : List Nat) (fuel : Nat) (before after : Table) :
    Prop :=
  ∃ (solve : Nat → Nat → List Nat × List Nat) (tri : List (Nat × Nat)), triPairs n keys = some tri ∧
    (∀ p ∈ tri, determine st complexes values vectors p.1 p.2 fuel = some (solve p.1 p.2)) ∧
    ∃ (Q : Nat) (wk : Fin Q → List (Nat × Nat)) (sched : List (Fin Q)) (s : State Q), (∀ p, p ∈ tri ↔ ∃ k, p ∈ wk k) ∧
      SortPerm.run solve (start before wk) sched = some s ∧ Finished s ∧ s.table = after

/-- interpolating at a point, with the given table: the vertices around it with their weights, and the two rows of the result -/
def InterpolatedAt (T : PolyTrellis) (values : ModeCost.Data K) (vectors : ModeCost.Data ℂ) (t : Table) (x : Tetra.Pt) (iw : List (Nat × ℚ))
    (r : Nat → K) (q : Nat → ℂ) : Prop :=
  T.indicesWeights x = .found iw ∧ ∃ perms, Interp.getPermutations t iw = some perms ∧
    Interp.mix (forMix values) Interp.noPhase perms (iw.map fun v => (v.1, (v.2 : K))) (fun _ => 0) = some r ∧
    Interp.mix (forMix vectors) Interp.antiphase perms (iw.map fun v => (v.1, (v.2 : ℂ))) (fun _ => 0) = some q

variable (h : GridOf G always turns edge P S T) (order : List Nat) (ho : ∀ i, i ∈ order ↔ i < T.nodes.nodes.length)
  (st : ModeCost.Scalars K) (g : Fill.Grid K ℂ) (m₁ m₂ : ℝ × ℝ × ℝ) (f₁ f₂ : Int) (hd : PhononData (costData g.values m₁ f₁) (costData g.vectors m₂ f₂))
  (ρ : Nat → Equiv.Perm (Fin g.values.branches))
  (hc : Connected (costData g.values m₁ f₁) (costData g.vectors m₂ f₂) T.vertices.length (T.collectKeys order) ρ)
  (hg : Ready T.vertices.length (T.collectKeys order) g) (fuel : Nat)
include h ho hd hc hg

omit ho hd hc hg in
theorem vertices_pos : 0 < T.vertices.length := by
  obtain ⟨T', e, -, -, hv, -⟩ := C76_construct G h.reliable always turns edge P h.solid h.faces h.size h.pieces S h.shared
  rw [h.made] at e
  obtain rfl := Option.some.inj e
  have : P.1 ≠ [] := by
    obtain ⟨f, fs, e⟩ := List.exists_cons_of_ne_nil h.faces
    have h3 := (h.solid.convex.simple (f.map fun i => P.1.getD i 0) (by rw [e]; simp [polygons])).2
    obtain ⟨i, r, rfl⟩ : ∃ i r, f = i :: r := List.exists_cons_of_ne_nil (by rintro rfl; simp at h3)
    have := h.solid.valid (i :: r) (by rw [e]; simp) i (by simp)
    intro e0
    rw [e0] at this
    simp at this
  obtain ⟨v, l, e⟩ := List.exists_cons_of_ne_nil this
  exact List.length_pos_of_mem (hv v (by rw [e]; simp))

theorem follows : ∃ tri, triPairs T.vertices.length (0 :: T.collectKeys order) = some tri ∧
    (∀ p ∈ tri, determine st complexes (costData g.values m₁ f₁) (costData g.vectors m₂ f₂) p.1 p.2 (fuel + 1) =
      some (images ((ρ p.1).symm.trans (ρ p.2)), images ((ρ p.2).symm.trans (ρ p.1)))) ∧
    ∀ (Q : Nat) (wk : Fin Q → List (Nat × Nat)), (∀ p, p ∈ tri ↔ ∃ k, p ∈ wk k) →
      ∀ sched : List (Fin Q), ∃ s, SortPerm.run (fun i j => (images ((ρ i).symm.trans (ρ j)), images ((ρ j).symm.trans (ρ i))))
          (start g.table wk) sched = some s ∧
        (∃ more s', SortPerm.run (fun i j => (images ((ρ i).symm.trans (ρ j)), images ((ρ j).symm.trans (ρ i)))) s more = some s' ∧ Finished s') ∧
        (Finished s → ∀ i j, i < T.vertices.length → j < T.vertices.length → (i ≠ j → i * T.vertices.length + j ∈ T.collectKeys order) →
          safeGet s.table i j = some (images ((ρ i).symm.trans (ρ j)))) := by
  have hn := vertices_pos h
  obtain ⟨tri, h1, h2⟩ := connected_sort (costData g.values m₁ f₁) hn (C82_keys h order ho).2.1 ρ hg rfl
  refine ⟨tri, h1, ?_, h2⟩
  intro p hp
  have htri : tri = (0 :: T.collectKeys order).filterMap (triOf T.vertices.length) := by
    rw [triPairs, if_neg (by omega)] at h1; exact (Option.some.inj h1).symm
  rw [htri] at hp
  have hlt := tri_lt hn p.1 p.2 hp
  have := (mem_tri hn p.1 p.2 hlt).mp hp
  refine connected_determine st _ _ hd hc fuel p.1 p.2 this.2 hlt ((List.mem_cons.mp this.1).resolve_left fun h0 => ?_)
  omega

/-- **C82 (sorts).** Let the modes of the vertices of a hybrid grid be connected, for the pairs of vertices that the grid announces; data
may have been put into it before, any number of times.  Then for every announced pair the modes can be compared, no exception leaves the
threads that do so, however many there are and whatever they do first, and they can always end. -/
theorem C82_sorts : ∃ (solve : Nat → Nat → List Nat × List Nat) (tri : List (Nat × Nat)),
    triPairs T.vertices.length (0 :: T.collectKeys order) = some tri ∧
    (∀ p ∈ tri, determine st complexes (costData g.values m₁ f₁) (costData g.vectors m₂ f₂) p.1 p.2 (fuel + 1) = some (solve p.1 p.2)) ∧
    ∀ (Q : Nat) (wk : Fin Q → List (Nat × Nat)), (∀ p, p ∈ tri ↔ ∃ k, p ∈ wk k) →
      ∀ sched : List (Fin Q), ∃ s, SortPerm.run solve (start g.table wk) sched = some s ∧
        ∃ more s', SortPerm.run solve s more = some s' ∧ Finished s' := by
  obtain ⟨tri, h1, h2, h3⟩ := follows h order ho st g m₁ m₂ f₁ f₂ hd ρ hc hg fuel
  refine ⟨fun i j => (images ((ρ i).symm.trans (ρ j)), images ((ρ j).symm.trans (ρ i))), tri, h1, h2, fun Q wk hw sched => ?_⟩
  obtain ⟨s, e, a, -⟩ := h3 Q wk hw sched
  exact ⟨s, e, a⟩

/-- **C82 (follows).** After such a sort, interpolating at any point of the polyhedron adds up, in the place that a mode has at the first
vertex, what the vertices around the point, none further away than the size of a node, hold for the modes with the label of that mode; the
vectors, which are defined up to a phase, after they have been brought into phase with the vector at the first vertex. -/
theorem C82_follows (t : Table)
    (ht : SortedBy st (costData g.values m₁ f₁) (costData g.vectors m₂ f₂) T.vertices.length (0 :: T.collectKeys order) (fuel + 1) g.table t)
    (x : Tetra.Pt) (hx : real x ∈ Hull (· ∈ P.1)) :
    ∃ iw r q, InterpolatedAt T (costData g.values m₁ f₁) (costData g.vectors m₂ f₂) t x iw r q ∧
      (∀ v ∈ iw, v.1 < T.vertices.length ∧ 0 < v.2 ∧ ∀ d, |T.vertices.getD v.1 0 d - x d| ≤ edge) ∧ (iw.map Prod.snd).sum = 1 ∧
      ∃ p ∈ iw.head?, ∀ l,
        (∀ k, k < g.values.elements.scalars → r (ρ p.1 l * g.values.elements.scalars + k) =
          (iw.map fun v => (v.2 : K) * scalarsOf (costData g.values m₁ f₁) v.1 (ρ v.1 l) k).sum) ∧
        ∃ c : Nat → ℂ, (∀ i, ‖c i‖ = 1 ∧
            c i * hdot g.vectors.elements.vectors (vectorsOf (costData g.vectors m₂ f₂) p.1 (ρ p.1 l)) (vectorsOf (costData g.vectors m₂ f₂) i (ρ i l)) =
            (‖hdot g.vectors.elements.vectors (vectorsOf (costData g.vectors m₂ f₂) p.1 (ρ p.1 l)) (vectorsOf (costData g.vectors m₂ f₂) i (ρ i l))‖ : ℂ)) ∧
          ∀ k, k < g.vectors.elements.vectors → q (ρ p.1 l * g.vectors.elements.vectors + k) =
            (iw.map fun v => (v.2 : ℂ) * (c v.1 * vectorsOf (costData g.vectors m₂ f₂) v.1 (ρ v.1 l) k)).sum := by
  obtain ⟨solve, tri, h1, h2, Q, wk, sched, s, hw, hrun, hfin, rfl⟩ := ht
  obtain ⟨tri', h1', h2', h3⟩ := follows h order ho st g m₁ m₂ f₁ f₂ hd ρ hc hg fuel
  rw [h1] at h1'
  obtain rfl := Option.some.inj h1'
  have hsolve : ∀ p ∈ tri, solve p.1 p.2 = (images ((ρ p.1).symm.trans (ρ p.2)), images ((ρ p.2).symm.trans (ρ p.1))) := by
    intro p hp
    have := h2 p hp
    rw [h2' p hp] at this
    exact (Option.some.inj this).symm
  obtain ⟨s', e, -, f⟩ := h3 Q wk hw sched
  have hsame : s' = s := by
    rw [run_congr (f := solve) (g := fun i j => (images ((ρ i).symm.trans (ρ j)), images ((ρ j).symm.trans (ρ i)))) sched (start g.table wk)
      fun k p hp => hsolve p ((hw p).mpr ⟨k, hp⟩)] at hrun
    rw [e] at hrun
    exact Option.some.inj hrun
  subst hsame
  obtain ⟨iw, e1, e2, e3, -⟩ := C76_interpolate G h.reliable always turns edge P h.solid h.faces h.size h.pieces S h.shared T h.made x hx
  obtain ⟨⟨p, w0⟩, rest, rfl⟩ : ∃ v rest, iw = v :: rest := List.exists_cons_of_ne_nil (by rintro rfl; simp at e3)
  have htab : ∀ v ∈ realWeights ((p, w0) :: rest), safeGet s'.table p v.1 = some (images ((ρ p).symm.trans (ρ v.1))) := by
    intro v hv
    obtain ⟨u, hu, rfl⟩ := List.mem_map.mp hv
    exact f hfin p u.1 (e2 (p, w0) (by simp)).1 (e2 u hu).1 fun hne => (C82_keys h order ho).2.2 x _ e1 (p, w0) (by simp) u hu hne
  obtain ⟨perms, r, q, m1, m2, m3, m4⟩ := connected_mix _ _ hd ρ s'.table p (w0 : ℝ) (realWeights rest) htab
  refine ⟨_, r, q, ⟨e1, perms, ?_, ?_, ?_⟩, e2, e3, (p, w0), by simp, fun l => ⟨fun k hk => ?_, ?_⟩⟩
  · rw [← m1]
    simp only [Interp.getPermutations, realWeights]
    rw [← List.map_cons (f := fun v : Nat × ℚ => (v.1, (v.2 : ℝ))) (a := (p, w0)), List.mapM_map]
    rfl
  · rw [← m2]
    simp [realWeights, castWeights, Function.comp_def]
  · rw [← m3]
    simp [realWeights, castWeights, Function.comp_def]
  · rw [show r (ρ p l * g.values.elements.scalars + k) = _ from (m4 l).1 k hk]
    simp [realWeights, Function.comp_def]
    rfl
  · refine ⟨fun i => Interp.antiphase g.vectors.elements.vectors (vectorsOf (costData g.vectors m₂ f₂) p (ρ p l)) (vectorsOf (costData g.vectors m₂ f₂) i (ρ i l)),
      fun i => ⟨antiphase_norm _ _ _, antiphase_mul _ _ _⟩, fun k hk => ?_⟩
    rw [show q (ρ p l * g.vectors.elements.vectors + k) = _ from (m4 l).2 k hk]
    simp [realWeights, Function.comp_def]
    rfl

/-- **C82 (error).** Let the scalars of the modes with each label be the values of a function at the vertices.  Then interpolating gives, in
the place that the mode has at the first vertex, the value of the function at the point itself, with an error that is not larger than what
the function changes by up to the vertices of the node; without an error if the function is affine. -/
theorem C82_error (t : Table)
    (ht : SortedBy st (costData g.values m₁ f₁) (costData g.vectors m₂ f₂) T.vertices.length (0 :: T.collectKeys order) (fuel + 1) g.table t)
    (F : Fin g.values.branches → Nat → Tetra.Pt → ℚ) (hF : ∀ i < T.vertices.length, ∀ l k, k < g.values.elements.scalars →
      scalarsOf (costData g.values m₁ f₁) i (ρ i l) k = (F l k (T.vertices.getD i 0) : K))
    (x : Tetra.Pt) (hx : real x ∈ Hull (· ∈ P.1)) :
    ∃ iw r q, InterpolatedAt T (costData g.values m₁ f₁) (costData g.vectors m₂ f₂) t x iw r q ∧
      ∃ p ∈ iw.head?, ∀ l k, k < g.values.elements.scalars → ∃ y : ℚ, r (ρ p.1 l * g.values.elements.scalars + k) = (y : K) ∧
        (∀ ε, (∀ v ∈ T.vertices, (∀ d, |v d - x d| ≤ edge) → |F l k v - F l k x| ≤ ε) → |y - F l k x| ≤ ε) ∧
        (Spec.AffineMap (F l k) → y = F l k x) := by
  obtain ⟨iw, r, q, h1, h2, h3, p, hp, h4⟩ := C82_follows h order ho st g m₁ m₂ f₁ f₂ hd ρ hc hg fuel t ht x hx
  refine ⟨iw, r, q, h1, p, hp, fun l k hk => ⟨Spec.combine iw fun i => F l k (T.vertices.getD i 0), ?_, ?_, ?_⟩⟩
  · rw [(h4 l).1 k hk]
    have key : ∀ iw : List (Nat × ℚ), (∀ v ∈ iw, v.1 < T.vertices.length) →
        (iw.map fun v => (v.2 : K) * scalarsOf (costData g.values m₁ f₁) v.1 (ρ v.1 l) k).sum =
          ((Spec.combine iw fun i => F l k (T.vertices.getD i 0) : ℚ) : K) := by
      intro iw
      induction iw with
      | nil => intro _; simp [Spec.combine]
      | cons v r ih =>
        intro hv
        have := ih fun u hu => hv u (List.mem_cons_of_mem _ hu)
        unfold Spec.combine at this ⊢
        rw [List.map_cons, List.sum_cons, this, hF v.1 (hv v List.mem_cons_self) l k hk, List.map_cons, List.sum_cons]
        push_cast
        rfl
    exact key iw fun v hv => (h2 v hv).1
  · intro ε hε
    have := combine_close iw (fun i => F l k (T.vertices.getD i 0)) (F l k x) ε ε (fun v hv => (h2 v hv).2.1) h3 (by
      intro v hv
      obtain ⟨a, -, b⟩ := h2 v hv
      have := abs_le.mp (hε _ (by rw [Convex.getD_lt _ _ a]; exact List.getElem_mem a) b)
      constructor <;> linarith [this.1, this.2])
    rw [abs_le]
    constructor <;> linarith [this.1, this.2]
  · intro hf
    obtain ⟨iw', e1, -, -, e4⟩ := C76_interpolate G h.reliable always turns edge P h.solid h.faces h.size h.pieces S h.shared T h.made x hx
    rw [h1.1] at e1
    cases e1
    exact e4 _ hf

end

/-! ### a case: two modes in the bar, 10 apart, which change places from vertex to vertex -/

/-- the places of the modes -/
def places (i : Nat) : Equiv.Perm (Fin 2) := if i % 2 = 0 then Equiv.refl _ else Equiv.swap 0 1

/-- the modes: the first coordinate, and ten more -/
def tens (l : Fin 2) (v : Tetra.Pt) : ℚ := 10 * l.val + v 0

/-- the modes at the vertices, in their places -/
noncomputable def barModes (T : PolyTrellis) : Fill.Nd ℝ :=
  ⟨[T.vertices.length, 2, 1], fun j => (tens ((places (j / 2)).symm (Fin.ofNat 2 (j % 2))) (T.vertices.getD (j / 2) 0) : ℝ)⟩

/-- no vectors -/
def barVectors (T : PolyTrellis) : Fill.Nd ℂ := ⟨[T.vertices.length, 2, 3], fun _ => 0⟩

/-- the grid with the modes -/
noncomputable def barGrid (T : PolyTrellis) (keys : List Nat) : Fill.Grid ℝ ℂ :=
  Fill.run (Fill.newGrid T.vertices.length keys) [.fill (barModes T) (given [1, 0, 0]) (barVectors T) (given [0, 3, 0])]

theorem barGrid_held (T : PolyTrellis) (keys : List Nat) :
    (barGrid T keys).values = ⟨T.vertices.length, 2, (barModes T).mem, [T.vertices.length, 2, 1], ⟨1, 0, 0⟩, .vector, .realLattice⟩ ∧
    (barGrid T keys).vectors = ⟨T.vertices.length, 6, fun _ => 0, [T.vertices.length, 2, 3], ⟨0, 3, 0⟩, .vector, .realLattice⟩ := by
  have hc : ∀ k, Fill.fillCheck (barModes T) (given [1, 0, 0]).contiguous k =
      .ok ⟨T.vertices.length, 2, (barModes T).mem, [T.vertices.length, 2, 1], ⟨1, 0, 0⟩, .vector, .realLattice⟩ := by
    intro k
    have e1 : Fill.readElements (given [1, 0, 0]).contiguous.len (given [1, 0, 0]).contiguous.raw = ⟨1, 0, 0⟩ := by decide
    have e2 : Fill.readRotatesLike (given [1, 0, 0]).contiguous.len (given [1, 0, 0]).contiguous.raw = .ok .vector := rfl
    have e3 : Fill.readLengthUnit (given [1, 0, 0]).contiguous.len (given [1, 0, 0]).contiguous.raw = .ok .realLattice := rfl
    unfold Fill.fillCheck Fill.checked
    rw [e1, e2, e3]
    simp only [barModes, Fill.make, Fill.checkElements, Fill.rowsCols]
    rw [if_neg (by simp)]
    simp [Fill.Elements.span, Fill.ind]
  have hv : ∀ k, Fill.fillCheck (barVectors T) (given [0, 3, 0]).contiguous k =
      .ok ⟨T.vertices.length, 6, fun _ => 0, [T.vertices.length, 2, 3], ⟨0, 3, 0⟩, .vector, .realLattice⟩ := by
    intro k
    have e1 : Fill.readElements (given [0, 3, 0]).contiguous.len (given [0, 3, 0]).contiguous.raw = ⟨0, 3, 0⟩ := by decide
    have e2 : Fill.readRotatesLike (given [0, 3, 0]).contiguous.len (given [0, 3, 0]).contiguous.raw = .ok .vector := rfl
    have e3 : Fill.readLengthUnit (given [0, 3, 0]).contiguous.len (given [0, 3, 0]).contiguous.raw = .ok .realLattice := rfl
    unfold Fill.fillCheck Fill.checked
    rw [e1, e2, e3]
    simp only [barVectors, Fill.make, Fill.checkElements, Fill.rowsCols]
    rw [if_neg (by simp)]
    simp [Fill.Elements.span, Fill.ind]
  unfold barGrid Fill.run
  simp only [List.foldl_cons, List.foldl_nil, Fill.step, hc, hv, Fill.replaceData]
  rw [if_neg (by simp [Fill.Held.branches, Fill.branches])]
  cases hu : Fill.updateTable (T := ℝ) (R := ℂ) { (Fill.newGrid T.vertices.length keys : Fill.Grid ℝ ℂ) with
      values := ⟨T.vertices.length, 2, (barModes T).mem, [T.vertices.length, 2, 1], ⟨1, 0, 0⟩, .vector, .realLattice⟩,
      vectors := ⟨T.vertices.length, 6, fun _ => 0, [T.vertices.length, 2, 3], ⟨0, 3, 0⟩, .vector, .realLattice⟩ } with
  | error f =>
    exfalso
    unfold Fill.updateTable at hu
    split at hu
    · rename_i h0
      have hp : (Fill.newGrid T.vertices.length keys : Fill.Grid ℝ ℂ).table.permutations ≠ [] := by
        have := (PermTable.insertKeys_spec keys (mk0 T.vertices.length (Fill.emptyHeld ℝ).branches)).2.1
        unfold Fill.newGrid PermTable.mkKeys
        simp only
        rw [this]
        simp [mk0, PermTable.addZeroth]
      unfold PermTable.refresh at h0
      simp only at h0
      split at h0
      · rename_i h1
        apply hp
        rw [← h1]
        split <;> rfl
      · split at h0 <;> cases h0
    · cases hu
  | ok g' =>
    obtain ⟨-, h1, h2, -⟩ := Fill.updateTable_ok hu
    exact ⟨h1, h2⟩

theorem bar_gridOf : ∃ T, GridOf someTetGen false 3 1 bar barSchedule T := by
  obtain ⟨T, hT, -⟩ := C76_construct someTetGen someTetGen_reliable false 3 1 bar (C67_box _ _ (by decide)) (by decide) (by norm_num)
    (by decide +kernel) barSchedule barSchedule_ok
  exact ⟨T, someTetGen_reliable, C67_box _ _ (by decide), by decide, by norm_num, by decide +kernel, barSchedule_ok, hT⟩

theorem barGrid_branches (T : PolyTrellis) (keys : List Nat) : (barGrid T keys).values.branches = 2 := by
  rw [(barGrid_held T keys).1]; rfl

/-- the places of the modes in the grid -/
noncomputable def barPlaces (T : PolyTrellis) (keys : List Nat) (i : Nat) : Equiv.Perm (Fin (barGrid T keys).values.branches) :=
  (finCongr (barGrid_branches T keys).symm).permCongr (places i)

theorem bar_scalars (T : PolyTrellis) (keys : List Nat) (i : Nat) (l : Fin (barGrid T keys).values.branches) :
    scalarsOf (costData (barGrid T keys).values (1, 0, 0) 1) i (barPlaces T keys i l) 0 =
      (tens (finCongr (barGrid_branches T keys) l) (T.vertices.getD i 0) : ℝ) := by
  have hb : (barPlaces T keys i l).val = (places i (finCongr (barGrid_branches T keys) l)).val := rfl
  rw [hb]
  generalize finCongr (barGrid_branches T keys) l = l'
  generalize hp : places i l' = p
  unfold scalarsOf costData
  rw [(barGrid_held T keys).1]
  have h1 : (i * 2 + (p.val * 1 + 0)) / 2 = i := by have := p.isLt; omega
  have h2 : (i * 2 + (p.val * 1 + 0)) % 2 = p.val := by have := p.isLt; omega
  simp only [barModes, h1, h2]
  have h3 : Fin.ofNat 2 p.val = p := by ext; simp [Nat.mod_eq_of_lt p.isLt]
  rw [h3, ← hp, Equiv.symm_apply_apply]

theorem bar_connected : ∃ T, GridOf someTetGen false 3 1 bar barSchedule T ∧ ∀ order, (∀ i, i ∈ order ↔ i < T.nodes.nodes.length) →
    let g := barGrid T (T.collectKeys order)
    PhononData (costData g.values (1, 0, 0) 1) (costData g.vectors (0, 0, 0) 1) ∧ Ready T.vertices.length (T.collectKeys order) g ∧
    Connected (costData g.values (1, 0, 0) 1) (costData g.vectors (0, 0, 0) 1) T.vertices.length (T.collectKeys order)
      (barPlaces T (T.collectKeys order)) := by
  obtain ⟨T, h⟩ := bar_gridOf
  refine ⟨T, h, fun order ho => ⟨?_, ?_, ?_⟩⟩
  · have e := barGrid_held T (T.collectKeys order)
    constructor <;> simp [costData, e.1, e.2, Fill.Held.branches, Fill.branches]
  · refine C62_ready _ _ _ ?_ ⟨trivial, trivial⟩
    intro o ho
    rw [List.mem_singleton.mp ho]
    exact ⟨rfl, rfl⟩
  · intro i j hij hj hk l m hml
    have e := (barGrid_held T (T.collectKeys order)).1
    have hs : (costData (barGrid T (T.collectKeys order)).values (1, 0, 0) 1).scalars = 1 := by simp [costData, e]
    obtain ⟨a, b, -, ha, hb, hab, hclose⟩ := (C82_keys h order ho).1 _ hk
    obtain ⟨rfl, rfl⟩ := PermTable.key_inj hj hb hab
    unfold modePairCost
    rw [hs, Finset.sum_range_one, Finset.sum_range_one]
    have e1 := bar_scalars T (T.collectKeys order) i l
    have e2 := bar_scalars T (T.collectKeys order) j l
    have e3 := bar_scalars T (T.collectKeys order) i m
    change (1 : ℝ) * ‖scalarsOf (costData (barGrid T (T.collectKeys order)).values (1, 0, 0) 1) i (barPlaces T (T.collectKeys order) i l).val 0 -
      scalarsOf (costData (barGrid T (T.collectKeys order)).values (1, 0, 0) 1) j (barPlaces T (T.collectKeys order) j l).val 0‖ + 0 * _ <
      1 * ‖scalarsOf (costData (barGrid T (T.collectKeys order)).values (1, 0, 0) 1) i (barPlaces T (T.collectKeys order) i m).val 0 -
      scalarsOf (costData (barGrid T (T.collectKeys order)).values (1, 0, 0) 1) j (barPlaces T (T.collectKeys order) j l).val 0‖ + 0 * _
    rw [e1, e2, e3, one_mul, one_mul, zero_mul, zero_mul, add_zero, add_zero]
    have h1 : finCongr (barGrid_branches T (T.collectKeys order)) m ≠ finCongr (barGrid_branches T (T.collectKeys order)) l :=
      fun h => hml ((finCongr _).injective h)
    generalize finCongr (barGrid_branches T (T.collectKeys order)) m = m' at h1
    generalize finCongr (barGrid_branches T (T.collectKeys order)) l = l' at h1
    have key : |tens l' (T.vertices.getD i 0) - tens l' (T.vertices.getD j 0)| < |tens m' (T.vertices.getD i 0) - tens l' (T.vertices.getD j 0)| := by
      have hc := abs_le.mp (hclose 0)
      unfold tens
      generalize T.vertices.getD i 0 0 = a at hc ⊢
      generalize T.vertices.getD j 0 0 = b at hc ⊢
      fin_cases l' <;> fin_cases m' <;> simp at h1 ⊢
      · exact (abs_le.mpr hc).trans_lt (lt_abs.mpr (Or.inl (by linarith [hc.1, hc.2])))
      · exact (abs_le.mpr hc).trans_lt (lt_abs.mpr (Or.inr (by linarith [hc.1, hc.2])))
    rw [Real.norm_eq_abs, Real.norm_eq_abs]
    exact_mod_cast key

/-- both modes are found without an error anywhere in the bar, whatever the threads that have sorted them did -/
example : ∃ T, GridOf someTetGen false 3 1 bar barSchedule T ∧ ∀ order, (∀ i, i ∈ order ↔ i < T.nodes.nodes.length) →
    let g := barGrid T (T.collectKeys order)
    ∀ t, SortedBy ModeCost.reals (costData g.values (1, 0, 0) 1) (costData g.vectors (0, 0, 0) 1) T.vertices.length (0 :: T.collectKeys order) 1 g.table t →
    ∀ x : Tetra.Pt, real x ∈ Hull (· ∈ bar.1) → ∃ iw r q,
      InterpolatedAt T (costData g.values (1, 0, 0) 1) (costData g.vectors (0, 0, 0) 1) t x iw r q ∧
      ∀ l, ∃ place < 2, r place = (tens l x : ℝ) := by
  obtain ⟨T, h, hT⟩ := bar_connected
  refine ⟨T, h, fun order ho t ht x hx => ?_⟩
  obtain ⟨h1, h2, h3⟩ := hT order ho
  have e := (barGrid_held T (T.collectKeys order)).1
  have hb := barGrid_branches T (T.collectKeys order)
  have hs : (barGrid T (T.collectKeys order)).values.elements.scalars = 1 := by rw [e]
  obtain ⟨iw, r, q, a, p, -, b⟩ := C82_error h order ho ModeCost.reals _ (1, 0, 0) (0, 0, 0) 1 1 h1 _ h3 h2 0 t ht
    (fun l _ => tens (finCongr hb l)) (by
      intro i _ l k hk
      obtain rfl : k = 0 := by omega
      exact bar_scalars T (T.collectKeys order) i l) x hx
  refine ⟨iw, r, q, a, fun l => ?_⟩
  obtain ⟨y, hy, -, hz⟩ := b ((finCongr hb).symm l) 0 (by omega)
  refine ⟨_, ?_, hy.trans ?_⟩
  · rw [hs, mul_one, add_zero]; exact (Fin.isLt _).trans_eq hb
  · rw [hz ⟨10 * l.val, ![1, 0, 0], fun v => by simp [tens, Fin.sum_univ_three]⟩]
    simp

end Brille.Props
