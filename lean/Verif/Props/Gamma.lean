import Verif.Props.Atoms

/-
C57: the table of atom permutations and lattice vectors for phonon eigenvectors.
-/
namespace Brille.Props

open Brille.Atoms Brille.Mot Brille.Spec Brille.Mat

/-- One entry of the table is right: the operation for `r` is in the space group and has the rotation part wanted, takes
atom `k` to an atom equivalent to the one noted, and the vector noted is accepted as the one wanted. -/
structure EntryRight (near : Pt → Bool) (same : Pt → Pt → Bool) (spg : List Motion) (b : Basis) (g : Gamma) (k r : ℕ) :
    Prop where
  right : ∃ s m l p q x, g.point2space[r]? = some s ∧ spg[s]? = some m ∧ b.equivalentAfter near k m = some (true, l) ∧
    b.positions[k]? = some p ∧ b.positions[l]? = some q ∧ g.F0 k r = some l ∧ g.vector k r = some x ∧
    same x (shiftVector m q p) = true

structure GInv (near : Pt → Bool) (same : Pt → Pt → Bool) (spg : List Motion) (b : Basis) (n o : ℕ) (p2s : List ℕ)
    (done : ℕ × ℕ → Prop) (g : Gamma) : Prop where
  atoms : g.nAtoms = n
  ops : g.nOps = o
  p2s : g.point2space = p2s
  first : g.vectors.head? = some fun _ => 0
  distinct : g.vectors.Pairwise fun x y => same x y = false
  entries : ∀ k r, done (k, r) → EntryRight near same spg b g k r

theorem key_inj {o k r k' r' : ℕ} (hr : r < o) (hr' : r' < o) (h : k * o + r = k' * o + r') : k = k' ∧ r = r' := by
  have h1 : (k * o + r) / o = k := by
    rw [Nat.mul_comm, Nat.mul_add_div (by omega), Nat.div_eq_of_lt hr, Nat.add_zero]
  have h2 : (k' * o + r') / o = k' := by
    rw [Nat.mul_comm, Nat.mul_add_div (by omega), Nat.div_eq_of_lt hr', Nat.add_zero]
  have e : k = k' := by rw [← h1, ← h2, h]
  subst e
  exact ⟨rfl, by omega⟩

/-- looking up a vector and putting it at the end if it is not there -/
theorem lookup_or_add (same : Pt → Pt → Bool) (hs : ∀ x, same x x = true) (vs : List Pt) (vec : Pt) :
    let v := vs.findIdx fun x => same x vec
    let vs' := if v = vs.length then vs ++ [vec] else vs
    (∃ x, vs'[v]? = some x ∧ same x vec = true) ∧ (∀ (i : ℕ) (x : Pt), vs[i]? = some x → vs'[i]? = some x) ∧
    (vs.Pairwise (fun x y => same x y = false) → vs'.Pairwise fun x y => same x y = false) ∧
    (vs ≠ [] → vs'.head? = vs.head?) := by
  intro v vs'
  by_cases h : v = vs.length
  · have e : vs' = vs ++ [vec] := if_pos h
    rw [e]
    refine ⟨⟨vec, ?_, hs vec⟩, ?_, ?_, ?_⟩
    · rw [h, List.getElem?_append_right (Nat.le_refl _)]; simp
    · intro i x hx
      rw [List.getElem?_append_left (List.getElem?_eq_some_iff.1 hx).1, hx]
    · intro hp
      rw [List.pairwise_append]
      refine ⟨hp, by simp, fun a ha c hc => ?_⟩
      rw [List.mem_singleton] at hc
      subst hc
      have := List.findIdx_eq_length.1 h a ha
      exact this
    · intro hne
      rw [List.head?_append_of_ne_nil _ hne]
  · have e : vs' = vs := if_neg h
    have hlt : v < vs.length := Nat.lt_of_le_of_ne List.findIdx_le_length h
    rw [e]
    exact ⟨⟨vs[v], List.getElem?_eq_getElem hlt, List.findIdx_getElem (w := hlt)⟩, fun _ _ h => h, fun h => h,
      fun _ => rfl⟩

theorem step_inv (near : Pt → Bool) (same : Pt → Pt → Bool) (hs : ∀ x, same x x = true) (spg : List Motion) (b : Basis)
    (n o : ℕ) (p2s : List ℕ) (done : ℕ × ℕ → Prop) (hdone : ∀ k r, done (k, r) → k < n ∧ r < o) (g g' : Gamma)
    (hg : GInv near same spg b n o p2s done g) (k r : ℕ) (h : g.step near same spg b (k, r) = some g') :
    GInv near same spg b n o p2s (fun e => done e ∨ e = (k, r)) g' ∧ k < n ∧ r < o := by
  unfold Gamma.step at h
  dsimp only at h
  split at h
  · cases h
  rename_i m hm
  split at h
  case h_2 => cases h
  rename_i l hl
  split at h
  case h_2 => cases h
  rename_i rl rk hrl hrk
  split at h
  case h_2 => cases h
  rename_i key hkey
  obtain ⟨⟨x, hx, hsx⟩, hkeep, hpair, hhead⟩ := lookup_or_add same hs g.vectors (shiftVector m rl rk)
  have hkey' := hkey
  unfold Gamma.key at hkey'
  split at hkey'
  case isFalse => cases hkey'
  rename_i hlt
  rw [hg.atoms, hg.ops] at hlt
  have ekey : key = k * o + r := by rw [← hg.ops]; exact (Option.some.inj hkey').symm
  have hg' := Option.some.inj h
  have hne : g.vectors ≠ [] := by
    intro e; have := hg.first; rw [e] at this; cases this
  have a1 : g'.nAtoms = n := (congrArg Gamma.nAtoms hg').symm.trans hg.atoms
  have a2 : g'.nOps = o := (congrArg Gamma.nOps hg').symm.trans hg.ops
  have a3 : g'.point2space = g.point2space := (congrArg Gamma.point2space hg').symm
  have a4 : g'.l = Function.update g.l key l := (congrArg Gamma.l hg').symm
  have a5 : g'.v = Function.update g.v key (g.vectors.findIdx fun x => same x (shiftVector m rl rk)) :=
    (congrArg Gamma.v hg').symm
  have a6 := (congrArg Gamma.vectors hg').symm
  dsimp only at a6 hx hkeep hpair hhead
  rw [← a6] at hx hkeep hpair hhead
  clear hg' h a6
  have hk' : ∀ k' r', g'.key k' r' = g.key k' r' := by
    intro k' r'; simp only [Gamma.key, a1, a2, hg.atoms, hg.ops]
  refine ⟨⟨a1, a2, a3.trans hg.p2s, (hhead hne).trans hg.first, hpair hg.distinct, ?_⟩, hlt⟩
  have hnew : g'.F0 k r = some l ∧ g'.vector k r = some x := by
    simp only [Gamma.F0, Gamma.vector, Gamma.vectorIndex, hk', hkey, Option.map_some, a4, a5, Function.update_self,
      Option.bind_some]
    exact ⟨trivial, hx⟩
  have hnewEntry : EntryRight near same spg b g' k r := by
    rcases hs' : g.point2space[r]? with _ | s
    · rw [hs'] at hm; cases hm
    · rw [hs'] at hm
      exact ⟨s, m, l, rk, rl, x, a3 ▸ hs', hm, hl, hrk, hrl, hnew.1, hnew.2, hsx⟩
  intro k' r' hd
  by_cases e : (k', r') = (k, r)
  · cases e; exact hnewEntry
  · rcases hd with hd | hd
    · obtain ⟨s, m', l', p, q, x', h1, h2, h3, h4, h5, h6, h7, h8⟩ := (hg.entries k' r' hd).right
      have hlt' := hdone k' r' hd
      have hk2 : g.key k' r' = some (k' * o + r') := by
        simp only [Gamma.key, hg.atoms, hg.ops, if_pos hlt']
      have hnek : k' * o + r' ≠ key := by
        rw [ekey]; intro e'
        obtain ⟨e1, e2⟩ := key_inj hlt'.2 hlt.2 e'
        exact e (by rw [e1, e2])
      refine ⟨s, m', l', p, q, x', a3 ▸ h1, h2, h3, h4, h5, ?_, ?_, h8⟩
      · rw [← h6]
        simp only [Gamma.F0, hk', hk2, Option.map_some, a4, Function.update_of_ne hnek]
      · simp only [Gamma.vector, Gamma.vectorIndex, hk2, Option.map_some, Option.bind_some] at h7
        simp only [Gamma.vector, Gamma.vectorIndex, hk', hk2, Option.map_some, a5, Function.update_of_ne hnek,
          Option.bind_some]
        exact hkeep _ _ h7
    · exact absurd hd e

theorem fold_inv (near : Pt → Bool) (same : Pt → Pt → Bool) (hs : ∀ x, same x x = true) (spg : List Motion) (b : Basis)
    (n o : ℕ) (p2s : List ℕ) (todo : List (ℕ × ℕ)) (done : ℕ × ℕ → Prop)
    (hdone : ∀ k r, done (k, r) → k < n ∧ r < o) (g g' : Gamma)
    (hg : GInv near same spg b n o p2s done g) (h : todo.foldlM (Gamma.step near same spg b) g = some g') :
    GInv near same spg b n o p2s (fun e => done e ∨ e ∈ todo) g' := by
  induction todo generalizing g done with
  | nil =>
    have e : g = g' := Option.some.inj h
    subst e
    exact { hg with entries := fun k r hd => hg.entries k r (by simpa using hd) }
  | cons a todo ih =>
    obtain ⟨k, r⟩ := a
    rw [List.foldlM_cons] at h
    rcases hst : g.step near same spg b (k, r) with _ | g1
    · rw [hst] at h; cases h
    · rw [hst] at h
      obtain ⟨h1, h2⟩ := step_inv near same hs spg b n o p2s done hdone g g1 hg k r hst
      have := ih (fun e => done e ∨ e = (k, r)) (by
        rintro k' r' (hd | hd)
        · exact hdone k' r' hd
        · cases hd; exact h2) g1 h1 h
      exact { this with entries := fun k' r' hd => this.entries k' r' (by
                rcases hd with hd | hd
                · exact Or.inl (Or.inl hd)
                · rcases List.mem_cons.1 hd with hd | hd
                  · exact Or.inl (Or.inr hd)
                  · exact Or.inr hd) }

theorem mapM_some_get {α β : Type} (f : α → Option β) (l : List α) (r : List β) (h : l.mapM f = some r) :
    r.length = l.length ∧ ∀ (i : ℕ) (a : α), l[i]? = some a → ∃ c, f a = some c ∧ r[i]? = some c := by
  induction l generalizing r with
  | nil =>
    have : r = [] := by simpa using h.symm
    subst this; simp
  | cons a l ih =>
    rw [List.mapM_cons] at h
    rcases ha : f a with _ | c
    · rw [ha] at h; cases h
    · rcases hl : l.mapM f with _ | r'
      · rw [ha, hl] at h; cases h
      · rw [ha, hl] at h
        have : r = c :: r' := (Option.some.inj h).symm
        subst this
        obtain ⟨h1, h2⟩ := ih r' hl
        refine ⟨by simp [h1], fun i x hx => ?_⟩
        cases i with
        | zero => exact ⟨c, by rw [← ha]; simp at hx; rw [hx], rfl⟩
        | succ i => exact h2 i x hx

/-- **C57 (what the table holds).** If the table can be made then, whatever the comparisons (of which only reflexivity is
needed): there is for every operation of the point group one operation of the space group with this rotation part, and
for every atom the table holds the number of an atom equivalent to its image and a vector accepted as
`S⁻¹ r_l - r_k`.  The vectors kept begin with zero and none is kept twice.  Beyond the numbers of atoms and operations
the table refuses to answer. -/
theorem C57_table (near : (Fin 3 → ℚ) → Bool) (same : (Fin 3 → ℚ) → (Fin 3 → ℚ) → Bool) (hs : ∀ x, same x x = true)
    (ps : List (Fin 3 → Fin 3 → ℤ)) (spg : List Motion) (b : Basis) (g : Gamma)
    (h : Gamma.construct near same ps spg b = some g) :
    (∃ S : ℕ → Motion, ∀ r R, ps[r]? = some R → S r ∈ spg ∧ (S r).W = R ∧
      ∀ k p, b.positions[k]? = some p → ∃ l q v,
        g.F0 k r = some l ∧ b.equivalentAfter near k (S r) = some (true, l) ∧ b.positions[l]? = some q ∧
        g.vector k r = some v ∧ same v (fun i => movePoint (inverse (S r)) q i - p i) = true) ∧
    g.vectors.head? = some (fun _ => 0) ∧ g.vectors.Pairwise (fun x y => same x y = false) ∧
    ∀ k r, (b.positions.length ≤ k ∨ ps.length ≤ r) → g.F0 k r = none ∧ g.vector k r = none := by
  unfold Gamma.construct at h
  split at h
  · cases h
  rename_i p2s hp
  have hinv := fold_inv near same hs spg b b.positions.length ps.length p2s _ (fun _ => False)
    (fun _ _ hd => hd.elim) _ g ⟨rfl, rfl, rfl, rfl, by simp, fun _ _ hd => hd.elim⟩ h
  obtain ⟨hlen, hget⟩ := mapM_some_get _ ps p2s hp
  refine ⟨⟨fun r => ((p2s[r]?.bind fun s => spg[s]?).getD ⟨fun _ _ => 0, fun _ => 0⟩), ?_⟩, hinv.first, hinv.distinct,
    fun k r hkr => ?_⟩
  · intro r R hR
    obtain ⟨s, hs1, hs2⟩ := hget r R hR
    split at hs1
    case isFalse => cases hs1
    rename_i hlt
    have es : findMatrixIndex spg R = s := Option.some.inj hs1
    rw [es] at hlt
    have hspg : spg[s]? = some spg[s] := List.getElem?_eq_getElem hlt
    dsimp only
    rw [hs2, Option.bind_some, hspg, Option.getD_some]
    refine ⟨List.getElem_mem _, ?_, fun k p hk => ?_⟩
    · have := List.findIdx_getElem (xs := spg) (p := fun m => decide (m.W = R)) (w := by
        show findMatrixIndex spg R < _; rw [es]; exact hlt)
      simp only [decide_eq_true_eq] at this
      simp only [findMatrixIndex] at es
      simp only [es] at this
      exact this
    · obtain ⟨s', m, l, p', q, x, h1, h2, h3, h4, h5, h6, h7, h8⟩ := (hinv.entries k r (Or.inr (by
        rw [List.mem_flatMap]
        exact ⟨k, List.mem_range.2 (List.getElem?_eq_some_iff.1 hk).1, List.mem_map.2
          ⟨r, List.mem_range.2 (List.getElem?_eq_some_iff.1 hR).1, rfl⟩⟩))).right
      rw [hinv.p2s, hs2] at h1
      have e1 : s = s' := Option.some.inj h1
      subst e1
      have e2 : spg[s] = m := Option.some.inj (hspg.symm.trans h2)
      have e3 : p' = p := Option.some.inj (h4.symm.trans hk)
      subst e3
      rw [e2]
      exact ⟨l, q, x, h6, h3, h5, h7, h8⟩
  · have : g.key k r = none := by
      simp only [Gamma.key, hinv.atoms, hinv.ops]
      rw [if_neg (by omega)]
    simp [Gamma.F0, Gamma.vector, Gamma.vectorIndex, this]

/-- **C57 (the vectors are lattice vectors).** With exact comparison and operations of determinant ±1: the vector noted
for atom `k` under operation `r` has whole components.  Up to a vector `m` that is the same for all atoms, its image under
the rotation is the lattice vector from the image of the atom to the equivalent atom of the first cell. -/
theorem C57_lattice_vectors (ps : List (Fin 3 → Fin 3 → ℤ)) (spg : List Motion) (b : Basis) (g : Gamma)
    (hdet : ∀ m ∈ spg, det3 m.W = 1 ∨ det3 m.W = -1)
    (h : Gamma.construct isZero isSame ps spg b = some g) :
    ∃ S : ℕ → Motion, ∀ r R, ps[r]? = some R → S r ∈ spg ∧ (S r).W = R ∧ ∃ m : Fin 3 → ℤ,
      ∀ k p, b.positions[k]? = some p → ∃ l q, ∃ v : Fin 3 → ℤ,
        g.F0 k r = some l ∧ b.types[l]? = b.types[k]? ∧ b.positions[l]? = some q ∧
        g.vector k r = some (fun i => (v i : ℚ)) ∧
        ∀ i, affine R (fun _ => 0) (fun j => ((v j - m j : ℤ) : ℚ)) i = q i - affine R (S r).w p i := by
  obtain ⟨⟨S, hS⟩, _⟩ := C57_table isZero isSame (fun x => by simp [isSame]) ps spg b g h
  refine ⟨S, fun r R hR => ?_⟩
  obtain ⟨h1, h2, h3⟩ := hS r R hR
  have hd := hdet _ h1
  -- the translation of the inverse, before it is reduced
  refine ⟨h1, h2, fun i => -⌊mulVec (Mot.cast (invMat (S r).W)) (S r).w i * (-1)⌋, fun k p hk => ?_⟩
  obtain ⟨l, q, v, f1, f2, f3, f4, f5⟩ := h3 k p hk
  have ev : v = fun i => movePoint (inverse (S r)) q i - p i := by simpa [isSame] using f5
  have hty : ∃ t, b.types[k]? = some t ∧ AtomAt b l t (movePoint (S r) p) := by
    unfold Basis.equivalentAfter at f2
    rw [hk] at f2
    split at f2
    · rename_i p' t hp' ht
      have e : p = p' := Option.some.inj hp'
      subst e
      have := (equivalentTo_true b isZero t _ l).1 (Option.some.inj f2)
      rw [exact_iff] at this
      exact ⟨t, ht, this.1⟩
    · cases f2
  obtain ⟨t, ht, q', hq', hlt, hsame⟩ := hty
  have eq' : q' = q := Option.some.inj (hq'.symm.trans f3)
  subst eq'
  choose z hz using hsame
  obtain ⟨hi1, hi2⟩ := invMat_mul (S r).W hd
  have e1 : ∀ i j, (S r).W i 0 * invMat (S r).W 0 j + (S r).W i 1 * invMat (S r).W 1 j +
      (S r).W i 2 * invMat (S r).W 2 j = if i = j then 1 else 0 := fun i j => by
    rw [← mulArrays3, hi1]; rfl
  have e2 : ∀ i j, invMat (S r).W i 0 * (S r).W 0 j + invMat (S r).W i 1 * (S r).W 1 j +
      invMat (S r).W i 2 * (S r).W 2 j = if i = j then 1 else 0 := fun i j => by
    rw [← mulArrays3, hi2]; rfl
  have hz0 := hz 0; have hz1 := hz 1; have hz2 := hz 2
  have hvi : ∀ i, v i = ((-(invMat (S r).W i 0 * z 0 + invMat (S r).W i 1 * z 1 + invMat (S r).W i 2 * z 2) -
      ⌊mulVec (Mot.cast (invMat (S r).W)) (S r).w i * (-1)⌋ : ℤ) : ℚ) := by
    intro i
    rw [ev]
    have c0 : ((invMat (S r).W i 0 * (S r).W 0 0 + invMat (S r).W i 1 * (S r).W 1 0 +
      invMat (S r).W i 2 * (S r).W 2 0 : ℤ) : ℚ) = ((if i = 0 then 1 else 0 : ℤ) : ℚ) := by rw [e2 i 0]
    have c1 : ((invMat (S r).W i 0 * (S r).W 0 1 + invMat (S r).W i 1 * (S r).W 1 1 +
      invMat (S r).W i 2 * (S r).W 2 1 : ℤ) : ℚ) = ((if i = 1 then 1 else 0 : ℤ) : ℚ) := by rw [e2 i 1]
    have c2 : ((invMat (S r).W i 0 * (S r).W 0 2 + invMat (S r).W i 1 * (S r).W 1 2 +
      invMat (S r).W i 2 * (S r).W 2 2 : ℤ) : ℚ) = ((if i = 2 then 1 else 0 : ℤ) : ℚ) := by rw [e2 i 2]
    have hpi : p i = ((if i = 0 then 1 else 0 : ℤ) : ℚ) * p 0 + ((if i = 1 then 1 else 0 : ℤ) : ℚ) * p 1 +
        ((if i = 2 then 1 else 0 : ℤ) : ℚ) * p 2 := by
      fin_cases i <;> simp
    simp only [movePoint, inverse, mulVec3, Mot.cast] at hz0 hz1 hz2 ⊢
    rw [hpi, ← c0, ← c1, ← c2]
    push_cast
    linear_combination -(invMat (S r).W i 0 : ℚ) * hz0 - (invMat (S r).W i 1 : ℚ) * hz1 - (invMat (S r).W i 2 : ℚ) * hz2
  refine ⟨l, q', fun i => (-(invMat (S r).W i 0 * z 0 + invMat (S r).W i 1 * z 1 + invMat (S r).W i 2 * z 2) -
      ⌊mulVec (Mot.cast (invMat (S r).W)) (S r).w i * (-1)⌋), f1, hlt.trans ht.symm, f3, ?_, fun i => ?_⟩
  · rw [f4]; congr 1; funext i; exact hvi i
  · have c0 : (((S r).W i 0 * invMat (S r).W 0 0 + (S r).W i 1 * invMat (S r).W 1 0 +
      (S r).W i 2 * invMat (S r).W 2 0 : ℤ) : ℚ) = ((if i = 0 then 1 else 0 : ℤ) : ℚ) := by rw [e1 i 0]
    have c1 : (((S r).W i 0 * invMat (S r).W 0 1 + (S r).W i 1 * invMat (S r).W 1 1 +
      (S r).W i 2 * invMat (S r).W 2 1 : ℤ) : ℚ) = ((if i = 1 then 1 else 0 : ℤ) : ℚ) := by rw [e1 i 1]
    have c2 : (((S r).W i 0 * invMat (S r).W 0 2 + (S r).W i 1 * invMat (S r).W 1 2 +
      (S r).W i 2 * invMat (S r).W 2 2 : ℤ) : ℚ) = ((if i = 2 then 1 else 0 : ℤ) : ℚ) := by rw [e1 i 2]
    have hzi : (z i : ℚ) = ((if i = 0 then 1 else 0 : ℤ) : ℚ) * z 0 + ((if i = 1 then 1 else 0 : ℤ) : ℚ) * z 1 +
        ((if i = 2 then 1 else 0 : ℤ) : ℚ) * z 2 := by
      fin_cases i <;> simp
    have hzz := hz i
    rw [← c0, ← c1, ← c2] at hzi
    simp only [movePoint, mulVec3, Mot.cast] at hzz
    simp only [affine, ← h2]
    push_cast at hzi ⊢
    linear_combination hzi + hzz

/-- **C57 (the atoms are permuted).** In a proper cell, with operations of determinant ±1, the numbers noted for one
operation are a permutation of the atoms. -/
theorem C57_permutation (ps : List (Fin 3 → Fin 3 → ℤ)) (spg : List Motion) (b : Basis) (hb : ProperCell b) (g : Gamma)
    (hdet : ∀ m ∈ spg, det3 m.W = 1 ∨ det3 m.W = -1)
    (h : Gamma.construct isZero isSame ps spg b = some g) (r : ℕ) (hr : r < ps.length) :
    ∃ σ : Equiv.Perm (Fin b.positions.length), ∀ k : Fin b.positions.length, g.F0 k r = some (σ k : ℕ) := by
  obtain ⟨⟨S, hS⟩, _⟩ := C57_table isZero isSame (fun x => by simp [isSame]) ps spg b g h
  obtain ⟨h1, h2, h3⟩ := hS r ps[r] (List.getElem?_eq_getElem hr)
  obtain ⟨σ, hσ⟩ := C56_permutation b hb (S r) (hdet _ h1) (fun k hk => by
    obtain ⟨l, q, v, _, f2, _⟩ := h3 k _ (List.getElem?_eq_getElem hk)
    exact ⟨l, f2⟩)
  refine ⟨σ, fun k => ?_⟩
  obtain ⟨l, q, v, f1, f2, _⟩ := h3 k _ (List.getElem?_eq_getElem k.2)
  have := (hσ k).1.symm.trans f2
  rw [f1]
  simpa using this.symm

theorem step_some (near : Pt → Bool) (same : Pt → Pt → Bool) (spg : List Motion) (b : Basis) (g : Gamma) (k r s l : ℕ)
    (m : Motion) (hk : k < g.nAtoms) (hr : r < g.nOps) (h1 : g.point2space[r]? = some s) (h2 : spg[s]? = some m)
    (h3 : b.equivalentAfter near k m = some (true, l)) (hkp : k < b.positions.length) (hl : l < b.positions.length) :
    ∃ g', g.step near same spg b (k, r) = some g' ∧ g'.nAtoms = g.nAtoms ∧ g'.nOps = g.nOps ∧
      g'.point2space = g.point2space := by
  unfold Gamma.step
  have hkey : g.key k r = some (k * g.nOps + r) := if_pos ⟨hk, hr⟩
  dsimp only
  rw [h1, Option.bind_some, h2]
  dsimp only
  rw [h3]
  dsimp only
  rw [List.getElem?_eq_getElem hl, List.getElem?_eq_getElem hkp, hkey]
  exact ⟨_, rfl, rfl, rfl, rfl⟩

/-- **C57 (when the table can be made).** The table is made exactly if every operation of the point group is the rotation
part of an operation of the space group, and the first of these takes every atom to an equivalent one. -/
theorem C57_succeeds (near : (Fin 3 → ℚ) → Bool) (same : (Fin 3 → ℚ) → (Fin 3 → ℚ) → Bool) (hs : ∀ x, same x x = true)
    (ps : List (Fin 3 → Fin 3 → ℤ)) (spg : List Motion) (b : Basis) :
    (Gamma.construct near same ps spg b).isSome = true ↔
      ∀ R ∈ ps, ∃ m, spg.find? (fun m => decide (m.W = R)) = some m ∧
        ∀ k < b.positions.length, ∃ l, b.equivalentAfter near k m = some (true, l) := by
  have hidx : ∀ R, findMatrixIndex spg R < spg.length → ∀ m, spg[findMatrixIndex spg R]? = some m →
      spg.find? (fun m => decide (m.W = R)) = some m := by
    intro R hlt m hm
    rw [List.find?_eq_getElem?_findIdx]
    exact hm
  constructor
  · intro h R hR
    obtain ⟨g, hg⟩ := Option.isSome_iff_exists.1 h
    unfold Gamma.construct at hg
    split at hg
    · cases hg
    rename_i p2s hp
    have hinv := fold_inv near same hs spg b b.positions.length ps.length p2s _ (fun _ => False)
      (fun _ _ hd => hd.elim) _ g ⟨rfl, rfl, rfl, rfl, by simp, fun _ _ hd => hd.elim⟩ hg
    obtain ⟨hlen, hget⟩ := mapM_some_get _ ps p2s hp
    obtain ⟨r, hr, rfl⟩ := List.getElem_of_mem hR
    obtain ⟨s, hs1, hs2⟩ := hget r ps[r] (List.getElem?_eq_getElem hr)
    split at hs1
    case isFalse => cases hs1
    rename_i hlt
    have es : findMatrixIndex spg ps[r] = s := Option.some.inj hs1
    refine ⟨spg[findMatrixIndex spg ps[r]], hidx _ hlt _ (List.getElem?_eq_getElem hlt), fun k hk => ?_⟩
    obtain ⟨s', m, l, p', q, x, h1, h2, h3, _⟩ := (hinv.entries k r (Or.inr (by
        rw [List.mem_flatMap]
        exact ⟨k, List.mem_range.2 hk, List.mem_map.2 ⟨r, List.mem_range.2 hr, rfl⟩⟩))).right
    rw [hinv.p2s, hs2] at h1
    have e1 : s = s' := Option.some.inj h1
    rw [← e1, ← es, List.getElem?_eq_getElem hlt] at h2
    rw [Option.some.inj h2]
    exact ⟨l, h3⟩
  · intro h
    have hlt : ∀ R ∈ ps, findMatrixIndex spg R < spg.length := by
      intro R hR
      obtain ⟨m, hm, _⟩ := h R hR
      rw [findMatrixIndex, List.findIdx_lt_length]
      exact ⟨m, List.mem_of_find?_eq_some hm, (List.find?_eq_some_iff_append.1 hm).1⟩
    have hp : toSpace spg ps = some (ps.map (findMatrixIndex spg)) := by
      unfold toSpace
      have : ∀ qs : List (Fin 3 → Fin 3 → ℤ), (∀ R ∈ qs, findMatrixIndex spg R < spg.length) →
          (qs.mapM fun W => if findMatrixIndex spg W < spg.length then some (findMatrixIndex spg W) else none) =
            some (qs.map (findMatrixIndex spg)) := by
        intro qs
        induction qs with
        | nil => intro _; rfl
        | cons R qs ih =>
          intro hq
          rw [List.mapM_cons, if_pos (hq R (by simp)), ih fun R' hR' => hq R' (by simp [hR'])]
          rfl
      exact this ps hlt
    unfold Gamma.construct
    rw [hp]
    dsimp only
    have key : ∀ (todo : List (ℕ × ℕ)) (g : Gamma), g.nAtoms = b.positions.length → g.nOps = ps.length →
        g.point2space = ps.map (findMatrixIndex spg) → (∀ e ∈ todo, e.1 < b.positions.length ∧ e.2 < ps.length) →
        (todo.foldlM (Gamma.step near same spg b) g).isSome = true := by
      intro todo
      induction todo with
      | nil => intro g _ _ _ _; rfl
      | cons e todo ih =>
        intro g h1 h2 h3 h4
        obtain ⟨k, r⟩ := e
        obtain ⟨hk, hr⟩ := h4 (k, r) (by simp)
        dsimp only at hk hr
        obtain ⟨m, hm, hml⟩ := h ps[r] (List.getElem_mem hr)
        obtain ⟨l, hl⟩ := hml k hk
        have hll : l < b.positions.length := by
          unfold Basis.equivalentAfter at hl
          split at hl
          · rename_i p t _ _
            obtain ⟨⟨q, hq, _⟩, _⟩ := (equivalentTo_true b near t _ l).1 (Option.some.inj hl)
            exact (List.getElem?_eq_some_iff.1 hq).1
          · cases hl
        have hlt' := hlt ps[r] (List.getElem_mem hr)
        have hm2 : spg[findMatrixIndex spg ps[r]]? = some m := by
          rw [findMatrixIndex, ← List.find?_eq_getElem?_findIdx]; exact hm
        obtain ⟨g', e1, e2, e3, e4⟩ := step_some near same spg b g k r (findMatrixIndex spg ps[r]) l m (by rw [h1]; exact hk)
          (by rw [h2]; exact hr) (by rw [h3, List.getElem?_map, List.getElem?_eq_getElem hr]; rfl) hm2 hl hk hll
        rw [List.foldlM_cons, e1]
        exact ih g' (e2.trans h1) (e3.trans h2) (e4.trans h3) fun e he => h4 e (by simp [he])
    refine key _ _ rfl rfl rfl fun e he => ?_
    rw [List.mem_flatMap] at he
    obtain ⟨k, hk, he⟩ := he
    obtain ⟨r, hr, rfl⟩ := List.mem_map.1 he
    exact ⟨List.mem_range.1 hk, List.mem_range.1 hr⟩

-- the table of the unit operation and the inversion for three atoms: the inversion exchanges the last two, and takes each
-- to the cell one lattice vector along the diagonal
example : (Gamma.construct isZero isSame [idMat, inv0.W] unitInv cell3).map (fun g =>
      ((List.range 3).map fun k => (g.F0 k 1, (g.vector k 1).map fun v => v 0), g.vectors.length)) =
    some ([(some 0, some 0), (some 2, some (-1)), (some 1, some (-1))], 2) := by decide +kernel

example : ∀ m ∈ unitInv, det3 m.W = 1 ∨ det3 m.W = -1 := by
  intro m hm
  rcases List.mem_cons.1 hm with rfl | hm
  · decide +kernel
  · rcases List.mem_cons.1 hm with rfl | hm
    · decide +kernel
    · cases hm

-- an operation which does not belong to the crystal is refused
example : (Gamma.construct isZero isSame [idMat, inv0.W] [ofTranslation fun _ => 0, ⟨inv0.W, ![1 / 2, 0, 0]⟩] cell3).isNone =
    true := by decide +kernel

end Brille.Props
