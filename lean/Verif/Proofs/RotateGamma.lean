import Verif.Spec.Phonon
import Verif.Proofs.Rotate
import Verif.Props.Gamma

/-
Lemmas on rotating phonon eigenvectors.
-/
namespace Brille.Rot

open Brille.Mat Brille.Spec Brille.Mot Brille.Atoms

variable {K : Type} [CommRing K]

omit [CommRing K] in
theorem put_spec {t t' : List K} {o : ℕ} {v : List K} (h : put t o v = some t') :
    t'.length = t.length ∧ (∀ i < v.length, t'[o + i]? = v[i]?) ∧
    ∀ i, i < o ∨ o + v.length ≤ i → t'[i]? = t[i]? := by
  unfold put at h
  split at h
  · rename_i hle
    have e := (Option.some.inj h).symm
    subst e
    have hto : (t.take o).length = o := by rw [List.length_take]; omega
    refine ⟨by simp; omega, fun i hi => ?_, fun i hi => ?_⟩
    · rw [List.append_assoc, List.getElem?_append_right (by omega), hto, Nat.add_sub_cancel_left,
        List.getElem?_append_left hi]
    · rcases hi with hi | hi
      · rw [List.append_assoc, List.getElem?_append_left (by omega), List.getElem?_take_of_lt hi]
      · rw [List.getElem?_append_right (by rw [List.length_append, hto]; exact hi), List.length_append, hto,
          List.getElem?_drop, Nat.add_sub_cancel' hi]
  · cases h

omit [CommRing K] in
theorem put_some {t : List K} {o : ℕ} {v : List K} (h : o + v.length ≤ t.length) : ∃ t', put t o v = some t' := by
  unfold put
  rw [if_pos h]
  exact ⟨_, rfl⟩

theorem grow_length (t : List K) (n : ℕ) : n ≤ (grow t n).length := by
  unfold grow
  split
  · simp; omega
  · omega

theorem gammaVecs_spec (e : ℚ → K) (g : Gamma) (q : Fin 3 → ℚ) (rot : Fin 3 → Fin 3 → K) (ir : ℕ) (x : ℕ → K) (o : ℕ)
    (N : ℕ) (σ : ℕ → ℕ) (ph : ℕ → K) (hσ : ∀ k < N, σ k < N) (hinj : ∀ k < N, ∀ k' < N, σ k = σ k' → k = k')
    (hF : ∀ k < N, g.F0 k ir = some (σ k)) (hp : ∀ k < N, phaseAt e g q k ir = some (ph k))
    (n k : ℕ) (hkn : k + n = N) (t : List K) (ht : 3 * N ≤ t.length) :
    ∃ t', gammaVecs e g q rot ir x o k n t = some t' ∧ t'.length = t.length ∧
      (∀ k', k ≤ k' → k' < N → ∀ j : Fin 3, t'[3 * σ k' + j]? = some (ph k' * times rot (readVec x (o + 3 * k')) j)) ∧
      ∀ i, (∀ k', k ≤ k' → k' < N → i < 3 * σ k' ∨ 3 * σ k' + 3 ≤ i) → t'[i]? = t[i]? := by
  induction n generalizing k t with
  | zero => exact ⟨t, rfl, rfl, fun k' h1 h2 => absurd h2 (by omega), fun _ _ => rfl⟩
  | succ n ih =>
    have hk : k < N := by omega
    have hsk := hσ k hk
    obtain ⟨t1, ht1⟩ := put_some (t := t) (o := 3 * σ k)
      (v := List.ofFn fun j => ph k * mulVec rot (readVec x (o + 3 * k)) j) (by rw [List.length_ofFn]; omega)
    obtain ⟨hl1, hin, hout⟩ := put_spec ht1
    rw [List.length_ofFn] at hin hout
    obtain ⟨t2, ht2, hl2, hv2, hr2⟩ := ih (k + 1) (by omega) t1 (by omega)
    refine ⟨t2, ?_, by omega, fun k' h1 h2 j => ?_, fun i hi => ?_⟩
    · rw [gammaVecs, hF k hk, hp k hk]
      dsimp only
      rw [ht1]
      exact ht2
    · by_cases ek : k' = k
      · subst ek
        rw [hr2 _ (fun k'' h3 h4 => by
          have : σ k'' ≠ σ k' := fun e' => by have := hinj k'' h4 k' h2 e'; omega
          omega), hin j j.2, mulVec_times, List.getElem?_ofFn]
        simp
      · exact hv2 k' (by omega) h2 j
    · rw [hr2 i fun k' h1 h2 => hi k' (by omega) h2]
      exact hout i (hi k (Nat.le_refl _) hk)

theorem copyBack_spec (x : ℕ → K) (o n : ℕ) (t : List K) :
    (∀ i < n, copyBack x o n t (o + i) = t.getD i 0) ∧ ∀ i, i < o ∨ o + n ≤ i → copyBack x o n t i = x i := by
  unfold copyBack
  induction n with
  | zero => exact ⟨fun i hi => absurd hi (by omega), fun _ _ => rfl⟩
  | succ n ih =>
    rw [List.range_succ, List.foldl_append, List.foldl_cons, List.foldl_nil]
    refine ⟨fun i hi => ?_, fun i hi => ?_⟩
    · by_cases e : i = n
      · subst e; rw [Function.update_self]
      · rw [Function.update_of_ne (by omega)]; exact ih.1 i (by omega)
    · rw [Function.update_of_ne (by omega)]; exact ih.2 i (by omega)

/-- one branch of vectors only -/
theorem gammaBranch_spec (e : ℚ → K) (g : Gamma) (q : Fin 3 → ℚ) (rotR rotI : Fin 3 → Fin 3 → K) (r ir : ℕ) (l : Layout)
    (nmat N : ℕ) (h1 : l.e1 = 3 * N) (h2 : l.e2 = 0) (σ : ℕ → ℕ) (ph : ℕ → K) (hσ : ∀ k < N, σ k < N)
    (hinj : ∀ k < N, ∀ k' < N, σ k = σ k' → k = k')
    (hF : ∀ k < N, g.F0 k ir = some (σ k)) (hp : ∀ k < N, phaseAt e g q k ir = some (ph k))
    (x : ℕ → K) (t : List K) (b : ℕ) :
    ∃ x' t', gammaBranch e g q rotR rotI r ir l nmat (x, t) b = some (x', t') ∧
      (∀ k < N, ∀ j : Fin 3, x' (b * l.span + l.e0 + 3 * σ k + j) =
        ph k * times rotI (readVec x (b * l.span + l.e0 + 3 * k)) j) ∧
      ∀ i, i < b * l.span + l.e0 ∨ b * l.span + l.e0 + 3 * N ≤ i → x' i = x i := by
  have hn1 : l.n1 = N := by rw [Layout.n1, h1]; omega
  have hn2 : l.n2 = 0 := by rw [Layout.n2, h2]
  unfold gammaBranch
  dsimp only
  rw [hn1, hn2]
  by_cases hN : 0 < N
  · rw [if_pos hN]
    obtain ⟨t1, ht1, hl1, hv1, -⟩ := gammaVecs_spec e g q rotI ir x (b * l.span + l.e0) N σ ph hσ hinj hF hp N 0
      (by omega) (grow t (N * 3)) (by have := grow_length t (N * 3); omega)
    obtain ⟨c1, c2⟩ := copyBack_spec x (b * l.span + l.e0) (N * 3) t1
    rw [ht1]
    refine ⟨_, _, rfl, fun k hk j => ?_, fun i hi => c2 i (by omega)⟩
    have := hσ k hk
    have hj := c1 (3 * σ k + j) (by omega)
    rw [← Nat.add_assoc] at hj
    rw [hj, List.getD_eq_getElem?_getD, hv1 k (by omega) hk j]
    rfl
  · have : N = 0 := by omega
    subst this
    exact ⟨x, t, rfl, fun k hk => absurd hk (by omega), fun _ _ => rfl⟩

/-- all branches -/
theorem gammaFold_spec (e : ℚ → K) (g : Gamma) (q : Fin 3 → ℚ) (rotR rotI : Fin 3 → Fin 3 → K) (r ir : ℕ) (l : Layout)
    (nmat N : ℕ) (h1 : l.e1 = 3 * N) (h2 : l.e2 = 0) (σ : ℕ → ℕ) (ph : ℕ → K) (hσ : ∀ k < N, σ k < N)
    (hinj : ∀ k < N, ∀ k' < N, σ k = σ k' → k = k')
    (hF : ∀ k < N, g.F0 k ir = some (σ k)) (hp : ∀ k < N, phaseAt e g q k ir = some (ph k))
    (x : ℕ → K) (t : List K) (n : ℕ) :
    ∃ x' t', (List.range n).foldlM (gammaBranch e g q rotR rotI r ir l nmat) (x, t) = some (x', t') ∧
      (∀ b < n, ∀ k < N, ∀ j : Fin 3, x' (b * l.span + l.e0 + 3 * σ k + j) =
        ph k * times rotI (readVec x (b * l.span + l.e0 + 3 * k)) j) ∧
      ∀ i, (∀ b < n, i < b * l.span + l.e0 ∨ b * l.span + l.e0 + 3 * N ≤ i) → x' i = x i := by
  have hspan : l.span = l.e0 + 3 * N := by rw [Layout.span, h1, h2]; omega
  induction n with
  | zero => exact ⟨x, t, rfl, fun b hb => absurd hb (by omega), fun _ _ => rfl⟩
  | succ n ih =>
    obtain ⟨x1, t1, e1, v1, u1⟩ := ih
    obtain ⟨x2, t2, e2, v2, u2⟩ := gammaBranch_spec e g q rotR rotI r ir l nmat N h1 h2 σ ph hσ hinj hF hp x1 t1 n
    have before : ∀ b < n, b * l.span + l.span ≤ n * l.span := fun b hb => by
      rw [← Nat.succ_mul]; exact Nat.mul_le_mul_right _ hb
    refine ⟨x2, t2, ?_, fun b hb k hk j => ?_, fun i hi => ?_⟩
    · rw [List.range_succ, List.foldlM_append, e1]
      simp [e2]
    · by_cases eb : b = n
      · subst eb
        rw [v2 k hk j]
        congr 2
        funext i
        exact u1 _ fun b' hb' => by have := before b' hb'; right; omega
      · have := before b (by omega)
        have hs := hσ k hk
        rw [u2 _ (by left; omega)]
        exact v1 b (by omega) k hk j
    · rw [u2 i (hi n (by omega))]
      exact u1 i fun b hb => hi b (by omega)

end Brille.Rot
