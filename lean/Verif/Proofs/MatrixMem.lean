import Verif.Model.MatrixMem
import Verif.Proofs.Matrix
import Mathlib.Algebra.BigOperators.Fin
import Mathlib.Tactic.Ring

namespace Brille.MatMem

variable {R : Type}

theorem loop_zero {σ : Type} (f : ℕ → σ → σ) (s : σ) : loop 0 f s = s := rfl

theorem loop_succ {σ : Type} (n : ℕ) (f : ℕ → σ → σ) (s : σ) : loop (n + 1) f s = f n (loop n f s) := by
  simp [loop, List.range_succ]

theorem loop_congr {σ : Type} (n : ℕ) (f g : ℕ → σ → σ) (s : σ) (h : ∀ i, i < n → ∀ s, f i s = g i s) :
    loop n f s = loop n g s := by
  induction n with
  | zero => rfl
  | succ n ih => rw [loop_succ, loop_succ, ih fun i hi => h i (by omega), h n (by omega)]

theorem loop_add {σ : Type} (a b : ℕ) (f : ℕ → σ → σ) (s : σ) :
    loop (a + b) f s = loop b (fun t => f (a + t)) (loop a f s) := by
  induction b with
  | zero => rfl
  | succ b ih => rw [← Nat.add_assoc, loop_succ, loop_succ, ih]

/-- two nested loops are one -/
theorem loop_loop {σ : Type} (n m : ℕ) (f : ℕ → ℕ → σ → σ) (s : σ) :
    loop n (fun i => loop m fun j => f i j) s = loop (n * m) (fun t => f (t / m) (t % m)) s := by
  induction n with
  | zero => simp [loop_zero]
  | succ n ih =>
    rw [loop_succ, Nat.succ_mul, loop_add, ih]
    refine loop_congr _ _ _ _ fun j hj s => ?_
    have hm : 0 < m := by omega
    rw [Nat.mul_comm n m, Nat.mul_add_div hm, Nat.div_eq_of_lt hj, Nat.mul_add_mod, Nat.mod_eq_of_lt hj, Nat.add_zero]

theorem loop_fst {α β : Type} (n : ℕ) (f : ℕ → α × β → α × β) (g : ℕ → α → α) (s : α × β)
    (h : ∀ i, i < n → ∀ s, (f i s).1 = g i s.1) : (loop n f s).1 = loop n g s.1 := by
  induction n with
  | zero => rfl
  | succ n ih => rw [loop_succ, loop_succ, h n (by omega), ih fun i hi => h i (by omega)]

theorem put_same (h : Mem R) (k : ℕ) (v : R) : put h k v k = v := by simp [put]

theorem put_other (h : Mem R) {k x : ℕ} (v : R) (e : x ≠ k) : put h k v x = h x := by simp [put, e]

/-- A loop that writes different cells, each value of which depends on no cell written before. -/
theorem fill (n : ℕ) (addr : ℕ → ℕ) (g : ℕ → Mem R → R) (h : Mem R)
    (inj : ∀ i, i < n → ∀ k, k < i → addr i ≠ addr k)
    (loc : ∀ i, i < n → ∀ h', (∀ x, (∀ k, k < i → x ≠ addr k) → h' x = h x) → g i h' = g i h) :
    (∀ i, i < n → loop n (fun i h => put h (addr i) (g i h)) h (addr i) = g i h) ∧
    ∀ x, (∀ i, i < n → x ≠ addr i) → loop n (fun i h => put h (addr i) (g i h)) h x = h x := by
  induction n with
  | zero => exact ⟨fun i hi => by omega, fun _ _ => rfl⟩
  | succ n ih =>
    obtain ⟨h1, h2⟩ := ih (fun i hi => inj i (by omega)) (fun i hi => loc i (by omega))
    rw [loop_succ]
    refine ⟨fun i hi => ?_, fun x hx => ?_⟩
    · by_cases e : i = n
      · rw [e, put_same]; exact loc n (by omega) _ h2
      · rw [put_other _ _ fun e' => inj n (by omega) i (by omega) e'.symm]; exact h1 i (by omega)
    · rw [put_other _ _ (hx n (by omega))]; exact h2 x fun i hi => hx i (by omega)

/-- the same for consecutive cells -/
theorem fill_block (n c : ℕ) (g : ℕ → Mem R → R) (h : Mem R)
    (loc : ∀ i, i < n → ∀ h', (∀ x, (x < c ∨ c + i ≤ x) → h' x = h x) → g i h' = g i h) :
    (∀ i, i < n → loop n (fun i h => put h (c + i) (g i h)) h (c + i) = g i h) ∧
    ∀ x, (x < c ∨ c + n ≤ x) → loop n (fun i h => put h (c + i) (g i h)) h x = h x := by
  obtain ⟨h1, h2⟩ := fill n (fun i => c + i) g h (fun i _ k hk => by show c + i ≠ c + k; omega)
    (fun i hi h' hh => loc i hi h' fun x hx => hh x fun k hk => by show x ≠ c + k; omega)
  exact ⟨h1, fun x hx => h2 x fun i hi => by show x ≠ c + i; omega⟩

/-- accumulation in one cell -/
theorem accumulate [CommRing R] (l p : ℕ) (a b : ℕ → ℕ) (h : Mem R) (ha : ∀ k, k < l → a k ≠ p) (hb : ∀ k, k < l → b k ≠ p) :
    loop l (fun k h => put h p (h p + h (a k) * h (b k))) h =
      put h p (h p + ∑ k ∈ Finset.range l, h (a k) * h (b k)) := by
  induction l with
  | zero =>
    funext x
    by_cases e : x = p
    · simp [loop_zero, put, e]
    · simp [loop_zero, put, e]
  | succ l ih =>
    rw [loop_succ, ih (fun k hk => ha k (by omega)) fun k hk => hb k (by omega)]
    rw [put_same, put_other _ _ (ha l (by omega)), put_other _ _ (hb l (by omega)), Finset.sum_range_succ]
    funext x
    by_cases e : x = p <;> simp [put, e, add_assoc]

/-- `[p, p+n)` and `[q, q+k)` have no common address -/
def Apart (p n q k : ℕ) : Prop := p + n ≤ q ∨ q + k ≤ p

theorem cell {i n j m : ℕ} (hi : i < n) (hj : j < m) : i * m + j < n * m := by
  have : i * m + m ≤ n * m := by rw [← Nat.succ_mul]; exact Nat.mul_le_mul_right _ hi
  omega

theorem multiply_spec [CommRing R] (h : Mem R) (c a b n l m : ℕ) (hA : Apart c (n * m) a (n * l))
    (hB : Apart c (n * m) b (l * m)) :
    (∀ i j, i < n → j < m → multiplyArrays h c a b n l m (c + (i * m + j)) =
      ∑ k ∈ Finset.range l, h (a + (i * l + k)) * h (b + (k * m + j))) ∧
    ∀ x, (x < c ∨ c + n * m ≤ x) → multiplyArrays h c a b n l m x = h x := by
  unfold Apart at hA hB
  obtain ⟨z1, z2⟩ := fill_block (n * m) c (fun _ _ => (0 : R)) h fun _ _ _ _ => rfl
  set h0 := loop (n * m) (fun i h => put h (c + i) 0) h with hh0
  have key : multiplyArrays h c a b n l m = loop (n * m) (fun t h => put h (c + t) (h (c + t) +
      ∑ k ∈ Finset.range l, h (a + (t / m * l + k)) * h (b + (k * m + t % m)))) h0 := by
    unfold multiplyArrays
    rw [loop_loop n m (fun i j => loop l fun k h =>
      put h (c + i * m + j) (h (c + i * m + j) + h (a + i * l + k) * h (b + k * m + j)))]
    refine loop_congr _ _ _ _ fun t ht s => ?_
    have hm : 0 < m := Nat.pos_of_ne_zero fun e => by simp [e] at ht
    have hi : t / m < n := Nat.div_lt_of_lt_mul (by rw [Nat.mul_comm]; exact ht)
    have hj : t % m < m := Nat.mod_lt _ hm
    have e : c + t / m * m + t % m = c + t := by rw [Nat.add_assoc, Nat.mul_comm, Nat.div_add_mod]
    rw [e]
    have := accumulate l (c + t) (fun k => a + t / m * l + k) (fun k => b + k * m + t % m) s
      (fun k hk => by have := cell hi hk; show a + t / m * l + k ≠ c + t; omega)
      (fun k hk => by have := cell hk hj; show b + k * m + t % m ≠ c + t; omega)
    rw [this]
    simp only [Nat.add_assoc]
  have loc : ∀ t, t < n * m → ∀ h' : Mem R, (∀ x, (x < c ∨ c + t ≤ x) → h' x = h0 x) →
      h' (c + t) + ∑ k ∈ Finset.range l, h' (a + (t / m * l + k)) * h' (b + (k * m + t % m)) =
      h0 (c + t) + ∑ k ∈ Finset.range l, h0 (a + (t / m * l + k)) * h0 (b + (k * m + t % m)) := by
    intro t ht h' hh
    have hm : 0 < m := Nat.pos_of_ne_zero fun e => by simp [e] at ht
    have hi : t / m < n := Nat.div_lt_of_lt_mul (by rw [Nat.mul_comm]; exact ht)
    have hj : t % m < m := Nat.mod_lt _ hm
    rw [hh _ (Or.inr (le_refl _))]
    congr 1
    refine Finset.sum_congr rfl fun k hk => ?_
    have hk := Finset.mem_range.1 hk
    have h1 := cell hi hk
    have h2 := cell hk hj
    rw [hh _ (by omega), hh _ (by omega)]
  obtain ⟨f1, f2⟩ := fill_block (n * m) c (fun t h => h (c + t) +
      ∑ k ∈ Finset.range l, h (a + (t / m * l + k)) * h (b + (k * m + t % m))) h0 loc
  rw [key]
  refine ⟨fun i j hi hj => ?_, fun x hx => by rw [f2 x hx, z2 x hx]⟩
  have ht := cell hi hj
  have hm : 0 < m := by omega
  have e1 : (i * m + j) / m = i := by rw [Nat.mul_comm, Nat.mul_add_div hm, Nat.div_eq_of_lt hj, Nat.add_zero]
  have e2 : (i * m + j) % m = j := by rw [Nat.mul_comm, Nat.mul_add_mod, Nat.mod_eq_of_lt hj]
  rw [f1 _ ht, z1 _ ht, zero_add, e1, e2]
  refine Finset.sum_congr rfl fun k hk => ?_
  have hk := Finset.mem_range.1 hk
  have h1 := cell hi hk
  have h2 := cell hk hj
  rw [z2 _ (by omega), z2 _ (by omega)]

/-- the increasing map which skips `i` -/
def skip (i b : ℕ) : ℕ := if b < i then b else b + 1

/-- how many of the numbers below `n` are not `i` -/
def others (i n : ℕ) : ℕ := if i < n then n - 1 else n

theorem cofactor_row (A : ℕ → R) (i n k : ℕ) (C : Mem R) :
    loop n (fun n s => if i ≠ n then (s.1 + 1, put s.2 s.1 (A n)) else s) (k, C) =
      (k + others i n, fun x => if k ≤ x ∧ x < k + others i n then A (skip i (x - k)) else C x) := by
  induction n with
  | zero =>
    simp only [loop_zero, others, Nat.not_lt_zero, if_false, Nat.add_zero]
    congr 1
    funext x
    rw [if_neg (by omega)]
  | succ n ih =>
    rw [loop_succ, ih]
    by_cases e : i = n
    · subst e
      have : others i (i + 1) = others i i := by simp [others]
      simp [this]
    · rw [if_pos e]
      have ho : others i (n + 1) = others i n + 1 := by
        unfold others
        by_cases h : i < n
        · rw [if_pos h, if_pos (by omega)]; omega
        · rw [if_neg h, if_neg (by omega)]
      have hs : skip i (others i n) = n := by
        unfold others skip
        by_cases h : i < n
        · rw [if_pos h, if_neg (by omega)]; omega
        · rw [if_neg h, if_pos (by omega)]
      rw [ho]
      refine Prod.ext (by simp [Nat.add_assoc]) ?_
      funext x
      simp only [put]
      by_cases hx : x = k + others i n
      · rw [if_pos hx, if_pos (by omega), hx, Nat.add_sub_cancel_left, hs]
      · rw [if_neg hx]
        by_cases h2 : k ≤ x ∧ x < k + others i n
        · rw [if_pos h2, if_pos (by omega)]
        · rw [if_neg h2, if_neg (by omega)]

theorem loop_id {σ : Type} (n : ℕ) (f : ℕ → σ → σ) (s : σ) (h : ∀ i s, f i s = s) : loop n f s = s := by
  induction n with
  | zero => rfl
  | succ n ih => rw [loop_succ, h, ih]

theorem cofactor_spec (A : Mem R) (i j N M : ℕ) (C : Mem R) (hi : i < N) :
    arrayCofactor A i j N M C = (others j M * (N - 1), fun x =>
      if x < others j M * (N - 1) then A (skip i (x % (N - 1)) + N * skip j (x / (N - 1))) else C x) := by
  unfold arrayCofactor
  induction M with
  | zero => simp [loop_zero, others]
  | succ M ih =>
    rw [loop_succ, ih]
    by_cases e : j = M
    · subst e
      have : others j (j + 1) = others j j := by simp [others]
      rw [loop_id _ _ _ (by intro n s; simp), this]
    · have hf : (fun n (s : ℕ × Mem R) => if i ≠ n ∧ j ≠ M then (s.1 + 1, put s.2 s.1 (A (n + N * M))) else s) =
          fun n s => if i ≠ n then (s.1 + 1, put s.2 s.1 ((fun n => A (n + N * M)) n)) else s := by
        funext n s
        by_cases h : i = n <;> simp [h, e]
      have ho : others j (M + 1) = others j M + 1 := by
        unfold others
        by_cases h : j < M
        · rw [if_pos h, if_pos (by omega)]; omega
        · rw [if_neg h, if_neg (by omega)]
      have hs : skip j (others j M) = M := by
        unfold others skip
        by_cases h : j < M
        · rw [if_pos h, if_neg (by omega)]; omega
        · rw [if_neg h, if_pos (by omega)]
      have hN : others i N = N - 1 := by simp [others, hi]
      rw [hf, cofactor_row, hN, ho, Nat.succ_mul]
      refine Prod.ext rfl ?_
      funext x
      show (if _ then _ else _) = (if _ then _ else _)
      by_cases h1 : x < others j M * (N - 1)
      · rw [if_neg (by omega), if_pos h1, if_pos (by omega)]
      · by_cases h2 : x < others j M * (N - 1) + (N - 1)
        · have hp : 0 < N - 1 := by omega
          have hx : x = others j M * (N - 1) + (x - others j M * (N - 1)) := by omega
          have hl : x - others j M * (N - 1) < N - 1 := by omega
          have ed : x / (N - 1) = others j M := by
            rw [hx, Nat.mul_comm, Nat.mul_add_div hp, Nat.div_eq_of_lt (by rwa [Nat.mul_comm] at hl), Nat.add_zero]
          have em : x % (N - 1) = x - others j M * (N - 1) := by
            conv_lhs => rw [hx, Nat.mul_comm, Nat.mul_add_mod]
            rw [Nat.mul_comm, Nat.mod_eq_of_lt hl]
          rw [if_pos (by omega), if_pos h2, ed, em, hs]
        · rw [if_neg (by omega), if_neg h1, if_neg (by omega)]

/-- what the matrix at an address is -/
def matAt (h : Mem R) (p n m : ℕ) : Fin n → Fin m → R := fun i j => h (p + (i.val * m + j.val))

theorem skip_succAbove {n : ℕ} (i : Fin (n + 1)) (b : Fin n) : skip i.val b.val = (i.succAbove b).val := by
  unfold skip Fin.succAbove
  simp only [Fin.lt_def, Fin.val_castSucc]
  split <;> simp

theorem cofactor_mat (A : Mem R) {n : ℕ} (i j : Fin (n + 1)) (C : Mem R) :
    matAt (arrayCofactor A i j (n + 1) (n + 1) C).2 0 n n = Mat.cofactor (matAt A 0 (n + 1) (n + 1)) i j := by
  funext r c
  rw [cofactor_spec A i j (n + 1) (n + 1) C i.2]
  have hr := r.2
  have hc := c.2
  have ho : others j.val (n + 1) = n := by simp [others, j.2]
  have hx := cell hr hc
  simp only [matAt, Mat.cofactor, ho, Nat.add_sub_cancel, Nat.zero_add, if_pos hx]
  have hn : 0 < n := by omega
  rw [Nat.mul_comm r.val n, Nat.mul_add_div hn, Nat.div_eq_of_lt hc, Nat.mul_add_mod, Nat.mod_eq_of_lt hc]
  simp only [Nat.add_zero]
  rw [skip_succAbove, skip_succAbove]
  congr 1
  ring

theorem foldl_finRange_range {σ : Type} (n : ℕ) (f : ℕ → σ → σ) (s : σ) :
    (List.finRange n).foldl (fun s i => f i.val s) s = loop n f s := by
  unfold loop
  rw [← List.map_coe_finRange_eq_range, List.foldl_map]

theorem determinant_refines [Ring R] : ∀ (N : ℕ) (M : Mem R), determinant N M = Mat.determinant (matAt M 0 N N)
  | 0, M => by simp [determinant, Mat.determinant]
  | 1, M => by simp [determinant, Mat.determinant, matAt]
  | N + 2, M => by
    have ih := determinant_refines (N + 1)
    rw [determinant, Mat.determinant]
    rw [loop_fst (N + 2) _ (fun i s => (s.1 + s.2 * M (i * (N + 2)) *
      (if hi : i < N + 2 then Mat.determinant (Mat.cofactor (matAt M 0 (N + 2) (N + 2)) 0 ⟨i, hi⟩) else 0), s.2 * (-1)))
      _ (fun i hi s => by
        show (_, _) = (_, _)
        rw [ih, dif_pos hi]
        have := cofactor_mat M (n := N + 1) 0 ⟨i, hi⟩ s.2
        rw [← this]; rfl)]
    rw [← foldl_finRange_range]
    simp [matAt]

theorem determinant_congr [Ring R] (N : ℕ) (M M' : Mem R) (h : ∀ x, x < N * N → M x = M' x) : determinant N M = determinant N M' := by
  rw [determinant_refines, determinant_refines]
  congr 1
  funext i j
  exact h _ (by have := cell i.2 j.2; omega)

end Brille.MatMem
