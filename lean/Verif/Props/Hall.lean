/-
C44: Hall symbols and the groups they stand for.
-/
import Verif.Proofs.HallRows
import Verif.Proofs.HallText
import Verif.Props.PointGroup
import Verif.Props.SpgDb
import Verif.Spec.Primitive

namespace Brille.Props
open Brille.Hall Brille.Mot Brille.Sym Brille.Spec Brille.Spg

/-! ### one symbol -/

/-- The axis of a rotation in Hall's notation: `x`, `y`, `z` are the basis vectors, `*` the body diagonal, `'` and `"`
the face diagonals perpendicular to the axis of the symbol before, and `?` the implicit axis of a two-fold
rotation after a three- or six-fold one along `z`. -/
def hallAxis (axis before : Char) : Option (Fin 3 → ℤ) :=
  match axis, before with
  | 'x', _ => some ![1, 0, 0]
  | 'y', _ => some ![0, 1, 0]
  | 'z', _ => some ![0, 0, 1]
  | '*', _ => some ![1, 1, 1]
  | '?', _ => some ![1, -1, 0]
  | '\'', 'x' => some ![0, 1, -1]
  | '\'', 'y' => some ![1, 0, -1]
  | '\'', 'z' => some ![1, -1, 0]
  | '"', 'x' => some ![0, 1, 1]
  | '"', 'y' => some ![1, 0, 1]
  | '"', 'z' => some ![1, 1, 0]
  | _, _ => none

/-- The combinations of order and axis that the notation knows (for order one the axis does not matter). -/
def HallKnown (n : Nat) (axis before : Char) : Prop :=
  n = 1 ∨
  (n = 2 ∧ (axis ∈ ['x', 'y', 'z', '?'] ∨ (axis ∈ ['\'', '"'] ∧ before ∈ ['x', 'y', 'z']))) ∨
  (n = 3 ∧ axis ∈ ['x', 'y', 'z', '*']) ∨
  ((n = 4 ∨ n = 6) ∧ axis ∈ ['x', 'y', 'z'])

/-- an upper bound for the first `r` powers suffices -/
theorem hasOrder_of {A : Matrix (Fin 3) (Fin 3) ℤ} {r : Nat} (h : 0 < r ∧ A ^ r = 1 ∧ ∀ m < r, 0 < m → A ^ m ≠ 1) :
    HasOrder A r := ⟨h.1, h.2.1, fun m h1 h2 => h.2.2 m h2 h1⟩

/-- what is checked of a matrix: determinant, order and fixed axis -/
def Good (n : Nat) (a : Fin 3 → ℤ) (W : Fin 3 → Fin 3 → ℤ) : Prop :=
  (Matrix.of W).det = 1 ∧ (0 < n ∧ Matrix.of W ^ n = 1 ∧ ∀ m < n, 0 < m → Matrix.of W ^ m ≠ 1) ∧
    (Matrix.of W).mulVec a = a

instance (n a W) : Decidable (Good n a W) := by unfold Good; infer_instance

theorem rotation_good {n : Nat} {ax pax : Char} (hn : n ≠ 1) (hk : HallKnown n ax pax) :
    ∃ W a, rotation n ax pax = some W ∧ hallAxis ax pax = some a ∧ Good n a W := by
  rcases hk with h | ⟨rfl, h | ⟨h, h'⟩⟩ | ⟨rfl, h⟩ | ⟨rfl | rfl, h⟩
  · exact absurd h hn
  · simp only [List.mem_cons, List.not_mem_nil, or_false] at h
    rcases h with rfl | rfl | rfl | rfl
    · exact ⟨_, _, rfl, rfl, by decide +kernel⟩
    · exact ⟨_, _, rfl, rfl, by decide +kernel⟩
    · exact ⟨_, _, rfl, rfl, by decide +kernel⟩
    · exact ⟨_, _, rfl, rfl, by decide +kernel⟩
  · simp only [List.mem_cons, List.not_mem_nil, or_false] at h h'
    rcases h with rfl | rfl <;> rcases h' with rfl | rfl | rfl
    · exact ⟨_, _, rfl, rfl, by decide +kernel⟩
    · exact ⟨_, _, rfl, rfl, by decide +kernel⟩
    · exact ⟨_, _, rfl, rfl, by decide +kernel⟩
    · exact ⟨_, _, rfl, rfl, by decide +kernel⟩
    · exact ⟨_, _, rfl, rfl, by decide +kernel⟩
    · exact ⟨_, _, rfl, rfl, by decide +kernel⟩
  · simp only [List.mem_cons, List.not_mem_nil, or_false] at h
    rcases h with rfl | rfl | rfl | rfl
    · exact ⟨_, _, rfl, rfl, by decide +kernel⟩
    · exact ⟨_, _, rfl, rfl, by decide +kernel⟩
    · exact ⟨_, _, rfl, rfl, by decide +kernel⟩
    · exact ⟨_, _, rfl, rfl, by decide +kernel⟩
  · simp only [List.mem_cons, List.not_mem_nil, or_false] at h
    rcases h with rfl | rfl | rfl
    · exact ⟨_, _, rfl, rfl, by decide +kernel⟩
    · exact ⟨_, _, rfl, rfl, by decide +kernel⟩
    · exact ⟨_, _, rfl, rfl, by decide +kernel⟩
  · simp only [List.mem_cons, List.not_mem_nil, or_false] at h
    rcases h with rfl | rfl | rfl
    · exact ⟨_, _, rfl, rfl, by decide +kernel⟩
    · exact ⟨_, _, rfl, rfl, by decide +kernel⟩
    · exact ⟨_, _, rfl, rfl, by decide +kernel⟩

theorem signed_matrix (W : Fin 3 → Fin 3 → ℤ) (N : ℤ) (hN : N ≠ 0) :
    Matrix.of (if N < 0 then fun i j => W i j * (-1) else W) = N.sign • Matrix.of W := by
  ext i j
  rw [Matrix.smul_apply, Matrix.of_apply, Matrix.of_apply]
  by_cases h : N < 0
  · rw [if_pos h, Int.sign_eq_neg_one_of_neg h]; simp
  · rw [if_neg h, Int.sign_eq_one_of_pos (by omega)]; simp

/-- **C44, rotations.**  For every order `±1, ±2, ±3, ±4, ±6` and every axis known to the notation, the matrix made
has the determinant and order that the number states (a negative number adds the inversion), and the rotation
fixes the axis. -/
theorem C44_rotation (s : Seitz) (axis before : Char) (hk : HallKnown s.N.natAbs axis before) :
    ∃ W, s.innerR axis before = some W ∧ TypeIs s.N W ∧
      (s.N.natAbs ≠ 1 → ∃ a, hallAxis axis before = some a ∧ (s.N.sign • Matrix.of W).mulVec a = a) := by
  have hN : s.N ≠ 0 := by
    intro h
    rw [h] at hk
    rcases hk with h | ⟨h, _⟩ | ⟨h, _⟩ | ⟨h | h, _⟩ <;> simp at h
  have hsq : s.N.sign * s.N.sign = 1 := by
    rcases lt_or_gt_of_ne hN with h | h
    · rw [Int.sign_eq_neg_one_of_neg h]; rfl
    · rw [Int.sign_eq_one_of_pos h]; rfl
  have main : ∀ W, rotation s.N.natAbs axis before = some W → (Matrix.of W).det = 1 → HasOrder (Matrix.of W) s.N.natAbs →
      ∃ W', s.innerR axis before = some W' ∧ TypeIs s.N W' ∧ s.N.sign • Matrix.of W' = Matrix.of W := by
    intro W h1 h2 h3
    refine ⟨_, by unfold Seitz.innerR; rw [h1, Option.map_some], ?_, ?_⟩
    · refine ⟨?_, ?_⟩
      · rw [signed_matrix W s.N hN, Matrix.det_smul, h2, mul_one, Fintype.card_fin, pow_succ, pow_two, hsq, one_mul]
      · rw [signed_matrix W s.N hN, smul_smul, hsq, one_smul]
        exact h3
    · rw [signed_matrix W s.N hN, smul_smul, hsq, one_smul]
  by_cases h1 : s.N.natAbs = 1
  · obtain ⟨W', a, b, _⟩ := main (m9 1 0 0 0 1 0 0 0 1) (by rw [h1]; rfl) (by decide +kernel)
      (by rw [h1]; exact hasOrder_of (by decide +kernel))
    exact ⟨W', a, b, fun h => absurd h1 h⟩
  · obtain ⟨W, a, e1, e2, g1, g2, g3⟩ := rotation_good h1 hk
    obtain ⟨W', b1, b2, b3⟩ := main W e1 g1 (hasOrder_of g2)
    exact ⟨W', b1, b2, fun _ => ⟨a, e2, by rw [b3]; exact g3⟩⟩

/-- a `-3` along the body diagonal, and a two-fold rotation along a face diagonal -/
example : HallKnown (-3 : ℤ).natAbs '*' '!' ∧ HallKnown 2 '"' 'z' ∧
    (Seitz.innerR ⟨-3, [], []⟩ '*' '!').map (fun W => W 0) = some ![0, 0, -1] := by
  refine ⟨by unfold HallKnown; decide, by unfold HallKnown; decide, by decide +kernel⟩

/-- **C44, other axes.**  Every combination that the notation does not know gives either an exception or the zero
matrix. -/
theorem C44_unknown_axis (n : Nat) (axis before : Char) (h : ¬ HallKnown n axis before) :
    rotation n axis before = none ∨ rotation n axis before = some fun _ _ => 0 := by
  have hz : (m9 0 0 0 0 0 0 0 0 0) = fun _ _ => 0 := by funext i j; fin_cases i <;> fin_cases j <;> rfl
  unfold HallKnown at h
  simp only [List.mem_cons, List.not_mem_nil, or_false, not_or, not_and] at h
  obtain ⟨h1, h2, h3, h4⟩ := h
  unfold rotation
  dsimp only
  rw [if_neg h1]
  by_cases n2 : n = 2
  · obtain ⟨⟨a, b, c, d⟩, e⟩ := h2 n2
    rw [if_pos n2, if_neg a, if_neg b, if_neg c, if_neg d]
    split
    · rename_i hq
      obtain ⟨p, q, r⟩ := e (Or.inl hq)
      rw [if_neg p, if_neg q, if_neg r]; exact Or.inl rfl
    · split
      · rename_i hq
        obtain ⟨p, q, r⟩ := e (Or.inr hq)
        rw [if_neg p, if_neg q, if_neg r]; exact Or.inl rfl
      · rw [hz]; exact Or.inr rfl
  · rw [if_neg n2]
    by_cases n3 : n = 3
    · obtain ⟨a, b, c, d⟩ := h3 n3
      rw [if_pos n3, if_neg a, if_neg b, if_neg c, if_neg d, hz]; exact Or.inr rfl
    · rw [if_neg n3]
      by_cases n4 : n = 4
      · obtain ⟨a, b, c⟩ := h4 (Or.inl n4)
        rw [if_pos n4, if_neg a, if_neg b, if_neg c, hz]; exact Or.inr rfl
      · rw [if_neg n4]
        by_cases n6 : n = 6
        · obtain ⟨a, b, c⟩ := h4 (Or.inr n6)
          rw [if_pos n6, if_neg a, if_neg b, if_neg c, hz]; exact Or.inr rfl
        · rw [if_neg n6]; exact Or.inl rfl

/-- how many primes a mark of the axis counts for -/
def primesOf (c : Char) : Nat := if c = '*' then 3 else if c = '"' then 2 else if c = '\'' then 1 else 0

/-- the marks of diagonal axes -/
def diagonalMark (c : Char) : Bool := c = '*' || c = '"' || c = '\''

theorem axesOk_after (l : List Char) (p : Nat) : axesOk l p true = if l = [] then some p else none := by
  cases l with
  | nil => rfl
  | cons c l =>
    unfold axesOk
    simp

theorem axesOk_marks (l : List Char) (p r : Nat) (hp : p ≠ 0) :
    axesOk l p false = some r ↔ (∀ c ∈ l, diagonalMark c = true) ∧ r = p + (l.map primesOf).sum := by
  induction l generalizing p with
  | nil =>
    simp only [axesOk, List.not_mem_nil, false_implies, implies_true, true_and, List.map_nil, List.sum_nil, Nat.add_zero,
      Option.some.injEq, reduceCtorEq, or_self, false_and, false_or]
    exact eq_comm
  | cons c l ih =>
    unfold axesOk
    simp only [List.mem_cons, forall_eq_or_imp, List.map_cons, List.sum_cons, Bool.false_eq_true, if_false, or_false]
    split
    · rename_i h; subst h
      rw [ih _ (by omega)]; simp [diagonalMark, primesOf, Nat.add_assoc]
    split
    · rename_i h; subst h
      rw [ih _ (by omega)]; simp [diagonalMark, primesOf, Nat.add_assoc]
    split
    · rename_i h; subst h
      rw [ih _ (by omega)]; simp [diagonalMark, primesOf, Nat.add_assoc]
    rename_i h1 h2 h3
    have hd : diagonalMark c = false := by simp [diagonalMark, h1, h2, h3]
    simp [hd, hp]

theorem axesOk_iff (l : List Char) (r : Nat) : axesOk l 0 false = some r ↔
    (l = ['x'] ∨ l = ['y'] ∨ l = ['z']) ∧ r = 0 ∨ (∀ c ∈ l, diagonalMark c = true) ∧ r = (l.map primesOf).sum := by
  cases l with
  | nil =>
    simp only [axesOk, List.not_mem_nil, false_implies, implies_true, true_and, List.map_nil, List.sum_nil, Nat.add_zero,
      Option.some.injEq, reduceCtorEq, or_self, false_and, false_or]
    exact eq_comm
  | cons c l =>
    unfold axesOk
    simp only [List.mem_cons, forall_eq_or_imp, List.map_cons, List.sum_cons, Bool.false_eq_true, if_false, or_false,
      List.cons.injEq, ne_eq, not_true_eq_false]
    split
    · rename_i h; subst h
      rw [axesOk_marks _ _ _ (by omega)]; simp [diagonalMark, primesOf]
    split
    · rename_i h; subst h
      rw [axesOk_marks _ _ _ (by omega)]; simp [diagonalMark, primesOf]
    split
    · rename_i h; subst h
      rw [axesOk_marks _ _ _ (by omega)]; simp [diagonalMark, primesOf]
    rename_i h1 h2 h3
    have hd : diagonalMark c = false := by simp [diagonalMark, h1, h2, h3]
    rw [axesOk_after]
    simp only [hd, Bool.false_eq_true, false_and, or_false]
    split
    · rename_i hx
      split
      · rename_i hl; subst hl
        rcases hx with rfl | rfl | rfl <;> simp [eq_comm]
      · rename_i hl; simp [hl]
    · rename_i hx
      simp only [not_or] at hx
      simp [hx]

/-- **C44 (which parts are accepted).** A part of a symbol is accepted exactly if it is an axis of order 1, 2, 3, 4 or 6,
turned over or not, along one of the three axes or with marks for a diagonal axis that count for at most three primes, and
no translation is given twice. -/
theorem C44_accepted (s : Seitz) : s.validate = true ↔
    s.N.natAbs ∈ [1, 2, 3, 4, 6] ∧
    ((s.A = ['x'] ∨ s.A = ['y'] ∨ s.A = ['z']) ∨
      (∀ c ∈ s.A, diagonalMark c = true) ∧ (s.A.map primesOf).sum ≤ 3) ∧
    ∀ c ∈ "abcnuvwd12345".toList, s.T.count c ≤ 1 := by
  have hN : (s.N = 0 ∨ s.N < -6 ∨ s.N > 6 ∨ s.N = -5 ∨ s.N = 5) ↔ s.N.natAbs ∉ [1, 2, 3, 4, 6] := by
    simp only [List.mem_cons, List.not_mem_nil, or_false]; omega
  have hT : (trans.all fun c => decide (s.T.count c ≤ 1)) = true ↔ ∀ c ∈ "abcnuvwd12345".toList, s.T.count c ≤ 1 := by
    have : "abcnuvwd12345".toList = trans := by decide
    rw [this, List.all_eq_true]; simp
  unfold Seitz.validate
  split
  · rename_i h
    rw [hN] at h
    simp [h]
  · rename_i h
    rw [hN, not_not] at h
    rw [← hT]
    simp only [h, true_and]
    constructor
    · intro hv
      split at hv
      · cases hv
      · rename_i p hp
        rw [Bool.and_eq_true, decide_eq_true_eq] at hv
        refine ⟨?_, hv.2⟩
        rcases (axesOk_iff _ _).1 hp with ⟨h1, -⟩ | ⟨h1, h2⟩
        · exact Or.inl h1
        · exact Or.inr ⟨h1, by omega⟩
    · rintro ⟨h1 | ⟨h1, h2⟩, h3⟩
      · rw [(axesOk_iff s.A 0).2 (Or.inl ⟨h1, rfl⟩)]
        simpa using h3
      · rw [(axesOk_iff s.A _).2 (Or.inr ⟨h1, rfl⟩)]
        simp only [Bool.and_eq_true, decide_eq_true_eq]
        exact ⟨h2, h3⟩

-- accepted and refused parts
example : (Seitz.mk (-3) "bc".toList "*".toList).validate = true ∧ (Seitz.mk 2 [] "xy".toList).validate = false ∧
    (Seitz.mk 2 "aa".toList "x".toList).validate = false ∧ (Seitz.mk 5 [] "x".toList).validate = false := by decide

/-- A symbol that is accepted and whose second operation has the zero matrix as its rotation. -/
theorem C44_accepted_zero_counterexample :
    ∃ h gs, fromAscii (bytes "P 2 4") = some h ∧ h.validate = true ∧ h.generators = some gs ∧
      ∃ g ∈ gs, g.W = fun _ _ => 0 := by
  have e : (fromAscii (bytes "P 2 4")).map (fun h => (h.validate, h.generators.map fun gs =>
      gs.any fun g => decide (g.W = fun _ _ => 0))) = some (true, some true) := by decide +kernel
  obtain ⟨h, h1, h2⟩ := Option.map_eq_some_iff.mp e
  rw [Prod.mk.injEq] at h2
  obtain ⟨gs, h3, h4⟩ := Option.map_eq_some_iff.mp h2.2
  obtain ⟨g, hg, hW⟩ := List.any_eq_true.mp h4
  exact ⟨h, gs, h1, h2.1, h3, g, hg, of_decide_eq_true hW⟩

/-- Two primes are accepted in place of the double prime, but stand for the single prime: of the primes only the first
character is looked at. -/
theorem C44_two_primes_counterexample :
    let Ws := fun s : String => (fromAscii (bytes s)).bind fun h => h.generators.map fun gs => gs.map fun g =>
      (List.finRange 3).map fun i => (List.finRange 3).map (g.W i)
    (fromAscii (bytes "P 4 2''")).map Symbol.validate = some true ∧
    Ws "P 4 2''" = Ws "P 4 2'" ∧ Ws "P 4 2''" ≠ Ws "P 4 2\"" := by
  decide +kernel

/-! ### translations -/

/-- What a translation character of Hall's notation stands for, for an `n`-fold operation with axis `a`. -/
def hallShift (n : Nat) (a : Fin 3 → ℤ) : Char → Fin 3 → ℚ
  | 'a' => ![1 / 2, 0, 0]
  | 'b' => ![0, 1 / 2, 0]
  | 'c' => ![0, 0, 1 / 2]
  | 'n' => ![1 / 2, 1 / 2, 1 / 2]
  | 'u' => ![1 / 4, 0, 0]
  | 'v' => ![0, 1 / 4, 0]
  | 'w' => ![0, 0, 1 / 4]
  | 'd' => ![1 / 4, 1 / 4, 1 / 4]
  | '1' => fun i => a i * (1 / n)
  | '2' => fun i => a i * (2 / n)
  | '3' => fun i => a i * (3 / n)
  | '4' => fun i => a i * (4 / n)
  | '5' => fun i => a i * (5 / n)
  | _ => fun _ => 0

theorem foldl_shift (f : Char → Fin 3 → ℚ) : ∀ (T : List Char) (t : Fin 3 → ℚ) (i : Fin 3),
    T.foldl (fun t c i => t i + f c i) t i = t i + (T.map fun c => f c i).sum := by
  intro T
  induction T with
  | nil => intro t i; simp
  | cons c T ih => intro t i; rw [List.foldl_cons, ih, List.map_cons, List.sum_cons, add_assoc]

/-- **C44, translations.**  The translation is, modulo the lattice, the sum over the translation characters, the
digits being fractions of the axis; and it is in the unit cell. -/
theorem C44_translation (T : List Char) (hT : ∀ c ∈ T, c ∈ Hall.trans) (n : Nat) (axis before : Char) (a : Fin 3 → ℤ)
    (ha : hallAxis axis before = some a) (hq : axis ≠ '?') :
    InUnitCell (innerT T n axis before) ∧
    SameModLattice (innerT T n axis before) fun i => (T.map fun c => hallShift n a c i).sum := by
  have hdir : T.any (strchr ['1', '2', '3', '4', '5']) = true →
      direction T axis before = fun i => (a i : ℚ) := by
    intro hd
    unfold direction
    rw [if_pos hd]
    unfold hallAxis at ha
    split at ha
    all_goals first
      | (cases ha; simp; funext i; fin_cases i <;> rfl)
      | exact absurd rfl hq
      | cases ha
  have hsh : ∀ c ∈ T, shift (direction T axis before) n c = hallShift n a c := by
    intro c hc
    have hct := hT c hc
    have hdig : c ∈ ['1', '2', '3', '4', '5'] → T.any (strchr ['1', '2', '3', '4', '5']) = true := by
      intro h
      rw [List.any_eq_true]
      exact ⟨c, hc, by unfold strchr; simp only [List.contains_iff_mem.mpr h, Bool.true_or]⟩
    simp only [Hall.trans, List.mem_cons, List.not_mem_nil, or_false] at hct
    rcases hct with rfl | rfl | rfl | rfl | rfl | rfl | rfl | rfl | rfl | rfl | rfl | rfl | rfl
    · rfl
    · rfl
    · rfl
    · rfl
    · rfl
    · rfl
    · rfl
    · rfl
    all_goals
      rw [hdir (hdig (by decide))]
      funext i
      simp [shift, hallShift]
      try ring
  constructor
  · intro i
    unfold innerT
    exact ⟨Int.fract_nonneg _, Int.fract_lt_one _⟩
  · intro i
    refine ⟨-⌊T.foldl (fun t c i => t i + shift (direction T axis before) n c i) (fun _ => 0) i⌋, ?_⟩
    have e1 : T.foldl (fun t c i => t i + shift (direction T axis before) n c i) (fun _ => 0) i =
        (T.map fun c => hallShift n a c i).sum := by
      rw [foldl_shift, zero_add]
      congr 1
      apply List.map_congr_left
      intro c hc
      rw [hsh c hc]
    unfold innerT
    dsimp only
    rw [e1]
    push_cast
    ring

/-- the screw axis `4₃` along `z` with the glide `n` -/
example : innerT ['3', 'n'] 4 'z' '!' = ![1 / 2, 1 / 2, 1 / 4] := by decide +kernel

/-! ### text -/

/-- **C44, text.**  A symbol that passes validation, has no change of basis and only translation characters of the
notation, is read back from the text written for it. -/
theorem C44_text_round_trip_partial (h : Symbol) (hv : h.validate = true) (hT : ∀ s ∈ h.symbols, ∀ c ∈ s.T, c ∈ Hall.trans)
    (hV : h.V = ofTranslation fun _ => 0) : fromAscii h.toAscii = some h := by
  unfold Symbol.validate at hv
  rw [Bool.and_eq_true, decide_eq_true_eq, List.all_eq_true] at hv
  exact fromAscii_toAscii hv.1 (fun s hs => written_of_validate (hv.2 s hs) (hT s hs)) hV

example : fromAscii (bytes "-F 4vw 2vw 3") = some ⟨.F, true, [⟨4, ['v', 'w'], []⟩, ⟨2, ['v', 'w'], []⟩, ⟨3, [], []⟩],
    ofTranslation fun _ => 0⟩ := by
  have e := C44_text_round_trip_partial ⟨.F, true, [⟨4, ['v', 'w'], []⟩, ⟨2, ['v', 'w'], []⟩, ⟨3, [], []⟩],
    ofTranslation fun _ => 0⟩ (by decide) (by decide) rfl
  rw [← e]
  congr 1

/-- A change of basis is not written, so symbols that have one do not survive. -/
theorem C44_text_counterexample :
    (fromAscii (bytes "P 31 2c (0 0 1)")).map Symbol.toAscii = some (bytes "P 31 2c") ∧
    (fromAscii (bytes "P 31 2c (0 0 1)")).map (fun h => h.V.w) = some ![0, 0, 1 / 12] ∧
    (fromAscii (bytes "P 31 2c")).map (fun h => h.V.w) = some ![0, 0, 0] := by
  decide +kernel

/-- **C44, text, database.**  For all 530 rows the text written for the decoded Hall symbol is the Hall symbol of the row, up to
the change of basis in parentheses. -/
theorem C44_text_database (j : Nat) (h1 : 1 ≤ j) (h2 : j ≤ 530) :
    ∃ h, fromAscii (bytes (row j).hallSymbol) = some h ∧
      (h.toAscii = bytes (row j).hallSymbol ∨ ∃ rest, h.toAscii ++ [' ', '('] ++ rest = bytes (row j).hallSymbol) := by
  have := all_rows (P := fun _ r => (match fromAscii (bytes r.hallSymbol) with
    | none => false
    | some h => decide (h.toAscii = bytes r.hallSymbol) || (h.toAscii ++ [' ', '(']).isPrefixOf (bytes r.hallSymbol)) =
      true) (by decide +kernel) j h1 h2
  split at this
  · cases this
  · rename_i h he
    refine ⟨h, he, ?_⟩
    rw [Bool.or_eq_true, decide_eq_true_eq, List.isPrefixOf_iff_prefix] at this
    exact this

/-! ### the 530 tabulated symbols -/

/-- the centring that a lattice letter stands for -/
def centringOf : Bravais → Option Centring
  | .P => some .P | .A => some .A | .B => some .B | .C => some .C | .I => some .I | .F => some .F | .R => some .R
  | .none => none

theorem centrings_spec {L : Bravais} {ts : List (Fin 3 → ℚ)} (h : centrings L = some ts) :
    ∃ c, centringOf L = some c ∧ ∀ x, IsLatticePoint c x ↔ ∃ t ∈ ts, SameModLattice t x := by
  have z : ∀ x : Fin 3 → ℚ, IsIntegral x ↔ SameModLattice ![0, 0, 0] x := by
    intro x
    constructor
    · intro h i
      obtain ⟨k, hk⟩ := h i
      exact ⟨-k, by fin_cases i <;> simp at hk ⊢ <;> rw [hk]⟩
    · intro h i
      obtain ⟨k, hk⟩ := h i
      refine ⟨-k, ?_⟩
      push_cast
      rw [← hk]
      fin_cases i <;> simp
  have t : ∀ x t : Fin 3 → ℚ, IsIntegral (fun i => x i - t i) ↔ SameModLattice t x := by
    intro x t
    constructor
    · intro h i; obtain ⟨k, hk⟩ := h i; exact ⟨-k, by push_cast; linarith⟩
    · intro h i; obtain ⟨k, hk⟩ := h i; exact ⟨-k, by push_cast; linarith⟩
  cases L <;> simp only [centrings, Option.some.injEq, reduceCtorEq] at h <;> subst h <;>
    refine ⟨_, rfl, fun x => ?_⟩ <;>
    simp only [IsLatticePoint, centringVectors, t, List.mem_cons, List.not_mem_nil, or_false, exists_eq_or_imp,
      exists_eq_left, false_and, exists_false] <;> rw [z] <;> tauto

/-- **C44, the 530 tabulated symbols.**  Every Hall symbol of the table is decoded and validated; the operations generated from it are a
group modulo lattice translations: the identity is there, products and inverses of operations are there, no
operation appears twice.  The pure translations in it are exactly the lattice points of the centring that the letter of
the symbol names; and its point group, found from its rotations, is the tabulated one. -/
theorem C44_database (j : Nat) (h1 : 1 ≤ j) (h2 : j ≤ 530) :
    ∃ h G c u, fromAscii (bytes (row j).hallSymbol) = some h ∧ h.validate = true ∧
      spacegroupSymmetry (row j) = some G ∧
      (∃ m ∈ G, SameMotion m one) ∧ (∀ a ∈ G, ∀ b ∈ G, ∃ m ∈ G, SameMotion m (Mot.mul a b)) ∧
      (∀ a ∈ G, ∃ b ∈ G, SameMotion (Mot.mul a b) one) ∧ G.Pairwise (fun a b => ¬ SameMotion a b) ∧
      (letterOf (row j).hallSymbol = some h.L ∧ centringOf h.L = some c ∧
        ∀ x, IsLatticePoint c x ↔ ∃ m ∈ G, m.W = idMat ∧ SameModLattice m.w x) ∧
      PG.uniqueRotations (G.map Motion.W) false = some u ∧ PG.pointgroupNumber u = (row j).pointgroup := by
  obtain ⟨h, ts, gs, hf⟩ := row_facts h1 h2
  have hr := reads_motion (n := 12) (by norm_num) (by norm_num)
  obtain ⟨c, hc1, hc2⟩ := centrings_spec hf.centring
  obtain ⟨u, hu1, hu2, -⟩ := hf.number
  have hp := C10_motions_partial (n := 12) (by norm_num) (by norm_num) gs hf.grid
  refine ⟨h, generate motionOps gs, c, u, hf.decoded, hf.valid, symmetry_eq hf, hp.1, ?_, ?_, hp.2.2.1, ⟨?_, hc1, ?_⟩,
    hu1, hu2⟩
  · intro a ha b hb
    rw [← mem_red, red_mul]
    exact hf.closed _ (List.mem_map_of_mem ha) _ (List.mem_map_of_mem hb)
  · intro a ha
    obtain ⟨z, hz, he⟩ := inverse_mem hf.grid hf.closed hf.fin (List.mem_map_of_mem ha)
    obtain ⟨b, hb, rfl⟩ := List.mem_map.mp hz
    exact ⟨b, hb, by rw [sameMotion_iff, red_mul, he, red_one]⟩
  · have := all_rows (P := fun _ r => letterOf r.hallSymbol = (fromAscii (bytes r.hallSymbol)).map Symbol.L)
      (by decide +kernel) j h1 h2
    rw [this, hf.decoded, Option.map_some]
  · intro x
    rw [hc2]
    have tr : ∀ {p q r : Fin 3 → ℚ}, SameModLattice p q → SameModLattice q r → SameModLattice p r := by
      intro p q r h1 h2 i
      obtain ⟨a, ha⟩ := h1 i
      obtain ⟨b, hb⟩ := h2 i
      exact ⟨a + b, by push_cast; linarith⟩
    have sy : ∀ {p q : Fin 3 → ℚ}, SameModLattice p q → SameModLattice q p := by
      intro p q h i
      obtain ⟨a, ha⟩ := h i
      exact ⟨-a, by push_cast; linarith⟩
    constructor
    · rintro ⟨t, ht, hx⟩
      obtain ⟨m, hm, hW, hs⟩ := hf.translations' t ht
      exact ⟨m, hm, hW, tr (sy hs) hx⟩
    · rintro ⟨m, hm, hW, hx⟩
      obtain ⟨t, ht, hs⟩ := hf.translations m hm hW
      exact ⟨t, ht, tr hs hx⟩

/-- **C10, database.**  For the generators decoded from any of the 530 tabulated Hall symbols, what is generated is every
product of generators, and nothing else. -/
theorem C10_database (j : Nat) (h1 : 1 ≤ j) (h2 : j ≤ 530) :
    ∃ h gs, fromAscii (bytes (row j).hallSymbol) = some h ∧ h.generators = some gs ∧
      spacegroupSymmetry (row j) = some (generate motionOps gs) ∧
      (∀ l : List Motion, (∀ x ∈ l, x ∈ gs) → ∃ m ∈ generate motionOps gs, SameMotion m (l.foldr Mot.mul one)) ∧
      ∀ m ∈ generate motionOps gs, ∃ l : List Motion, (∀ x ∈ l, x ∈ gs) ∧ SameMotion m (l.foldr Mot.mul one) := by
  obtain ⟨h, ts, gs, hf⟩ := row_facts h1 h2
  have hp := C10_motions_partial (n := 12) (by norm_num) (by norm_num) gs hf.grid
  refine ⟨h, gs, hf.decoded, hf.gens, symmetry_eq hf, hp.2.2.2.2 ?_, hp.2.2.2.1⟩
  intro m hm g hg
  obtain ⟨m', hm', hs⟩ := hp.2.1 g hg
  rw [← mem_red, red_mul, ← (sameMotion_iff _ _).mp hs]
  exact hf.closed _ (List.mem_map_of_mem hm) _ (List.mem_map_of_mem hm')

/-- **C44, centring.**  The generators of every symbol that is decoded contain the centring translations of its
letter, with or without a change of basis. -/
theorem C44_centring (h : Symbol) (gs : List Motion) (hg : h.generators = some gs) :
    ∃ c, centringOf h.L = some c ∧ ∀ x, IsLatticePoint c x → ∃ g ∈ gs, SameMotion g ⟨idMat, x⟩ := by
  unfold Symbol.generators at hg
  split at hg
  swap
  · cases hg
  rename_i ts ms hts hms
  obtain ⟨c, hc, hx⟩ := centrings_spec hts
  refine ⟨c, hc, fun x hxl => ?_⟩
  obtain ⟨t, ht, hs⟩ := (hx x).mp hxl
  dsimp only at hg
  split at hg
  · cases hg
  · rename_i hrot
    have sy : SameModLattice x t := by
      intro i
      obtain ⟨a, ha⟩ := hs i
      exact ⟨-a, by push_cast; linarith⟩
    split at hg
    · cases hg
      refine ⟨_, List.mem_map_of_mem (List.mem_append_left _ (List.mem_append_left _
        (List.mem_map_of_mem (f := fun t => (⟨idMat, t⟩ : Motion)) ht))), ?_⟩
      have e1 : ∀ (v : Fin 3 → ℚ), red (ofTranslation v) = red ⟨idMat, v⟩ := fun v => rfl
      have e2 : ∀ a b : Fin 3 → ℚ, red (⟨idMat, a⟩ : Motion) * red ⟨idMat, b⟩ = red ⟨idMat, fun i => a i + b i⟩ := by
        intro a b
        rw [← red_mul, red_eq_iff]
        refine ⟨?_, fun i => ?_⟩
        · funext i j
          show Mat.mulArrays idMat idMat i j = idMat i j
          rw [mulArrays3]
          fin_cases i <;> fin_cases j <;> rfl
        · refine ⟨⌊Mat.mulVec (Mot.cast idMat) b i + a i⌋, ?_⟩
          show a i + b i - (Mat.mulVec (Mot.cast idMat) b i + a i - ⌊Mat.mulVec (Mot.cast idMat) b i + a i⌋) = _
          have : Mat.mulVec (Mot.cast idMat) b i = b i := by
            rw [mulVec3]
            fin_cases i <;> simp [Mot.cast, idMat]
          rw [this]
          ring
      rw [sameMotion_iff, red_mul, red_mul, e1, e1, e2, e2, red_eq_iff]
      refine ⟨rfl, fun i => ?_⟩
      obtain ⟨z, hz⟩ := sy i
      exact ⟨z, by rw [← hz]; ring⟩
    · cases hg
      exact ⟨_, List.mem_append_left _ (List.mem_append_left _
        (List.mem_map_of_mem (f := fun t => (⟨idMat, t⟩ : Motion)) ht)), rfl, sy⟩

end Brille.Props
