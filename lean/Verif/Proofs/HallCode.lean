/-
A group of motions in a form that the kernel computes with quickly: entries of rotations and twelfths of
translations as numbers modulo 12.  `Motions` in this form are certificates; `read_mul` below proves what they
stand for.
-/
import Verif.Model.Hall
import Verif.Model.PointGroup
import Verif.Props.Symmetry
import Mathlib.Tactic.FinCases

namespace Brille.Hall
open Brille.Mot Brille.Sym

/-- a motion: rotation entries (11 stands for -1), translation in twelfths -/
structure Mo where
  (a b c d e f g h i x y z : Nat)

/-- `a A + b B + c C + x` modulo 12 -/
def m3 (a A b B c C x : Nat) : Nat :=
  Nat.mod (Nat.add (Nat.add (Nat.add (Nat.mul a A) (Nat.mul b B)) (Nat.mul c C)) x) 12

def Mo.mul (p q : Mo) : Mo :=
  ⟨m3 p.a q.a p.b q.d p.c q.g 0, m3 p.a q.b p.b q.e p.c q.h 0, m3 p.a q.c p.b q.f p.c q.i 0,
   m3 p.d q.a p.e q.d p.f q.g 0, m3 p.d q.b p.e q.e p.f q.h 0, m3 p.d q.c p.e q.f p.f q.i 0,
   m3 p.g q.a p.h q.d p.i q.g 0, m3 p.g q.b p.h q.e p.i q.h 0, m3 p.g q.c p.h q.f p.i q.i 0,
   m3 p.a q.x p.b q.y p.c q.z p.x, m3 p.d q.x p.e q.y p.f q.z p.y, m3 p.g q.x p.h q.y p.i q.z p.z⟩

def Mo.one : Mo := ⟨1, 0, 0, 0, 1, 0, 0, 0, 1, 0, 0, 0⟩

/-- equality, stopping at the first difference -/
def Mo.eq (p q : Mo) : Bool :=
  bif Nat.beq p.a q.a then bif Nat.beq p.b q.b then bif Nat.beq p.c q.c then bif Nat.beq p.d q.d then
  bif Nat.beq p.e q.e then bif Nat.beq p.f q.f then bif Nat.beq p.g q.g then bif Nat.beq p.h q.h then
  bif Nat.beq p.i q.i then bif Nat.beq p.x q.x then bif Nat.beq p.y q.y then Nat.beq p.z q.z
  else false else false else false else false else false else false else false else false else false else false else false

theorem Mo.eq_iff {p q : Mo} : p.eq q = true ↔ p = q := by
  have key : ∀ (m n : Nat) (b : Bool), (bif Nat.beq m n then b else false) = true ↔ m = n ∧ b = true := by
    intro m n b
    cases h : Nat.beq m n
    · simp only [cond_false, Bool.false_eq_true, false_iff, not_and]
      intro he; rw [he, Nat.beq_refl] at h; exact absurd h (by simp)
    · simp only [cond_true]
      exact ⟨fun hb => ⟨Nat.eq_of_beq_eq_true h, hb⟩, fun hb => hb.2⟩
  obtain ⟨a, b, c, d, e, f, g, h, i, x, y, z⟩ := p
  obtain ⟨A, B, C, D, E, F, G, H, I, X, Y, Z⟩ := q
  unfold Mo.eq
  simp only [key, Mo.mk.injEq]
  rw [show Nat.beq z Z = true ↔ z = Z from ⟨Nat.eq_of_beq_eq_true, fun h => h ▸ Nat.beq_refl z⟩]

/-- membership -/
def mem (p : Mo) : List Mo → Bool
  | [] => false
  | q :: l => bif p.eq q then true else mem p l

theorem mem_iff {p : Mo} {l : List Mo} : mem p l = true ↔ p ∈ l := by
  induction l with
  | nil => simp [mem]
  | cons q l ih =>
    rw [mem, List.mem_cons, ← ih, ← Mo.eq_iff]
    cases p.eq q <;> simp

/-- an entry of a rotation -/
def lift (n : Nat) : ℤ := if n = 11 then -1 else n

/-- what a `Mo` stands for -/
def Mo.motion (p : Mo) : Motion :=
  ⟨m9 (lift p.a) (lift p.b) (lift p.c) (lift p.d) (lift p.e) (lift p.f) (lift p.g) (lift p.h) (lift p.i),
    ![(p.x : ℚ) / 12, (p.y : ℚ) / 12, (p.z : ℚ) / 12]⟩

/-- an entry that stands for -1, 0 or 1 -/
def ok (n : Nat) : Bool := bif Nat.beq n 0 then true else bif Nat.beq n 1 then true else Nat.beq n 11

def Mo.valid (p : Mo) : Bool :=
  ok p.a && (ok p.b && (ok p.c && (ok p.d && (ok p.e && (ok p.f && (ok p.g && (ok p.h && ok p.i)))))))

theorem ok_iff {n : Nat} : ok n = true ↔ n = 0 ∨ n = 1 ∨ n = 11 := by
  have key : ∀ (m n : Nat) (b : Bool), (bif Nat.beq m n then true else b) = true ↔ m = n ∨ b = true := by
    intro m n b
    cases h : Nat.beq m n
    · have : m ≠ n := fun he => by rw [he, Nat.beq_refl] at h; exact absurd h (by simp)
      simp [this]
    · simp [Nat.eq_of_beq_eq_true h]
  unfold ok
  rw [key, key, show Nat.beq n 11 = true ↔ n = 11 from ⟨Nat.eq_of_beq_eq_true, fun h => h ▸ Nat.beq_refl n⟩]

theorem m3_rot_table : ∀ a ∈ [0, 1, 11], ∀ A ∈ [0, 1, 11], ∀ b ∈ [0, 1, 11], ∀ B ∈ [0, 1, 11], ∀ c ∈ [0, 1, 11],
    ∀ C ∈ [0, 1, 11], ok (m3 a A b B c C 0) = true →
    lift (m3 a A b B c C 0) = lift a * lift A + lift b * lift B + lift c * lift C := by decide +kernel

theorem m3_rot {a A b B c C : Nat} (ha : ok a = true) (hA : ok A = true) (hb : ok b = true) (hB : ok B = true)
    (hc : ok c = true) (hC : ok C = true) (h : ok (m3 a A b B c C 0) = true) :
    lift (m3 a A b B c C 0) = lift a * lift A + lift b * lift B + lift c * lift C := by
  have key : ∀ {n}, ok n = true → n ∈ [0, 1, 11] := by intro n hn; simpa using ok_iff.mp hn
  exact m3_rot_table a (key ha) A (key hA) b (key hb) B (key hB) c (key hc) C (key hC) h

theorem m3_tran {a b c : Nat} (ha : ok a = true) (hb : ok b = true) (hc : ok c = true) (X Y Z x : Nat) :
    ∃ k : ℤ, lift a * X + lift b * Y + lift c * Z + x = m3 a X b Y c Z x + 12 * k := by
  have e : ∀ n, m3 a X b Y c Z x = n % 12 → ∃ k : ℤ, (n : ℤ) = m3 a X b Y c Z x + 12 * k := by
    intro n hn; refine ⟨n / 12, ?_⟩; rw [hn]; omega
  obtain ⟨k, hk⟩ := e (a * X + b * Y + c * Z + x) rfl
  have l : ∀ {n : Nat}, ok n = true → ∀ V : Nat, ∃ j : ℤ, lift n * V = n * V + 12 * j := by
    intro n hn V
    rcases ok_iff.mp hn with rfl | rfl | rfl
    · exact ⟨0, by simp [lift]⟩
    · exact ⟨0, by simp [lift]⟩
    · exact ⟨-V, by simp [lift]; ring⟩
  obtain ⟨ja, hja⟩ := l ha X
  obtain ⟨jb, hjb⟩ := l hb Y
  obtain ⟨jc, hjc⟩ := l hc Z
  refine ⟨k + ja + jb + jc, ?_⟩
  push_cast at hk
  rw [hja, hjb, hjc]
  linarith

/-- what a `Mo` stands for, modulo the lattice -/
def read (p : Mo) : Reduced := red p.motion

theorem valid_iff {p : Mo} : p.valid = true ↔ ok p.a = true ∧ ok p.b = true ∧ ok p.c = true ∧ ok p.d = true ∧
    ok p.e = true ∧ ok p.f = true ∧ ok p.g = true ∧ ok p.h = true ∧ ok p.i = true := by
  unfold Mo.valid
  simp only [Bool.and_eq_true]

theorem read_mul {p q : Mo} (hp : p.valid = true) (hq : q.valid = true) (hpq : (p.mul q).valid = true) :
    read (p.mul q) = read p * read q := by
  obtain ⟨a1, a2, a3, a4, a5, a6, a7, a8, a9⟩ := valid_iff.mp hp
  obtain ⟨b1, b2, b3, b4, b5, b6, b7, b8, b9⟩ := valid_iff.mp hq
  obtain ⟨c1, c2, c3, c4, c5, c6, c7, c8, c9⟩ := valid_iff.mp hpq
  unfold read
  rw [← red_mul, red_eq_iff]
  refine ⟨?_, ?_⟩
  · funext i j
    rw [show (mul p.motion q.motion).W i j = Mat.mulArrays p.motion.W q.motion.W i j from rfl, mulArrays3]
    fin_cases i <;> fin_cases j
    · exact m3_rot a1 b1 a2 b4 a3 b7 c1
    · exact m3_rot a1 b2 a2 b5 a3 b8 c2
    · exact m3_rot a1 b3 a2 b6 a3 b9 c3
    · exact m3_rot a4 b1 a5 b4 a6 b7 c4
    · exact m3_rot a4 b2 a5 b5 a6 b8 c5
    · exact m3_rot a4 b3 a5 b6 a6 b9 c6
    · exact m3_rot a7 b1 a8 b4 a9 b7 c7
    · exact m3_rot a7 b2 a8 b5 a9 b8 c8
    · exact m3_rot a7 b3 a8 b6 a9 b9 c9
  · have key : ∀ {a b c : Nat} (_ : ok a = true) (_ : ok b = true) (_ : ok c = true) (X Y Z x : Nat),
        ∃ z : ℤ, ((lift a : ℤ) : ℚ) * (X / 12) + (lift b : ℤ) * (Y / 12) + (lift c : ℤ) * (Z / 12) + x / 12 -
          (m3 a X b Y c Z x : ℚ) / 12 = z := by
      intro a b c ha hb hc X Y Z x
      obtain ⟨k, hk⟩ := m3_tran ha hb hc X Y Z x
      refine ⟨k, ?_⟩
      have : ((lift a : ℤ) : ℚ) * X + (lift b : ℤ) * Y + (lift c : ℤ) * Z + x = (m3 a X b Y c Z x : ℚ) + 12 * k := by
        exact_mod_cast hk
      linarith
    intro i
    have hm : (mul p.motion q.motion).w i = Mat.mulVec (Mot.cast p.motion.W) q.motion.w i + p.motion.w i -
      ⌊Mat.mulVec (Mot.cast p.motion.W) q.motion.w i + p.motion.w i⌋ := rfl
    rw [hm]
    generalize ⌊Mat.mulVec (Mot.cast p.motion.W) q.motion.w i + p.motion.w i⌋ = fl
    rw [mulVec3]
    fin_cases i
    · obtain ⟨z, hz⟩ := key a1 a2 a3 q.x q.y q.z p.x
      exact ⟨z - fl, by push_cast; rw [← hz]; simp [Mo.motion, Mot.cast, m9, Mo.mul]; ring⟩
    · obtain ⟨z, hz⟩ := key a4 a5 a6 q.x q.y q.z p.y
      exact ⟨z - fl, by push_cast; rw [← hz]; simp [Mo.motion, Mot.cast, m9, Mo.mul]; ring⟩
    · obtain ⟨z, hz⟩ := key a7 a8 a9 q.x q.y q.z p.z
      exact ⟨z - fl, by push_cast; rw [← hz]; simp [Mo.motion, Mot.cast, m9, Mo.mul]; ring⟩

theorem read_one : read Mo.one = 1 := by
  rw [← red_one]
  unfold read
  rw [red_eq_iff]
  refine ⟨?_, fun i => ⟨0, ?_⟩⟩
  · funext i j; fin_cases i <;> fin_cases j <;> rfl
  · fin_cases i <;> simp [Mo.motion, Mo.one, ofTranslation]

theorem onGrid_motion (p : Mo) : OnGrid 12 p.motion := by
  intro i
  fin_cases i
  · exact ⟨p.x, rfl⟩
  · exact ⟨p.y, rfl⟩
  · exact ⟨p.z, rfl⟩

/-! ### motions in this form -/

def digit (n : ℤ) : Option Nat :=
  if n = 0 then some 0 else if n = 1 then some 1 else if n = -1 then some 11 else none

def twelfth (q : ℚ) : Option Nat := let r := 12 * q; if r.den = 1 then some (r.num % 12).toNat else none

/-- the motion, if its entries are -1, 0, 1 and its translation is in twelfths -/
def encode (m : Motion) : Option Mo :=
  match digit (m.W 0 0), digit (m.W 0 1), digit (m.W 0 2), digit (m.W 1 0), digit (m.W 1 1), digit (m.W 1 2),
    digit (m.W 2 0), digit (m.W 2 1), digit (m.W 2 2), twelfth (m.w 0), twelfth (m.w 1), twelfth (m.w 2) with
  | some a, some b, some c, some d, some e, some f, some g, some h, some i, some x, some y, some z =>
    some ⟨a, b, c, d, e, f, g, h, i, x, y, z⟩
  | _, _, _, _, _, _, _, _, _, _, _, _ => none

theorem digit_some {n : ℤ} {k : Nat} (h : digit n = some k) : ok k = true ∧ lift k = n := by
  unfold digit at h
  split at h
  · rename_i hn; cases h; exact ⟨rfl, by rw [hn]; rfl⟩
  · split at h
    · rename_i hn; cases h; exact ⟨rfl, by rw [hn]; rfl⟩
    · split at h
      · rename_i hn; cases h; exact ⟨rfl, by rw [hn]; rfl⟩
      · cases h

theorem twelfth_some {q : ℚ} {k : Nat} (h : twelfth q = some k) : ∃ z : ℤ, q - (k : ℚ) / 12 = z := by
  unfold twelfth at h
  dsimp only at h
  split at h
  · rename_i hd
    cases h
    refine ⟨(12 * q).num / 12, ?_⟩
    have h1 : (((12 * q).num : ℤ) : ℚ) = 12 * q := (Rat.den_eq_one_iff _).mp hd
    have h2 : 12 * ((12 * q).num / 12) + (12 * q).num % 12 = (12 * q).num := Int.mul_ediv_add_emod _ _
    have h3 : (((12 * q).num % 12).toNat : ℤ) = (12 * q).num % 12 := Int.toNat_of_nonneg (Int.emod_nonneg _ (by omega))
    have h4 : ((((12 * q).num % 12).toNat : ℤ) : ℚ) = (((12 * q).num % 12 : ℤ) : ℚ) := by rw [h3]
    have h5 : (12 : ℚ) * (((12 * q).num / 12 : ℤ) : ℚ) + (((12 * q).num % 12 : ℤ) : ℚ) = (((12 * q).num : ℤ) : ℚ) := by
      exact_mod_cast h2
    push_cast at h4
    rw [h4]
    linarith
  · cases h

theorem encode_some {m : Motion} {p : Mo} (h : encode m = some p) :
    p.valid = true ∧ read p = red m ∧ OnGrid 12 m := by
  unfold encode at h
  split at h
  · rename_i a b c d e f g h' i x y z h1 h2 h3 h4 h5 h6 h7 h8 h9 h10 h11 h12
    cases h
    obtain ⟨v1, e1⟩ := digit_some h1
    obtain ⟨v2, e2⟩ := digit_some h2
    obtain ⟨v3, e3⟩ := digit_some h3
    obtain ⟨v4, e4⟩ := digit_some h4
    obtain ⟨v5, e5⟩ := digit_some h5
    obtain ⟨v6, e6⟩ := digit_some h6
    obtain ⟨v7, e7⟩ := digit_some h7
    obtain ⟨v8, e8⟩ := digit_some h8
    obtain ⟨v9, e9⟩ := digit_some h9
    obtain ⟨x1, t1⟩ := twelfth_some h10
    obtain ⟨x2, t2⟩ := twelfth_some h11
    obtain ⟨x3, t3⟩ := twelfth_some h12
    refine ⟨valid_iff.mpr ⟨v1, v2, v3, v4, v5, v6, v7, v8, v9⟩, ?_, ?_⟩
    · unfold read
      rw [red_eq_iff]
      refine ⟨?_, ?_⟩
      · funext i j
        fin_cases i <;> fin_cases j
        · exact e1
        · exact e2
        · exact e3
        · exact e4
        · exact e5
        · exact e6
        · exact e7
        · exact e8
        · exact e9
      · intro i
        fin_cases i
        · exact ⟨x1, t1⟩
        · exact ⟨x2, t2⟩
        · exact ⟨x3, t3⟩
    · have key : ∀ (q : ℚ) (k : Nat) (z : ℤ), q - (k : ℚ) / 12 = z → ∃ z : ℤ, q = z / (12 : ℕ) := by
        intro q k z hz
        exact ⟨k + 12 * z, by push_cast; linarith⟩
      intro i
      fin_cases i
      · exact key _ _ _ t1
      · exact key _ _ _ t2
      · exact key _ _ _ t3
  · cases h

/-! ### the group -/

/-- the powers of `c`, from `p` on, that are not in `K` -/
def newPowers (K : List Mo) (c : Mo) : Nat → Mo → Option (List Mo)
  | 0, _ => none
  | n + 1, p =>
    if !p.valid then none else if mem p K then some [] else (newPowers K c n (c.mul p)).map (p :: ·)

/-- `c` to a power up to `n`, starting from `p`, is the identity; everything on the way is valid -/
def finite (c : Mo) : Nat → Mo → Bool
  | 0, _ => false
  | n + 1, p => p.valid && (p.eq Mo.one || finite c n (c.mul p))

/-- the group generated by the group `K` and by `c` -/
def step (K : List Mo) (c : Mo) : Option (List Mo) :=
  if !finite c 12 c then none
  else if mem c K then some K
  else
    match newPowers K c 12 c with
    | none => none
    | some P =>
      let K' := K ++ P.flatMap fun p => K.map p.mul
      if K'.all Mo.valid && K.all (fun h => mem (h.mul c) K') then some K' else none

def group : List Mo → List Mo → Option (List Mo)
  | K, [] => some K
  | K, c :: l => match step K c with | none => none | some K' => group K' l

theorem finite_spec {c : Mo} (hc : c.valid = true) : ∀ {n k : Nat} {p : Mo}, read p = read c ^ k → finite c n p = true →
    ∃ r, k ≤ r ∧ r < k + n ∧ read c ^ r = 1 := by
  intro n
  induction n with
  | zero => intro k p _ h; simp [finite] at h
  | succ n ih =>
    intro k p hp h
    rw [finite, Bool.and_eq_true, Bool.or_eq_true] at h
    rcases h with ⟨hv, h | h⟩
    · rw [Mo.eq_iff] at h
      exact ⟨k, le_refl _, by omega, by rw [← hp, h, read_one]⟩
    · have hv' : (c.mul p).valid = true := by
        cases n with
        | zero => simp [finite] at h
        | succ n => rw [finite, Bool.and_eq_true] at h; exact h.1
      obtain ⟨r, h1, h2, h3⟩ := ih (k := k + 1) (by rw [read_mul hc hv hv', hp, pow_succ']) h
      exact ⟨r, by omega, by omega, h3⟩

theorem finite_valid {c : Mo} (h : finite c 12 c = true) : c.valid = true := by
  rw [finite, Bool.and_eq_true] at h; exact h.1

theorem newPowers_spec {K : List Mo} {c : Mo} (hc : c.valid = true) : ∀ {n k : Nat} {p : Mo} {P : List Mo},
    (p.valid = true → read p = read c ^ k) → newPowers K c n p = some P →
    ∃ m, k ≤ m ∧ read c ^ m ∈ K.map read ∧ (∀ q ∈ P, q.valid = true) ∧
      ∀ y, y ∈ P.map read ↔ ∃ j, k ≤ j ∧ j < m ∧ y = read c ^ j := by
  intro n
  induction n with
  | zero => intro k p P _ h; simp [newPowers] at h
  | succ n ih =>
    intro k p P hp h
    rw [newPowers] at h
    by_cases hv : p.valid = true
    swap
    · simp [hv] at h
    rw [hv] at h
    simp only [Bool.not_true, Bool.false_eq_true, if_false] at h
    by_cases hm : mem p K = true
    · rw [if_pos hm] at h
      cases h
      refine ⟨k, le_refl _, by rw [← hp hv]; exact List.mem_map_of_mem (mem_iff.mp hm), by simp, ?_⟩
      intro y
      simp only [List.map_nil, List.not_mem_nil, false_iff, not_exists, not_and]
      intro j h1 h2; omega
    · rw [if_neg hm, Option.map_eq_some_iff] at h
      obtain ⟨P', h, rfl⟩ := h
      obtain ⟨m, h1, h2, h3, h4⟩ := ih (k := k + 1)
        (fun hv' => by rw [read_mul hc hv hv', hp hv, pow_succ']) h
      refine ⟨m, by omega, h2, ?_, ?_⟩
      · intro q hq
        rcases List.mem_cons.mp hq with rfl | hq
        · exact hv
        · exact h3 q hq
      · intro y
        rw [List.map_cons, List.mem_cons, h4, hp hv]
        constructor
        · rintro (rfl | ⟨j, a, b, rfl⟩)
          · exact ⟨k, le_refl _, by omega, rfl⟩
          · exact ⟨j, by omega, b, rfl⟩
        · rintro ⟨j, a, b, rfl⟩
          by_cases hjk : j = k
          · left; rw [hjk]
          · exact Or.inr ⟨j, by omega, b, rfl⟩

/-- what is proved of the list `K` made from generators -/
structure Inv (gens : List Motion) (K : List Mo) : Prop where
  valid : ∀ k ∈ K, k.valid = true
  same : ∀ y, y ∈ (generate motionOps gens).map red ↔ y ∈ K.map read
  closed : ClosedSet red (generate motionOps gens)
  fin : ∀ g ∈ gens, ∃ n, 0 < n ∧ red g ^ n = 1

theorem inv_nil : Inv [] [Mo.one] where
  valid := by intro k hk; rw [List.mem_singleton.mp hk]; rfl
  same := by
    intro y
    simp only [generate, List.foldl_nil, List.map_cons, List.map_nil, List.mem_singleton, read_one]
    rw [show red motionOps.e = 1 from red_one]
  closed := by
    intro a ha b hb
    simp only [generate, List.foldl_nil, List.map_cons, List.map_nil, List.mem_singleton] at ha hb ⊢
    rw [show red motionOps.e = 1 from red_one] at *
    rw [ha, hb, one_mul]
  fin := by simp

theorem inv_step {gens : List Motion} {K K' : List Mo} {g : Motion} {c : Mo} (hS : ∀ x ∈ gens, OnGrid 12 x)
    (hg : OnGrid 12 g) (hcg : read c = red g) (hI : Inv gens K) (h : step K c = some K') :
    Inv (gens ++ [g]) K' := by
  have hr := reads_motion (n := 12) (by norm_num) (by norm_num)
  unfold step at h
  by_cases hfin : finite c 12 c = true
  swap
  · simp [hfin] at h
  rw [hfin] at h
  simp only [Bool.not_true, Bool.false_eq_true, if_false] at h
  have hc := finite_valid hfin
  obtain ⟨r, hr1, hr2, hr3⟩ := finite_spec hc (k := 1) (pow_one _).symm hfin
  rw [hcg] at hr3
  obtain ⟨n, hn0, hn1, hn2⟩ := Props.motion_order_enough (n := 12) (by norm_num) (by norm_num) hg hr1 (by omega) hr3
  have hsnoc : ∀ y, y ∈ (generate motionOps (gens ++ [g])).map red ↔
      ∃ k, ∃ h ∈ (generate motionOps gens).map red, y = red g ^ k * h := by
    intro y
    rw [generate_snoc hr hS hg]
    constructor
    · rintro ⟨k, _, h, hh, he⟩; exact ⟨k, h, hh, he⟩
    · rintro ⟨k, h, hh, rfl⟩
      refine ⟨k % n, by have := Nat.mod_lt k hn0; omega, h, hh, ?_⟩
      conv_lhs => rw [← Nat.div_add_mod k n, pow_add, pow_mul, hn1, one_pow, one_mul]
  have hpowmem : red g ∈ (generate motionOps gens).map red → ∀ k, ∀ h ∈ (generate motionOps gens).map red,
      red g ^ k * h ∈ (generate motionOps gens).map red := by
    intro h0 k
    induction k with
    | zero => intro h hh; simpa using hh
    | succ k ih => intro h hh; rw [pow_succ, mul_assoc]; exact ih _ (hI.closed _ h0 _ hh)
  have hclosed := closed_step hr hS hg hI.closed hn0 hn1 hn2 (motion_order_pos g)
  have hfin' : ∀ x ∈ gens ++ [g], ∃ n, 0 < n ∧ red x ^ n = 1 := by
    intro x hx
    rcases List.mem_append.mp hx with hx | hx
    · exact hI.fin x hx
    · rw [List.mem_singleton.mp hx]; exact ⟨n, hn0, hn1⟩
  by_cases hmem : mem c K = true
  · rw [if_pos hmem] at h
    cases h
    have h0 : red g ∈ (generate motionOps gens).map red := by
      rw [hI.same, ← hcg]; exact List.mem_map_of_mem (mem_iff.mp hmem)
    have hsame : ∀ y, y ∈ (generate motionOps (gens ++ [g])).map red ↔ y ∈ (generate motionOps gens).map red := by
      intro y
      rw [hsnoc]
      exact ⟨fun ⟨k, h, hh, he⟩ => he ▸ hpowmem h0 k h hh, fun hy => ⟨0, y, hy, by simp⟩⟩
    refine ⟨hI.valid, fun y => (hsame y).trans (hI.same y), ?_, hfin'⟩
    intro a ha b hb
    rw [hsame] at ha hb ⊢
    exact hI.closed a ha b hb
  rw [if_neg hmem] at h
  cases hP : newPowers K c 12 c with
  | none => rw [hP] at h; cases h
  | some P =>
    rw [hP] at h
    dsimp only at h
    split at h
    swap
    · cases h
    rename_i hchk
    cases h
    rw [Bool.and_eq_true, List.all_eq_true, List.all_eq_true] at hchk
    obtain ⟨hval, hcl⟩ := hchk
    obtain ⟨m, hm1, hm2, hPv, hP⟩ := newPowers_spec hc (k := 1) (fun _ => (pow_one _).symm) hP
    have hK' : ∀ y, y ∈ (K ++ P.flatMap fun p => K.map p.mul).map read ↔
        ∃ j < m, ∃ h ∈ K.map read, y = read c ^ j * h := by
      intro y
      rw [List.mem_map]
      constructor
      · rintro ⟨k, hk, rfl⟩
        rcases List.mem_append.mp hk with hk | hk'
        · exact ⟨0, by omega, read k, List.mem_map_of_mem hk, by simp⟩
        · obtain ⟨p, hp, hk2⟩ := List.mem_flatMap.mp hk'
          obtain ⟨q, hq, rfl⟩ := List.mem_map.mp hk2
          obtain ⟨j, _, hj, he⟩ := (hP (read p)).mp (List.mem_map_of_mem hp)
          refine ⟨j, hj, read q, List.mem_map_of_mem hq, ?_⟩
          rw [read_mul (hPv p hp) (hI.valid q hq) (hval _ hk), he]
      · rintro ⟨j, hj, h, hh, rfl⟩
        obtain ⟨q, hq, rfl⟩ := List.mem_map.mp hh
        by_cases hj0 : j = 0
        · subst hj0
          exact ⟨q, List.mem_append_left _ hq, by simp⟩
        · obtain ⟨p, hp, he⟩ := List.mem_map.mp ((hP (read c ^ j)).mpr ⟨j, by omega, hj, rfl⟩)
          have hin : p.mul q ∈ K ++ P.flatMap fun p => K.map p.mul :=
            List.mem_append_right _ (List.mem_flatMap.mpr ⟨p, hp, List.mem_map_of_mem hq⟩)
          exact ⟨p.mul q, hin, by rw [read_mul (hPv p hp) (hI.valid q hq) (hval _ hin), he]⟩
    have hred : ∀ k, ∀ h ∈ K.map read, ∃ j < m, ∃ h' ∈ K.map read, read c ^ k * h = read c ^ j * h' := by
      intro k
      induction k using Nat.strong_induction_on with
      | _ k ih =>
        intro h hh
        by_cases hkm : k < m
        · exact ⟨k, hkm, h, hh, rfl⟩
        · obtain ⟨j, hj, h', hh', he⟩ := ih (k - m) (by omega) (read c ^ m * h)
            (by rw [← hI.same] at hm2 hh ⊢; exact hI.closed _ hm2 _ hh)
          refine ⟨j, hj, h', hh', ?_⟩
          rw [← he, ← mul_assoc, ← pow_add]
          congr 2
          omega
    have hsame : ∀ y, y ∈ (generate motionOps (gens ++ [g])).map red ↔
        y ∈ (K ++ P.flatMap fun p => K.map p.mul).map read := by
      intro y
      rw [hsnoc, hK', ← hcg]
      constructor
      · rintro ⟨k, h, hh, rfl⟩
        exact hred k h ((hI.same h).mp hh)
      · rintro ⟨j, _, h, hh, he⟩
        exact ⟨j, h, (hI.same h).mpr hh, he⟩
    refine ⟨hval, hsame, hclosed.mpr ?_, hfin'⟩
    intro h hh
    rw [hI.same] at hh
    obtain ⟨q, hq, rfl⟩ := List.mem_map.mp hh
    have hin := mem_iff.mp (hcl q hq)
    rw [hsame, ← hcg, ← read_mul (hI.valid q hq) hc (hval _ hin)]
    exact List.mem_map_of_mem hin

/-- the codes of generators -/
def codes : List Motion → Option (List Mo)
  | [] => some []
  | m :: l => match encode m with | none => none | some c => (codes l).map (c :: ·)

theorem inv_group : ∀ {l : List Motion} {cs : List Mo} {gens : List Motion} {K K' : List Mo}, codes l = some cs →
    (∀ x ∈ gens, OnGrid 12 x) → Inv gens K → group K cs = some K' →
    Inv (gens ++ l) K' ∧ ∀ x ∈ gens ++ l, OnGrid 12 x := by
  intro l
  induction l with
  | nil =>
    intro cs gens K K' hcs hS hI h
    rw [codes] at hcs; cases hcs
    rw [group] at h; cases h
    rw [List.append_nil]; exact ⟨hI, hS⟩
  | cons g l ih =>
    intro cs gens K K' hcs hS hI h
    rw [codes] at hcs
    cases he : encode g with
    | none => rw [he] at hcs; cases hcs
    | some c =>
      rw [he] at hcs
      dsimp only at hcs
      obtain ⟨cs', hcs', rfl⟩ := Option.map_eq_some_iff.mp hcs
      rw [group] at h
      cases hs : step K c with
      | none => rw [hs] at h; cases h
      | some K1 =>
        rw [hs] at h
        dsimp only at h
        obtain ⟨_, h2, h3⟩ := encode_some he
        have hS' : ∀ x ∈ gens ++ [g], OnGrid 12 x := by
          intro x hx
          rcases List.mem_append.mp hx with hx | hx
          · exact hS x hx
          · rw [List.mem_singleton.mp hx]; exact h3
        have := ih hcs' hS' (inv_step hS h3 h2 hI hs) h
        rwa [List.append_assoc, List.singleton_append] at this

/-- The group of a list of generators, in codes. -/
theorem group_spec {l : List Motion} {cs K : List Mo} (hcs : codes l = some cs) (h : group [Mo.one] cs = some K) :
    Inv l K ∧ ∀ x ∈ l, OnGrid 12 x := by
  have := inv_group hcs (by simp) inv_nil h
  rwa [List.nil_append] at this

end Brille.Hall
