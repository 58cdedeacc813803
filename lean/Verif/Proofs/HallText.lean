/-
Writing a Hall symbol as text and reading it again.
-/
import Verif.Model.Hall
import Mathlib.Tactic.Common

namespace Brille.Hall
open Brille.Mot Brille.Spg

/-- characters that end nothing and start nothing -/
def inner (c : Char) : Bool :=
  !strchr lattices c && (c != '-' && (c != ' ' && (c != '(' && (c != '^' && c != '_'))))

theorem step_inner {c : Char} (hc : inner c = true) (fuel : Nat) (l : List Char) (h : Symbol) (v : Loc) :
    loop false (fuel + 1) (c :: l) h v = loop false fuel l h (plain v c) := by
  unfold inner at hc
  simp only [Bool.and_eq_true, Bool.not_eq_true', bne_iff_ne, ne_eq] at hc
  obtain ⟨h1, h2, h3, h4, _⟩ := hc
  have h2' : ¬ '-' = c := fun h => h2 h.symm
  have h3' : ¬ ' ' = c := fun h => h3 h.symm
  have h4' : ¬ '(' = c := fun h => h4 h.symm
  rw [loop]
  simp only [h1, Bool.false_eq_true, if_false, h2', h3', h4']

theorem axes_inner : ∀ c ∈ axes, inner c = true ∧ strchr axes c = true ∧ strchr trans c = false := by decide
theorem trans_inner : ∀ c ∈ trans, inner c = true ∧ strchr trans c = true ∧ strchr axes c = false := by decide
theorem orders_inner : ∀ c ∈ orders, inner c = true ∧ strchr orders c = true := by decide

theorem loop_axes (h : Symbol) (l : List Char) : ∀ (A : List Char), (∀ c ∈ A, c ∈ axes) → ∀ (fuel : Nat) (v : Loc),
    v.s.N ≠ 0 → loop false (fuel + A.length) (A ++ l) h v =
      loop false fuel l h { v with s := { v.s with A := v.s.A ++ A } } := by
  intro A
  induction A with
  | nil => intro _ fuel v _; simp
  | cons c A ih =>
    intro hA fuel v hN
    obtain ⟨h1, h2, h3⟩ := axes_inner c (hA c (List.mem_cons_self ..))
    rw [List.length_cons, List.cons_append, ← Nat.add_assoc, step_inner h1]
    have hp : plain v c = { v with s := { v.s with A := v.s.A ++ [c] } } := by
      unfold plain; rw [if_pos hN]; simp [h2, h3]
    rw [hp]
    refine (ih (fun c hc => hA c (List.mem_cons_of_mem _ hc)) fuel
      { v with s := { v.s with A := v.s.A ++ [c] } } hN).trans ?_
    simp

theorem loop_trans (h : Symbol) (l : List Char) : ∀ (T : List Char), (∀ c ∈ T, c ∈ trans) → ∀ (fuel : Nat) (v : Loc),
    v.s.N ≠ 0 → loop false (fuel + T.length) (T ++ l) h v =
      loop false fuel l h { v with s := { v.s with T := v.s.T ++ T } } := by
  intro T
  induction T with
  | nil => intro _ fuel v _; simp
  | cons c T ih =>
    intro hT fuel v hN
    obtain ⟨h1, h2, h3⟩ := trans_inner c (hT c (List.mem_cons_self ..))
    rw [List.length_cons, List.cons_append, ← Nat.add_assoc, step_inner h1]
    have hp : plain v c = { v with s := { v.s with T := v.s.T ++ [c] } } := by
      unfold plain; rw [if_pos hN]; simp [h2, h3]
    rw [hp]
    refine (ih (fun c hc => hT c (List.mem_cons_of_mem _ hc)) fuel
      { v with s := { v.s with T := v.s.T ++ [c] } } hN).trans ?_
    simp

/-- the local variables at the start of a symbol -/
def fresh : Loc := ⟨false, false, false, ⟨0, [], []⟩⟩

theorem loop_space (fuel : Nat) (l : List Char) (h : Symbol) (v : Loc) :
    loop false (fuel + 1) (' ' :: l) h v = loop false fuel l (h.store v.s) fresh := by
  have e : (plain v ' ').s = v.s := by
    unfold plain
    have h1 : strchr trans ' ' = false := by decide
    have h2 : strchr axes ' ' = false := by decide
    have h3 : strchr orders ' ' = false := by decide
    rw [h1, h2, h3]
    simp
  rw [loop]
  have h0 : strchr lattices ' ' = false := by decide
  have h1 : ¬ '-' = ' ' := by decide
  have h2 : ¬ '(' = ' ' := by decide
  simp only [h0, Bool.false_eq_true, if_false, h1, h2, if_true, e]
  rfl

theorem loop_minus (fuel : Nat) (l : List Char) (h : Symbol) :
    loop false (fuel + 1) ('-' :: l) h fresh = loop false fuel l h { fresh with neg := true } := by
  have e : plain fresh '-' = fresh := rfl
  rw [loop]
  have h0 : strchr lattices '-' = false := by decide
  have h1 : ¬ ' ' = '-' := by decide
  have h2 : ¬ '(' = '-' := by decide
  simp only [h0, Bool.false_eq_true, if_false, h1, h2, if_true, e]

theorem loop_order (neg : Bool) {c : Char} (hc : c ∈ orders) (fuel : Nat) (l : List Char) (h : Symbol) :
    loop false (fuel + 1) (c :: l) h { fresh with neg := neg } = loop false fuel l h { fresh with s := start neg c } := by
  obtain ⟨h1, h2⟩ := orders_inner c hc
  rw [step_inner h1]
  congr 1
  unfold plain
  simp [h2, fresh]

/-- the text of the order -/
theorem intText_cases {n : Int} (h : n ∈ [-6, -4, -3, -2, -1, 1, 2, 3, 4, 6]) :
    ∃ neg : Bool, ∃ c ∈ orders, intText n = (if neg then ['-'] else []) ++ [c] ∧ start neg c = ⟨n, [], []⟩ := by
  simp only [List.mem_cons, List.not_mem_nil, or_false] at h
  rcases h with rfl | rfl | rfl | rfl | rfl | rfl | rfl | rfl | rfl | rfl
  · exact ⟨true, '6', by decide, by decide +kernel, by decide⟩
  · exact ⟨true, '4', by decide, by decide +kernel, by decide⟩
  · exact ⟨true, '3', by decide, by decide +kernel, by decide⟩
  · exact ⟨true, '2', by decide, by decide +kernel, by decide⟩
  · exact ⟨true, '1', by decide, by decide +kernel, by decide⟩
  · exact ⟨false, '1', by decide, by decide +kernel, by decide⟩
  · exact ⟨false, '2', by decide, by decide +kernel, by decide⟩
  · exact ⟨false, '3', by decide, by decide +kernel, by decide⟩
  · exact ⟨false, '4', by decide, by decide +kernel, by decide⟩
  · exact ⟨false, '6', by decide, by decide +kernel, by decide⟩

/-- an order, axis characters and translation characters of the notation -/
structure Written (s : Seitz) : Prop where
  order : s.N ∈ [-6, -4, -3, -2, -1, 1, 2, 3, 4, 6]
  axis : ∀ c ∈ s.A, c ∈ axes
  tran : ∀ c ∈ s.T, c ∈ trans

theorem Written.ne {s : Seitz} (h : Written s) : s.N ≠ 0 := by
  intro h0
  have := h.order
  rw [h0] at this
  revert this; decide

theorem loop_symbol {s : Seitz} (hs : Written s) (fuel : Nat) (l : List Char) (h : Symbol) :
    loop false (fuel + s.toAscii.length) (s.toAscii ++ l) h fresh = loop false fuel l h { fresh with s := s } := by
  obtain ⟨neg, c, hc, ht, hst⟩ := intText_cases hs.order
  have key : ∀ v : Loc, v = { fresh with s := start neg c } →
      loop false (fuel + (s.A ++ s.T).length) ((s.A ++ s.T) ++ l) h v = loop false fuel l h { fresh with s := s } := by
    rintro v rfl
    rw [hst, List.length_append, Nat.add_comm s.A.length, ← Nat.add_assoc, List.append_assoc,
      loop_axes h _ s.A hs.axis _ _ hs.ne, loop_trans h _ s.T hs.tran _ _ hs.ne]
    rfl
  unfold Seitz.toAscii
  rw [ht]
  cases neg with
  | true =>
    simp only [if_true, List.append_assoc, List.cons_append, List.nil_append, List.length_cons, ← Nat.add_assoc]
    rw [loop_minus, loop_order true hc, ← List.append_assoc]
    exact key _ rfl
  | false =>
    simp only [Bool.false_eq_true, if_false, List.append_assoc, List.cons_append, List.nil_append, List.length_cons,
      ← Nat.add_assoc]
    rw [show fresh = { fresh with neg := false } from rfl, loop_order false hc, ← List.append_assoc]
    exact key _ rfl

theorem loop_nil (fuel : Nat) (h : Symbol) (v : Loc) : loop false fuel [] h v = some (h, v) := by
  cases fuel <;> rw [loop]

theorem store_written {s : Seitz} (hs : Written s) (h : Symbol) : h.store s = { h with symbols := h.symbols ++ [s] } := by
  unfold Symbol.store; rw [if_neg hs.ne]

theorem loop_symbols : ∀ (ss : List Seitz), (∀ s ∈ ss, Written s) → ∀ (fuel : Nat) (h : Symbol) (v : Loc),
    (loop false (fuel + (ss.flatMap fun s => ' ' :: s.toAscii).length) (ss.flatMap fun s => ' ' :: s.toAscii) h v).map
      (fun x => x.1.store x.2.s) =
    some { h.store v.s with symbols := (h.store v.s).symbols ++ ss } := by
  intro ss
  induction ss with
  | nil => intro _ fuel h v; simp [loop_nil]
  | cons s ss ih =>
    intro hs fuel h v
    have hw := hs s (List.mem_cons_self ..)
    rw [List.flatMap_cons, List.cons_append, List.length_cons, List.length_append, ← Nat.add_assoc, loop_space,
      Nat.add_comm s.toAscii.length, ← Nat.add_assoc, loop_symbol hw,
      ih (fun s hs' => hs s (List.mem_cons_of_mem _ hs'))]
    simp only [store_written hw, List.append_assoc, List.cons_append, List.nil_append]

theorem letter_char {L : Bravais} (h : L ≠ .none) : letterChar L ∈ lattices ∧ letter (letterChar L) = L := by
  cases L
  · exact absurd rfl h
  all_goals decide

theorem loop_letter {c : Char} (hc : c ∈ lattices) (neg : Bool) (fuel : Nat) (h : Symbol) :
    loop false (fuel + 1) [c] h { fresh with neg := neg } = some ({ h with L := letter c, cs := neg }, fresh) ∧
    ∀ l, loop false (fuel + 1) (c :: ' ' :: l) h { fresh with neg := neg } =
      loop false fuel l { h with L := letter c, cs := neg } fresh := by
  have h0 : strchr lattices c = true := by
    unfold strchr
    simp [hc]
  have hl : ∀ c ∈ lattices, plain fresh c = fresh ∧ ¬ '-' = c ∧ ¬ ' ' = c ∧ ¬ '(' = c := by
    intro c hc
    simp only [lattices, List.mem_cons, List.not_mem_nil, or_false] at hc
    rcases hc with rfl | rfl | rfl | rfl | rfl | rfl | rfl <;> exact ⟨rfl, by decide, by decide, by decide⟩
  obtain ⟨e1, e2, e3, e4⟩ := hl c hc
  constructor
  · rw [loop]
    simp only [h0, List.head?_nil, reduceCtorEq, if_true, Bool.false_eq_true, if_false, e2, e3, e4]
    rw [show ({ neg := false, sup := fresh.sup, sub := fresh.sub, s := fresh.s } : Loc) = fresh from rfl, e1, loop_nil]
  · intro l
    have e : plain fresh ' ' = fresh := rfl
    rw [loop]
    have h1 : ¬ '-' = ' ' := by decide
    have h2 : ¬ '(' = ' ' := by decide
    simp only [h0, List.head?_cons, List.tail_cons, if_true, Bool.false_eq_true, if_false, h1, h2]
    rw [show ({ neg := false, sup := fresh.sup, sub := fresh.sub, s := fresh.s } : Loc) = fresh from rfl, e]
    rfl

theorem no_subsup {h : Symbol} (hL : h.L ≠ .none) (hs : ∀ s ∈ h.symbols, Written s) :
    ('^' ∉ h.toAscii) ∧ '_' ∉ h.toAscii := by
  have key : ∀ d : Char, d = '^' ∨ d = '_' → d ∉ h.toAscii := by
    intro d hd hmem
    unfold Symbol.toAscii at hmem
    rw [List.mem_append, List.mem_append] at hmem
    rcases hmem with (hm | hm) | hm
    · have hm' : d = '-' := by
        cases hcs : h.cs <;> simp [hcs] at hm
        exact hm
      rcases hd with rfl | rfl <;> exact absurd hm' (by decide)
    · rw [List.mem_singleton] at hm
      have := (letter_char hL).1
      rw [← hm] at this
      rcases hd with rfl | rfl <;> exact absurd this (by decide)
    · rw [List.mem_flatMap] at hm
      obtain ⟨s, hs', hm⟩ := hm
      have hw := hs s hs'
      rcases List.mem_cons.mp hm with hm | hm
      · rcases hd with rfl | rfl <;> exact absurd hm (by decide)
      · unfold Seitz.toAscii at hm
        rw [List.mem_append, List.mem_append] at hm
        rcases hm with (hm | hm) | hm
        · obtain ⟨neg, c, hc, ht, _⟩ := intText_cases hw.order
          rw [ht, List.mem_append, List.mem_singleton] at hm
          rcases hm with hm | hm
          · have hm' : d = '-' := by
              cases neg <;> simp at hm
              exact hm
            rcases hd with rfl | rfl <;> exact absurd hm' (by decide)
          · rw [← hm] at hc
            rcases hd with rfl | rfl <;> exact absurd hc (by decide)
        · have := hw.axis d hm
          rcases hd with rfl | rfl <;> exact absurd this (by decide)
        · have := hw.tran d hm
          rcases hd with rfl | rfl <;> exact absurd this (by decide)
  exact ⟨key _ (Or.inl rfl), key _ (Or.inr rfl)⟩

/-- Reading what was written gives the symbol back. -/
theorem fromAscii_toAscii {h : Symbol} (hL : h.L ≠ .none) (hs : ∀ s ∈ h.symbols, Written s)
    (hV : h.V = ofTranslation fun _ => 0) : fromAscii h.toAscii = some h := by
  obtain ⟨n1, n2⟩ := no_subsup hL hs
  obtain ⟨hl, hl'⟩ := letter_char hL
  have hc : ((h.toAscii.contains '^') || h.toAscii.contains '_') = false := by
    simp [n1, n2]
  unfold fromAscii
  rw [hc]
  have hfresh : (⟨false, false, false, ⟨0, [], []⟩⟩ : Loc) = fresh := rfl
  rw [hfresh]
  have main : ∀ (neg : Bool) (extra : Nat), h.cs = neg →
      (loop false (extra + (h.symbols.flatMap fun s => ' ' :: s.toAscii).length + 1)
        (letterChar h.L :: h.symbols.flatMap fun s => ' ' :: s.toAscii) Symbol.empty { fresh with neg := neg }).map
        (fun x => x.1.store x.2.s) = some h := by
    intro neg extra hneg
    cases hsym : h.symbols with
    | nil =>
      rw [List.flatMap_nil, List.length_nil, (loop_letter hl neg _ _).1, hl', Option.map_some]
      show some (⟨h.L, neg, [], ofTranslation fun _ => 0⟩ : Symbol) = some h
      congr 1
      obtain ⟨L, cs, sy, V⟩ := h
      simp only at hsym hneg hV ⊢
      rw [hsym, hneg, hV]
    | cons s ss =>
      rw [hsym] at hs
      have hw := hs s (List.mem_cons_self ..)
      rw [List.flatMap_cons, List.cons_append, List.length_cons, List.length_append, (loop_letter hl neg _ _).2, hl',
        show extra + (s.toAscii.length + (ss.flatMap fun s => ' ' :: s.toAscii).length + 1) =
          ((extra + 1) + (ss.flatMap fun s => ' ' :: s.toAscii).length) + s.toAscii.length by omega,
        loop_symbol hw, loop_symbols ss (fun s hs' => hs s (List.mem_cons_of_mem _ hs')), store_written hw]
      congr 1
      obtain ⟨L, cs, sy, V⟩ := h
      simp only at hsym hneg hV ⊢
      rw [hsym, hneg, hV]; rfl
  unfold Symbol.toAscii
  cases hcs : h.cs with
  | true =>
    simp only [if_true, List.cons_append, List.nil_append, List.length_cons]
    rw [loop_minus]
    have := main true 0 hcs
    rwa [Nat.zero_add] at this
  | false =>
    simp only [Bool.false_eq_true, if_false, List.cons_append, List.nil_append, List.length_cons]
    have := main false 0 hcs
    rwa [Nat.zero_add] at this

theorem axesOk_mem : ∀ {A : List Char} {n m : Nat} {b : Bool}, axesOk A n b = some m → ∀ c ∈ A, c ∈ axes := by
  intro A
  induction A with
  | nil => simp
  | cons c A ih =>
    intro n m b h d hd
    rw [axesOk] at h
    have key : c ∈ axes ∧ ∃ n' b', axesOk A n' b' = some m := by
      split at h
      · rename_i hc; subst hc
        split at h
        · cases h
        · exact ⟨by decide, _, _, h⟩
      · split at h
        · rename_i hc; subst hc
          split at h
          · cases h
          · exact ⟨by decide, _, _, h⟩
        · split at h
          · rename_i hc; subst hc
            split at h
            · cases h
            · exact ⟨by decide, _, _, h⟩
          · split at h
            · rename_i hc
              split at h
              · cases h
              · refine ⟨?_, _, _, h⟩
                rcases hc with rfl | rfl | rfl <;> decide
            · cases h
    obtain ⟨h1, n', b', h2⟩ := key
    rcases List.mem_cons.mp hd with rfl | hd
    · exact h1
    · exact ih h2 d hd

theorem written_of_validate {s : Seitz} (h : s.validate = true) (hT : ∀ c ∈ s.T, c ∈ trans) : Written s := by
  unfold Seitz.validate at h
  split at h
  · cases h
  · rename_i hN
    split at h
    · cases h
    · rename_i p hp
      refine ⟨?_, axesOk_mem hp, hT⟩
      simp only [List.mem_cons, List.not_mem_nil, or_false]
      omega

end Brille.Hall
