import Verif.Proofs.ArrayMem
/-! Safety invariant of the array memory model. -/
namespace Brille.Arr
open Brille.Subscript Brille.Spec
variable {T : Type}

/-- Every live array object points to a live block of the recorded length, owns it exactly if it was
not handed in by the caller, and objects on the same block share one reference counter. -/
structure Inv (s : Store T) : Prop where
  fb : ∀ p, s.nBlock ≤ p → s.block p = none
  fe : ∀ p, s.nBlock ≤ p → s.ext p = false
  fa : ∀ i, s.nArr ≤ i → s.arr i = none
  ref : ∀ i h r, s.arr i = some h → h.ref = some r → r < s.nRef
  ptr : ∀ i h p, s.arr i = some h → h.data = some p → ∃ b, s.block p = some b ∧ b.length = h.num
  own : ∀ i h p, s.arr i = some h → h.data = some p → s.ext p = !h.own ∧ ∃ r, h.ref = some r
  pair : ∀ i j hi hj p, s.arr i = some hi → s.arr j = some hj → hi.data = some p →
    hj.data = some p → hi.ref = hj.ref
  kept : ∀ p, s.ext p = true → ∃ b, s.block p = some b
  null : ∀ i h, s.arr i = some h → h.data = none → h.num = 0

theorem inv_empty : Inv (Store.empty T) := by
  constructor <;> simp [Store.empty]

/-- What a new set of members has to satisfy. -/
structure Good (s : Store T) (h : Handle) : Prop where
  ref : ∀ r, h.ref = some r → r < s.nRef
  ptr : ∀ p, h.data = some p → ∃ b, s.block p = some b ∧ b.length = h.num
  own : ∀ p, h.data = some p → s.ext p = !h.own ∧ ∃ r, h.ref = some r
  pair : ∀ j hj p, s.arr j = some hj → h.data = some p → hj.data = some p → h.ref = hj.ref
  null : h.data = none → h.num = 0

theorem inv_set {s : Store T} (hs : Inv s) {h : Handle} (hg : Good s h) (i n : Nat)
    (hn : s.nArr ≤ n) (hi : i < n) :
    Inv { s with arr := Function.update s.arr i (some h), nArr := n } := by
  have look : ∀ j g, Function.update s.arr i (some h) j = some g →
      (j = i ∧ g = h) ∨ (j ≠ i ∧ s.arr j = some g) := by
    intro j g e
    by_cases hj : j = i
    · subst hj; rw [Function.update_self] at e; exact .inl ⟨rfl, (Option.some.inj e).symm⟩
    · rw [Function.update_of_ne hj] at e; exact .inr ⟨hj, e⟩
  refine ⟨hs.fb, hs.fe, ?_, ?_, ?_, ?_, ?_, hs.kept, ?_⟩
  · intro j hj
    have : j ≠ i := by dsimp only at hj; omega
    dsimp only at hj ⊢
    rw [Function.update_of_ne this]; exact hs.fa j (le_trans hn hj)
  · intro j g r e er
    rcases look j g e with ⟨-, rfl⟩ | ⟨-, e⟩
    · exact hg.ref r er
    · exact hs.ref j g r e er
  · intro j g p e ep
    rcases look j g e with ⟨-, rfl⟩ | ⟨-, e⟩
    · exact hg.ptr p ep
    · exact hs.ptr j g p e ep
  · intro j g p e ep
    rcases look j g e with ⟨-, rfl⟩ | ⟨-, e⟩
    · exact hg.own p ep
    · exact hs.own j g p e ep
  · intro j k gj gk p ej ek hj hk
    rcases look j gj ej with ⟨-, rfl⟩ | ⟨-, ej'⟩ <;> rcases look k gk ek with ⟨-, rfl⟩ | ⟨-, ek'⟩
    · rfl
    · exact hg.pair k gk p ek' hj hk
    · exact (hg.pair j gj p ej' hk hj).symm
    · exact hs.pair j k gj gk p ej' ek' hj hk
  · intro j g e ep
    rcases look j g e with ⟨-, rfl⟩ | ⟨-, e⟩
    · exact hg.null ep
    · exact hs.null j g e ep

theorem inv_push {s : Store T} (hs : Inv s) {h : Handle} (hg : Good s h) : Inv (s.push h) :=
  inv_set hs hg s.nArr (s.nArr + 1) (Nat.le_succ _) (Nat.lt_succ_self _)

theorem lt_nArr {s : Store T} (hs : Inv s) {i : Nat} {h : Handle} (e : s.arr i = some h) :
    i < s.nArr := by
  by_contra hc
  rw [hs.fa i (by omega)] at e
  cases e

theorem inv_put {s : Store T} (hs : Inv s) {i : Nat} {o h : Handle} (e : s.arr i = some o)
    (hg : Good s h) : Inv (s.put i h) :=
  inv_set hs hg i s.nArr le_rfl (lt_nArr hs e)

/-- Same pointer, length, ownership and reference counter as a live object. -/
theorem good_same {s : Store T} (hs : Inv s) {i : Nat} {o h : Handle} (e : s.arr i = some o)
    (h1 : h.data = o.data) (h2 : h.num = o.num) (h3 : h.own = o.own) (h4 : h.ref = o.ref) :
    Good s h := by
  refine ⟨fun r hr => hs.ref i o r e (h4 ▸ hr), fun p hp => ?_, fun p hp => ?_,
    fun j hj p ej hp hq => ?_, fun hd => ?_⟩
  · rw [h2]; exact hs.ptr i o p e (h1 ▸ hp)
  · rw [h3, h4]; exact hs.own i o p e (h1 ▸ hp)
  · rw [h4]; exact hs.pair i j o hj p e ej (h1 ▸ hp) hq
  · rw [h2]; exact hs.null i o e (h1 ▸ hd)

theorem good_null {s : Store T} {h : Handle} (h1 : h.data = none)
    (h2 : ∀ r, h.ref = some r → r < s.nRef) (h3 : h.num = 0) : Good s h :=
  ⟨h2, fun p hp => absurd (h1.symm.trans hp) (by simp),
    fun p hp => absurd (h1.symm.trans hp) (by simp),
    fun j hj p _ hp => absurd (h1.symm.trans hp) (by simp), fun _ => h3⟩

theorem ptr_lt {s : Store T} (hs : Inv s) {i : Nat} {h : Handle} {p : Nat} (e : s.arr i = some h)
    (hp : h.data = some p) : p < s.nBlock := by
  by_contra hc
  obtain ⟨b, hb, -⟩ := hs.ptr i h p e hp
  rw [hs.fb p (by omega)] at hb
  cases hb

theorem inv_alloc {s : Store T} (hs : Inv s) (b : List T) : Inv (s.alloc b) := by
  refine ⟨?_, ?_, hs.fa, hs.ref, ?_, hs.own, hs.pair, ?_, hs.null⟩
  · intro p hp
    simp only [Store.alloc] at hp ⊢
    rw [Function.update_of_ne (by omega)]; exact hs.fb p (by omega)
  · intro p hp; simp only [Store.alloc] at hp ⊢; exact hs.fe p (by omega)
  · intro i h p e hp
    have := ptr_lt hs e hp
    simp only [Store.alloc]
    rw [Function.update_of_ne (by omega)]; exact hs.ptr i h p e hp
  · intro p hp
    simp only [Store.alloc] at hp ⊢
    by_cases h : p = s.nBlock
    · subst h; exact ⟨b, by simp⟩
    · rw [Function.update_of_ne h]; exact hs.kept p hp

theorem inv_newRef {s : Store T} (hs : Inv s) : Inv s.newRef :=
  ⟨hs.fb, hs.fe, hs.fa, fun i h r e hr => Nat.lt_succ_of_lt (hs.ref i h r e hr), hs.ptr, hs.own,
    hs.pair, hs.kept, hs.null⟩

/-- The members of an array on a newly allocated block with a new counter. -/
theorem good_new {s : Store T} (hs : Inv s) (b : List T) {h : Handle} (h1 : h.data = some s.nBlock)
    (h2 : h.num = b.length) (h3 : h.own = true) (h4 : h.ref = some s.nRef) :
    Good (s.alloc b).newRef h := by
  refine ⟨fun r hr => ?_, fun p hp => ?_, fun p hp => ?_,
    fun j hj p ej hp hq => ?_, fun hd => absurd (h1.symm.trans hd) (by simp)⟩
  · rw [h4] at hr; simp only [Store.newRef, Store.alloc]; cases hr; omega
  · rw [h1] at hp; cases hp
    exact ⟨b, by simp [Store.newRef, Store.alloc], h2.symm⟩
  · rw [h1] at hp; cases hp
    exact ⟨by rw [h3]; exact hs.fe _ le_rfl, _, h4⟩
  · rw [h1] at hp; cases hp
    exact absurd (ptr_lt hs (by exact ej) hq) (lt_irrefl _)

theorem inv_write {s : Store T} (hs : Inv s) {p : Nat} {b b' : List T} (e : s.block p = some b)
    (hl : b'.length = b.length) : Inv { s with block := Function.update s.block p (some b') } := by
  refine ⟨?_, hs.fe, hs.fa, hs.ref, ?_, hs.own, hs.pair, ?_, hs.null⟩
  · intro q hq
    have : q ≠ p := by rintro rfl; rw [hs.fb q hq] at e; cases e
    dsimp only; rw [Function.update_of_ne this]; exact hs.fb q hq
  · intro i h q ei hq
    obtain ⟨c, hc, hcl⟩ := hs.ptr i h q ei hq
    by_cases hqp : q = p
    · subst hqp
      rw [e] at hc; cases hc
      exact ⟨b', by simp, by rw [hl, hcl]⟩
    · exact ⟨c, by dsimp only; rw [Function.update_of_ne hqp]; exact hc, hcl⟩
  · intro q hq
    by_cases h : q = p
    · subst h; exact ⟨b', by simp⟩
    · obtain ⟨c, hc⟩ := hs.kept q hq
      exact ⟨c, by dsimp only; rw [Function.update_of_ne h]; exact hc⟩

theorem inv_delete {s s' : Store T} (hs : Inv s) {p : Option Nat}
    (hp : ∀ q i h, p = some q → s.arr i = some h → h.data ≠ some q)
    (hx : ∀ q, p = some q → s.ext q = false)
    (h : s.delete p = some s') : Inv s' := by
  cases p with
  | none => cases h; exact hs
  | some q =>
    simp only [Store.delete] at h
    split at h
    · cases h
    · cases h
      refine ⟨?_, hs.fe, hs.fa, hs.ref, ?_, hs.own, hs.pair, ?_, hs.null⟩
      · intro p hpn
        dsimp only
        by_cases hpq : p = q
        · subst hpq; simp
        · rw [Function.update_of_ne hpq]; exact hs.fb p hpn
      · intro i h r ei hr
        have : r ≠ q := by rintro rfl; exact hp r i h rfl ei hr
        dsimp only; rw [Function.update_of_ne this]; exact hs.ptr i h r ei hr
      · intro r hr
        have : r ≠ q := by
          rintro rfl
          have := hx r rfl
          dsimp only at hr
          rw [this] at hr; cases hr
        obtain ⟨c, hc⟩ := hs.kept r hr
        exact ⟨c, by dsimp only; rw [Function.update_of_ne this]; exact hc⟩

theorem inv_drop {s : Store T} (hs : Inv s) (i : Nat) :
    Inv { s with arr := Function.update s.arr i none } := by
  have look : ∀ j g, Function.update s.arr i none j = some g → s.arr j = some g ∧ j ≠ i := by
    intro j g e
    by_cases hj : j = i
    · subst hj; rw [Function.update_self] at e; cases e
    · rw [Function.update_of_ne hj] at e; exact ⟨e, hj⟩
  refine ⟨hs.fb, hs.fe, ?_, fun j h r e => hs.ref j h r (look j h e).1,
    fun j h p e => hs.ptr j h p (look j h e).1, fun j h p e => hs.own j h p (look j h e).1,
    fun j k hj hk p ej ek => hs.pair j k hj hk p (look j hj ej).1 (look k hk ek).1, hs.kept,
    fun j h e => hs.null j h (look j h e).1⟩
  intro j hj
  dsimp only
  by_cases h : j = i
  · subst h; simp
  · rw [Function.update_of_ne h]; exact hs.fa j hj

theorem mem_count {s : Store T} (hs : Inv s) {r : Option Nat} {i : Nat} {h : Handle}
    (e : s.arr i = some h) (hr : h.ref = r) :
    i ∈ (Finset.range s.nArr).filter fun i => (s.arr i).any fun h => h.ref == r := by
  simp [lt_nArr hs e, e, hr]

/-- With a use count of one nobody else holds the counter. -/
theorem useCount_one {s : Store T} (hs : Inv s) {r : Option Nat} {i j : Nat} {h g : Handle}
    (hc : useCount s r = 1) (e : s.arr i = some h) (hr : h.ref = r) (e' : s.arr j = some g)
    (hr' : g.ref = r) : j = i := by
  simp only [useCount] at hc
  split at hc
  · cases hc
  · obtain ⟨k, hk⟩ := Finset.card_eq_one.1 hc
    have h1 := mem_count hs e hr
    have h2 := mem_count hs e' hr'
    rw [hk, Finset.mem_singleton] at h1 h2
    rw [h1, h2]

theorem useCount_zero {s : Store T} (hs : Inv s) {r : Nat} {i : Nat} {h : Handle}
    (hc : useCount s (some r) = 0) (e : s.arr i = some h) : h.ref ≠ some r := by
  intro hr
  simp only [useCount, reduceCtorEq, if_false, Finset.card_eq_zero] at hc
  have := mem_count hs e hr
  rw [hc] at this
  simp at this

end Brille.Arr
