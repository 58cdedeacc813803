import Verif.Proofs.ArraySafe
/-! No block is lost while it is still allocated. -/
namespace Brille.Arr
open Brille.Subscript Brille.Spec
variable {T : Type}

/-- Every block the library allocated is reachable from an array object; array objects holding the
same counter use the same block. -/
structure NoLeak (s : Store T) : Prop where
  held : ∀ p b, s.block p = some b → s.ext p = false → ∃ i h, s.arr i = some h ∧ h.data = some p
  same : ∀ i j hi hj r, s.arr i = some hi → s.arr j = some hj → hi.ref = some r → hj.ref = some r →
    hi.data = hj.data
  len : ∀ i h, s.arr i = some h → h.shape.length = h.stride.length

theorem noLeak_empty : NoLeak (Store.empty T) := by
  constructor <;> simp [Store.empty]

theorem update_some {α : Type} {f : Nat → Option α} {i j : Nat} {h g : α}
    (e : Function.update f i (some h) j = some g) : (j = i ∧ g = h) ∨ (j ≠ i ∧ f j = some g) := by
  by_cases hj : j = i
  · subst hj; rw [Function.update_self] at e; exact .inl ⟨rfl, (Option.some.inj e).symm⟩
  · rw [Function.update_of_ne hj] at e; exact .inr ⟨hj, e⟩

/-- Adding an object at an unused place. -/
theorem nl_add {s : Store T} (hl : NoLeak s) {i n : Nat} (hi : s.arr i = none) {h : Handle}
    (hsame : ∀ j g r, s.arr j = some g → h.ref = some r → g.ref = some r → h.data = g.data)
    (hlen : h.shape.length = h.stride.length) :
    NoLeak { s with arr := Function.update s.arr i (some h), nArr := n } := by
  refine ⟨?_, ?_, ?_⟩
  · intro p b hb he
    obtain ⟨j, g, hj, hg⟩ := hl.held p b hb he
    have : j ≠ i := by rintro rfl; rw [hi] at hj; cases hj
    exact ⟨j, g, by dsimp only; rw [Function.update_of_ne this]; exact hj, hg⟩
  · intro j k gj gk r ej ek hj hk
    rcases update_some ej with ⟨-, rfl⟩ | ⟨-, ej'⟩ <;> rcases update_some ek with ⟨-, rfl⟩ | ⟨-, ek'⟩
    · rfl
    · exact hsame k gk r ek' hj hk
    · exact (hsame j gj r ej' hk hj).symm
    · exact hl.same j k gj gk r ej' ek' hj hk
  · intro j g e
    rcases update_some e with ⟨-, rfl⟩ | ⟨-, e'⟩
    · exact hlen
    · exact hl.len j g e'

theorem nl_push_same {s : Store T} (hs : Inv s) (hl : NoLeak s) {i : Nat} {o h : Handle}
    (e : s.arr i = some o) (h1 : h.data = o.data) (h4 : h.ref = o.ref)
    (hlen : h.shape.length = h.stride.length) : NoLeak (s.push h) :=
  nl_add hl (hs.fa _ le_rfl)
    (fun j g r ej hr hg => h1 ▸ hl.same i j o g r e ej (h4 ▸ hr) hg) hlen

/-- Adding an object on a newly allocated block. -/
theorem nl_push_new {s : Store T} (hs : Inv s) (hl : NoLeak s) (b : List T) (x : Nat → Bool)
    (hx : ∀ p, x p = false → s.ext p = false) {h : Handle}
    (h1 : h.data = some s.nBlock) (h4 : h.ref = some s.nRef)
    (hlen : h.shape.length = h.stride.length) :
    NoLeak (Store.push { (s.alloc b).newRef with ext := x } h) := by
  refine ⟨?_, ?_, ?_⟩
  · intro p c hc he
    simp only [Store.push, Store.newRef, Store.alloc] at hc he ⊢
    by_cases hp : p = s.nBlock
    · subst hp; exact ⟨s.nArr, h, by simp, h1⟩
    · rw [Function.update_of_ne hp] at hc
      obtain ⟨j, g, hj, hg⟩ := hl.held p c hc (hx p he)
      have := lt_nArr hs hj
      exact ⟨j, g, by rw [Function.update_of_ne (by omega)]; exact hj, hg⟩
  · intro j k gj gk r ej ek hj hk
    simp only [Store.push, Store.newRef, Store.alloc] at ej ek
    rcases update_some ej with ⟨-, rfl⟩ | ⟨-, ej'⟩ <;> rcases update_some ek with ⟨-, rfl⟩ | ⟨-, ek'⟩
    · rfl
    · have := hs.ref k gk r ek' hk
      rw [h4] at hj; cases hj; omega
    · have := hs.ref j gj r ej' hj
      rw [h4] at hk; cases hk; omega
    · exact hl.same j k gj gk r ej' ek' hj hk
  · intro j g e
    simp only [Store.push, Store.newRef, Store.alloc] at e
    rcases update_some e with ⟨-, rfl⟩ | ⟨-, e'⟩
    · exact hlen
    · exact hl.len j g e'

theorem useCount_zero_of {s : Store T} {r : Option Nat}
    (h : ∀ j g, s.arr j = some g → g.ref ≠ r) : useCount s r = 0 := by
  simp only [useCount]
  split
  · rfl
  · rw [Finset.card_eq_zero, Finset.filter_eq_empty_iff]
    intro j _ hj
    cases e : s.arr j with
    | none => simp [e] at hj
    | some g => simp [e] at hj; exact h j g e hj

theorem useCount_one_of {s : Store T} (hs : Inv s) {r : Nat} {i : Nat} {h : Handle}
    (e : s.arr i = some h) (hr : h.ref = some r)
    (ho : ∀ j g, j ≠ i → s.arr j = some g → g.ref ≠ some r) : useCount s (some r) = 1 := by
  simp only [useCount, reduceCtorEq, if_false]
  rw [Finset.card_eq_one]
  refine ⟨i, ?_⟩
  ext j
  rw [Finset.mem_singleton]
  constructor
  · intro hj
    by_contra hne
    simp only [Finset.mem_filter] at hj
    cases e' : s.arr j with
    | none => simp [e'] at hj
    | some g => simp [e'] at hj; exact ho j g hne e' hj.2
  · rintro rfl
    exact mem_count hs e hr

/-- When nobody but object `i` uses block `p`, object `i` is its owner and holds the only reference. -/
theorem sole {s : Store T} (hs : Inv s) (hl : NoLeak s) {i p : Nat} {h : Handle}
    (e : s.arr i = some h) (hp : h.data = some p) (hx : s.ext p = false)
    (hn : ∀ j g, j ≠ i → s.arr j = some g → g.data ≠ some p) :
    h.own = true ∧ useCount s h.ref = 1 := by
  obtain ⟨h1, r, hr⟩ := hs.own i h p e hp
  refine ⟨by rw [hx] at h1; simpa using h1.symm, ?_⟩
  rw [hr]
  refine useCount_one_of hs e hr ?_
  intro j g hj ej hg
  refine hn j g hj ej ?_
  rw [hl.same j i g h r ej e hg hr, hp]

variable [Inhabited T]

omit [Inhabited T] in
theorem nl_view {s s' : Store T} (hs : Inv s) (hl : NoLeak s) {i : Nat} {h : Handle}
    (e : s.arr i = some h) {shift : Nat} {shape : List Nat}
    (hr : mkView s h shift shape = .ok s' ∨ mkView s h shift shape = .threw s') : NoLeak s' := by
  simp only [mkView] at hr
  split at hr
  · rename_i hc
    rcases hr with hr | hr <;> cases hr
    refine nl_push_same hs hl e rfl rfl ?_
    simp only [initCheck, Bool.and_eq_true, beq_iff_eq] at hc
    exact hc.1
  · rcases hr with hr | hr <;> cases hr
    exact hl

theorem nl_ctor {s s' : Store T} (hs : Inv s) (hl : NoLeak s) (shape stride : List Nat) (fill : List T)
    (hlen : shape.length = stride.length)
    (hr : (let c := construct s shape stride fill none
      if initCheck c.2 then Res.ok (c.1.push c.2) else .threw c.1) = .ok s' ∨
      (let c := construct s shape stride fill none
      if initCheck c.2 then Res.ok (c.1.push c.2) else .threw c.1) = .threw s') : NoLeak s' := by
  have hc : initCheck (construct s shape stride fill none).2 = true := by
    simp only [construct]
    split <;> simp [initCheck, hlen]
  simp only [hc, if_true] at hr
  rcases hr with hr | hr <;> cases hr
  simp only [construct]
  split
  · exact nl_push_new hs hl fill s.ext (fun _ h => h) rfl rfl hlen
  · exact nl_add hl (hs.fa _ le_rfl) (fun j g r _ h => by simp at h) hlen

/-- The calls that can lose memory: the converting assignment, a constructor whose check throws after
allocating, and `resize`/`append` of a shifted array (thrown after allocating). -/
def Clean (s : Store T) : Op T → Prop
  | .newStrided shape stride _ => shape.length = stride.length
  | .resize i _ _ => ∀ h, s.arr i = some h → h.shift = 0
  | .append i _ _ => ∀ h, s.arr i = some h → h.shift = 0
  | .convertAssign _ _ => False
  | _ => True

theorem resize_ok_cases {s s' : Store T} {i : Nat} {h : Handle} {ns : List Nat} {v : T}
    (hr : resize s i h ns v = .ok s') :
    ns.length = h.shape.length ∧ ∃ nd nt, resizeBuf h ns v (h.data.bind s.block) = .done nd nt ∧
      ∃ s2, (if h.own ∧ useCount s h.ref = 1 then (s.alloc nd).delete h.data else some (s.alloc nd))
        = some s2 ∧ s' = s2.newRef.put i
            { h with data := some s.nBlock, num := sizeOf ns, own := true, ref := some s2.nRef,
                     shape := ns, stride := nt, mutable := true } := by
  simp only [resize] at hr
  split at hr
  · cases hr
  · rename_i hlen
    refine ⟨not_not.1 hlen, ?_⟩
    split at hr
    · cases hr
    · split at hr
      · cases hr
      · cases hr
      · cases hr
      · rename_i nd nt hb
        refine ⟨nd, nt, hb, ?_⟩
        split at hr
        · cases hr
        · rename_i s2 hd
          cases hr
          exact ⟨s2, hd, rfl⟩

theorem resizeBuf_stride {h : Handle} {ns : List Nat} {v : T} {old : Option (List T)} {nd : List T}
    {st : List Nat} (e : resizeBuf h ns v old = .done nd st) :
    calcStride h.stride ns = some st ∧ h.shift = 0 := by
  simp only [resizeBuf, resizeCopy] at e
  split at e
  · cases e
  · split at e
    · cases e
    · rename_i nt hnt
      split at e
      · cases e
      · rename_i hsh
        split at e
        · cases e; exact ⟨hnt, by omega⟩
        · split at e
          · cases e; exact ⟨hnt, by omega⟩
          · cases e

omit [Inhabited T] in
theorem nl_write {s : Store T} (hl : NoLeak s) {p : Nat} {b b' : List T} (e : s.block p = some b) :
    NoLeak { s with block := Function.update s.block p (some b') } := by
  refine ⟨fun q c hc he => ?_, hl.same, hl.len⟩
  dsimp only at hc he ⊢
  by_cases hq : q = p
  · subst hq; exact hl.held q b e he
  · rw [Function.update_of_ne hq] at hc; exact hl.held q c hc he

theorem nl_resize {s s' : Store T} (hs : Inv s) (hl : NoLeak s) {i : Nat} {h : Handle}
    (e : s.arr i = some h) {ns : List Nat} {v : T} (hr : resize s i h ns v = .ok s') : NoLeak s' := by
  obtain ⟨-, nd, nt, hb, s2, hd, rfl⟩ := resize_ok_cases hr
  obtain ⟨hst, -⟩ := resizeBuf_stride hb
  have hlen := length_calc hst
  -- what the conditional deletion leaves
  have h2 : s2.arr = s.arr ∧ s2.nRef = s.nRef ∧ s2.ext = s.ext ∧
      (∀ q c, s2.block q = some c → (q = s.nBlock ∧ c = nd) ∨ (q ≠ s.nBlock ∧ s.block q = some c)) ∧
      (h.own = true ∧ useCount s h.ref = 1 → ∀ q, h.data = some q → s2.block q = none) := by
    split at hd
    · rename_i hc
      cases hp : h.data with
      | none =>
        rw [hp] at hd; cases hd
        exact ⟨rfl, rfl, rfl, fun q c hc => update_some hc |>.imp id id, fun _ q hq => by cases hq⟩
      | some p =>
        rw [hp] at hd
        simp only [Store.delete] at hd
        split at hd
        · cases hd
        · cases hd
          refine ⟨rfl, rfl, rfl, ?_, ?_⟩
          · intro q c hc
            dsimp only at hc
            by_cases hq : q = p
            · subst hq; rw [Function.update_self] at hc; cases hc
            · rw [Function.update_of_ne hq] at hc; exact update_some hc
          · intro _ q hq; cases hq; simp
    · rename_i hc
      cases hd
      exact ⟨rfl, rfl, rfl, fun q c hc => update_some hc, fun h => absurd h hc⟩
  obtain ⟨ha, hn, hx, hblk, hdel⟩ := h2
  refine ⟨?_, ?_, ?_⟩
  · intro q c hc he
    simp only [Store.put, Store.newRef] at hc he ⊢
    rw [hx] at he
    rcases hblk q c hc with ⟨rfl, -⟩ | ⟨hqn, hq⟩
    · exact ⟨i, _, by rw [Function.update_self], rfl⟩
    · obtain ⟨j, g, hj, hg⟩ := hl.held q c hq he
      by_cases hji : j = i
      · subst hji
        rw [e] at hj; cases hj
        by_contra hno
        have := sole hs hl e hg he (fun k g' hk ek hg' => hno ⟨k, g', by
          rw [Function.update_of_ne hk, ha]; exact ek, hg'⟩)
        rw [hdel this q hg] at hc
        cases hc
      · exact ⟨j, g, by rw [Function.update_of_ne hji, ha]; exact hj, hg⟩
  · intro j k gj gk r ej ek hj hk
    simp only [Store.put, Store.newRef, ha] at ej ek
    rcases update_some ej with ⟨-, rfl⟩ | ⟨-, ej'⟩ <;> rcases update_some ek with ⟨-, rfl⟩ | ⟨-, ek'⟩
    · rfl
    · have := hs.ref k gk r ek' hk
      dsimp only at hj; rw [hn] at hj; cases hj; omega
    · have := hs.ref j gj r ej' hj
      dsimp only at hk; rw [hn] at hk; cases hk; omega
    · exact hl.same j k gj gk r ej' ek' hj hk
  · intro j g ej
    simp only [Store.put, Store.newRef, ha] at ej
    rcases update_some ej with ⟨-, rfl⟩ | ⟨-, ej'⟩
    · exact hlen.symm
    · exact hl.len j g ej'

theorem resize_threw {s s' : Store T} {i : Nat} {h : Handle} {ns : List Nat} {v : T}
    (hsh : h.shift = 0) (hr : resize s i h ns v = .threw s') : s' = s := by
  simp only [resize] at hr
  split at hr
  · cases hr
  · split at hr
    · cases hr
    · split at hr
      · cases hr; rfl
      · rename_i nd hb
        exfalso
        simp only [resizeBuf, resizeCopy] at hb
        split at hb
        · cases hb
        · split at hb
          · cases hb
          · split at hb
            · omega
            · split at hb
              · cases hb
              · split at hb <;> cases hb
      · cases hr
      · split at hr <;> cases hr

omit [Inhabited T] in
theorem nl_appendLoop {s s' : Store T} (hl : NoLeak s) (i j dim n : Nat) (l : List (List Nat))
    (h : appendLoop i j dim n l s = .ok s') : NoLeak s' := by
  induction l generalizing s with
  | nil => cases h; exact hl
  | cons x l ih =>
    simp only [appendLoop] at h
    split at h
    · rename_i s1 h1
      refine ih ?_ h
      simp only [assignElt] at h1
      split at h1
      · split at h1
        · split at h1
          · rename_i bp bq hbp hbq
            split at h1
            · split at h1
              · cases h1; exact nl_write hl hbp
              · cases h1
            · cases h1
          · cases h1
        · cases h1
      · cases h1
    · cases h

/-- **Every call that cannot lose memory keeps all blocks reachable.** -/
theorem step_noLeak (k : Kind) {s s' : Store T} (hs : Inv s) (hl : NoLeak s) (o : Op T)
    (hc : Clean s o) (hr : step k s o = .ok s' ∨ step k s o = .threw s') : NoLeak s' := by
  cases o with
  | new shape v => exact nl_ctor hs hl shape _ _ (length_rowStride shape).symm hr
  | newStrided shape stride v => exact nl_ctor hs hl shape stride _ hc hr
  | fromStd d =>
    rcases hr with hr | hr <;> cases hr
    exact nl_push_new hs hl d s.ext (fun _ h => h) rfl rfl rfl
  | wrap b shape stride m =>
    simp only [step] at hr
    have hx : ∀ p, Function.update s.ext s.nBlock true p = false → s.ext p = false := by
      intro p hp
      by_cases h : p = s.nBlock
      · subst h; simp at hp
      · rwa [Function.update_of_ne h] at hp
    split at hr
    · rename_i hi
      rcases hr with hr | hr <;> cases hr
      refine nl_push_new hs hl b _ hx rfl rfl ?_
      simp only [initCheck, Bool.and_eq_true, beq_iff_eq] at hi
      exact hi.1
    · rcases hr with hr | hr <;> cases hr
      refine ⟨?_, hl.same, hl.len⟩
      intro p c hc he
      simp only [Store.newRef, Store.alloc] at hc he ⊢
      rcases update_some hc with ⟨rfl, -⟩ | ⟨hp, hc'⟩
      · simp at he
      · exact hl.held p c hc' (hx p he)
  | copy i =>
    simp only [step] at hr
    split at hr
    · rename_i h e
      rcases hr with hr | hr <;> cases hr
      exact nl_push_same hs hl e rfl rfl (hl.len i h e)
    · rcases hr with hr | hr <;> cases hr
  | assign i j =>
    simp only [step] at hr
    split at hr
    · rename_i h o ei ej
      split at hr
      · rcases hr with hr | hr <;> cases hr
        exact hl
      · rename_i hij
        have hlen := hl.len j o ej
        have hsame : ∀ k g, Function.update s.arr i (some { o with own := o.own }) k = some g →
            ∃ k', s.arr k' = some g := by
          intro k g hk
          rcases update_some hk with ⟨-, rfl⟩ | ⟨-, hk'⟩
          · exact ⟨j, ej⟩
          · exact ⟨k, hk'⟩
        have fin : ∀ s2 : Store T, s2.arr = Function.update s.arr i (some { o with own := o.own }) →
            s2.ext = s.ext → (∀ q c, s2.block q = some c → s.block q = some c) →
            (h.own = true ∧ useCount (s.put i { o with own := o.own }) h.ref = 0 →
              ∀ q, h.data = some q → s2.block q = none) → NoLeak s2 := by
          intro s2 ha hx hb hd
          refine ⟨?_, ?_, ?_⟩
          · intro q c hq he
            rw [hx] at he
            obtain ⟨k, g, hk, hg⟩ := hl.held q c (hb q c hq) he
            by_cases hki : k = i
            · subst hki
              rw [ei] at hk; cases hk
              by_contra hno
              rw [ha] at hno
              obtain ⟨h1, r, hr'⟩ := hs.own k h q ei hg
              have := hd ⟨by rw [he] at h1; simpa using h1.symm, ?_⟩ q hg
              · rw [this] at hq; cases hq
              · refine useCount_zero_of ?_
                intro m g' hm hg'
                obtain ⟨m', hm'⟩ := hsame m g' hm
                refine hno ⟨m, g', hm, ?_⟩
                rw [hl.same m' k g' h r hm' ei (by rw [hg', hr']) hr', hg]
            · exact ⟨k, g, by rw [ha, Function.update_of_ne hki]; exact hk, hg⟩
          · intro a b ga gb r ea eb h1 h2
            rw [ha] at ea eb
            obtain ⟨a', ha'⟩ := hsame a ga ea
            obtain ⟨b', hb'⟩ := hsame b gb eb
            exact hl.same a' b' ga gb r ha' hb' h1 h2
          · intro a g ea
            rw [ha] at ea
            obtain ⟨a', ha'⟩ := hsame a g ea
            exact hl.len a' g ha'
        split at hr
        · rename_i hcnd
          cases hp : h.data with
          | none =>
            rw [hp] at hr
            simp only [Store.delete] at hr
            rcases hr with hr | hr <;> cases hr
            exact fin _ rfl rfl (fun _ _ h => h) (fun _ q hq => by rw [hp] at hq; cases hq)
          | some p =>
            rw [hp] at hr
            split at hr
            · rename_i s2 hd
              simp only [Store.delete] at hd
              split at hd
              · cases hd
              · cases hd
                rcases hr with hr | hr <;> cases hr
                refine fin _ rfl rfl ?_ ?_
                · intro q c hq
                  dsimp only [Store.put] at hq
                  by_cases h : q = p
                  · subst h; rw [Function.update_self] at hq; cases hq
                  · rwa [Function.update_of_ne h] at hq
                · intro _ q hq
                  rw [hp] at hq; cases hq
                  dsimp only [Store.put]; rw [Function.update_self]
            · rcases hr with hr | hr <;> cases hr
        · rename_i hcnd
          rcases hr with hr | hr <;> cases hr
          exact fin _ rfl rfl (fun _ _ h => h) (fun h => absurd ⟨h.1, by omega⟩ hcnd)
    · rcases hr with hr | hr <;> cases hr
  | destroy i =>
    simp only [step] at hr
    split at hr
    · rename_i h e
      have fin : ∀ s1 : Store T, s1.arr = s.arr → s1.ext = s.ext →
          (∀ q c, s1.block q = some c → s.block q = some c) →
          (h.own = true ∧ useCount s h.ref = 1 → ∀ q, h.data = some q → s1.block q = none) →
          NoLeak { s1 with arr := Function.update s1.arr i none } := by
        intro s1 ha hx hb hd
        have look : ∀ j g, Function.update s1.arr i none j = some g → s.arr j = some g ∧ j ≠ i := by
          intro j g e
          by_cases hj : j = i
          · subst hj; rw [Function.update_self] at e; cases e
          · rw [Function.update_of_ne hj, ha] at e; exact ⟨e, hj⟩
        refine ⟨?_, fun a b ga gb r ea eb => hl.same a b ga gb r (look a ga ea).1 (look b gb eb).1,
          fun a g ea => hl.len a g (look a g ea).1⟩
        intro q c hq he
        dsimp only at hq he ⊢
        rw [hx] at he
        obtain ⟨k, g, hk, hg⟩ := hl.held q c (hb q c hq) he
        by_cases hki : k = i
        · subst hki
          rw [e] at hk; cases hk
          by_contra hno
          have := hd (sole hs hl e hg he (fun m g' hm em hg' => hno ⟨m, g', by
            rw [Function.update_of_ne hm, ha]; exact em, hg'⟩)) q hg
          rw [this] at hq; cases hq
        · exact ⟨k, g, by rw [Function.update_of_ne hki, ha]; exact hk, hg⟩
      split at hr
      · rename_i s1 hd
        rcases hr with hr | hr <;> cases hr
        split at hd
        · cases hp : h.data with
          | none =>
            rw [hp] at hd; cases hd
            exact fin _ rfl rfl (fun _ _ h => h) (fun _ q hq => by rw [hp] at hq; cases hq)
          | some p =>
            rw [hp] at hd
            simp only [Store.delete] at hd
            split at hd
            · cases hd
            · cases hd
              refine fin _ rfl rfl ?_ ?_
              · intro q c hq
                dsimp only at hq
                by_cases h : q = p
                · subst h; rw [Function.update_self] at hq; cases hq
                · rwa [Function.update_of_ne h] at hq
              · intro _ q hq
                rw [hp] at hq; cases hq
                dsimp only; rw [Function.update_self]
        · rename_i hcnd
          cases hd
          exact fin _ rfl rfl (fun _ _ h => h) (fun h => absurd h hcnd)
      · rcases hr with hr | hr <;> cases hr
    · rcases hr with hr | hr <;> cases hr
  | view i =>
    simp only [step] at hr
    split at hr
    · rename_i h e; exact nl_view hs hl e hr
    · rcases hr with hr | hr <;> cases hr
  | viewAt i a =>
    simp only [step] at hr
    split at hr
    · rename_i h e
      split at hr
      · split at hr
        · exact nl_view hs hl e hr
        · rcases hr with hr | hr <;> cases hr
          exact hl
      · rcases hr with hr | hr <;> cases hr
    · rcases hr with hr | hr <;> cases hr
  | viewRange i a b =>
    simp only [step] at hr
    split at hr
    · rename_i h e
      split at hr
      · rename_i n ns t ts _ _
        split at hr
        · exact nl_view hs hl e hr
        · split at hr
          · exact nl_ctor hs hl (0 :: ns) _ _ (length_rowStride _).symm hr
          · rcases hr with hr | hr <;> cases hr
            exact hl
      · rcases hr with hr | hr <;> cases hr
    · rcases hr with hr | hr <;> cases hr
  | viewFrom i v =>
    simp only [step] at hr
    split at hr
    · rename_i h e
      split at hr
      · exact nl_view hs hl e hr
      · rcases hr with hr | hr <;> cases hr
    · rcases hr with hr | hr <;> cases hr
  | decouple i =>
    simp only [step] at hr
    split at hr
    · rename_i h e
      split at hr
      · split at hr
        · rcases hr with hr | hr <;> cases hr
        · split at hr
          · rcases hr with hr | hr <;> cases hr
          · rename_i old _ nd st hd
            have hst : h.shape.length = st.length := by
              cases k with
              | nd =>
                simp only [decoupleBuf] at hd
                split at hd
                · split at hd
                  · cases hd; exact hl.len i h e
                  · cases hd
                · cases hs' : subs h.shape with
                  | none => simp [hs'] at hd
                  | some l =>
                    simp only [hs', Option.bind_some, Option.map_eq_some_iff, Prod.mk.injEq] at hd
                    obtain ⟨b, -, -, rfl⟩ := hd
                    exact hl.len i h e
              | two =>
                simp only [decoupleBuf] at hd
                split at hd
                · split at hd
                  · cases hd; exact hl.len i h e
                  · cases hd
                · cases hcs : calcStride h.stride h.shape with
                  | none => simp [hcs] at hd
                  | some st' =>
                    cases hs' : subs h.shape with
                    | none => simp [hs', hcs] at hd
                    | some l =>
                      simp only [hs', hcs, Option.bind_some, Option.map_eq_some_iff,
                        Prod.mk.injEq] at hd
                      obtain ⟨b, -, -, rfl⟩ := hd
                      exact (length_calc hcs).symm
            rw [if_pos (by simp [initCheck, hst])] at hr
            rcases hr with hr | hr <;> cases hr
            exact nl_push_new hs hl nd s.ext (fun _ h => h) rfl rfl hst
      · rcases hr with hr | hr <;> cases hr
        exact nl_push_same hs hl e rfl rfl (hl.len i h e)
    · rcases hr with hr | hr <;> cases hr
  | resize i ns v =>
    simp only [step] at hr
    split at hr
    · rename_i h e
      rcases hr with hr | hr
      · exact nl_resize hs hl e hr
      · rw [resize_threw (hc h e) hr]; exact hl
    · rcases hr with hr | hr <;> cases hr
  | append i dim j =>
    simp only [step] at hr
    split at hr
    · rename_i h x ei ej
      split at hr
      · rcases hr with hr | hr <;> cases hr
      · split at hr
        · rcases hr with hr | hr <;> cases hr
          exact hl
        · split at hr
          · rename_i s1 h1
            have h2 := nl_resize hs hl ei h1
            split at hr
            · rcases hr with hr | hr <;> cases hr
            · split at hr
              · rename_i s2 h3
                rcases hr with hr | hr <;> cases hr
                exact nl_appendLoop h2 _ _ _ _ _ h3
              · rcases hr with hr | hr <;> cases hr
          · rename_i hno
            rcases hr with hr | hr
            · exact absurd hr (hno s')
            · rw [resize_threw (hc h ei) hr]; exact hl
    · rcases hr with hr | hr <;> cases hr
  | write i x v =>
    simp only [step] at hr
    split at hr
    · split at hr
      · split at hr
        · rename_i b hb
          split at hr
          · rcases hr with hr | hr <;> cases hr
            exact nl_write hl hb
          · rcases hr with hr | hr <;> cases hr
        · rcases hr with hr | hr <;> cases hr
      · rcases hr with hr | hr <;> cases hr
    · rcases hr with hr | hr <;> cases hr
  | setMutable i b =>
    simp only [step] at hr
    split at hr
    · rename_i h e
      rcases hr with hr | hr <;> cases hr
      refine ⟨?_, ?_, ?_⟩
      · intro q c hq he
        obtain ⟨k, g, hk, hg⟩ := hl.held q c hq he
        by_cases hki : k = i
        · subst hki; rw [e] at hk; cases hk
          exact ⟨k, { h with mutable := b }, by simp only [Store.put]; rw [Function.update_self], hg⟩
        · exact ⟨k, g, by simp only [Store.put]; rw [Function.update_of_ne hki]; exact hk, hg⟩
      · intro a c ga gc r ea ec h1 h2
        simp only [Store.put] at ea ec
        rcases update_some ea with ⟨-, rfl⟩ | ⟨-, ea'⟩ <;>
          rcases update_some ec with ⟨-, rfl⟩ | ⟨-, ec'⟩
        · rfl
        · exact hl.same i c h gc r e ec' h1 h2
        · exact hl.same a i ga h r ea' e h1 h2
        · exact hl.same a c ga gc r ea' ec' h1 h2
      · intro a g ea
        simp only [Store.put] at ea
        rcases update_some ea with ⟨-, rfl⟩ | ⟨-, ea'⟩
        · exact hl.len i h e
        · exact hl.len a g ea'
    · rcases hr with hr | hr <;> cases hr
  | convert j =>
    simp only [step] at hr
    split at hr
    · rename_i o e
      split at hr
      · rcases hr with hr | hr <;> cases hr
      · split at hr
        · rcases hr with hr | hr <;> cases hr
        · rcases hr with hr | hr <;> cases hr
          rename_i nd hd
          simp only [construct]
          split
          · exact nl_push_new hs hl nd s.ext (fun _ h => h) rfl rfl (length_rowStride _).symm
          · exact nl_add hl (hs.fa _ le_rfl) (fun j g r _ h => by simp at h)
              (length_rowStride _).symm
    · rcases hr with hr | hr <;> cases hr
  | convertAssign i j => exact absurd hc id

end Brille.Arr
