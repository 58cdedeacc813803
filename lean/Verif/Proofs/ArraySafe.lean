import Verif.Proofs.ArrayInv
/-! Every call keeps the safety invariant. -/
namespace Brille.Arr
open Brille.Subscript Brille.Spec
variable {T : Type}

/-- A call ends in a state satisfying the invariant, or in undefined behaviour other than touching
deleted memory. -/
def Safe : Res T → Prop
  | .ok s => Inv s
  | .threw s => Inv s
  | .ub e => e ≠ .freed ∧ e ≠ .doubleFree

theorem contents_some {s : Store T} (hs : Inv s) {i : Nat} {h : Handle} (e : s.arr i = some h) :
    ∃ b, contents s h = some b := by
  simp only [contents]
  cases hd : h.data with
  | none => exact ⟨[], rfl⟩
  | some p => obtain ⟨b, hb, -⟩ := hs.ptr i h p e hd; exact ⟨b, hb⟩

theorem delete_some {s : Store T} (hs : Inv s) {i : Nat} {h : Handle} (e : s.arr i = some h) :
    ∃ s', s.delete h.data = some s' := by
  cases hd : h.data with
  | none => exact ⟨s, rfl⟩
  | some p =>
    obtain ⟨b, hb, -⟩ := hs.ptr i h p e hd
    simp [Store.delete, hb]

variable [Inhabited T]

theorem decoupleBuf_length {k : Kind} {h : Handle} {old nd : List T} {st : List Nat}
    (e : decoupleBuf k h old = some (nd, st)) : nd.length = sizeOf h.shape := by
  cases k with
  | nd =>
    simp only [decoupleBuf] at e
    split at e
    · split at e
      · cases e; rw [List.length_take]; omega
      · cases e
    · cases hl : subs h.shape with
      | none => simp [hl] at e
      | some l =>
        simp only [hl, Option.bind_some, Option.map_eq_some_iff, Prod.mk.injEq] at e
        obtain ⟨b, hb, rfl, -⟩ := e
        rw [copyLoop_length _ _ _ _ _ _ _ hb, List.length_replicate]
  | two =>
    simp only [decoupleBuf] at e
    split at e
    · split at e
      · cases e; rw [List.length_take]; omega
      · cases e
    · cases hc : calcStride h.stride h.shape with
      | none => simp [hc] at e
      | some st' =>
        cases hl : subs h.shape with
        | none => simp [hl, hc] at e
        | some l =>
          simp only [hl, hc, Option.bind_some, Option.map_eq_some_iff, Prod.mk.injEq] at e
          obtain ⟨b, hb, rfl, -⟩ := e
          rw [copyLoop_length _ _ _ _ _ _ _ hb, List.length_replicate]

theorem convertBuf_length {h : Handle} {old nd : List T}
    (e : convertBuf h old = some nd) : nd.length = sizeOf h.shape := by
  simp only [convertBuf] at e
  cases hl : subs h.shape with
  | none => simp [hl] at e
  | some l =>
    simp only [hl, Option.bind_some] at e
    rw [copyLoop_length _ _ _ _ _ _ _ e, List.length_replicate]

theorem resizeBuf_length {h : Handle} {ns : List Nat} {v : T} {old : Option (List T)} {nd : List T}
    {st : List Nat} (e : resizeBuf h ns v old = .done nd st) : nd.length = sizeOf ns := by
  simp only [resizeBuf, resizeCopy] at e
  split at e
  · cases e
  · split at e
    · cases e
    · split at e
      · cases e
      · split at e
        · cases e; simp
        · split at e
          · rename_i nd' hb
            cases e
            obtain ⟨l, -, hb⟩ := Option.bind_eq_some_iff.1 hb
            rw [copyLoop_length _ _ _ _ _ _ _ hb, List.length_replicate]
          · cases e

theorem safe_construct {s : Store T} (hs : Inv s) (shape stride : List Nat) (fill : List T)
    (hf : fill.length = sizeOf shape) (old : Option Nat) (ho : ∀ r, old = some r → r < s.nRef) :
    Inv (construct s shape stride fill old).1 ∧
      Good (construct s shape stride fill old).1 (construct s shape stride fill old).2 := by
  simp only [construct]
  split
  · exact ⟨inv_newRef (inv_alloc hs fill), good_new hs fill rfl hf.symm rfl rfl⟩
  · exact ⟨hs, good_null rfl ho (by dsimp only; omega)⟩

theorem safe_ctor {s : Store T} (hs : Inv s) (shape stride : List Nat) (fill : List T)
    (hf : fill.length = sizeOf shape) :
    Safe (let c := construct s shape stride fill none
      if initCheck c.2 then .ok (c.1.push c.2) else .threw c.1) := by
  obtain ⟨h1, h2⟩ := safe_construct hs shape stride fill hf none (by simp)
  dsimp only
  split
  · exact inv_push h1 h2
  · exact h1

omit [Inhabited T] in
theorem safe_view {s : Store T} (hs : Inv s) {i : Nat} {h : Handle} (e : s.arr i = some h)
    (shift : Nat) (shape : List Nat) : Safe (mkView s h shift shape) := by
  simp only [mkView]
  split
  · exact inv_push hs (good_same hs e rfl rfl rfl rfl)
  · exact hs

omit [Inhabited T] in
/-- After one object stops referring to block `p` through a counter nobody else holds, nobody refers
to `p`. -/
theorem nobody {s : Store T} (hs : Inv s) {i : Nat} {h : Handle} (e : s.arr i = some h)
    (hc : useCount s h.ref = 1) (p j : Nat) (g : Handle) (hp : h.data = some p)
    (e' : s.arr j = some g) (hg : g.data = some p) : j = i :=
  useCount_one hs hc e rfl e' (hs.pair i j h g p e e' hp hg).symm

theorem safe_resize {s : Store T} (hs : Inv s) {i : Nat} {h : Handle} (e : s.arr i = some h)
    (ns : List Nat) (v : T) : Safe (resize s i h ns v) := by
  simp only [resize]
  split
  · exact ⟨by simp, by simp⟩
  · split
    · rename_i p hp hb
      obtain ⟨b, hb', -⟩ := hs.ptr i h p e hp
      rw [hp, Option.bind_some, hb'] at hb
      cases hb
    · split
      · exact hs
      · exact inv_alloc hs _
      · exact ⟨by simp, by simp⟩
      · rename_i nd nt hr
        have hlen := resizeBuf_length hr
        have e1 : (s.alloc nd).arr i = some h := e
        have key : Inv ((s.alloc nd).newRef.put i
            { h with data := some s.nBlock, num := sizeOf ns, own := true,
                     ref := some (s.alloc nd).nRef,
                     shape := ns, stride := nt, mutable := true }) :=
          inv_put (s := (s.alloc nd).newRef) (inv_newRef (inv_alloc hs nd)) (o := h) e
            (good_new hs nd rfl hlen.symm rfl rfl)
        split
        · rename_i hd
          split at hd
          · obtain ⟨s', hs'⟩ := delete_some (inv_alloc hs nd) e1
            rw [hs'] at hd; cases hd
          · cases hd
        · rename_i s2 hd
          split at hd
          · rename_i hc
            cases hp : h.data with
            | none =>
              rw [hp] at hd
              cases hd
              exact key
            | some p =>
              have hlt := ptr_lt hs e hp
              rw [hp] at hd
              simp only [Store.delete] at hd
              split at hd
              · cases hd
              · rename_i hb
                cases hd
                refine inv_delete key (p := some p) ?_ (fun q hq => by
                  cases hq; have := (hs.own i h p e hp).1; rw [hc.1] at this; exact this) (by
                  simp only [Store.delete, Store.put, Store.newRef]
                  exact if_neg hb)
                intro q j g hq ej hg
                cases hq
                simp only [Store.put] at ej
                by_cases hji : j = i
                · subst hji
                  rw [Function.update_self] at ej
                  cases ej
                  dsimp only at hg
                  cases hg
                  omega
                · rw [Function.update_of_ne hji] at ej
                  exact hji (nobody hs e hc.2 p j g hp ej hg)
          · cases hd; exact key

omit [Inhabited T] in
theorem assignElt_safe {s : Store T} (hs : Inv s) (i j : Nat) (x y : List Nat) :
    (∀ s', assignElt s i y j x = .ok s' → Inv s' ∧ s'.arr = s.arr) ∧
      ∀ e, assignElt s i y j x = .error e → e ≠ .freed ∧ e ≠ .doubleFree := by
  simp only [assignElt]
  split
  · rename_i hi hj ei ej
    split
    · rename_i p q a b hp hq ha hb
      obtain ⟨bp, hbp, -⟩ := hs.ptr i hi p ei hp
      obtain ⟨bq, hbq, -⟩ := hs.ptr j hj q ej hq
      simp only [hbp, hbq]
      split
      · split
        · refine ⟨fun s' h => ?_, fun e h => by cases h⟩
          cases h
          exact ⟨inv_write hs hbp (List.length_set ..), rfl⟩
        · exact ⟨fun s' h => by (cases h), fun e h => by cases h; simp⟩
      · exact ⟨fun s' h => by (cases h), fun e h => by cases h; simp⟩
    · exact ⟨fun s' h => by (cases h), fun e h => by cases h; simp⟩
  · exact ⟨fun s' h => by (cases h), fun e h => by cases h; simp⟩

omit [Inhabited T] in
theorem appendLoop_safe {s : Store T} (hs : Inv s) (i j dim n : Nat) (l : List (List Nat)) :
    (∀ s', appendLoop i j dim n l s = .ok s' → Inv s') ∧
      ∀ e, appendLoop i j dim n l s = .error e → e ≠ .freed ∧ e ≠ .doubleFree := by
  induction l generalizing s with
  | nil => exact ⟨fun s' h => by cases h; exact hs, fun e h => by cases h⟩
  | cons x l ih =>
    have ha := assignElt_safe hs i j x (bump dim n x)
    simp only [appendLoop]
    split
    · rename_i s' he
      exact ih (ha.1 s' he).1
    · rename_i e he
      exact ⟨fun s' h => by (cases h), fun e' h => by cases h; exact ha.2 _ he⟩

omit [Inhabited T] in
theorem dead_ok : Safe (.ub .dead : Res T) := ⟨by simp, by simp⟩
omit [Inhabited T] in
theorem oob_ok : Safe (.ub .oob : Res T) := ⟨by simp, by simp⟩

/-- **Every call keeps the invariant and never touches deleted memory.** -/
theorem step_safe (k : Kind) {s : Store T} (hs : Inv s) (o : Op T) : Safe (step k s o) := by
  cases o with
  | new shape v => exact safe_ctor hs shape _ _ (List.length_replicate ..)
  | newStrided shape stride v => exact safe_ctor hs shape _ _ (List.length_replicate ..)
  | fromStd d =>
    exact inv_push (inv_newRef (inv_alloc hs d)) (good_new hs d rfl rfl rfl rfl)
  | wrap b shape stride m =>
    have h1 : Inv ({ (s.alloc b).newRef with ext := Function.update s.ext s.nBlock true } : Store T) := by
      have h0 := inv_newRef (inv_alloc hs b)
      refine ⟨h0.fb, ?_, h0.fa, h0.ref, h0.ptr, ?_, h0.pair, ?_, h0.null⟩
      · intro p hp
        simp only [Store.newRef, Store.alloc] at hp
        dsimp only
        rw [Function.update_of_ne (by omega)]; exact hs.fe p (by omega)
      · intro i h p e hp
        have := ptr_lt hs (by exact e) hp
        dsimp only
        rw [Function.update_of_ne (by omega)]; exact hs.own i h p e hp
      · intro p hp
        dsimp only at hp
        simp only [Store.newRef, Store.alloc]
        by_cases h : p = s.nBlock
        · subst h; exact ⟨b, by simp⟩
        · rw [Function.update_of_ne h] at hp
          rw [Function.update_of_ne h]; exact hs.kept p hp
    simp only [step]
    split
    · refine inv_push h1 ⟨fun r hr => ?_, fun p hp => ?_, fun p hp => ?_,
        fun j hj p ej hp hq => ?_, fun hd => by cases hd⟩
      · cases hr; simp [Store.newRef, Store.alloc]
      · cases hp; exact ⟨b, by simp [Store.newRef, Store.alloc], rfl⟩
      · cases hp; simp
      · cases hp; exact absurd (ptr_lt hs (by exact ej) hq) (lt_irrefl _)
    · exact h1
  | copy i =>
    simp only [step]
    split
    · rename_i h e; exact inv_push hs (good_same hs e rfl rfl rfl rfl)
    · exact dead_ok
  | assign i j =>
    simp only [step]
    split
    · rename_i h o ei ej
      split
      · exact hs
      · rename_i hij
        have hput : Inv (s.put i { o with own := o.own }) :=
          inv_put hs ei (good_same hs ej rfl rfl rfl rfl)
        split
        · rename_i hc
          obtain ⟨hown, hcnt⟩ := hc
          have hcnt : useCount (s.put i { o with own := o.own }) h.ref = 0 := by omega
          obtain ⟨s', hs'⟩ := delete_some hs ei
          cases hp : h.data with
          | none => simp only [Store.delete]; exact hput
          | some p =>
            obtain ⟨b, hb, -⟩ := hs.ptr i h p ei hp
            obtain ⟨-, r, hr⟩ := hs.own i h p ei hp
            have hb' : (s.put i { o with own := o.own }).block p = some b := hb
            split
            · rename_i s2 hd
              refine inv_delete hput ?_ (fun q hq => by
                cases hq; have := (hs.own i h p ei hp).1; rw [hown] at this; exact this) hd
              intro q k g hq ek hg
              cases hq
              rw [hr] at hcnt
              refine useCount_zero hput hcnt ek ?_
              rw [← hr]
              simp only [Store.put] at ek
              by_cases hki : k = i
              · subst hki
                rw [Function.update_self] at ek
                cases ek
                exact (hs.pair k j h o p ei ej hp hg).symm
              · rw [Function.update_of_ne hki] at ek
                exact (hs.pair i k h g p ei ek hp hg).symm
            · rename_i hd
              simp [Store.delete, hb'] at hd
        · exact hput
    · exact dead_ok
  | destroy i =>
    simp only [step]
    split
    · rename_i h e
      split
      · rename_i s1 hd
        split at hd
        · rename_i hc
          cases hp : h.data with
          | none => rw [hp] at hd; cases hd; exact inv_drop hs i
          | some p =>
            rw [hp] at hd
            simp only [Store.delete] at hd
            split at hd
            · cases hd
            · rename_i hb
              cases hd
              refine inv_delete (inv_drop hs i) (p := some p) ?_ (fun q hq => by
                cases hq; have := (hs.own i h p e hp).1; rw [hc.1] at this; exact this) (by
                simp only [Store.delete]; exact if_neg hb)
              intro q j g hq ej hg
              cases hq
              dsimp only at ej
              by_cases hji : j = i
              · subst hji; rw [Function.update_self] at ej; cases ej
              · rw [Function.update_of_ne hji] at ej
                exact hji (nobody hs e hc.2 p j g hp ej hg)
        · cases hd; exact inv_drop hs i
      · rename_i hd
        split at hd
        · obtain ⟨s', hs'⟩ := delete_some hs e
          rw [hs'] at hd; cases hd
        · cases hd
    · exact dead_ok
  | view i =>
    simp only [step]
    split
    · rename_i h e; exact safe_view hs e _ _
    · exact dead_ok
  | viewAt i a =>
    simp only [step]
    split
    · rename_i h e
      split
      · split
        · exact safe_view hs e _ _
        · exact hs
      · exact oob_ok
    · exact dead_ok
  | viewRange i a b =>
    simp only [step]
    split
    · rename_i h e
      split
      · rename_i n ns t ts _ _
        split
        · exact safe_view hs e _ _
        · split
          · refine safe_ctor hs (0 :: ns) _ _ ?_
            simp [sizeOf]
          · exact hs
      · exact oob_ok
    · exact dead_ok
  | viewFrom i v =>
    simp only [step]
    split
    · rename_i h e
      split
      · exact safe_view hs e _ _
      · exact oob_ok
    · exact dead_ok
  | decouple i =>
    simp only [step]
    split
    · rename_i h e
      split
      · obtain ⟨old, ho⟩ := contents_some hs e
        simp only [ho]
        split
        · exact oob_ok
        · rename_i nd st hd
          split
          · exact inv_push (inv_newRef (inv_alloc hs nd))
              (good_new hs nd rfl (decoupleBuf_length hd).symm rfl rfl)
          · exact inv_alloc hs nd
      · exact inv_push hs (good_same hs e rfl rfl rfl rfl)
    · exact dead_ok
  | resize i ns v =>
    simp only [step]
    split
    · rename_i h e; exact safe_resize hs e ns v
    · exact dead_ok
  | append i dim j =>
    simp only [step]
    split
    · rename_i h x ei ej
      split
      · exact oob_ok
      · split
        · exact hs
        · have hr := safe_resize hs ei (bump dim (h.shape.getD dim 0) x.shape) (default : T)
          split
          · rename_i s1 h1
            rw [h1] at hr
            split
            · exact oob_ok
            · rename_i l _
              have ha := appendLoop_safe hr i j dim (h.shape.getD dim 0) l
              split
              · rename_i s2 h2; exact ha.1 s2 h2
              · rename_i er h2; exact ha.2 er h2
          · exact hr
    · exact dead_ok
  | write i x v =>
    simp only [step]
    split
    · rename_i h e
      split
      · rename_i p a hp ha
        obtain ⟨b, hb, -⟩ := hs.ptr i h p e hp
        simp only [hb]
        split
        · exact inv_write hs hb (List.length_set ..)
        · exact oob_ok
      · exact oob_ok
    · exact dead_ok
  | setMutable i b =>
    simp only [step]
    split
    · rename_i h e; exact inv_put hs e (good_same hs e rfl rfl rfl rfl)
    · exact dead_ok
  | convert j =>
    simp only [step]
    split
    · rename_i o e
      obtain ⟨old, ho⟩ := contents_some hs e
      simp only [ho]
      split
      · exact oob_ok
      · rename_i nd hd
        obtain ⟨h1, h2⟩ := safe_construct hs o.shape (rowStride o.shape) nd (convertBuf_length hd)
          none (by simp)
        exact inv_push h1 h2
    · exact dead_ok
  | convertAssign i j =>
    simp only [step]
    split
    · rename_i h o ei ej
      obtain ⟨old, ho⟩ := contents_some hs ej
      simp only [ho]
      split
      · exact oob_ok
      · rename_i nd hd
        obtain ⟨h1, h2⟩ := safe_construct hs o.shape (rowStride o.shape) nd (convertBuf_length hd)
          h.ref (fun r hr => hs.ref i h r ei hr)
        refine inv_put h1 (o := h) ?_ h2
        simp only [construct]
        split <;> exact ei
    · exact dead_ok

theorem run_safe (k : Kind) (l : List (Op T)) {s : Store T} (hs : Inv s) : Safe (run k l s) := by
  induction l generalizing s with
  | nil => exact hs
  | cons o l ih =>
    have h := step_safe k hs o
    simp only [run]
    split
    · rename_i s' e; rw [e] at h; exact ih h
    · rename_i s' e; rw [e] at h; exact ih h
    · rename_i er e; rw [e] at h; exact h

end Brille.Arr
