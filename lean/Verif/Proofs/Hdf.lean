import Verif.Model.Hdf
import Mathlib.Algebra.BigOperators.Fin

/-! Lemmas on saving and loading. -/
namespace Brille.Hdf
variable {R : Type}

/-- the group with the link `e` (re)placed -/
def Grp.put (g : Grp R) (e : String) (o : Obj R) : Grp R :=
  { g with kids := g.kids.filter (fun k => k.1 != e) ++ [(e, o)] }

/-- the group with one more attribute -/
def Grp.addA (g : Grp R) (n : String) (d : Data R) : Grp R := { g with attrs := g.attrs ++ [(n, d)] }

def Obj.ofGrp (s : Grp R) : Obj R := .group s.attrs s.kids

theorem lookup_filter_ne {α : Type} (l : List (String × α)) (e : String) :
    (l.filter fun k => k.1 != e).lookup e = none := by
  induction l with
  | nil => rfl
  | cons a l ih =>
    obtain ⟨a, v⟩ := a
    by_cases h : a = e
    · rw [List.filter_cons_of_neg (by simpa using h)]; exact ih
    · rw [List.filter_cons_of_pos (by simpa using h), List.lookup_cons,
        show (e == a) = false by simpa using fun h' => h h'.symm]
      exact ih

theorem lookup_filter_other {α : Type} (l : List (String × α)) (e e' : String) (hne : e' ≠ e) :
    (l.filter fun k => k.1 != e).lookup e' = l.lookup e' := by
  induction l with
  | nil => rfl
  | cons a l ih =>
    obtain ⟨a, v⟩ := a
    by_cases h : a = e
    · rw [List.filter_cons_of_neg (by simpa using h), List.lookup_cons,
        show (e' == a) = false by simpa [h] using hne]
      exact ih
    · rw [List.filter_cons_of_pos (by simpa using h), List.lookup_cons, List.lookup_cons, ih]

theorem filter_of_lookup_none {α : Type} (l : List (String × α)) (e : String) (h : l.lookup e = none) :
    (l.filter fun k => k.1 != e) = l := by
  induction l with
  | nil => rfl
  | cons a l ih =>
    obtain ⟨a, v⟩ := a
    rw [List.lookup_cons] at h
    by_cases ha : e = a
    · simp [ha] at h
    · rw [show (e == a) = false by simpa using ha] at h
      rw [List.filter_cons_of_pos (by simpa using fun h' => ha h'.symm), ih h]

theorem lookup_append {α : Type} (l m : List (String × α)) (e : String) :
    (l ++ m).lookup e = (l.lookup e).or (m.lookup e) := by
  induction l with
  | nil => simp
  | cons a l ih =>
    obtain ⟨a, v⟩ := a
    rw [List.cons_append, List.lookup_cons, List.lookup_cons, ih]
    cases h : e == a <;> simp

@[simp] theorem get_put (g : Grp R) (e e' : String) (o : Obj R) :
    (g.put e o).get e' = if e' = e then some o else g.get e' := by
  unfold Grp.put Grp.get
  dsimp only
  rw [lookup_append]
  by_cases h : e' = e
  · subst h; simp [lookup_filter_ne]
  · rw [lookup_filter_other _ _ _ h, if_neg h]
    simp [List.lookup_cons, show (e' == e) = false by simpa using h]

@[simp] theorem getAttr_put (g : Grp R) (e n : String) (o : Obj R) : (g.put e o).getAttr n = g.getAttr n := by
  simp [Grp.put, Grp.getAttr]

@[simp] theorem get_addA (g : Grp R) (e n : String) (d : Data R) : (g.addA n d).get e = g.get e := by
  simp [Grp.addA, Grp.get]

@[simp] theorem getAttr_addA (g : Grp R) (n n' : String) (d : Data R) :
    (g.addA n d).getAttr n' = (g.getAttr n').or (if n' = n then some d else none) := by
  unfold Grp.addA Grp.getAttr
  dsimp only
  rw [lookup_append]
  by_cases h : n' = n
  · simp [h]
  · simp [List.lookup_cons, h, show (n' == n) = false by simpa using h]

@[simp] theorem get_empty (e : String) : (Grp.empty : Grp R).get e = none := by
  simp [Grp.empty, Grp.get]
@[simp] theorem getAttr_empty (e : String) : (Grp.empty : Grp R).getAttr e = none := by
  simp [Grp.empty, Grp.getAttr]

theorem link_clear (g : Grp R) (e : String) (o : Obj R) : (g.clear e).link e o = some (g.put e o) := by
  unfold Grp.clear Grp.exist
  by_cases h : (g.get e).isSome
  · rw [if_pos h]
    unfold Grp.link Grp.exist
    rw [if_neg]
    · rfl
    · simp [Grp.unlink, Grp.get, lookup_filter_ne]
  · rw [if_neg h]
    unfold Grp.link Grp.exist
    rw [if_neg h]
    simp only [Bool.not_eq_true, Option.isSome_eq_false_iff, Option.isNone_iff_eq_none] at h
    unfold Grp.put
    rw [filter_of_lookup_none _ _ h]

theorem link_free (g : Grp R) (e : String) (o : Obj R) (h : g.get e = none) : g.link e o = some (g.put e o) := by
  unfold Grp.link Grp.exist Grp.put
  rw [filter_of_lookup_none _ _ h, if_neg (by simp [h])]

theorem attr_eq (g : Grp R) (n : String) (d : Data R) (h : g.getAttr n = none) :
    g.attr n d = some (g.addA n d) := by
  unfold Grp.getAttr at h
  simp [Grp.attr, addAttr, h, Grp.addA]

theorem dataSet_eq (g : Grp R) (n : String) (d : Data R) (h : g.get n = none) :
    g.dataSet n d = some (g.put n (.data d [])) := link_free g n _ h

theorem newGroup_eq (g : Grp R) (n : String) (fill : Grp R → Option (Grp R)) (h : g.get n = none) :
    g.newGroup n fill = (fill Grp.empty).map fun s => g.put n (Obj.ofGrp s) := by
  unfold Grp.newGroup
  cases hf : fill Grp.empty with
  | none => rfl
  | some s => simp [link_free _ _ _ h, Obj.ofGrp]

theorem overwriteGroup_eq (g : Grp R) (e : String) (fill : Grp R → Option (Grp R)) :
    overwriteGroup g e fill = (fill Grp.empty).map fun s => g.put e (Obj.ofGrp s) := by
  unfold overwriteGroup Grp.newGroup
  cases hf : fill Grp.empty with
  | none => rfl
  | some s => simp [link_clear, Obj.ofGrp]

theorem overwriteData_eq (g : Grp R) (e : String) (d : Data R) (as : List (String × Data R)) :
    overwriteData g e d as = some (g.put e (.data d as)) := link_clear _ _ _

theorem getGroup_of {g : Grp R} {e : String} {s : Grp R} (h : g.get e = some (Obj.ofGrp s)) :
    g.getGroup e = some s := by simp [Grp.getGroup, h, Obj.ofGrp]

theorem getData_of {g : Grp R} {e : String} {d : Data R} {as : List (String × Data R)}
    (h : g.get e = some (.data d as)) : g.getData e = some d := by simp [Grp.getData, h]

@[simp] theorem readScalar_scalar {T : Type} [Cell R T] (x : T) : readScalar (scalar x : Data R) = some x := by
  simp [readScalar, scalar, Cell.dec_enc]

@[simp] theorem readVec_vec {T : Type} [Cell R T] (l : List T) : readVec (vec l : Data R) = some l := by
  simp [readVec, vec, Cell.dec_enc]

@[simp] theorem readArr_vec {T : Type} [Cell R T] (k : ℕ) (f : Fin k → T) :
    readArr k (vec (List.ofFn f) : Data R) = some f := by
  simp [readArr]

/-- Writing puts an object at the entry that loading turns into `r`. -/
def Saves {X : Type} (sv : Grp R → String → Option (Grp R)) (fr : Grp R → String → Option X) (r : Option X) :
    Prop :=
  ∃ o, (∀ g e, sv g e = some (g.put e o)) ∧ ∀ g e, g.get e = some o → fr g e = r

theorem saves_group {X : Type} {fill : Grp R → Option (Grp R)} {body : Grp R → Option X} {r : Option X}
    (s : Grp R) (hf : fill Grp.empty = some s) (hb : body s = r) :
    Saves (fun g e => overwriteGroup g e fill) (fun g e => (g.getGroup e).bind body) r := by
  refine ⟨Obj.ofGrp s, fun g e => ?_, fun g e h => ?_⟩
  · simp only [overwriteGroup_eq, hf]; rfl
  · simp [getGroup_of h, hb]

theorem saves_data {X : Type} {d : Data R} {as : List (String × Data R)} {body : Data R → Option X} {r : Option X}
    (hb : body d = r) :
    Saves (fun g e => overwriteData g e d as) (fun g e => (g.getData e).bind body) r := by
  refine ⟨.data d as, fun g e => overwriteData_eq _ _ _ _, fun g e h => ?_⟩
  simp [getData_of h, hb]

/-! Lists -/

theorem repr_inj {a b : ℕ} (h : Nat.repr a = Nat.repr b) : a = b := by
  have h2 : Nat.toDigits 10 a = Nat.toDigits 10 b := by
    rw [← Nat.toList_repr, ← Nat.toList_repr, h]
  have h3 := congrArg (fun l => Nat.ofDigitChars 10 l 0) h2
  simpa [Nat.ofDigitChars_ten_toDigits] using h3

theorem writeAll_spec {X Y : Type} {w : X → Grp R → String → Option (Grp R)} {rd : Grp R → String → Option Y}
    {r : X → Option Y} :
    ∀ (l : List X) (i : ℕ) (g : Grp R),
      (∀ x ∈ l, ∃ o, (∀ g e, g.get e = none → w x g e = some (g.put e o)) ∧
        ∀ g e, g.get e = some o → rd g e = r x) →
      (∀ j, i ≤ j → g.get (Nat.repr j) = none) →
      ∃ g', writeAll w i l g = some g' ∧ (∀ n, g'.getAttr n = g.getAttr n) ∧
        (∀ e, (∀ j, i ≤ j → e ≠ Nat.repr j) → g'.get e = g.get e) ∧
        ∀ j (h : j < l.length), rd g' (Nat.repr (i + j)) = r l[j] := by
  intro l
  induction l with
  | nil =>
    intro i g _ _
    exact ⟨g, rfl, fun _ => rfl, fun _ _ => rfl, fun j h => by simp at h⟩
  | cons x l ih =>
    intro i g hx hg
    obtain ⟨o, ho, hr⟩ := hx x (by simp)
    have h1 := ho g (Nat.repr i) (hg i le_rfl)
    obtain ⟨g', hw, ha, hf, hread⟩ := ih (i + 1) (g.put (Nat.repr i) o) (fun y hy => hx y (by simp [hy])) (by
      intro j hj
      rw [get_put, if_neg (fun h => by have := repr_inj h; omega)]
      exact hg j (by omega))
    refine ⟨g', by simp [writeAll, h1, hw], fun n => by rw [ha, getAttr_put], ?_, ?_⟩
    · intro e he
      rw [hf e (fun j hj => he j (by omega)), get_put, if_neg (he i le_rfl)]
    · intro j hj
      cases j with
      | zero =>
        refine hr g' _ ?_
        rw [hf _ (fun j hj h => by have := repr_inj h; omega)]
        simp
      | succ j =>
        have := hread j (by simpa using hj)
        rw [show i + (j + 1) = i + 1 + j by omega, this]
        rfl

theorem mapM_range {X Y : Type} (l : List X) (F : ℕ → Option Y) (r : X → Option Y)
    (h : ∀ j (hj : j < l.length), F j = r l[j]) : (List.range l.length).mapM F = l.mapM r := by
  induction l generalizing F with
  | nil => rfl
  | cons x l ih =>
    rw [List.length_cons, List.range_succ_eq_map, List.mapM_cons, List.mapM_cons]
    rw [show F 0 = r x from h 0 (by simp)]
    congr 1
    funext a
    rw [List.mapM_map]
    rw [ih (F ∘ Nat.succ) (fun j hj => h (j + 1) (by simpa using hj))]

theorem mapM_some {X : Type} (l : List X) : l.mapM (fun x => some x) = some l := by
  induction l with
  | nil => rfl
  | cons x l ih => rw [List.mapM_cons, ih]; rfl

theorem mapM_some' {X Y : Type} (f : X → Option Y) (g : X → Y) (l : List X) (h : ∀ x ∈ l, f x = some (g x)) :
    l.mapM f = some (l.map g) := by
  induction l with
  | nil => rfl
  | cons x l ih => rw [List.mapM_cons, ih (fun y hy => h y (by simp [hy])), h x (by simp)]; rfl

theorem readAll_of {X Y : Type} {rd : Grp R → String → Option Y} {r : X → Option Y} {l : List X} {g : Grp R}
    (h : ∀ j (hj : j < l.length), rd g (Nat.repr (0 + j)) = r l[j]) : readAll rd l.length g = l.mapM r :=
  mapM_range l _ r fun j hj => by simpa using h j hj

theorem saves_lists {T : Type} [Cell R T] (ls : List (List T)) :
    Saves (R := R) (listsTo ls) listsFrom (some ls) := by
  obtain ⟨g', hw, ha, -, hr⟩ := writeAll_spec (R := R) (w := fun (l : List T) s n => s.dataSet n (vec l))
    (rd := fun s n => (s.getData n).bind readVec) (r := fun l => some l) ls 0
    ((Grp.empty : Grp R).addA "length" (scalar ls.length))
    (fun x _ => ⟨.data (vec x) [], fun g e h => dataSet_eq _ _ _ h, fun g e h => by simp [getData_of h]⟩)
    (fun j _ => rfl)
  have : Saves (R := R) (fun g e => overwriteGroup g e _) (fun g e => (g.getGroup e).bind _) (some ls) :=
    saves_group (fill := fun s => do
      let s ← s.attr "length" (scalar ls.length)
      writeAll (fun (l : List T) s n => s.dataSet n (vec l)) 0 ls s)
      (body := fun s => do
        let no : ℕ ← readScalar (← s.getAttr "length")
        readAll (fun s n => do readVec (← s.getData n)) no s) g'
      (by simp [attr_eq, hw])
      (by
        simp only [ha]
        simp
        rw [← mapM_some ls]
        exact readAll_of hr)
  exact this

/-! Maps -/

theorem find_none {α : Type} (m : StdMap.Map α) (k : ℕ) (h : ∀ x ∈ m, x.1 < k) : StdMap.find m k = none := by
  induction m with
  | nil => rfl
  | cons a m ih =>
    have := h a (by simp)
    rw [StdMap.find, if_neg (by omega), ih (fun x hx => h x (by simp [hx]))]

theorem set_last {α : Type} (m : StdMap.Map α) (k : ℕ) (v : α) (h : ∀ x ∈ m, x.1 < k) :
    StdMap.set m k v = m ++ [(k, v)] := by
  induction m with
  | nil => rfl
  | cons a m ih =>
    have := h a (by simp)
    rw [StdMap.set, if_neg (by omega), if_neg (by omega), ih (fun x hx => h x (by simp [hx]))]
    rfl

theorem emplace_all {α : Type} (m : StdMap.Map α) (acc : StdMap.Map α)
    (h : (acc ++ m).Pairwise fun a b => a.1 < b.1) :
    m.foldl (fun m kv => StdMap.emplace m kv.1 kv.2) acc = acc ++ m := by
  induction m generalizing acc with
  | nil => simp
  | cons a m ih =>
    have h1 : ∀ x ∈ acc, x.1 < a.1 := by
      rw [List.pairwise_append] at h
      exact fun x hx => h.2.2 x hx a (by simp)
    rw [List.foldl_cons]
    have : StdMap.emplace acc a.1 a.2 = acc ++ [a] := by
      unfold StdMap.emplace
      rw [find_none _ _ h1]
      exact set_last _ _ _ h1
    rw [this, ih _ (by simpa using h)]
    simp

theorem saves_map (m : StdMap.Map ℕ) (h : m.Pairwise fun a b => a.1 < b.1) :
    Saves (R := R) (mapTo m) mapFrom (some m) := by
  refine saves_group (R := R) (fill := fun s => do
      let s ← s.dataSet "keys" (vec (m.map Prod.fst))
      s.dataSet "values" (vec (m.map Prod.snd)))
    (body := fun s => do
      let keys : List ℕ ← readVec (← s.getData "keys")
      let values : List ℕ ← readVec (← s.getData "values")
      if keys.length ≠ values.length then none
      else some ((keys.zip values).foldl (fun m kv => StdMap.emplace m kv.1 kv.2) [])) _
    (by simp [dataSet_eq]; rfl) ?_
  simp [Grp.getData]
  rw [show m.map Prod.fst = m.unzip.1 by simp, show m.map Prod.snd = m.unzip.2 by simp, List.zip_unzip]
  exact emplace_all m [] (by simpa using h)

end Brille.Hdf
