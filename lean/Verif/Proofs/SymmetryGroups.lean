import Verif.Proofs.Symmetry
import Mathlib.Algebra.Group.Submonoid.Membership
import Mathlib.Algebra.Group.Submonoid.BigOperators
import Mathlib.Algebra.BigOperators.Group.List.Lemmas

namespace Brille.Sym

variable {α : Type} {G : Type} [Monoid G]
variable {o : Ops α} {S : α → Prop} {φ : α → G} (hr : Reads o S φ)
include hr

theorem foldr_prod (l : List α) : φ (l.foldr o.mul o.e) = (l.map φ).prod := by
  induction l with
  | nil => simp [hr.one]
  | cons a l ih => rw [List.foldr_cons, hr.mul, ih, List.map_cons, List.prod_cons]

/-- Everything in the result is a product of generators. -/
theorem generate_products {gens : List α} (hS : ∀ g ∈ gens, S g) {y : G} (hy : y ∈ (generate o gens).map φ) :
    ∃ l : List α, (∀ x ∈ l, x ∈ gens) ∧ y = φ (l.foldr o.mul o.e) := by
  have h := generate_closure hr hS y hy
  obtain ⟨l, hl, rfl⟩ := Submonoid.exists_list_of_mem_closure h
  have : ∀ l : List G, (∀ y ∈ l, y ∈ gens.map φ) → ∃ l' : List α, (∀ x ∈ l', x ∈ gens) ∧ l = l'.map φ := by
    intro l
    induction l with
    | nil => intro _; exact ⟨[], by simp, rfl⟩
    | cons a l ih =>
      intro h
      obtain ⟨x, hx, hxa⟩ := List.mem_map.mp (h a (List.mem_cons_self ..))
      obtain ⟨l', h1, h2⟩ := ih (fun y hy => h y (List.mem_cons_of_mem _ hy))
      refine ⟨x :: l', ?_, by rw [List.map_cons, h2, hxa]⟩
      intro z hz
      rcases List.mem_cons.mp hz with rfl | hz
      · exact hx
      · exact h1 z hz
  obtain ⟨l', h1, h2⟩ := this l hl
  exact ⟨l', h1, by rw [foldr_prod hr, h2]⟩

/-- If the result is closed under multiplication by generators from the right, it has every product. -/
theorem generate_complete {gens : List α} (hS : ∀ g ∈ gens, S g)
    (h : ∀ a ∈ (generate o gens).map φ, ∀ g ∈ gens, a * φ g ∈ (generate o gens).map φ)
    {l : List α} (hl : ∀ x ∈ l, x ∈ gens) : φ (l.foldr o.mul o.e) ∈ (generate o gens).map φ := by
  rw [foldr_prod hr, closure_of_right hr hS h]
  apply Submonoid.list_prod_mem
  intro y hy
  obtain ⟨x, hx, rfl⟩ := List.mem_map.mp hy
  exact Submonoid.subset_closure (List.mem_map_of_mem (hl x hx))

/-- One more generator. -/
theorem closed_step {gens : List α} {g : α} (hS : ∀ x ∈ gens, S x) (hg : S g)
    (hc : ClosedSet φ (generate o gens)) {n : Nat} (hn : 0 < n) (hpow : φ g ^ n = 1) (hn' : n ≤ tri (o.order g) + 1)
    (ho : 0 < o.order g) :
    ClosedSet φ (generate o (gens ++ [g])) ↔
      ∀ h ∈ (generate o gens).map φ, h * φ g ∈ (generate o (gens ++ [g])).map φ := by
  have hS' : ∀ x ∈ gens ++ [g], S x := by
    intro x hx
    rcases List.mem_append.mp hx with hx | hx
    · exact hS x hx
    · rw [List.mem_singleton.mp hx]; exact hg
  constructor
  · intro h x hx
    refine h x ?_ (φ g) (generate_gen hr hS' (by simp) ho)
    obtain ⟨m, hm, rfl⟩ := List.mem_map.mp hx
    exact List.mem_map_of_mem (generate_mono hr hS (by simpa using hg) m hm)
  · intro h
    refine closed_snoc hr hS hg hc hn hpow hn' ?_
    intro x hx
    obtain ⟨k, _, h', hh', he⟩ := (generate_snoc hr hS hg _).mp (h x hx)
    exact ⟨k, h', hh', he⟩

/-- Operations that commute, of finite order. -/
theorem closed_commuting : ∀ {gens : List α}, (∀ x ∈ gens, S x) →
    (∀ a ∈ gens, ∀ b ∈ gens, φ a * φ b = φ b * φ a) →
    (∀ a ∈ gens, ∃ n, 0 < n ∧ φ a ^ n = 1 ∧ n ≤ tri (o.order a) + 1) → ClosedSet φ (generate o gens) := by
  intro gens
  induction gens using List.reverseRecOn with
  | nil =>
    intro _ _ _ a ha b hb
    have ha' : a = 1 := by simpa [generate, hr.one] using ha
    have hb' : b = 1 := by simpa [generate, hr.one] using hb
    rw [ha', hb', mul_one]
    simp [generate, hr.one]
  | append_singleton gens g ih =>
    intro hS hcomm hfin
    have hS1 : ∀ x ∈ gens, S x := fun x hx => hS x (List.mem_append_left _ hx)
    obtain ⟨n, h1, h2, h3⟩ := hfin g (by simp)
    refine closed_snoc hr hS1 (hS g (by simp))
      (ih hS1 (fun a ha b hb => hcomm a (List.mem_append_left _ ha) b (List.mem_append_left _ hb))
        (fun a ha => hfin a (List.mem_append_left _ ha))) h1 h2 h3 ?_
    intro h hh
    refine ⟨1, h, hh, ?_⟩
    rw [pow_one]
    have := generate_closure hr hS1 h hh
    refine Submonoid.closure_induction (motive := fun y _ => y * φ g = φ g * y) ?_ ?_ ?_ this
    · intro x hx
      obtain ⟨a, ha, rfl⟩ := List.mem_map.mp hx
      exact hcomm a (List.mem_append_left _ ha) g (by simp)
    · rw [one_mul, mul_one]
    · intro x y _ _ hx hy
      rw [mul_assoc, hy, ← mul_assoc, hx, mul_assoc]

omit hr in
theorem prune_mem {fuel i : Nat} {lB : List α} : ∀ x ∈ prune o fuel i lB, x ∈ lB :=
  fun x hx => (prune_sublist fuel i lB).subset hx

/-- `generators` returns operations of the input, and loses nothing as long as what is generated from operations
of the input is closed. -/
theorem generators_spec {M : List α} (hord : ∀ a ∈ M, 0 < o.order a) (hM : ∀ m ∈ M, S m) :
    (∀ x ∈ generators o M, x ∈ M) ∧
    ((∀ l : List α, (∀ x ∈ l, x ∈ M) → ClosedSet φ (generate o l)) →
      ∀ m ∈ M, φ m ∈ (generate o (generators o M)).map φ) := by
  obtain ⟨l, h1, h2, h3, h4⟩ := collect_spec hr M.length M [] (le_refl _) hord hM (by simp)
  rw [List.nil_append] at h3 h4
  unfold generators
  dsimp only
  rw [h3]
  refine ⟨fun x hx => h1 x (prune_mem x hx), fun hcl m hm => ?_⟩
  refine prune_spec hr l.length 0 l (fun x hx => hord x (h1 x hx)) (fun x hx => hM x (h1 x hx)) ?_ _ (h4 m hm)
  intro l' hl'
  exact hcl l' fun x hx => h1 x (hl'.subset hx)

end Brille.Sym
