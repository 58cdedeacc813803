/-
The container of nodes: every node has a place of its own.
-/
import Verif.Model.TrellisWire

namespace Brille.TrellisWire

open Brille.Trellis (NodeType)
open Brille.Tetra

/-- the place of every node: the number of nodes of its type before it -/
structure Container.Ok (c : Container) (types : List NodeType) : Prop where
  length : c.nodes.length = types.length
  type : ∀ (i : Nat) (ty : NodeType) (k : Nat), c.nodes[i]? = some (ty, k) → types[i]? = some ty
  cube : ∀ (i : Nat) (k : Nat), c.nodes[i]? = some (.cube, k) → k = (types.take i).count .cube
  poly : ∀ (i : Nat) (k : Nat), c.nodes[i]? = some (.poly, k) → k = (types.take i).count .poly
  cubes : c.cubes.length = types.count .cube
  polys : c.polys.length = types.count .poly

theorem push_spec : ∀ (rest done : List NodeType) (s : List (NodeType × Nat) × Nat × Nat),
    (s.1.length = done.length ∧ (∀ (i : Nat) (ty : NodeType) (k : Nat), s.1[i]? = some (ty, k) → done[i]? = some ty) ∧
      (∀ (i : Nat) (k : Nat), s.1[i]? = some (.cube, k) → k = (done.take i).count .cube) ∧
      (∀ (i : Nat) (k : Nat), s.1[i]? = some (.poly, k) → k = (done.take i).count .poly) ∧
      s.2.1 = done.count .cube ∧ s.2.2 = done.count .poly) →
    let e := rest.foldl Container.push s
    let all := done ++ rest
    (e.1.length = all.length ∧ (∀ (i : Nat) (ty : NodeType) (k : Nat), e.1[i]? = some (ty, k) → all[i]? = some ty) ∧
      (∀ (i : Nat) (k : Nat), e.1[i]? = some (.cube, k) → k = (all.take i).count .cube) ∧
      (∀ (i : Nat) (k : Nat), e.1[i]? = some (.poly, k) → k = (all.take i).count .poly) ∧
      e.2.1 = all.count .cube ∧ e.2.2 = all.count .poly)
  | [], done, s, h => by simpa using h
  | ty :: rest, done, s, ⟨h1, h2, h3, h4, h5, h6⟩ => by
    have := push_spec rest (done ++ [ty]) (Container.push s ty) ?_
    · simpa using this
    have hpush : ∃ k, (Container.push s ty).1 = s.1 ++ [(ty, k)] ∧ (ty = .cube → k = s.2.1) ∧ (ty = .poly → k = s.2.2) := by
      cases ty <;> simp [Container.push]
    obtain ⟨k0, e, hc, hp⟩ := hpush
    have hcase : ∀ (i : Nat) (t : NodeType) (k : Nat), (s.1 ++ [(ty, k0)])[i]? = some (t, k) →
        (i < done.length ∧ s.1[i]? = some (t, k)) ∨ (i = done.length ∧ t = ty ∧ k = k0) := by
      intro i t k h
      by_cases hi : i < s.1.length
      · rw [List.getElem?_append_left hi] at h
        exact Or.inl ⟨h1 ▸ hi, h⟩
      · rw [List.getElem?_append_right (by omega)] at h
        have h0 : i - s.1.length = 0 := by
          have := (List.getElem?_eq_some_iff.mp h).1
          simp only [List.length_singleton] at this
          omega
        rw [h0] at h
        simp only [List.getElem?_cons_zero, Option.some.injEq, Prod.mk.injEq] at h
        exact Or.inr ⟨by omega, h.1.symm, h.2.symm⟩
    rw [e]
    refine ⟨by simp [h1], ?_, ?_, ?_, ?_, ?_⟩
    · intro i t k h
      rcases hcase i t k h with ⟨hi, h⟩ | ⟨rfl, rfl, rfl⟩
      · rw [List.getElem?_append_left hi]; exact h2 i t k h
      · simp
    · intro i k h
      rcases hcase i _ k h with ⟨hi, h⟩ | ⟨rfl, e1, rfl⟩
      · rw [List.take_append_of_le_length hi.le]; exact h3 i k h
      · rw [List.take_left, hc e1.symm, h5]
    · intro i k h
      rcases hcase i _ k h with ⟨hi, h⟩ | ⟨rfl, e1, rfl⟩
      · rw [List.take_append_of_le_length hi.le]; exact h4 i k h
      · rw [List.take_left, hp e1.symm, h6]
    · cases ty <;> simp [Container.push, h5]
    · cases ty <;> simp [Container.push, h6]

theorem make_ok (types : List NodeType) : (Container.make types).Ok types := by
  have := push_spec types [] ([], 0, 0) (by simp)
  simp only [List.nil_append] at this
  obtain ⟨h1, h2, h3, h4, h5, h6⟩ := this
  exact ⟨h1, h2, h3, h4, by simp [Container.make, h5], by simp [Container.make, h6]⟩

theorem Container.Ok.at {c : Container} {types : List NodeType} (h : c.Ok types) {i : Nat} {ty : NodeType} (hi : types[i]? = some ty) :
    ∃ k, c.nodes[i]? = some (ty, k) := by
  have hl := (List.getElem?_eq_some_iff.mp hi).1
  rw [← h.length] at hl
  have e := List.getElem?_eq_getElem hl
  have := h.type i _ _ e
  rw [hi] at this
  exact ⟨c.nodes[i].2, by rw [e]; simp [Option.some.inj this]⟩

theorem count_take_lt {types : List NodeType} {i j : Nat} {ty : NodeType} (h : types[i]? = some ty) (hij : i < j) :
    (types.take i).count ty < (types.take j).count ty := by
  have : (types.take (i + 1)).count ty ≤ (types.take j).count ty :=
    ((List.take_prefix_take_left hij).sublist).count_le ty
  rw [List.take_add_one, h] at this
  simp at this
  omega

theorem count_take_all {types : List NodeType} {i : Nat} {ty : NodeType} (h : types[i]? = some ty) :
    (types.take i).count ty < types.count ty := by
  have := count_take_lt h (List.getElem?_eq_some_iff.mp h).1
  rwa [List.take_length] at this

theorem setCube_spec {c : Container} {types : List NodeType} (h : c.Ok types) {i : Nat} (hi : types[i]? = some .cube) (n : Fin 8 → Nat) :
    ∃ c', c.setCube i n = some c' ∧ c'.Ok types ∧ c'.get i = some (.cube n) ∧ ∀ j, j ≠ i → c'.get j = c.get j := by
  obtain ⟨k, e⟩ := h.at hi
  have hk := h.cube i k e
  have hlt : k < c.cubes.length := by rw [h.cubes, hk]; exact count_take_all hi
  refine ⟨{ c with cubes := c.cubes.set k n }, by unfold Container.setCube; rw [e]; simp [hlt],
    ⟨h.length, h.type, h.cube, h.poly, by simp [h.cubes], h.polys⟩, ?_, ?_⟩
  · unfold Container.get
    simp [e, hlt]
  · intro j hj
    unfold Container.get
    cases ej : c.nodes[j]? with
    | none => rfl
    | some p =>
      obtain ⟨ty, kj⟩ := p
      cases ty <;> try rfl
      have hkj := h.cube j kj ej
      have htj := h.type j _ _ ej
      have hne : k ≠ kj := by
        rw [hk, hkj]
        rcases Nat.lt_or_gt_of_ne hj with hl | hl
        · exact (count_take_lt htj hl).ne'
        · exact (count_take_lt hi hl).ne
      simp [hne]

theorem setPoly_spec {c : Container} {types : List NodeType} (h : c.Ok types) {i : Nat} (hi : types[i]? = some .poly) (n : List Tet) :
    ∃ c', c.setPoly i n = some c' ∧ c'.Ok types ∧ c'.get i = some (.poly n) ∧ ∀ j, j ≠ i → c'.get j = c.get j := by
  obtain ⟨k, e⟩ := h.at hi
  have hk := h.poly i k e
  have hlt : k < c.polys.length := by rw [h.polys, hk]; exact count_take_all hi
  refine ⟨{ c with polys := c.polys.set k n }, by unfold Container.setPoly; rw [e]; simp [hlt],
    ⟨h.length, h.type, h.cube, h.poly, h.cubes, by simp [h.polys]⟩, ?_, ?_⟩
  · unfold Container.get
    simp [e, hlt]
  · intro j hj
    unfold Container.get
    cases ej : c.nodes[j]? with
    | none => rfl
    | some p =>
      obtain ⟨ty, kj⟩ := p
      cases ty <;> try rfl
      have hkj := h.poly j kj ej
      have htj := h.type j _ _ ej
      have hne : k ≠ kj := by
        rw [hk, hkj]
        rcases Nat.lt_or_gt_of_ne hj with hl | hl
        · exact (count_take_lt htj hl).ne'
        · exact (count_take_lt hi hl).ne
      simp [hne]

end Brille.TrellisWire
