/-
C23: applying a permutation, or the inverse of a permutation, in place.
-/
import Verif.Proofs.ApplyPermutation

namespace Brille.Props

open Brille.ApplyPerm

/-- C23 (forward).  For every length, every list of objects and every permutation `p` of its
positions, `apply_permutation` terminates, leaves object number `p i` at position `i`, leaves no
moved-from object behind, and leaves `0, 1, …, n-1` in the index list. -/
theorem C23_apply_permutation {n : Nat} {α : Type} (objects : Fin n → α) (p : Equiv.Perm (Fin n)) :
    ∃ s, applyPermutation objects p = some s ∧
      (∀ i, s.objects i = some (objects (p i))) ∧ (∀ i, s.indices i = i) := by
  rw [applyPermutation_spec objects p.injective]
  exact ⟨_, rfl, fun _ => rfl, fun _ => rfl⟩

example : ∃ p : Equiv.Perm (Fin 3), p 0 = 1 ∧ p 1 = 2 ∧ p 2 = 0 := ⟨Equiv.swap 0 1 * Equiv.swap 1 2, by decide⟩

/-- C23 (composition).  Applying `p` and then `q` is applying the one permutation `i ↦ p (q i)`. -/
theorem C23_apply_twice {n : Nat} {α : Type} (objects : Fin n → α) (p q : Equiv.Perm (Fin n)) :
    ∃ s t, applyPermutation objects p = some s ∧
      (∀ f : Fin n → α, (∀ i, s.objects i = some (f i)) →
        applyPermutation f q = some t ∧ ∀ i, t.objects i = some (objects (p (q i)))) := by
  refine ⟨_, ⟨fun i => some (objects (p (q i))), fun i => i⟩, applyPermutation_spec objects p.injective, ?_⟩
  intro f hf
  have : f = fun i => objects (p i) := funext fun i => by simpa using (hf i).symm
  subst this
  exact ⟨applyPermutation_spec _ q.injective, fun _ => rfl⟩

/-- C23 (inverse), what the code as written does, for every length, list and permutation: it
terminates, it leaves `0, …, n-1` in the index list, and an object that is to stay where it is stays.
From each non-trivial cycle only the object of the least position arrives (at its right place); every
other place of the cycle receives, instead of an object, its own index converted to an object.

Missing for the full property: `result[p i] = objects[i]` for the other positions of the cycle, which
is false; see `C23_inverse_counterexample`. -/
theorem C23_inverse_partial {n : Nat} {α : Type} (ofIdx objects : Fin n → α)
    (p : Equiv.Perm (Fin n)) :
    ∃ s, applyInversePermutation ofIdx objects p = some s ∧
      (∀ i, s.indices i = i) ∧
      (∀ i, p i = i → s.objects i = objects i) ∧
      (∀ i, p i ≠ i → (∀ j, p.SameCycle i j → i ≤ j) → s.objects (p i) = objects i) ∧
      (∀ i, p i ≠ i → ¬ (∀ j, p.SameCycle i j → i ≤ j) → s.objects (p i) = ofIdx (p i)) := by
  obtain ⟨s, h1, h2, h3⟩ := applyInverse_spec ofIdx objects p
  exact ⟨s, h1, h2, fun i h => (h3 i).fixed h, fun i h hl => (h3 (p i)).least i rfl h hl,
    fun i h hl => (h3 (p i)).other i rfl h hl⟩

example : ∃ p : Equiv.Perm (Fin 2), p 0 ≠ 0 ∧ ∀ j, p.SameCycle 0 j → 0 ≤ j :=
  ⟨Equiv.swap 0 1, by decide, fun _ _ => Fin.zero_le _⟩

/-- C23 (inverse) is false of the code: exchanging the two objects 10 and 20 yields 0 and 10. -/
theorem C23_inverse_counterexample :
    ∃ (objects : Fin 2 → Nat) (p : Equiv.Perm (Fin 2)) (s : IState 2 Nat),
      applyInversePermutation (fun i => i.val) objects p = some s ∧
      ¬ (∀ i, s.objects (p i) = objects i) := by
  obtain ⟨s, h1, -, -, -, h5⟩ := C23_inverse_partial (fun i : Fin 2 => i.val) (fun i => if i = 0 then 10 else 20)
    (Equiv.swap 0 1)
  refine ⟨_, _, s, h1, fun h => ?_⟩
  have hs := h5 1 (by decide) (fun hc => absurd (hc 0 ⟨1, by simp⟩) (by decide))
  have := h 1
  rw [hs] at this
  simp at this

end Brille.Props
