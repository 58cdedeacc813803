/-
C89: the irreducible zone that is found with the planes chosen from the special points.
-/
import Verif.Model.WedgeWhole
import Verif.Props.Wedge
import Verif.Props.Faces

namespace Brille.Props

open Brille.Spec Brille.Tetra Brille.Faces Brille.IrCheck Brille.Wedge Brille.WedgeWhole

/-! ### the special points -/

/-- The special points are the means of the corners of the faces, the corners and the middles of the edges. -/
theorem C89_special (P : Poly) (pts : List Pt) (h : special P = some pts) (x : Pt) :
    x ∈ pts ↔ (∃ face ∈ P.2, x = fun d => (face.map fun i => P.1.getD i 0 d).sum / face.length) ∨ x ∈ P.1 ∨
      ∃ face ∈ P.2, ∃ i < face.length,
        x = fun d => (P.1.getD (face.getD i 0) 0 d + P.1.getD (face.getD ((i + 1) % face.length) 0) 0 d) / 2 := by
  unfold special halfEdges at h
  rw [Option.map_map] at h
  obtain ⟨es, he, rfl⟩ := Option.map_eq_some_iff.mp h
  obtain ⟨_, h2, h3, _⟩ := C51_edges P.2 es he
  simp only [Function.comp_apply, List.mem_append, List.mem_map, or_assoc]
  refine or_congr ⟨fun ⟨f, hf, e⟩ => ⟨f, hf, e.symm⟩, fun ⟨f, hf, e⟩ => ⟨f, hf, e.symm⟩⟩ (or_congr Iff.rfl ⟨?_, ?_⟩)
  · rintro ⟨e, hm, rfl⟩
    obtain ⟨face, hf, h⟩ := h2 e hm
    rw [← faceEdges_eq] at h
    obtain ⟨i, hi, rfl⟩ := List.mem_map.mp h
    have hi := List.mem_range.mp hi
    exact ⟨face, hf, i, hi, rfl⟩
  · rintro ⟨face, hf, i, hi, rfl⟩
    rcases h3 face hf (face.getD i 0, face.getD ((i + 1) % face.length) 0) (by
        rw [← faceEdges_eq]; exact List.mem_map.mpr ⟨i, List.mem_range.mpr hi, rfl⟩) with h | h
    · exact ⟨_, h, rfl⟩
    · exact ⟨_, h, by funext d; rw [add_comm]⟩

/-! ### the zone -/

/-- If the construction with the planes it has chosen itself succeeds, for a lattice that is not triclinic, then it has found an irreducible
Brillouin zone, and normals that describe it, however `std::sort` arranges what compares equal; without inversion provided that the convex hulls
which are taken and accepted are convex hulls. -/
theorem C89_zone (sorts : Sorts) (S : Setup) (h : Circumstances S)
    (hother : (∃ r ∈ operations S.timeReversal S.R, Matrix.of r = -1) →
      ∃ r ∈ operations S.timeReversal S.R, Matrix.of r ≠ 1 ∧ Matrix.of r ≠ -1)
    (hH : hasInversion S = true ∨ ∀ choices, HullsRight S choices) (st : Wedge.St)
    (hc : WedgeWhole.construct sorts S = some st) : Irreducible S st := by
  unfold WedgeWhole.construct at hc
  split at hc
  · simp at hc
  · rcases hH with hH | hH
    · exact C71_search_inversion S h hH hother _ _ st hc
    · exact C71_search S h hother _ _ (hH _) st hc

/-! ### examples -/

/-- the lists are in order already -/
def unchanged : Sorts := ⟨fun _ l => l, fun _ l => l⟩

set_option maxRecDepth 100000 in
/-- the cube has 26 special points, and for the group mm2 the two-fold rotation and both mirrors give a plane -/
example : (special (cubeSetup groupMm2 fun _ => none).first).map List.length = some 26 ∧
    (special (cubeSetup groupMm2 fun _ => none).first).map
      (fun pts => chosen unchanged (cubeSetup groupMm2 fun _ => none) pts (true, true, true, true)) =
      some [![1, 0, 0], ![1 / 2, 0, 0], ![0, 1 / 2, 0]] := by decide +kernel

set_option maxRecDepth 100000 in
/-- the zone is found for the group mm2 -/
example : ∃ st, WedgeWhole.construct unchanged (cubeSetup groupMm2 fun _ => none) = some st ∧
    Irreducible (cubeSetup groupMm2 fun _ => none) st := by
  have hs : (WedgeWhole.construct unchanged (cubeSetup groupMm2 fun _ => none)).isSome = true := by decide +kernel
  obtain ⟨st, e⟩ := Option.isSome_iff_exists.mp hs
  refine ⟨st, e, C89_zone _ _ (cube_circumstances _ groupMm2_group mm2_diagonal _) ?_
    (Or.inr fun _ => by intro _ P _ _ _ r _ c hc; simp [cubeSetup] at hc) _ e⟩
  intro _
  exact ⟨diagonalOp (-1) (-1) 1, by decide +kernel, by decide +kernel, by decide +kernel⟩

set_option maxRecDepth 100000 in
/-- the zone is found for the group mmm -/
example : ∃ st, WedgeWhole.construct unchanged (cubeSetup groupMmm fun _ => none) = some st ∧
    Irreducible (cubeSetup groupMmm fun _ => none) st := by
  have hs : (WedgeWhole.construct unchanged (cubeSetup groupMmm fun _ => none)).isSome = true := by decide +kernel
  obtain ⟨st, e⟩ := Option.isSome_iff_exists.mp hs
  refine ⟨st, e, C89_zone _ _ (cube_circumstances _ groupMmm_group mmm_diagonal _) ?_ (Or.inl (by decide +kernel)) _ e⟩
  intro _
  exact ⟨diagonalOp (-1) (-1) 1, by decide +kernel, by decide +kernel, by decide +kernel⟩

end Brille.Props
