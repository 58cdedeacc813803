/-
C10, C11, C12: sets of symmetry operations generated from a list, lists of generators, and look-up in a list.
-/
import Verif.Proofs.SymmetryGroups
import Verif.Proofs.SymmetryOps
import Verif.Proofs.SymmetryPermute
import Verif.Props.RotationOrder

namespace Brille.Props

open Brille.Sym Brille.Mot Brille.Spec

/-- The two motions act alike on the crystal: equal rotation part, translations equal up to lattice vectors. -/
def SameMotion (a b : Motion) : Prop := a.W = b.W ∧ SameModLattice b.w a.w

theorem sameMotion_iff (a b : Motion) : SameMotion a b ↔ red a = red b := (red_eq_iff a b).symm

theorem mem_red {M : List Motion} {y : Motion} : red y ∈ M.map red ↔ ∃ m ∈ M, SameMotion m y := by
  rw [List.mem_map]
  constructor
  · rintro ⟨m, hm, h⟩; exact ⟨m, hm, (sameMotion_iff _ _).mpr h⟩
  · rintro ⟨m, hm, h⟩; exact ⟨m, hm, (sameMotion_iff _ _).mp h⟩

theorem mem_mat {M : List (Fin 3 → Fin 3 → ℤ)} {y : Fin 3 → Fin 3 → ℤ} : mat y ∈ M.map mat ↔ y ∈ M := by
  rw [List.mem_map]
  constructor
  · rintro ⟨m, hm, h⟩; rw [← mat_inj.mp h]; exact hm
  · intro h; exact ⟨y, h, rfl⟩

/-- For motions of finite order up to 56 the bound on the number of powers is no restriction. -/
theorem motion_order_enough {n : ℕ} (hn : 0 < n) (hn' : n ≤ 10 ^ 14) {g : Motion} (hg : OnGrid n g) {k : ℕ}
    (hk : 0 < k) (hk' : k ≤ 56) (h : red g ^ k = 1) :
    ∃ r, 0 < r ∧ red g ^ r = 1 ∧ r ≤ tri (motionOps.order g) + 1 := by
  rcases (motion_order_spec hn hn' hg).1 with h1 | h1
  · exact ⟨motionOps.order g, motion_order_pos g, h1, (le_tri _).trans (by omega)⟩
  · refine ⟨k, hk, h, ?_⟩
    rw [h1]
    exact hk'

/-- For integer matrices of finite order it never is. -/
theorem point_order_enough {R : Fin 3 → Fin 3 → ℤ} {k : ℕ} (hk : 0 < k) (h : mat R ^ k = 1) :
    0 < rotationOrder R ∧ ∃ r, 0 < r ∧ mat R ^ r = 1 ∧ r ≤ tri (rotationOrder R) + 1 := by
  obtain ⟨hdet, hord, hval, _⟩ := C14_rotation_order R k hk h
  refine ⟨hord.1, 2 * rotationOrder R, by have := hord.1; omega, ?_, ?_⟩
  · have h2 := hord.2.1
    rw [pow_mul']
    rcases hdet with hd | hd
    · rw [hd, one_smul] at h2
      show (mat R ^ rotationOrder R) ^ 2 = 1
      rw [show mat R = Matrix.of R from rfl, h2, one_pow]
    · rw [hd, neg_one_smul] at h2
      have : ((-Matrix.of R) ^ rotationOrder R) ^ 2 = (Matrix.of R ^ rotationOrder R) ^ 2 := by
        rw [← pow_mul, mul_comm, pow_mul, neg_sq, ← pow_mul, mul_comm, pow_mul]
      rw [show mat R = Matrix.of R from rfl, ← this, h2, one_pow]
  · have : ∀ r, 2 * r ≤ tri r + 1 := by
      intro r
      induction r with
      | zero => simp [tri]
      | succ r ih =>
        rw [tri]
        rcases r with _ | r
        · simp [tri]
        · omega
    exact this _

/-! ### C10: `generate` -/

/-- **C10, partial, space-group operations.**  For every list of generators with translations on a common grid,
the result contains the identity and all generators, no operation twice, and only products of generators; and it
contains *every* product of generators as soon as it is closed under multiplication by generators from the
right.  What is missing: that it is always so closed; see `C10_generate_counterexample` and
`C10_motions_step_partial`. -/
theorem C10_motions_partial {n : ℕ} (hn : 0 < n) (hn' : n ≤ 10 ^ 14) (gens : List Motion)
    (hS : ∀ g ∈ gens, OnGrid n g) :
    let G := generate motionOps gens
    (∃ m ∈ G, SameMotion m one) ∧ (∀ g ∈ gens, ∃ m ∈ G, SameMotion m g) ∧
    G.Pairwise (fun a b => ¬ SameMotion a b) ∧
    (∀ m ∈ G, ∃ l : List Motion, (∀ x ∈ l, x ∈ gens) ∧ SameMotion m (l.foldr Mot.mul one)) ∧
    ((∀ m ∈ G, ∀ g ∈ gens, ∃ c ∈ G, SameMotion c (Mot.mul m g)) →
      ∀ l : List Motion, (∀ x ∈ l, x ∈ gens) → ∃ m ∈ G, SameMotion m (l.foldr Mot.mul one)) := by
  have hr := reads_motion hn hn'
  intro G
  refine ⟨?_, ?_, ?_, ?_, ?_⟩
  · rw [← mem_red, red_one]; exact generate_one hr gens hS
  · intro g hg
    rw [← mem_red]; exact generate_gen hr hS hg (motion_order_pos g)
  · have := (generate_distinct hr hS).2
    rw [List.nodup_iff_pairwise_ne, List.pairwise_map] at this
    exact this.imp fun h hs => h ((sameMotion_iff _ _).mp hs)
  · intro m hm
    obtain ⟨l, h1, h2⟩ := generate_products hr hS (List.mem_map_of_mem (f := red) hm)
    exact ⟨l, h1, (sameMotion_iff _ _).mpr h2⟩
  · intro h l hl
    rw [← mem_red]
    refine generate_complete hr hS ?_ hl
    intro a ha g hg
    obtain ⟨m, hm, rfl⟩ := List.mem_map.mp ha
    rw [← red_mul, mem_red]
    exact h m hm g hg

/-- **C10, partial, space-group operations, one generator more.**  Every power of the new generator times
everything generated before is there; and if the set generated before was a group, the new one is one exactly if
it contains, for every `h` generated before, the product `h g` with the new generator `g`. -/
theorem C10_motions_step_partial {n : ℕ} (hn : 0 < n) (hn' : n ≤ 10 ^ 14) (gens : List Motion) (g : Motion)
    (hS : ∀ x ∈ gens, OnGrid n x) (hg : OnGrid n g) {k : ℕ} (hk : 0 < k) (hk' : k ≤ 56)
    (hpow : SameMotion ((Mot.mul g)^[k] one) one) :
    let G := generate motionOps gens
    let G' := generate motionOps (gens ++ [g])
    (∀ y, (∃ m ∈ G', SameMotion m y) ↔ ∃ j, ∃ h ∈ G, SameMotion ((Mot.mul g)^[j] h) y) ∧
    ((∀ a ∈ G, ∀ b ∈ G, ∃ c ∈ G, SameMotion c (Mot.mul a b)) →
      ((∀ a ∈ G', ∀ b ∈ G', ∃ c ∈ G', SameMotion c (Mot.mul a b)) ↔
        ∀ h ∈ G, ∃ c ∈ G', SameMotion c (Mot.mul h g))) := by
  have hr := reads_motion hn hn'
  have hiter : ∀ (j : ℕ) (h : Motion), red ((Mot.mul g)^[j] h) = red g ^ j * red h := by
    intro j h
    induction j with
    | zero => simp
    | succ j ih => rw [Function.iterate_succ_apply', red_mul, ih, ← mul_assoc, ← pow_succ']
  rw [sameMotion_iff, hiter, red_one, mul_one] at hpow
  obtain ⟨r, hr0, hr1, hr2⟩ := motion_order_enough hn hn' hg hk hk' hpow
  have hclosed : ∀ M : List Motion, ClosedSet red M ↔ ∀ a ∈ M, ∀ b ∈ M, ∃ c ∈ M, SameMotion c (Mot.mul a b) := by
    intro M
    constructor
    · intro h a ha b hb
      rw [← mem_red, red_mul]
      exact h _ (List.mem_map_of_mem ha) _ (List.mem_map_of_mem hb)
    · intro h a ha b hb
      obtain ⟨x, hx, rfl⟩ := List.mem_map.mp ha
      obtain ⟨y, hy, rfl⟩ := List.mem_map.mp hb
      rw [← red_mul, mem_red]
      exact h x hx y hy
  intro G G'
  refine ⟨?_, ?_⟩
  · intro y
    rw [← mem_red, generate_snoc hr hS hg]
    constructor
    · rintro ⟨j, _, h, hh, he⟩
      obtain ⟨m, hm, rfl⟩ := List.mem_map.mp hh
      exact ⟨j, m, hm, (sameMotion_iff _ _).mpr (by rw [hiter, he])⟩
    · rintro ⟨j, h, hh, he⟩
      rw [sameMotion_iff, hiter] at he
      refine ⟨j % r, ?_, red h, List.mem_map_of_mem hh, ?_⟩
      · have := Nat.mod_lt j hr0
        omega
      · rw [← he]
        congr 1
        conv_lhs => rw [← Nat.div_add_mod j r]
        rw [pow_add, pow_mul, hr1, one_pow, one_mul]
  · intro hc
    rw [← hclosed, closed_step hr hS hg ((hclosed _).mpr hc) hr0 hr1 hr2 (motion_order_pos g)]
    constructor
    · intro h x hx
      rw [← mem_red, red_mul]
      exact h _ (List.mem_map_of_mem hx)
    · intro h x hx
      obtain ⟨m, hm, rfl⟩ := List.mem_map.mp hx
      rw [← red_mul, mem_red]
      exact h m hm

/-- **C10, partial, point-group operations**: as for the space group, with equality of matrices; the generators
have to be of finite order, as symmetry operations are. -/
theorem C10_points_partial (gens : List (Fin 3 → Fin 3 → ℤ))
    (hfin : ∀ g ∈ gens, ∃ k, 0 < k ∧ (Matrix.of g) ^ k = 1) :
    let G := generate pointOps gens
    idMat ∈ G ∧ (∀ g ∈ gens, g ∈ G) ∧ G.Nodup ∧
    (∀ m ∈ G, ∃ l : List (Fin 3 → Fin 3 → ℤ), (∀ x ∈ l, x ∈ gens) ∧ m = l.foldr Mat.mulArrays idMat) ∧
    ((∀ m ∈ G, ∀ g ∈ gens, Mat.mulArrays m g ∈ G) →
      ∀ l : List (Fin 3 → Fin 3 → ℤ), (∀ x ∈ l, x ∈ gens) → l.foldr Mat.mulArrays idMat ∈ G) := by
  have hS : ∀ g ∈ gens, (fun _ => True) g := fun _ _ => trivial
  have hr := reads_point
  intro G
  refine ⟨?_, ?_, ?_, ?_, ?_⟩
  · rw [← mem_mat, mat_one]; exact generate_one hr gens hS
  · intro g hg
    obtain ⟨k, hk, h⟩ := hfin g hg
    rw [← mem_mat]; exact generate_gen hr hS hg (point_order_enough hk h).1
  · exact List.Nodup.of_map _ (generate_distinct hr hS).2
  · intro m hm
    obtain ⟨l, h1, h2⟩ := generate_products hr hS (List.mem_map_of_mem (f := mat) hm)
    exact ⟨l, h1, mat_inj.mp h2⟩
  · intro h l hl
    rw [← mem_mat]
    refine generate_complete hr hS ?_ hl
    intro a ha g hg
    obtain ⟨m, hm, rfl⟩ := List.mem_map.mp ha
    rw [← mat_mul, mem_mat]
    exact h m hm g hg

/-- **C10, partial.**  Generators of finite order that commute always give a group: the set of all their
products. -/
theorem C10_commuting_partial (gens : List (Fin 3 → Fin 3 → ℤ))
    (hfin : ∀ g ∈ gens, ∃ k, 0 < k ∧ (Matrix.of g) ^ k = 1)
    (hcomm : ∀ a ∈ gens, ∀ b ∈ gens, Mat.mulArrays a b = Mat.mulArrays b a) (y : Fin 3 → Fin 3 → ℤ) :
    y ∈ generate pointOps gens ↔
      ∃ l : List (Fin 3 → Fin 3 → ℤ), (∀ x ∈ l, x ∈ gens) ∧ y = l.foldr Mat.mulArrays idMat := by
  obtain ⟨_, h2, _, h4, h5⟩ := C10_points_partial gens hfin
  refine ⟨h4 y, ?_⟩
  rintro ⟨l, hl, rfl⟩
  refine h5 ?_ l hl
  intro m hm g hg
  have := closed_commuting (o := pointOps) reads_point (gens := gens) (fun _ _ => trivial)
    (fun a ha b hb => by rw [← mat_mul, ← mat_mul, hcomm a ha b hb])
    (fun a ha => by
      obtain ⟨k, hk, h⟩ := hfin a ha
      exact (point_order_enough hk h).2)
  rw [← mem_mat, mat_mul]
  exact this _ (List.mem_map_of_mem hm) _ (List.mem_map_of_mem (h2 g hg))

/-- the same operations, compared directly; easier to compute with -/
def plainOps : Ops (Fin 3 → Fin 3 → ℤ) where
  mul := Mat.mulArrays
  e := idMat
  beq := fun a b => decide (a = b)
  order := rotationOrder

theorem pointOps_plain : pointOps = plainOps := by
  unfold pointOps plainOps
  congr 1
  funext a b
  rw [Bool.eq_iff_iff, matBeq_iff, decide_eq_true_eq]

/-- exchange of the first two coordinates -/
def swapXY : Fin 3 → Fin 3 → ℤ := ![![0, 1, 0], ![1, 0, 0], ![0, 0, 1]]

/-- exchange of the last two coordinates -/
def swapYZ : Fin 3 → Fin 3 → ℤ := ![![1, 0, 0], ![0, 0, 1], ![0, 1, 0]]

/-- **C10 is false in general**: from the two exchanges `y,x,z` and `x,z,y`, which generate the six permutations
of the coordinates, only four operations are made; the product of the two in one of the two orders is
missing. -/
theorem C10_generate_counterexample :
    (generate pointOps [swapXY, swapYZ]).length = 4 ∧ swapXY ∈ generate pointOps [swapXY, swapYZ] ∧
    swapYZ ∈ generate pointOps [swapXY, swapYZ] ∧
    Mat.mulArrays swapXY swapYZ ∉ generate pointOps [swapXY, swapYZ] := by
  rw [pointOps_plain]
  decide +kernel

/-- the hypotheses of the theorems hold, and a group of order four results, with two rotations by a half -/
example : (∀ g ∈ [(![![-1, 0, 0], ![0, -1, 0], ![0, 0, 1]] : Fin 3 → Fin 3 → ℤ), ![![1, 0, 0], ![0, -1, 0], ![0, 0, -1]]],
    ∃ k, 0 < k ∧ (Matrix.of g) ^ k = 1) ∧
    (generate pointOps [(![![-1, 0, 0], ![0, -1, 0], ![0, 0, 1]] : Fin 3 → Fin 3 → ℤ),
      ![![1, 0, 0], ![0, -1, 0], ![0, 0, -1]]]).length = 4 := by
  rw [pointOps_plain]
  refine ⟨?_, by decide +kernel⟩
  intro g hg
  refine ⟨2, by norm_num, ?_⟩
  rcases List.mem_cons.mp hg with rfl | hg
  · decide +kernel
  · rw [List.mem_singleton.mp hg]; decide +kernel

/-- a screw axis: hypotheses of the theorems on motions -/
example : OnGrid 2 ⟨![![-1, 0, 0], ![0, -1, 0], ![0, 0, 1]], ![0, 0, 1 / 2]⟩ ∧
    SameMotion ((Mot.mul ⟨![![-1, 0, 0], ![0, -1, 0], ![0, 0, 1]], ![0, 0, 1 / 2]⟩)^[2] one) one := by
  constructor
  · intro i
    fin_cases i
    · exact ⟨0, by simp⟩
    · exact ⟨0, by simp⟩
    · exact ⟨1, by simp⟩
  · refine ⟨by decide +kernel, ?_⟩
    intro i
    exact ⟨0, by fin_cases i <;> decide +kernel⟩

/-! ### C11: `generators` -/

/-- **C11, partial.**  For every list of operations of finite order, what is returned are operations of the
list; and if everything that is generated from operations of the list is closed under multiplication, all
operations of the list are generated from those returned.  What is missing: that assumption, which fails for
some lists (`C11_generators_counterexample`). -/
theorem C11_points_partial (M : List (Fin 3 → Fin 3 → ℤ)) (hfin : ∀ g ∈ M, ∃ k, 0 < k ∧ (Matrix.of g) ^ k = 1) :
    (∀ x ∈ generators pointOps M, x ∈ M) ∧
    ((∀ l : List (Fin 3 → Fin 3 → ℤ), (∀ x ∈ l, x ∈ M) → ∀ a ∈ generate pointOps l, ∀ b ∈ generate pointOps l,
        Mat.mulArrays a b ∈ generate pointOps l) →
      ∀ m ∈ M, m ∈ generate pointOps (generators pointOps M)) := by
  obtain ⟨h1, h2⟩ := generators_spec (o := pointOps) reads_point (M := M)
    (fun a ha => by
      obtain ⟨k, hk, h⟩ := hfin a ha
      exact (point_order_enough hk h).1) (fun _ _ => trivial)
  refine ⟨h1, fun h m hm => ?_⟩
  rw [← mem_mat]
  refine h2 ?_ m hm
  intro l hl a ha b hb
  obtain ⟨x, hx, rfl⟩ := List.mem_map.mp ha
  obtain ⟨y, hy, rfl⟩ := List.mem_map.mp hb
  rw [← mat_mul, mem_mat]
  exact h l hl x hx y hy

/-- **C11, partial.**  In particular nothing is lost if the operations of the list commute. -/
theorem C11_commuting_partial (M : List (Fin 3 → Fin 3 → ℤ))
    (hfin : ∀ g ∈ M, ∃ k, 0 < k ∧ (Matrix.of g) ^ k = 1)
    (hcomm : ∀ a ∈ M, ∀ b ∈ M, Mat.mulArrays a b = Mat.mulArrays b a) :
    ∀ m ∈ M, m ∈ generate pointOps (generators pointOps M) := by
  refine (C11_points_partial M hfin).2 ?_
  intro l hl a ha b hb
  have := closed_commuting (o := pointOps) reads_point (gens := l) (fun _ _ => trivial)
    (fun a ha b hb => by rw [← mat_mul, ← mat_mul, hcomm a (hl a ha) b (hl b hb)])
    (fun a ha => by
      obtain ⟨k, hk, h⟩ := hfin a (hl a ha)
      exact (point_order_enough hk h).2)
  rw [← mem_mat, mat_mul]
  exact this _ (List.mem_map_of_mem ha) _ (List.mem_map_of_mem hb)

/-- **C11, partial, space-group operations.** -/
theorem C11_motions_partial {n : ℕ} (hn : 0 < n) (hn' : n ≤ 10 ^ 14) (M : List Motion) (hM : ∀ m ∈ M, OnGrid n m) :
    (∀ x ∈ generators motionOps M, x ∈ M) ∧
    ((∀ l : List Motion, (∀ x ∈ l, x ∈ M) → ∀ a ∈ generate motionOps l, ∀ b ∈ generate motionOps l,
        ∃ c ∈ generate motionOps l, SameMotion c (Mot.mul a b)) →
      ∀ m ∈ M, ∃ c ∈ generate motionOps (generators motionOps M), SameMotion c m) := by
  obtain ⟨h1, h2⟩ := generators_spec (reads_motion hn hn') (M := M) (fun a _ => motion_order_pos a) hM
  refine ⟨h1, fun h m hm => ?_⟩
  rw [← mem_red]
  refine h2 ?_ m hm
  intro l hl a ha b hb
  obtain ⟨x, hx, rfl⟩ := List.mem_map.mp ha
  obtain ⟨y, hy, rfl⟩ := List.mem_map.mp hb
  rw [← red_mul, mem_red]
  exact h l hl x hx y hy

/-- The rotations of the tetrahedron, in one of their orders. -/
def tetrahedral : List (Fin 3 → Fin 3 → ℤ) :=
  [![![0, 1, 0], ![0, 0, 1], ![1, 0, 0]], ![![0, 0, -1], ![1, 0, 0], ![0, -1, 0]],
   ![![0, 0, -1], ![-1, 0, 0], ![0, 1, 0]], ![![0, 0, 1], ![-1, 0, 0], ![0, -1, 0]],
   ![![-1, 0, 0], ![0, -1, 0], ![0, 0, 1]], ![![0, -1, 0], ![0, 0, -1], ![1, 0, 0]],
   ![![-1, 0, 0], ![0, 1, 0], ![0, 0, -1]], ![![0, -1, 0], ![0, 0, 1], ![-1, 0, 0]],
   ![![0, 0, 1], ![1, 0, 0], ![0, 1, 0]], ![![0, 1, 0], ![0, 0, -1], ![-1, 0, 0]],
   ![![1, 0, 0], ![0, -1, 0], ![0, 0, -1]], ![![1, 0, 0], ![0, 1, 0], ![0, 0, 1]]]

/-- **C11 is false in general**: the twelve rotations of the tetrahedron are a group, but from the generators
found for them, given in this order, only nine operations are generated. -/
theorem C11_generators_counterexample :
    tetrahedral.length = 12 ∧ tetrahedral.Nodup ∧
    (∀ a ∈ tetrahedral, ∀ b ∈ tetrahedral, Mat.mulArrays a b ∈ tetrahedral) ∧
    (generate pointOps (generators pointOps tetrahedral)).length = 9 := by
  rw [pointOps_plain]
  decide +kernel

end Brille.Props
