import Verif.Proofs.Snap
import Verif.Props.Lattice
import Verif.Props.Hall

/-! C66: adjusting a lattice to its symmetry. -/
namespace Brille.Props
open Brille.Lat Brille.Spec Brille.Snap Brille.Mot
open Brille.Sym hiding M3
open Brille.Rot (LengthUnit)
open Brille.Prim (IMat)

/-! ### centring -/

instance (p q : Fin 3 → ℚ) : Decidable (SameModLattice p q) :=
  decidable_of_iff (∀ i, (p i - q i).den = 1) (by
    unfold SameModLattice
    refine forall_congr' fun i => ⟨fun h => ⟨(p i - q i).num, ?_⟩, ?_⟩
    · conv_lhs => rw [← Rat.num_div_den (p i - q i), h]
      simp
    · rintro ⟨z, hz⟩
      rw [hz]; rfl)

/-- the centring of a Hall symbol in the other enumeration -/
def hallLetter : Spg.Bravais → Prim.Bravais
  | .P => .P | .A => .A | .B => .B | .C => .C | .I => .I | .F => .F | .R => .R | .none => .invalid

theorem getcentring_of {gs : List Motion} (hg : ∀ g ∈ gs, OnGrid 12 g) {L : Spg.Bravais} {ts : List (Fin 3 → ℚ)}
    (hts : Hall.centrings L = some ts)
    (h1 : ∀ m ∈ generate motionOps gs, m.W = idMat → ∃ t ∈ ts, SameModLattice t m.w)
    (h2 : ∀ t ∈ ts, ∃ m ∈ generate motionOps gs, m.W = idMat ∧ SameModLattice t m.w) :
    getcentring (generate motionOps gs) = hallLetter L := by
  have hr := reads_motion (n := 12) (by norm_num) (by norm_num)
  have hd := generate_distinct hr hg
  have key : ∀ w : Fin 3 → ℚ, (∀ i, ∃ z : ℤ, w i = z / (12 : ℕ)) →
      has motionOps (generate motionOps gs) ⟨idMat, w⟩ = decide (∃ t ∈ ts, SameModLattice t w) := by
    intro w hw
    rw [Bool.eq_iff_iff, decide_eq_true_eq, has_iff hr hd.1 (show OnGrid 12 ⟨idMat, w⟩ from hw), List.mem_map]
    constructor
    · rintro ⟨m, hm, he⟩
      obtain ⟨e1, e2⟩ := (red_eq_iff _ _).mp he
      obtain ⟨t, ht, hs⟩ := h1 m hm e1
      refine ⟨t, ht, fun i => ?_⟩
      obtain ⟨a, ha⟩ := hs i
      obtain ⟨b, hb⟩ := e2 i
      exact ⟨a - b, by push_cast; simp only at hb; linarith⟩
    · rintro ⟨t, ht, hs⟩
      obtain ⟨m, hm, e1, e2⟩ := h2 t ht
      refine ⟨m, hm, (red_eq_iff _ _).mpr ⟨e1, fun i => ?_⟩⟩
      obtain ⟨a, ha⟩ := hs i
      obtain ⟨b, hb⟩ := e2 i
      exact ⟨b - a, by push_cast; linarith⟩
  have g : ∀ a b c : ℤ, ∀ i, ∃ z : ℤ, (![a / 12, b / 12, c / 12] : Fin 3 → ℚ) i = z / (12 : ℕ) := by
    intro a b c i
    fin_cases i
    · exact ⟨a, rfl⟩
    · exact ⟨b, rfl⟩
    · exact ⟨c, rfl⟩
  have gA : ∀ i, ∃ z : ℤ, (![0, 1 / 2, 1 / 2] : Fin 3 → ℚ) i = z / (12 : ℕ) := by
    have := g 0 6 6; norm_num at this ⊢; exact this
  have gB : ∀ i, ∃ z : ℤ, (![1 / 2, 0, 1 / 2] : Fin 3 → ℚ) i = z / (12 : ℕ) := by
    have := g 6 0 6; norm_num at this ⊢; exact this
  have gC : ∀ i, ∃ z : ℤ, (![1 / 2, 1 / 2, 0] : Fin 3 → ℚ) i = z / (12 : ℕ) := by
    have := g 6 6 0; norm_num at this ⊢; exact this
  have gI : ∀ i, ∃ z : ℤ, (![1 / 2, 1 / 2, 1 / 2] : Fin 3 → ℚ) i = z / (12 : ℕ) := by
    have := g 6 6 6; norm_num at this ⊢; exact this
  have gR : ∀ i, ∃ z : ℤ, (![1 / 3, 2 / 3, 2 / 3] : Fin 3 → ℚ) i = z / (12 : ℕ) := by
    have := g 4 8 8; norm_num at this ⊢; exact this
  have gS : ∀ i, ∃ z : ℤ, (![2 / 3, 1 / 3, 1 / 3] : Fin 3 → ℚ) i = z / (12 : ℕ) := by
    have := g 8 4 4; norm_num at this ⊢; exact this
  unfold getcentring
  simp only [key _ gA, key _ gB, key _ gC, key _ gI, key _ gR, key _ gS]
  cases L <;> simp only [Hall.centrings, Option.some.injEq, reduceCtorEq] at hts <;> subst hts <;> decide +kernel

/-! ### lattices with the symmetry -/

theorem inv_of_symmetry {A : M3} {S : List IMat} (h : HasSymmetry A S) : Inv S (fun i j => columnDot A A i j) := by
  intro R hR i j
  -- the quadratic form
  have q : ∀ x : V3, scalarProduct (position A x) (position A x) = ∑ k, ∑ l, x k * columnDot A A k l * x l := by
    intro x
    simp only [Fin.sum_univ_three, scalarProduct, position, columnDot]
    ring
  have hx : ∀ x : V3, ∑ k, ∑ l, (∑ a, (R k a : ℝ) * x a) * columnDot A A k l * (∑ b, (R l b : ℝ) * x b) =
      ∑ k, ∑ l, x k * columnDot A A k l * x l := by
    intro x
    have := h R hR x
    simp only [q] at this
    simpa only [Fin.sum_univ_three] using this
  have sym : ∀ k l, columnDot A A k l = columnDot A A l k := by intro k l; unfold columnDot; ring
  have h1 := hx (Pi.single i 1)
  have h2 := hx (Pi.single j 1)
  have h3 := hx (Pi.single i 1 + Pi.single j 1)
  have s1 : ∀ k i, ∑ a, (R k a : ℝ) * (Pi.single i (1 : ℝ) : V3) a = R k i := by
    intro k i; simp [Pi.single_apply]
  have s2 : ∀ k, ∑ a, (R k a : ℝ) * (Pi.single i (1 : ℝ) + Pi.single j (1 : ℝ) : V3) a = R k i + R k j := by
    intro k; simp [Pi.single_apply, mul_add, Finset.sum_add_distrib]
  have d1 : ∀ i : Fin 3, ∑ k, ∑ l, (Pi.single i (1 : ℝ) : V3) k * columnDot A A k l * (Pi.single i (1 : ℝ) : V3) l
      = columnDot A A i i := by
    intro i; simp [Pi.single_apply]
  have d2 : ∑ k, ∑ l, (Pi.single i (1 : ℝ) + Pi.single j (1 : ℝ) : V3) k * columnDot A A k l *
      (Pi.single i (1 : ℝ) + Pi.single j (1 : ℝ) : V3) l
      = columnDot A A i i + columnDot A A j j + 2 * columnDot A A i j := by
    simp only [Pi.add_apply, Pi.single_apply, add_mul, mul_add, Finset.sum_add_distrib]
    simp
    rw [sym j i]; ring
  simp only [s1, d1] at h1 h2
  simp only [s2, d2] at h3
  rw [← h1, ← h2] at h3
  simp only [Fin.sum_univ_three] at h3 ⊢
  simp only [sym 1 0, sym 2 0, sym 2 1] at h3 ⊢
  linear_combination h3 / 2

/-- **C66 (table).**  what the 530 settings have in common -/
theorem tabulated (j : Nat) (h1 : 1 ≤ j) (h2 : j ≤ 530) :
    ∃ G u L, Hall.spacegroupSymmetry (Spg.row j) = some G ∧ PG.uniqueRotations (G.map Motion.W) false = some u ∧
      letterOf (Spg.row j).hallSymbol = some L ∧ getcentring G = hallLetter L ∧
      certS u (decide (getcentring G = .P)) (decide (getcentring G = .R)) true = true ∧
      certS (u.map Mat.transpose) (decide (getcentring G = .P)) (decide (getcentring G = .R)) false = true := by
  obtain ⟨h, ts, gs, hf⟩ := Hall.row_facts h1 h2
  obtain ⟨h', G', c', u', e1, e2, e3, -, -, -, -, ⟨e4, -, -⟩, e5, -⟩ := C44_database j h1 h2
  rw [hf.decoded] at e1
  cases Option.some.inj e1
  obtain ⟨u, hu1, -, hu3⟩ := hf.number
  have hc := getcentring_of hf.grid hf.centring hf.translations hf.translations'
  refine ⟨_, u, h.L, Hall.symmetry_eq hf, hu1, e4, hc, ?_⟩
  rw [hc]
  unfold Hall.certSnap at hu3
  dsimp only at hu3
  rw [Bool.and_eq_true] at hu3
  have hP : (decide (hallLetter h.L = .P)) = decide (h.L = .P) := by cases h.L <;> rfl
  have hR : (decide (hallLetter h.L = .R)) = decide (h.L = .R) := by cases h.L <;> rfl
  rw [hP, hR]
  exact hu3

/-- **C66 (centring).**  The centring found in the operations of each of the 530 tabulated settings is the one that the
first letter of the Hall symbol names. -/
theorem C66_centring (j : Nat) (h1 : 1 ≤ j) (h2 : j ≤ 530) :
    ∃ G L, Hall.spacegroupSymmetry (Spg.row j) = some G ∧ letterOf (Spg.row j).hallSymbol = some L ∧
      getcentring G = hallLetter L := by
  obtain ⟨G, u, L, a, b, c, d, -⟩ := tabulated j h1 h2
  exact ⟨G, L, a, c, d⟩

/-- both spaces keep their parameters -/
theorem snap_real {ops : List IMat} {cen : Prim.Bravais} {p : Params} (hv : Valid p)
    (hc : certS ops (decide (cen = .P)) (decide (cen = .R)) true = true) (h : Inv ops (gram p)) :
    snap cen ops true p = some p := by
  unfold snap
  rw [if_pos rfl, linkedReal_eq, linkedRecip_eq]
  exact snapWith_fixed hv h hc

theorem snap_recip {ops : List IMat} {cen : Prim.Bravais} {p : Params} (hv : Valid p)
    (hc : certS (ops.map Mat.transpose) (decide (cen = .P)) (decide (cen = .R)) false = true)
    (h : Inv (ops.map Mat.transpose) (gram p)) : snap cen ops false p = some p := by
  unfold snap
  rw [if_neg (by decide), linkedReal_eq, linkedRecip_eq]
  rw [← mainF_transpose ops]
  conv_lhs => arg 4; rw [← dualF_transpose ops]
  exact snapWith_fixed hv h hc

theorem inv_congr {S : List IMat} {M N : M3} (h : ∀ i j, M i j = N i j) (hM : Inv S M) : Inv S N := by
  have : M = N := by funext i j; exact h i j
  rwa [← this]

theorem gram_of_parameters {A : M3} {p : Params} {ang : V3} (hc : ∀ i, p.cos i = Real.cos (ang i))
    (h : HasParameters A p.len ang) (i j : Fin 3) : columnDot A A i j = gram p i j := by
  have l := h.lengths
  have a0 := h.angles 0
  have a1 := h.angles 1
  have a2 := h.angles 2
  rw [← hc] at a0 a1 a2
  have sym : ∀ i j, columnDot A A i j = columnDot A A j i := by intro i j; unfold columnDot; ring
  have a0 : columnDot A A 1 2 = p.len 1 * p.len 2 * p.cos 0 := a0
  have a1 : columnDot A A 2 0 = p.len 2 * p.len 0 * p.cos 1 := a1
  have a2 : columnDot A A 0 1 = p.len 0 * p.len 1 * p.cos 2 := a2
  fin_cases i <;> fin_cases j
  · exact l 0
  · exact a2
  · show columnDot A A 0 2 = p.len 0 * p.len 2 * p.cos 1
    rw [sym, a1]; ring
  · show columnDot A A 1 0 = p.len 0 * p.len 1 * p.cos 2
    rw [sym, a2]
  · exact l 1
  · exact a0
  · show columnDot A A 2 0 = p.len 0 * p.len 2 * p.cos 1
    rw [a1]; ring
  · show columnDot A A 2 1 = p.len 1 * p.len 2 * p.cos 0
    rw [sym, a0]
  · exact l 2

theorem columnDot_dual_inv {A B : M3} (h : DualBases A B) {S : List IMat} (hA : Inv S fun i j => columnDot A A i j) :
    Inv (S.map Mat.transpose) fun i j => columnDot B B i j := by
  have hpi := Real.pi_pos
  refine inv_dual hA (c := 4 * (Real.pi * Real.pi)) (by positivity) ?_
  have := dual_gram h
  have e : ∀ A : M3, (Matrix.of fun i j => columnDot A A i j) = (Matrix.of A).transpose * Matrix.of A := by
    intro A; ext i j; rw [← columnDot_eq]; rfl
  rw [e, e, this]

/-- **C66 (parameters).**  For each of the 530 tabulated settings, lengths and angles of a cell that has the symmetry give
the same lattice with and without adjusting it to the symmetry — no matter how differences are compared, as long as equal
numbers compare equal.  The cell may be given for real or for reciprocal space. -/
theorem C66_parameters (j : Nat) (h1 : 1 ≤ j) (h2 : j ≤ 530) :
    ∃ G u, Hall.spacegroupSymmetry (Spg.row j) = some G ∧ PG.uniqueRotations (G.map Motion.W) false = some u ∧
      ∀ near : ℝ → Bool, near 0 = true → ∀ lu, IsLengthUnit lu → ∀ (len ang : V3) (au : AngleUnit), au ≠ .notProvided →
        (∀ i, 0 < len i) → (∀ i, 0 < radians au (ang i) ∧ radians au (ang i) < Real.pi) →
        ∀ A B, DualBases A B → HasSymmetry A u →
          HasParameters (if lu = .angstrom then A else B) len (fun i => radians au (ang i)) →
          Snap.fromParameters near (getcentring G) u lu len ang au = Lat.fromParameters lu len ang au ∧
          (Lat.fromParameters lu len ang au).isSome = true := by
  obtain ⟨G, u, L, hG, hu, -, -, hc1, hc2⟩ := tabulated j h1 h2
  refine ⟨G, u, hG, hu, fun near hn lu hlu len ang au hau hlen hang A B hd hsym hpar => ?_⟩
  have hcs := cosinesSines_eq au hau ang
  have hpi := Real.pi_pos
  have e := dual_det hd
  have hne : Matrix.det (Matrix.of A) * Matrix.det (Matrix.of B) ≠ 0 := by rw [e]; positivity
  have hcell : CellExists len fun i => radians au (ang i) := by
    refine ⟨_, hpar, ?_⟩
    split
    · exact left_ne_zero_of_mul hne
    · exact right_ne_zero_of_mul hne
  refine ⟨?_, ((C64_parameters lu hlu len ang au hau hlen hang).1).mpr hcell⟩
  have hv : 0 < vol2 fun i => Real.cos (radians au (ang i)) := by
    obtain ⟨C, hC, hCd⟩ := hcell
    exact vol_of_cell hC hCd
  have hp := valid_of au hlen hang hv
  obtain ⟨r, hr⟩ := dual_some hp
  have hrv := dual_valid hp hr
  have iA := inv_of_symmetry hsym
  have iB := columnDot_dual_inv hd iA
  unfold Snap.fromParameters Lat.fromParameters
  rw [hcs, Option.bind_some, Option.bind_some]
  rcases hlu with rfl | rfl
  · simp only [if_true] at hpar
    have ip := inv_congr (gram_of_parameters (p := ⟨len, fun i => Real.cos (radians au (ang i)), fun i => Real.sin (radians au (ang i))⟩) (fun i => rfl) hpar) iA
    have ir : Inv (u.map Mat.transpose) (gram r) := inv_dual ip (by positivity) (gram_smul hp hr)
    simp only [hr, Option.map_some, Option.bind_some]
    rw [snap_recip hrv hc2 ir, Option.bind_some, changed_self near hn, if_neg (by decide), Option.bind_some]
  · have hne : ¬ LengthUnit.inverseAngstrom = LengthUnit.angstrom := by decide
    rw [if_neg hne] at hpar
    have ip := inv_congr (gram_of_parameters (p := ⟨len, fun i => Real.cos (radians au (ang i)), fun i => Real.sin (radians au (ang i))⟩) (fun i => rfl) hpar) iB
    simp only [hr, Option.map_some, Option.bind_some]
    rw [snap_recip hp hc2 ip, Option.bind_some, changed_self near hn, if_neg (by decide), Option.bind_some]

/-- the four operations of the group P4 -/
def groupP4 : List IMat :=
  [![![1, 0, 0], ![0, 1, 0], ![0, 0, 1]], ![![0, -1, 0], ![1, 0, 0], ![0, 0, 1]],
   ![![-1, 0, 0], ![0, -1, 0], ![0, 0, 1]], ![![0, 1, 0], ![-1, 0, 0], ![0, 0, 1]]]

/-- `P 4` is number 349 in the table; a cell with `a = b` and right angles has its symmetry, and these lengths and angles -/
example : (∃ G, Hall.spacegroupSymmetry (Spg.row 349) = some G ∧ PG.uniqueRotations (G.map Motion.W) false = some groupP4) ∧
    HasSymmetry ![![2, 0, 0], ![0, 2, 0], ![0, 0, 3]] groupP4 ∧
    HasParameters ![![2, 0, 0], ![0, 2, 0], ![0, 0, 3]] ![2, 2, 3] (fun _ => radians .degree 90) := by
  refine ⟨?_, ?_, ?_⟩
  · have : (Hall.spacegroupSymmetry (Spg.row 349)).bind (fun G => PG.uniqueRotations (G.map Motion.W) false)
        = some groupP4 := by decide +kernel
    exact Option.bind_eq_some_iff.mp this
  · intro R hR x
    simp only [groupP4, List.mem_cons, List.not_mem_nil, or_false] at hR
    rcases hR with rfl | rfl | rfl | rfl <;> simp [scalarProduct, position] <;> ring
  · have h : radians .degree 90 = Real.pi / 2 := by simp only [radians]; ring
    constructor
    · intro i; fin_cases i <;> simp [columnDot]
    · intro i; rw [h, Real.cos_pi_div_two]; fin_cases i <;> simp [columnDot]

/-! ### basis vectors -/

/-- the parameters of vectors that do not lie in a plane -/
theorem paramsOf_spec {m : M3} {lu : LengthUnit} {l : Lattice} (hdet : Matrix.det (Matrix.of m) ≠ 0)
    (hl : l.vectors lu = some m) : ∃ p, paramsOf l lu = some p ∧ Valid p ∧ ∀ i j, columnDot m m i j = gram p i j := by
  have hcol : ∀ i, 0 < columnDot m m i i := by
    intro i
    have hnn : 0 ≤ columnDot m m i i := by
      unfold columnDot
      nlinarith [mul_self_nonneg (m 0 i), mul_self_nonneg (m 1 i), mul_self_nonneg (m 2 i)]
    rcases hnn.lt_or_eq with h | h
    · exact h
    · exfalso
      have z : ∀ k, m k i = 0 := by
        unfold columnDot at h
        have h0 := mul_self_nonneg (m 0 i)
        have h1 := mul_self_nonneg (m 1 i)
        have h2 := mul_self_nonneg (m 2 i)
        intro k
        fin_cases k
        · have h : m 0 i * m 0 i = 0 := by linarith
          exact mul_self_eq_zero.mp h
        · have h : m 1 i * m 1 i = 0 := by linarith
          exact mul_self_eq_zero.mp h
        · have h : m 2 i * m 2 i = 0 := by linarith
          exact mul_self_eq_zero.mp h
      exact hdet (Matrix.det_eq_zero_of_column_eq_zero i z)
  have hlen : ∀ i, ∃ x, l.length lu i = some x ∧ 0 < x ∧ columnDot m m i i = x * x := by
    intro i
    refine ⟨Real.sqrt (columnDot m m i i), ?_, Real.sqrt_pos.mpr (hcol i), (Real.mul_self_sqrt (hcol i).le).symm⟩
    exact read_length hl i (Real.sqrt_nonneg _) (Real.mul_self_sqrt (hcol i).le).symm
  choose len hl1 hl2 hl3 using hlen
  have hang : ∀ i, ∃ a, l.angle lu i .radian = some a ∧ 0 ≤ a ∧ a ≤ Real.pi ∧
      columnDot m m (i + 1) (i + 2) = len (i + 1) * len (i + 2) * Real.cos a := by
    intro i
    set c := columnDot m m (i + 1) (i + 2) / len (i + 1) / len (i + 2) with hc
    have p1 := hl2 (i + 1)
    have p2 := hl2 (i + 2)
    have hcd : columnDot m m (i + 1) (i + 2) = len (i + 1) * len (i + 2) * c := by rw [hc]; field_simp
    have cs : c * c ≤ 1 := by
      have cauchy : columnDot m m (i + 1) (i + 2) * columnDot m m (i + 1) (i + 2)
          ≤ columnDot m m (i + 1) (i + 1) * columnDot m m (i + 2) (i + 2) := by
        unfold columnDot
        nlinarith [mul_self_nonneg (m 0 (i + 1) * m 1 (i + 2) - m 1 (i + 1) * m 0 (i + 2)),
          mul_self_nonneg (m 0 (i + 1) * m 2 (i + 2) - m 2 (i + 1) * m 0 (i + 2)),
          mul_self_nonneg (m 1 (i + 1) * m 2 (i + 2) - m 2 (i + 1) * m 1 (i + 2))]
      rw [hcd, hl3 (i + 1), hl3 (i + 2)] at cauchy
      have hpos : 0 < (len (i + 1) * len (i + 2)) * (len (i + 1) * len (i + 2)) := by positivity
      by_contra hn
      push Not at hn
      have := mul_lt_mul_of_pos_left hn hpos
      nlinarith
    have b := abs_le_of_sq_le_sq' (a := c) (b := 1) (by nlinarith) (by norm_num)
    have hcos : Real.cos (Real.arccos c) = c := Real.cos_arccos b.1 b.2
    refine ⟨Real.arccos c, ?_, Real.arccos_nonneg c, Real.arccos_le_pi c, by rw [hcos]; exact hcd⟩
    exact (read_angle hl i p1 p2 (Real.arccos_nonneg c) (Real.arccos_le_pi c) (hl3 _) (hl3 _) (by rw [hcos]; exact hcd)).1
  choose ang ha1 ha2 ha3 ha4 using hang
  have hpar : HasParameters m len ang := ⟨hl3, ha4⟩
  have hvol := vol_of_cell hpar hdet
  refine ⟨⟨len, fun i => Real.cos (ang i), fun i => Real.sin (ang i)⟩, ?_, ⟨hl2, ?_, ?_, hvol⟩, ?_⟩
  · unfold paramsOf
    simp only [hl1, ha1, Option.bind_some]
    rw [cosinesSines_eq _ (by decide), Option.map_some]
    congr 2
    · funext i; fin_cases i <;> rfl
    · funext i; fin_cases i <;> rfl
    · funext i; fin_cases i <;> rfl
  · -- the sines are positive
    intro i
    show 0 < Real.sin (ang i)
    have hs : ∀ i, 0 ≤ Real.sin (ang i) := fun i => Real.sin_nonneg_of_nonneg_of_le_pi (ha2 i) (ha3 i)
    rcases (hs i).lt_or_eq with h | h
    · exact h
    · exfalso
      have hu : ∀ i, Real.sin (ang i) ^ 2 + Real.cos (ang i) ^ 2 = 1 := fun i => Real.sin_sq_add_cos_sq _
      unfold vol2 at hvol
      set c0 := Real.cos (ang 0)
      set c1 := Real.cos (ang 1)
      set c2 := Real.cos (ang 2)
      have h0 := hu 0
      have h1 := hu 1
      have h2 := hu 2
      fin_cases i
      · have h : Real.sin (ang 0) = 0 := h.symm
        rw [h] at h0
        nlinarith [mul_self_nonneg (c0 * c1 - c2)]
      · have h : Real.sin (ang 1) = 0 := h.symm
        rw [h] at h1
        nlinarith [mul_self_nonneg (c0 * c1 - c2)]
      · have h : Real.sin (ang 2) = 0 := h.symm
        rw [h] at h2
        nlinarith [mul_self_nonneg (c0 * c2 - c1)]
  · intro i
    have := Real.sin_sq_add_cos_sq (ang i)
    show Real.sin _ * Real.sin _ = 1 - Real.cos _ * Real.cos _
    linear_combination this
  · exact gram_of_parameters (p := ⟨len, fun i => Real.cos (ang i), fun i => Real.sin (ang i)⟩) (fun i => rfl) hpar

/-- **C66 (vectors).**  For each of the 530 tabulated settings, basis vectors of a lattice that has the symmetry, real or
reciprocal, in rows or columns, in any orientation and of either hand, give the same lattice with and without adjusting
it to the symmetry. -/
theorem C66_vectors (j : Nat) (h1 : 1 ≤ j) (h2 : j ≤ 530) :
    ∃ G u, Hall.spacegroupSymmetry (Spg.row j) = some G ∧ PG.uniqueRotations (G.map Motion.W) false = some u ∧
      ∀ near : ℝ → Bool, near 0 = true → ∀ lu, IsLengthUnit lu → ∀ (v : M3) (column : Bool), 
        ∀ A B, DualBases A B → HasSymmetry A u →
          (if column then v else Mat.transpose v) = (if lu = .angstrom then A else B) →
          Snap.fromVectors near (getcentring G) u lu v column = Lat.fromVectors lu v column ∧
          (Lat.fromVectors lu v column).isSome = true := by
  obtain ⟨G, u, L, hG, hu, -, -, hc1, hc2⟩ := tabulated j h1 h2
  refine ⟨G, u, hG, hu, fun near hn lu hlu v column A B hd hsym hv => ?_⟩
  have hpi := Real.pi_pos
  have e := dual_det hd
  have hne : Matrix.det (Matrix.of A) * Matrix.det (Matrix.of B) ≠ 0 := by rw [e]; positivity
  have iA := inv_of_symmetry hsym
  have iB := columnDot_dual_inv hd iA
  unfold Snap.fromVectors Lat.fromVectors
  rw [hv]
  unfold Snap.fromMatrix
  rcases hlu with rfl | rfl
  · rw [if_pos rfl]
    have hA : Matrix.det (Matrix.of A) ≠ 0 := left_ne_zero_of_mul hne
    obtain ⟨l, hl⟩ : ∃ l, Lat.fromMatrix A .angstrom = some l := ⟨_, rfl⟩
    obtain ⟨hh, hm⟩ := fromMatrix_spec hA hl
    obtain ⟨p, hp, hval, hg⟩ := paramsOf_spec hA hm
    rw [hl, Option.bind_some, hp, Option.bind_some]
    have : decide (LengthUnit.angstrom = LengthUnit.angstrom) = true := by decide
    rw [this, snap_real hval hc1 (inv_congr hg iA), Option.bind_some, changed_self near hn, if_neg (by decide)]
    exact ⟨rfl, rfl⟩
  · have hne' : ¬ LengthUnit.inverseAngstrom = LengthUnit.angstrom := by decide
    rw [if_neg hne']
    have hB : Matrix.det (Matrix.of B) ≠ 0 := right_ne_zero_of_mul hne
    obtain ⟨l, hl⟩ : ∃ l, Lat.fromMatrix B .inverseAngstrom = some l := ⟨_, rfl⟩
    obtain ⟨hh, hm⟩ := fromMatrix_spec hB hl
    obtain ⟨p, hp, hval, hg⟩ := paramsOf_spec hB hm
    rw [hl, Option.bind_some, hp, Option.bind_some]
    have : decide (LengthUnit.inverseAngstrom = LengthUnit.angstrom) = false := by decide
    rw [this, snap_recip hval hc2 (inv_congr hg iB), Option.bind_some, changed_self near hn, if_neg (by decide)]
    exact ⟨rfl, rfl⟩

/-! ### lattices without the symmetry -/

/-- The operations form a group. -/
def IsGroup (ops : List IMat) : Prop :=
  (∀ a ∈ ops, ∀ b ∈ ops, ∃ c ∈ ops, Matrix.of c = Matrix.of a * Matrix.of b) ∧
  ∀ a ∈ ops, ∃ b ∈ ops, Matrix.of b * Matrix.of a = 1

theorem isCol_mulVec {R : IMat} {i k : Fin 3} : isCol R i k 1 = true ↔ (Matrix.of R).mulVec (Pi.single i 1) = Pi.single k 1 := by
  rw [isCol_iff, Matrix.mulVec_single_one]
  constructor
  · intro h; funext x
    show R x i = _
    rw [h, Pi.single_apply]
  · intro h x
    have := congrFun h x
    rw [Pi.single_apply] at this
    exact this

/-- at most one link, or all -/
theorem links_group {ops : List IMat} (hg : IsGroup ops) {i j : Fin 3} (hij : i ≠ j) (hi : mainF ops i = true)
    (hj : mainF ops j = true) (k : Fin 3) : mainF ops k = true := by
  -- as a relation
  set L : Fin 3 → Fin 3 → Prop := fun a b => ∃ R ∈ ops, (Matrix.of R).mulVec (Pi.single a 1) = Pi.single b 1 with hL
  have conv : ∀ a, mainF ops a = true ↔ L a (a + 1) := by
    intro a
    unfold mainF
    rw [List.any_eq_true]
    simp only [isCol_mulVec, hL]
  have tr : ∀ {a b c}, L a b → L b c → L a c := by
    rintro a b c ⟨R, hR, h1⟩ ⟨T, hT, h2⟩
    obtain ⟨U, hU, e⟩ := hg.1 T hT R hR
    exact ⟨U, hU, by rw [e, ← Matrix.mulVec_mulVec, h1, h2]⟩
  have sy : ∀ {a b}, L a b → L b a := by
    rintro a b ⟨R, hR, h1⟩
    obtain ⟨U, hU, e⟩ := hg.2 R hR
    exact ⟨U, hU, by rw [← h1, Matrix.mulVec_mulVec, e, Matrix.one_mulVec]⟩
  rw [conv] at hi hj ⊢
  have rf : ∀ a, L a a := fun a => by
    by_cases h : a = i
    · subst h; exact tr hi (sy hi)
    by_cases h' : a = i + 1
    · subst h'; exact tr (sy hi) hi
    by_cases h'' : a = j
    · subst h''; exact tr hj (sy hj)
    have : a = j + 1 := by clear hL hi hj conv tr sy; revert i j a; decide
    subst this
    exact tr (sy hj) hj
  have all : ∀ a, L i a := by
    intro a
    have c : (a = i ∨ a = i + 1) ∨ ((j = i + 1 ∧ a = j + 1) ∨ (j + 1 = i ∧ a = j)) := by
      clear hL hi hj conv tr sy rf; revert i j a; decide
    rcases c with (rfl | rfl) | (⟨rfl, rfl⟩ | ⟨e, rfl⟩)
    · exact rf _
    · exact hi
    · exact tr hi hj
    · rw [e] at hj; exact sy hj
  exact tr (sy (all k)) (all (k + 1))

theorem mainStep_len {cen : Prim.Bravais} {real : Bool} {m d : Fin 3 → Bool} {p q : Params} {i : Fin 3}
    (h : mainStep cen real m d p i = some q) :
    q.len = if m i = true then set2 p.len i (i + 1) (equal2 (p.len i) (p.len (i + 1))) else p.len := by
  unfold mainStep at h
  split at h
  · rename_i hm
    rw [if_pos hm]
    dsimp only at h
    split at h
    · cases h
    split at h
    · cases h
    split at h
    · cases h
      unfold pairAngles
      dsimp only
      split <;> rfl
    · cases h; rfl
  · rename_i hm
    rw [if_neg hm]
    cases h; rfl

theorem step_len (c : Bool) (r : Bool) (p : Params) (i : Fin 3) :
    (if c = true then pairAngles r p i (i + 1) else p).len = p.len := by
  split <;> rfl

theorem snapWith_len {cen : Prim.Bravais} {real : Bool} {m d : Fin 3 → Bool} {p q : Params}
    (hm : ∀ i j, i ≠ j → m i = true → m j = true → ∀ k, m k = true) (h : snapWith cen real m d p = some q) :
    (∀ k, m k = true → q.len k = q.len (k + 1)) ∧ (∀ k, m k = false → m (k + 2) = false → q.len k = p.len k) ∧
    q.len 0 + q.len 1 + q.len 2 = p.len 0 + p.len 1 + p.len 2 := by
  unfold snapWith at h
  by_cases h01 : (m 0 && m 1) = true
  · rw [if_pos h01] at h
    rw [Bool.and_eq_true] at h01
    have all := hm 0 1 (by decide) h01.1 h01.2
    have hl : q.len = fun _ => equal3 (p.len 0) (p.len 1) (p.len 2) := by
      dsimp only at h
      split at h
      · cases h; rfl
      · cases h
        rw [step_len, step_len, step_len]
    rw [hl]
    refine ⟨fun _ _ => rfl, fun k hk => absurd (all k) (by rw [hk]; decide), ?_⟩
    dsimp only
    unfold equal3
    split
    · rename_i he; rw [← he.2, ← he.1]
    · ring
  · rw [if_neg h01] at h
    obtain ⟨p1, e1, h⟩ := Option.bind_eq_some_iff.mp h
    obtain ⟨p2, e2, e3⟩ := Option.bind_eq_some_iff.mp h
    have e1 := mainStep_len e1
    have e2 := mainStep_len e2
    have e3 := mainStep_len e3
    have none2 : ∀ i j, i ≠ j → m i = true → m j = true → False := by
      intro i j hij hi hj
      have := hm i j hij hi hj
      rw [this 0, this 1] at h01
      exact h01 rfl
    have eqh : ∀ x y : ℝ, equal2 x y + equal2 x y = x + y := by
      intro x y; unfold equal2; split
      · rename_i h; rw [h]
      · ring
    have n01 := none2 0 1 (by decide)
    have n02 := none2 0 2 (by decide)
    have n12 := none2 1 2 (by decide)
    cases h0 : m 0 <;> cases h1 : m 1 <;> cases h2 : m 2 <;> rw [h0] at e1 <;> rw [h1] at e2 <;> rw [h2] at e3 <;>
      simp only [Bool.false_eq_true, if_false, if_true] at e1 e2 e3
    · rw [e3, e2, e1]
      refine ⟨fun k hk => ?_, fun k _ _ => rfl, rfl⟩
      fin_cases k <;> simp_all
    · rw [e2, e1] at e3
      rw [e3]
      have := eqh (p.len 2) (p.len 0)
      refine ⟨fun k hk => ?_, fun k hk hk' => ?_, ?_⟩
      · fin_cases k <;> simp_all [set2, Function.update]
      · fin_cases k <;> simp_all [set2, Function.update]
      · simp [set2, Function.update]; linarith
    · rw [e1] at e2
      rw [e3, e2]
      have := eqh (p.len 1) (p.len 2)
      refine ⟨fun k hk => ?_, fun k hk hk' => ?_, ?_⟩
      · fin_cases k <;> simp_all [set2, Function.update]
      · fin_cases k <;> simp_all [set2, Function.update]
      · simp [set2, Function.update]; linarith
    · exact (n12 h1 h2).elim
    · rw [e3, e2, e1]
      have := eqh (p.len 0) (p.len 1)
      refine ⟨fun k hk => ?_, fun k hk hk' => ?_, ?_⟩
      · fin_cases k <;> simp_all [set2, Function.update]
      · fin_cases k <;> simp_all [set2, Function.update]
      · simp [set2, Function.update]; linarith
    · exact (n02 h0 h2).elim
    · exact (n01 h0 h1).elim
    · exact (n01 h0 h1).elim

/-- A (transposed) operation takes the basis vector `i` to the basis vector `k`. -/
def Takes (ops : List IMat) (real : Bool) (i k : Fin 3) : Prop :=
  ∃ R ∈ ops, (if real then Matrix.of R else (Matrix.of R).transpose).mulVec (Pi.single i 1) = Pi.single k 1

theorem isGroup_transpose {ops : List IMat} (h : IsGroup ops) : IsGroup (ops.map Mat.transpose) := by
  constructor
  · intro a ha b hb
    obtain ⟨a, ha', rfl⟩ := List.mem_map.mp ha
    obtain ⟨b, hb', rfl⟩ := List.mem_map.mp hb
    obtain ⟨c, hc, e⟩ := h.1 b hb' a ha'
    refine ⟨_, List.mem_map_of_mem hc, ?_⟩
    show (Matrix.of c).transpose = (Matrix.of a).transpose * (Matrix.of b).transpose
    rw [e, Matrix.transpose_mul]
  · intro a ha
    obtain ⟨a, ha', rfl⟩ := List.mem_map.mp ha
    obtain ⟨b, hb, e⟩ := h.2 a ha'
    refine ⟨_, List.mem_map_of_mem hb, ?_⟩
    show (Matrix.of b).transpose * (Matrix.of a).transpose = 1
    rw [← Matrix.transpose_mul, mul_eq_one_comm.mp e, Matrix.transpose_one]

theorem mainF_takes (ops : List IMat) (i k : Fin 3) (h : k = i + 1) : mainF ops i = true ↔ Takes ops true i k := by
  subst h
  unfold mainF Takes
  rw [List.any_eq_true]
  simp only [isCol_mulVec, if_true]

theorem mainF_takes' (ops : List IMat) (i k : Fin 3) (h : k = i + 1) :
    mainF (ops.map Mat.transpose) i = true ↔ Takes ops false i k := by
  rw [mainF_takes _ i k h]
  unfold Takes
  simp only [Bool.false_eq_true, if_false, if_true, List.mem_map, exists_exists_and_eq_and]
  rfl

/-- **C66 (lengths).**  After adjusting to a group of operations, basis vectors that an operation takes to each other are
equally long; a basis vector that is not linked to another keeps its length, and the sum of the lengths is kept. -/
theorem C66_lengths (cen : Prim.Bravais) (ops : List IMat) (hg : IsGroup ops) (real : Bool) (p q : Params)
    (h : snap cen ops real p = some q) :
    (∀ i k, Takes ops real i k → q.len i = q.len k) ∧
    (∀ i, (∀ k, k ≠ i → ¬ Takes ops real i k) → q.len i = p.len i) ∧
    q.len 0 + q.len 1 + q.len 2 = p.len 0 + p.len 1 + p.len 2 := by
  have inv : ∀ i k, Takes ops real i k → Takes ops real k i := by
    rintro i k ⟨R, hR, e⟩
    obtain ⟨U, hU, eU⟩ := hg.2 R hR
    refine ⟨U, hU, ?_⟩
    rw [← e, Matrix.mulVec_mulVec]
    cases real
    · simp only [Bool.false_eq_true, if_false]
      rw [← Matrix.transpose_mul, mul_eq_one_comm.mp eU, Matrix.transpose_one, Matrix.one_mulVec]
    · simp only [if_true]
      rw [eU, Matrix.one_mulVec]
  obtain ⟨m, hm, h1, h2, h3⟩ : ∃ m : Fin 3 → Bool, (∀ i k, k = i + 1 → (m i = true ↔ Takes ops real i k)) ∧
      (∀ k, m k = true → q.len k = q.len (k + 1)) ∧ (∀ k, m k = false → m (k + 2) = false → q.len k = p.len k) ∧
      q.len 0 + q.len 1 + q.len 2 = p.len 0 + p.len 1 + p.len 2 := by
    unfold snap at h
    cases real
    · rw [if_neg (by decide), linkedRecip_eq, ← mainF_transpose] at h
      exact ⟨_, mainF_takes' ops, snapWith_len (fun i j hij hi hj => links_group (isGroup_transpose hg) hij hi hj) h⟩
    · rw [if_pos rfl, linkedReal_eq] at h
      exact ⟨_, mainF_takes ops, snapWith_len (fun i j hij hi hj => links_group hg hij hi hj) h⟩
  refine ⟨fun i k ht => ?_, fun i hi => ?_, h3⟩
  · have c : k = i ∨ k = i + 1 ∨ i = k + 1 := by clear ht; revert i k; decide
    rcases c with rfl | c | c
    · rfl
    · rw [c]; exact h1 i ((hm i k c).mpr ht)
    · rw [c]; exact (h1 k ((hm k i c).mpr (inv _ _ ht))).symm
  · have z : ∀ i : Fin 3, i + 1 ≠ i ∧ i + 2 ≠ i ∧ i = i + 2 + 1 := by decide
    apply h2
    · rw [← Bool.not_eq_true]
      intro hh
      exact hi (i + 1) (z i).1 ((hm i _ rfl).mp hh)
    · rw [← Bool.not_eq_true]
      intro hh
      exact hi (i + 2) (z i).2.1 (inv _ _ ((hm (i + 2) i (z i).2.2).mp hh))

/-- **C66 (no exception).**  For each of the 530 tabulated settings, adjusting any lattice succeeds: a lattice is made from
the lengths and angles of every cell, and from every three vectors that do not lie in a plane. -/
theorem C66_total (j : Nat) (h1 : 1 ≤ j) (h2 : j ≤ 530) :
    ∃ G u, Hall.spacegroupSymmetry (Spg.row j) = some G ∧ PG.uniqueRotations (G.map Motion.W) false = some u ∧
      ∀ near : ℝ → Bool, ∀ lu, IsLengthUnit lu →
        (∀ (len ang : V3) (au : AngleUnit), au ≠ .notProvided → (∀ i, 0 < len i) →
          (∀ i, 0 < radians au (ang i) ∧ radians au (ang i) < Real.pi) → (CellExists len fun i => radians au (ang i)) →
          (Snap.fromParameters near (getcentring G) u lu len ang au).isSome = true) ∧
        ∀ (v : M3) (column : Bool), Matrix.det (Matrix.of v) ≠ 0 →
          (Snap.fromVectors near (getcentring G) u lu v column).isSome = true := by
  obtain ⟨G, u, L, hG, hu, -, -, hc1, hc2⟩ := tabulated j h1 h2
  refine ⟨G, u, hG, hu, fun near lu hlu => ⟨fun len ang au hau hlen hang hcell => ?_, fun v column hv => ?_⟩⟩
  · have hcs := cosinesSines_eq au hau ang
    have hv : 0 < vol2 fun i => Real.cos (radians au (ang i)) := by
      obtain ⟨C, hC, hCd⟩ := hcell
      exact vol_of_cell hC hCd
    have hp := valid_of au hlen hang hv
    obtain ⟨r, hr⟩ := dual_some hp
    have hrv := dual_valid hp hr
    have fin : ∀ d r : Params, Valid r → (((snap (getcentring G) u false r).bind fun r' =>
        (if changed near (linkedRecip u) r r' = true then dualParams r' else some d).bind fun d' =>
          Lat.fromMatrix (bMatrix d' r') .inverseAngstrom).isSome = true) := by
      intro d r hr
      obtain ⟨q, hq⟩ : ∃ q, snap (getcentring G) u false r = some q := by
        unfold snap
        rw [if_neg (by decide), linkedReal_eq, linkedRecip_eq, ← mainF_transpose u]
        conv => arg 1; ext q; arg 1; arg 4; rw [← dualF_transpose u]
        exact snapWith_total hc2 r
      rw [hq, Option.bind_some]
      obtain ⟨e, he⟩ := dual_some (snap_valid hr hq)
      rw [he]
      split <;> rfl
    unfold Snap.fromParameters
    rw [hcs, Option.bind_some]
    rcases hlu with rfl | rfl
    · simp only [hr, Option.map_some, Option.bind_some]
      exact fin _ _ hrv
    · simp only [hr, Option.map_some, Option.bind_some]
      exact fin _ _ hp
  · have hdet : Matrix.det (Matrix.of (if column then v else Mat.transpose v)) ≠ 0 := by
      cases column
      · have : Matrix.of (Mat.transpose v) = (Matrix.of v).transpose := rfl
        simp only [Bool.false_eq_true, if_false]
        rwa [this, Matrix.det_transpose]
      · exact hv
    unfold Snap.fromVectors
    generalize (if column = true then v else Mat.transpose v) = m at hdet ⊢
    obtain ⟨l, hl⟩ : ∃ l, Lat.fromMatrix m lu = some l := by rcases hlu with rfl | rfl <;> exact ⟨_, rfl⟩
    obtain ⟨hh, hm⟩ := fromMatrix_spec hdet hl
    obtain ⟨p, hp, hval, hg⟩ := paramsOf_spec hdet hm
    obtain ⟨q, hq⟩ : ∃ q, snap (getcentring G) u (decide (lu = .angstrom)) p = some q := by
      unfold snap
      rcases hlu with rfl | rfl
      · rw [if_pos (by decide), linkedReal_eq, linkedRecip_eq]
        exact snapWith_total hc1 p
      · rw [if_neg (by decide), linkedReal_eq, linkedRecip_eq, ← mainF_transpose u]
        conv => arg 1; ext q; arg 1; arg 4; rw [← dualF_transpose u]
        exact snapWith_total hc2 p
    have hqv := snap_valid hval hq
    unfold Snap.fromMatrix
    rw [hl, Option.bind_some, hp, Option.bind_some, hq, Option.bind_some]
    rw [unitVolume_eq, if_neg (not_le.mpr hqv.vol), Option.bind_some]
    generalize changed near _ p q = b
    cases b
    · rfl
    · rcases hlu with rfl | rfl <;> rfl

theorem dot_orthogonal {R U : M3} (h : Matrix.of R * (Matrix.of R).transpose = 1) (i j : Fin 3) :
    columnDot (Mat.mulArrays (Mat.transpose R) U) (Mat.mulArrays (Mat.transpose R) U) i j = columnDot U U i j := by
  rw [columnDot_eq, columnDot_eq]
  have e : Matrix.of (Mat.mulArrays (Mat.transpose R) U) = (Matrix.of R).transpose * Matrix.of U := by
    ext i j; rw [Matrix.of_apply, Mat.mulArrays_eq]; rfl
  rw [e, Matrix.transpose_mul, Matrix.transpose_transpose]
  congr 1
  rw [Matrix.mul_assoc, ← Matrix.mul_assoc (Matrix.of R), h, Matrix.one_mul]

/-- **C66 (adjusted vectors).**  A lattice made from vectors that do not lie in a plane is the one with exactly these
vectors, or one whose vectors have the adjusted lengths and angles; its vectors are dual in both cases. -/
theorem C66_adjusted (near : ℝ → Bool) (cen : Prim.Bravais) (ops : List IMat) (m : M3) (lu : LengthUnit) (hlu : IsLengthUnit lu)
    (l : Lattice) (hdet : Matrix.det (Matrix.of m) ≠ 0) (hl : Snap.fromMatrix near cen ops m lu = some l) :
    DualBases l.real l.recip ∧ (∀ i j, l.realMetric i j = columnDot l.real l.real i j) ∧
    (∀ i j, l.recipMetric i j = columnDot l.recip l.recip i j) ∧
    (l.vectors lu = some m ∨
      ∃ l0 p q m', Lat.fromMatrix m lu = some l0 ∧ paramsOf l0 lu = some p ∧
        snap cen ops (decide (lu = .angstrom)) p = some q ∧ l.vectors lu = some m' ∧
        ∀ i, columnDot m' m' i i = q.len i * q.len i ∧
          columnDot m' m' (i + 1) (i + 2) = q.len (i + 1) * q.len (i + 2) * q.cos i) := by
  unfold Snap.fromMatrix at hl
  obtain ⟨l0, hl0⟩ : ∃ l, Lat.fromMatrix m lu = some l := by rcases hlu with rfl | rfl <;> exact ⟨_, rfl⟩
  obtain ⟨hh, hm⟩ := fromMatrix_spec hdet hl0
  obtain ⟨p, hp, hval, hg⟩ := paramsOf_spec hdet hm
  rw [hl0, Option.bind_some, hp, Option.bind_some] at hl
  obtain ⟨q, hq, hl⟩ := Option.bind_eq_some_iff.mp hl
  have hqv := snap_valid hval hq
  cases hb : changed near (if decide (lu = .angstrom) = true then linkedReal ops else linkedRecip ops) p q
  · rw [hb, if_neg (by decide)] at hl
    cases hl
    exact ⟨hh.dual, hh.realMetric, hh.recipMetric, .inl hm⟩
  rw [hb, if_pos rfl] at hl
  obtain ⟨v, hv, hl⟩ := Option.bind_eq_some_iff.mp hl
  rw [unitVolume_eq, if_neg (not_le.mpr hqv.vol)] at hv
  have hvv : v * v = vol2 q.cos := by
    cases hv
    exact Real.mul_self_sqrt hqv.vol.le
  have hv0 : 0 < v := by
    cases hv
    exact Real.sqrt_pos.mpr hqv.vol
  set m' := Mat.mulArrays (Mat.transpose (orientation m)) (upper q v) with hm'
  have hdot : ∀ i j, columnDot m' m' i j = gram q i j := by
    intro i j
    rw [hm', dot_orthogonal (orientation_orthogonal m), upper_gram hqv hvv]
  have hdet' : Matrix.det (Matrix.of m') ≠ 0 := by
    have e : Matrix.of m' = (Matrix.of (orientation m)).transpose * Matrix.of (upper q v) := by
      ext i j; rw [Matrix.of_apply, hm', Mat.mulArrays_eq]; rfl
    rw [e, Matrix.det_mul, Matrix.det_transpose]
    have ho := congrArg Matrix.det (orientation_orthogonal m)
    rw [Matrix.det_mul, Matrix.det_transpose, Matrix.det_one] at ho
    have h1 : Matrix.det (Matrix.of (orientation m)) ≠ 0 := fun h => by rw [h, zero_mul] at ho; exact zero_ne_one ho
    have h2 : Matrix.det (Matrix.of (upper q v)) = q.len 0 * (q.len 1 * q.sin 2) * (q.len 2 * v / q.sin 2) := by
      rw [Matrix.det_fin_three]
      simp [upper]
    rw [h2]
    have a := hqv.len 0
    have b := hqv.len 1
    have c := hqv.len 2
    have d := hqv.sin 2
    exact mul_ne_zero h1 (by positivity)
  obtain ⟨hh', hm''⟩ := fromMatrix_spec hdet' hl
  refine ⟨hh'.dual, hh'.realMetric, hh'.recipMetric, .inr ⟨l0, p, q, m', hl0, hp, hq, hm'', fun i => ⟨?_, ?_⟩⟩⟩
  · rw [hdot, gram_diag]
  · rw [hdot, gram_off]

theorem isGroup_groupP4 : IsGroup groupP4 := by
  unfold IsGroup groupP4
  decide +kernel

/-- **C66 (limit).**  The adjusted lattice need not have the symmetry: a cell with three equal lengths and angles of 60° is
not changed for the group P4, whose fourfold rotation it does not have. -/
theorem C66_symmetry_counterexample (near : ℝ → Bool) (hn : near 0 = true) :
    ∃ l, Snap.fromParameters near .P groupP4 .angstrom (fun _ => 1) (fun _ => 60) .degree = some l ∧
      ¬ HasSymmetry l.real groupP4 := by
  have hpi := Real.pi_pos
  have hrad : radians .degree 60 = Real.pi / 3 := by simp only [radians]; ring
  have hcs := cosinesSines_eq .degree (by decide) (fun _ => 60)
  have hv : 0 < vol2 fun _ : Fin 3 => Real.cos (radians .degree 60) := by
    unfold vol2
    rw [hrad, Real.cos_pi_div_three]; norm_num
  have hp := valid_of .degree (len := fun _ => 1) (ang := fun _ => 60) (fun _ => one_pos)
    (fun _ => by rw [hrad]; constructor <;> linarith) hv
  obtain ⟨r, hr⟩ := dual_some hp
  have hrv := dual_valid hp hr
  obtain ⟨v, hv0, hvv, l0, l1, l2, c0, c1, c2, -, -, -⟩ := dual_spelled hp hr
  have hc : r.cos 0 = r.cos 1 := by rw [c0, c1]
  have hl : r.len 0 = r.len 1 := by rw [l0, l1]
  have m0 : ∀ i, linkedRecip groupP4 i = decide (i = 0) := by decide +kernel
  have d0 : ∀ i, linkedReal groupP4 i = decide (i = 0) := by decide +kernel
  have hs : snap .P groupP4 false r = some r := by
    have hset : set2 r.len 0 (0 + 1) (equal2 (r.len 0) (r.len (0 + 1))) = r.len := by
      have hl : r.len 0 = r.len (0 + 1) := hl
      rw [← hl, equal2_self, set2_self _ _ _ hl]
    have e0 : mainStep .P false (linkedRecip groupP4) (linkedReal groupP4) r 0 = some r := by
      unfold mainStep
      simp only [m0, d0, decide_true, if_true, hset]
      rw [if_neg (by decide), if_neg (by decide), if_neg (by decide)]
      exact congrArg some (pairAngles_self hrv hc (fun h => absurd h (by decide)))
    have e1 : ∀ i, i ≠ 0 → mainStep .P false (linkedRecip groupP4) (linkedReal groupP4) r i = some r := by
      intro i hi
      unfold mainStep
      rw [m0, if_neg (by simpa using hi)]
    unfold snap snapWith
    rw [if_neg (by decide), if_neg (by rw [m0, m0]; decide), e0, Option.bind_some, e1 1 (by decide), Option.bind_some,
      e1 2 (by decide)]
  have heq : Snap.fromParameters near .P groupP4 .angstrom (fun _ => 1) (fun _ => 60) .degree =
      Lat.fromMatrix (bMatrix ⟨fun _ => 1, fun _ => Real.cos (radians .degree 60), fun _ => Real.sin (radians .degree 60)⟩ r)
        .inverseAngstrom := by
    unfold Snap.fromParameters
    rw [hcs, Option.bind_some]
    simp only [hr, Option.map_some, Option.bind_some]
    rw [hs, Option.bind_some, changed_self near hn, if_neg (by decide), Option.bind_some]
  rw [heq]
  obtain ⟨l, hl⟩ : ∃ l, Lat.fromMatrix (bMatrix ⟨fun _ => 1, fun _ => Real.cos (radians .degree 60),
      fun _ => Real.sin (radians .degree 60)⟩ r) .inverseAngstrom = some l := ⟨_, rfl⟩
  refine ⟨l, hl, fun hsym => ?_⟩
  obtain ⟨-, -, -, hg⟩ := (fromParams_spec hp hr).1 l hl
  have hi := inv_congr hg (inv_of_symmetry hsym)
  have := inv_cols hi (R := ![![0, -1, 0], ![1, 0, 0], ![0, 0, 1]]) (by simp [groupP4]) (a := 0) (b := 1) (c := 1) (d := 0)
    (s := 1) (t := -1) (by decide) (by decide)
  simp [gram, hrad] at this
  norm_num at this

/-- a twofold rotation about the diagonal of the first two basis vectors -/
def twofoldAB : List IMat := [![![1, 0, 0], ![0, 1, 0], ![0, 0, 1]], ![![0, 1, 0], ![1, 0, 0], ![0, 0, -1]]]

/-- differences up to 1/100 are neglected -/
noncomputable def coarse (x : ℝ) : Bool := decide (|x| ≤ 1 / 100)

theorem snap_first {ops : List IMat} (hm : ∀ i, linkedReal ops i = decide (i = 0))
    (hd : ∀ i, linkedRecip ops i = decide (i = 0)) (p : Params) :
    snap .P ops true p = some (pairAngles false { p with len := set2 p.len 0 1 (equal2 (p.len 0) (p.len 1)) } 0 1) := by
  have e0 : mainStep .P true (linkedReal ops) (linkedRecip ops) p 0 =
      some (pairAngles false { p with len := set2 p.len 0 1 (equal2 (p.len 0) (p.len 1)) } 0 1) := by
    unfold mainStep
    simp only [hm, hd, decide_true, if_true]
    rw [if_neg (by decide), if_neg (by decide), if_neg (by decide)]
    rfl
  have e1 : ∀ p i, i ≠ 0 → mainStep .P true (linkedReal ops) (linkedRecip ops) p i = some p := by
    intro p i hi
    unfold mainStep
    rw [hm, if_neg (by simpa using hi)]
  unfold snap snapWith
  rw [if_pos rfl, if_neg (by rw [hm, hm]; decide), e0, Option.bind_some, e1 _ 1 (by decide), Option.bind_some,
    e1 _ 2 (by decide)]

/-- **C66 (limit).**  Operations outside of the table may change a lattice that has their symmetry: a twofold rotation
about `a + b`, with `c` not perpendicular to `a` and `b`. -/
theorem C66_changed_counterexample :
    IsGroup twofoldAB ∧ HasSymmetry ![![1, 0, 1], ![0, 1, -1], ![0, 0, 1]] twofoldAB ∧
    ∃ l, Snap.fromVectors coarse .P twofoldAB .angstrom ![![1, 0, 1], ![0, 1, -1], ![0, 0, 1]] true = some l ∧
      l.vectors .angstrom ≠ some ![![1, 0, 1], ![0, 1, -1], ![0, 0, 1]] := by
  refine ⟨by unfold IsGroup twofoldAB; decide +kernel, ?_, ?_⟩
  · intro R hR x
    simp only [twofoldAB, List.mem_cons, List.not_mem_nil, or_false] at hR
    rcases hR with rfl | rfl <;> simp [scalarProduct, position] <;> ring
  set m : M3 := ![![1, 0, 1], ![0, 1, -1], ![0, 0, 1]] with hmdef
  have hdet : Matrix.det (Matrix.of m) ≠ 0 := by rw [Matrix.det_fin_three]; simp [m]
  obtain ⟨l0, hl0⟩ : ∃ l, Lat.fromMatrix m .angstrom = some l := ⟨_, rfl⟩
  obtain ⟨hh, hm⟩ := fromMatrix_spec hdet hl0
  obtain ⟨p, hp, hval, hg⟩ := paramsOf_spec hdet hm
  have hq := snap_first (ops := twofoldAB) (by decide +kernel) (by decide +kernel) p
  have hqv := snap_valid hval hq
  set q := pairAngles false { p with len := set2 p.len 0 1 (equal2 (p.len 0) (p.len 1)) } 0 1 with hqdef
  have g12 := hg 1 2
  have g02 := hg 0 2
  have g00 := hg 0 0
  have g11 := hg 1 1
  have g22 := hg 2 2
  simp [columnDot, gram, m] at g12 g02 g00 g11 g22
  have k0 := hval.len 0
  have k1 := hval.len 1
  have k2 := hval.len 2
  have l0e : p.len 0 = 1 := by nlinarith
  have l1e : p.len 1 = 1 := by nlinarith
  rw [l1e, one_mul] at g12
  rw [l0e, one_mul] at g02
  have hcc : p.cos 0 = -p.cos 1 := by
    have : p.len 2 * (p.cos 0 + p.cos 1) = 0 := by linear_combination -g12 - g02
    rcases mul_eq_zero.mp this with h | h
    · exact absurd h k2.ne'
    · linarith
  have q0 : q.cos 0 = 0 := by
    show equal2 (p.cos 0) (p.cos 1) = 0
    rw [equal2_mean, hcc]; ring
  have hch : changed coarse (linkedReal twofoldAB) p q = true := by
    unfold changed
    have : linkedReal twofoldAB 0 = true := by decide +kernel
    have hb : coarse (p.cos 0 - q.cos 0) = false := by
      unfold coarse
      rw [decide_eq_false_iff_not, q0, sub_zero]
      intro h
      have h2 := abs_le.mp h
      have : p.len 2 < 2 := by nlinarith
      nlinarith
    rw [this, hb]
    simp
  obtain ⟨v, hv⟩ : ∃ v, unitVolume q.cos = some v := by
    rw [unitVolume_eq, if_neg (not_le.mpr hqv.vol)]; exact ⟨_, rfl⟩
  have hvv : v * v = vol2 q.cos := by
    rw [unitVolume_eq, if_neg (not_le.mpr hqv.vol)] at hv
    cases hv
    exact Real.mul_self_sqrt hqv.vol.le
  set m' := Mat.mulArrays (Mat.transpose (orientation m)) (upper q v) with hm'
  obtain ⟨l, hl⟩ : ∃ l, Lat.fromMatrix m' .angstrom = some l := ⟨_, rfl⟩
  refine ⟨l, ?_, ?_⟩
  · unfold Snap.fromVectors
    rw [if_pos rfl]
    unfold Snap.fromMatrix
    rw [hl0, Option.bind_some, hp, Option.bind_some]
    have : decide (LengthUnit.angstrom = LengthUnit.angstrom) = true := by decide
    rw [this, hq, Option.bind_some, if_pos rfl, if_pos hch, hv, Option.bind_some, ← hm', hl]
  · intro h
    have hlm : l.vectors .angstrom = some m' := by
      simp only [Lat.fromMatrix, Option.some.injEq] at hl
      subst hl; rfl
    rw [hlm] at h
    have hmm := Option.some.inj h
    have e := dot_orthogonal (U := upper q v) (orientation_orthogonal m) 1 2
    rw [← hm', hmm, upper_gram hqv hvv] at e
    simp [columnDot, gram, m, q0] at e

/-- **C66 (limit).**  When vectors are adjusted they may also be turned around: here `a` is reversed. -/
theorem C66_orientation_counterexample :
    ∃ l a, Snap.fromVectors coarse .P groupP4 .angstrom ![![-1, 0, 0], ![0, -(11 / 10), 0], ![0, 0, 1]] true = some l ∧
      l.vector .angstrom 0 = some a ∧ 0 < a 0 ∧ a 1 = 0 ∧ a 2 = 0 := by
  set m : M3 := ![![-1, 0, 0], ![0, -(11 / 10), 0], ![0, 0, 1]] with hmdef
  have hdet : Matrix.det (Matrix.of m) ≠ 0 := by rw [Matrix.det_fin_three]; simp [m]
  obtain ⟨l0, hl0⟩ : ∃ l, Lat.fromMatrix m .angstrom = some l := ⟨_, rfl⟩
  obtain ⟨hh, hm⟩ := fromMatrix_spec hdet hl0
  obtain ⟨p, hp, hval, hg⟩ := paramsOf_spec hdet hm
  have hq := snap_first (ops := groupP4) (by decide +kernel) (by decide +kernel) p
  have hqv := snap_valid hval hq
  set q := pairAngles false { p with len := set2 p.len 0 1 (equal2 (p.len 0) (p.len 1)) } 0 1 with hqdef
  have g00 := hg 0 0
  have g11 := hg 1 1
  simp [columnDot, gram, m] at g00 g11
  have k0 := hval.len 0
  have k1 := hval.len 1
  have l0e : p.len 0 = 1 := by nlinarith
  have l1e : p.len 1 = 11 / 10 := by nlinarith
  have q0 : q.len 0 = 21 / 20 := by
    show equal2 (p.len 0) (p.len 1) = 21 / 20
    rw [equal2_mean, l0e, l1e]; norm_num
  have hch : changed coarse (linkedReal groupP4) p q = true := by
    unfold changed
    have : linkedReal groupP4 0 = true := by decide +kernel
    have hb : coarse (p.len 0 - q.len 0) = false := by
      unfold coarse
      rw [decide_eq_false_iff_not, q0, l0e]
      norm_num
    rw [this, hb]
    simp
  obtain ⟨v, hv⟩ : ∃ v, unitVolume q.cos = some v := by
    rw [unitVolume_eq, if_neg (not_le.mpr hqv.vol)]; exact ⟨_, rfl⟩
  set m' := Mat.mulArrays (Mat.transpose (orientation m)) (upper q v) with hm'
  obtain ⟨l, hl⟩ : ∃ l, Lat.fromMatrix m' .angstrom = some l := ⟨_, rfl⟩
  have ho : orientation m = fun i j => if i = j then 1 else 0 := by
    unfold orientation
    simp only [m, arctan, cosAndSin_eq]
    funext i j
    fin_cases i <;> fin_cases j <;> simp
  refine ⟨l, fun k => m' k 0, ?_, ?_, ?_⟩
  · unfold Snap.fromVectors
    rw [if_pos rfl]
    unfold Snap.fromMatrix
    rw [hl0, Option.bind_some, hp, Option.bind_some]
    have : decide (LengthUnit.angstrom = LengthUnit.angstrom) = true := by decide
    rw [this, hq, Option.bind_some, if_pos rfl, if_pos hch, hv, Option.bind_some, ← hm', hl]
  · simp only [Lat.fromMatrix, Option.some.injEq] at hl
    subst hl; rfl
  · rw [hm', ho]
    simp only [Mat.mulArrays_eq, Matrix.mul_apply, Fin.sum_univ_three]
    simp [Mat.transpose, upper, q0]

end Brille.Props
