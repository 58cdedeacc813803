import Verif.Props.MoveInto

/-!
# C84: which wavevectors can be brought into the first zone
-/

namespace Brille.Props

open Brille.Move Brille.Prim Brille.Spec Brille.Mat

/-- the point is at least as close to the origin as to any lattice point: it is in the first zone -/
def Nearest (G : Fin 3 → Fin 3 → ℚ) (q : Pt) : Prop :=
  ∀ n : IPt, scalar G q q ≤ scalar G (fun i => q i - n i) (fun i => q i - n i)

/-- the lattice vector is closer to the point than the origin is -/
def Closer (G : Fin 3 → Fin 3 → ℚ) (q : Pt) (n : IPt) : Prop :=
  scalar G (fun i => q i - n i) (fun i => q i - n i) < scalar G q q

/-- no translate of the point is halfway to the lattice vector of a face -/
def Generic (G : Fin 3 → Fin 3 → ℚ) (z : Zone) (Q : Pt) : Prop :=
  ∀ (n : IPt), ∀ j < z.taus.length,
    2 * scalar G (fun i => Q i - n i) (ofInts (tauAt z j)) ≠ scalar G (ofInts (tauAt z j)) (ofInts (tauAt z j))

/-- where the search starts -/
def startOf (Q : Pt) : St := { q := fun i => Q i - Move.round (Q i), tau := fun i => Move.round (Q i), last := fun i => Move.round (Q i) }

theorem movePrim_eq (z : Zone) (Q : Pt) : (movePrim z Q).1 = (loop z z.taus.length (startOf Q)).q := rfl

theorem round_box (x : ℚ) : |x - Move.round x| ≤ 1 / 2 := by
  unfold Move.round
  rw [abs_le]
  split
  · have h1 := Int.floor_le (x + 1 / 2)
    have h2 := Int.lt_floor_add_one (x + 1 / 2)
    constructor <;> linarith
  · have h1 := Int.le_ceil (x - 1 / 2)
    have h2 := Int.ceil_lt_add_one (x - 1 / 2)
    constructor <;> linarith

/-- a turn of the search at a point that is outside and not halfway to a face's lattice vector takes it strictly closer -/
theorem turn_strict (G : Fin 3 → Fin 3 → ℚ) (z : Zone) (hz : GoodZone G z) (s : St) (hout : z.inside s.q = false)
    (hg : ∀ j < z.taus.length, 2 * scalar G s.q (ofInts (tauAt z j)) ≠ scalar G (ofInts (tauAt z j)) (ofInts (tauAt z j))) :
    scalar G (turn z s).q (turn z s).q < scalar G s.q s.q ∧ ∃ m : IPt, (∀ i, (turn z s).q i = s.q i - m i) ∧ ∀ i, (turn z s).tau i = s.tau i + m i := by
  have hex : ∃ j < z.taus.length, 0 < nhkl z s.q j := by
    by_contra hc
    push Not at hc
    have : z.inside s.q = true := by
      apply hz.closer
      intro j hj
      have h1 := round_nonpos _ (hc j hj)
      rw [hz.ratio j hj, div_lt_iff₀ (hz.pos j hj)] at h1
      linarith
    rw [hout] at this
    exact absurd this (by simp)
  obtain ⟨h1, h2, h3⟩ := choose_spec z s hex
  have hturn : turn z s =
    { q := fun i => s.q i - tauAt z (choose z s).2 i * (choose z s).1
      tau := fun i => s.tau i + tauAt z (choose z s).2 i * (choose z s).1
      last := fun i => tauAt z (choose z s).2 i * (choose z s).1 } := by
    unfold turn
    rw [if_pos]
    rw [List.any_eq_true]
    obtain ⟨j, hj, hp⟩ := hex
    exact ⟨j, List.mem_range.mpr hj, by simpa using hp⟩
  refine ⟨?_, fun i => tauAt z (choose z s).2 i * (choose z s).1, fun i => by rw [hturn]; push_cast; rfl, fun i => by rw [hturn]⟩
  rw [hturn]
  dsimp only
  have hne := hg _ h1
  set n := (choose z s).1
  set j := (choose z s).2
  have hge := round_le (z.proj j s.q / z.len j) (by rw [h3] at h2; exact h2)
  have hn : Move.round (z.proj j s.q / z.len j) = n := h3.symm
  rw [hn, hz.ratio j h1, le_div_iff₀ (hz.pos j h1)] at hge
  have hn1 : (1 : ℚ) ≤ n := by exact_mod_cast h2
  have hpos := hz.pos j h1
  have key : scalar G (fun i => s.q i - tauAt z j i * n) (fun i => s.q i - tauAt z j i * n) =
      scalar G s.q s.q - n * (2 * scalar G s.q (ofInts (tauAt z j)) -
        n * scalar G (ofInts (tauAt z j)) (ofInts (tauAt z j))) := by
    unfold scalar ofInts
    rw [hz.symm 1 0, hz.symm 2 0, hz.symm 2 1]
    ring
  rw [key]
  have : 0 < 2 * scalar G s.q (ofInts (tauAt z j)) - n * scalar G (ofInts (tauAt z j)) (ofInts (tauAt z j)) := by
    rcases hn1.lt_or_eq with h | h
    · have : (2 : ℚ) ≤ n := by
        have : (1 : ℤ) < n := by exact_mod_cast h
        exact_mod_cast this
      nlinarith
    · rw [← h] at hge ⊢
      refine lt_of_le_of_ne (by nlinarith) fun e => hne (by linarith)
  nlinarith

/-- as long as the search stays outside, every turn brings it to a translate that is closer than all before -/
theorem iterate_strict (G : Fin 3 → Fin 3 → ℚ) (z : Zone) (hz : GoodZone G z) (Q : Pt) (hg : Generic G z Q) (k : Nat)
    (hout : ∀ i < k, z.inside ((turn z)^[i] (startOf Q)).q = false) :
    (∃ m : IPt, (∀ i, ((turn z)^[k] (startOf Q)).q i = (startOf Q).q i - m i) ∧ ∀ i, ((turn z)^[k] (startOf Q)).tau i = (startOf Q).tau i + m i) ∧
    ∀ i < k, scalar G ((turn z)^[k] (startOf Q)).q ((turn z)^[k] (startOf Q)).q <
      scalar G ((turn z)^[i] (startOf Q)).q ((turn z)^[i] (startOf Q)).q := by
  induction k with
  | zero => exact ⟨⟨0, fun i => by simp, fun i => by simp⟩, by omega⟩
  | succ k ih =>
    obtain ⟨⟨m, hm, ht⟩, hlt⟩ := ih fun i hi => hout i (by omega)
    have hq : ((turn z)^[k] (startOf Q)).q = fun i => Q i - (Move.round (Q i) + m i : ℤ) := by
      funext i
      rw [hm i]
      unfold startOf
      push_cast
      ring
    have := turn_strict G z hz ((turn z)^[k] (startOf Q)) (hout k (by omega))
      (fun j hj => by rw [hq]; exact hg (fun i => Move.round (Q i) + m i) j hj)
    obtain ⟨h1, m', hm', ht'⟩ := this
    rw [Function.iterate_succ_apply']
    refine ⟨⟨fun i => m i + m' i, fun i => ?_, fun i => ?_⟩, fun i hi => ?_⟩
    · rw [hm' i, hm i]; push_cast; ring
    · rw [ht' i, ht i]; ring
    · rcases Nat.lt_succ_iff_lt_or_eq.mp hi with h | h
      · exact h1.trans (hlt i h)
      · rw [h]; exact h1

/-- the number of turns outside is at most the number of lattice vectors closer to the start than the origin -/
theorem turns_le (G : Fin 3 → Fin 3 → ℚ) (z : Zone) (hz : GoodZone G z) (Q : Pt) (hg : Generic G z Q) (k : Nat)
    (hout : ∀ i < k, z.inside ((turn z)^[i] (startOf Q)).q = false) (S : Finset IPt) (hS : ∀ n, Closer G (startOf Q).q n → n ∈ S) :
    k ≤ S.card := by
  have hex : ∀ i : Fin k, ∃ m : IPt, (∀ l, ((turn z)^[i.1 + 1] (startOf Q)).q l = (startOf Q).q l - m l) := fun i => by
    obtain ⟨⟨m, hm, _⟩, _⟩ := iterate_strict G z hz Q hg (i.1 + 1) (fun l hl => hout l (by omega))
    exact ⟨m, hm⟩
  choose m hm using hex
  have hnorm : ∀ i : Fin k, scalar G (fun l => (startOf Q).q l - m i l) (fun l => (startOf Q).q l - m i l) =
      scalar G ((turn z)^[i.1 + 1] (startOf Q)).q ((turn z)^[i.1 + 1] (startOf Q)).q := fun i => by
    have : ((turn z)^[i.1 + 1] (startOf Q)).q = fun l => (startOf Q).q l - m i l := funext (hm i)
    rw [this]
  have hmem : ∀ i : Fin k, m i ∈ S := fun i => by
    apply hS
    unfold Closer
    rw [hnorm i]
    exact (iterate_strict G z hz Q hg (i.1 + 1) (fun l hl => hout l (by omega))).2 0 (by omega)
  have hinj : Function.Injective m := fun i j hij => by
    have e : scalar G ((turn z)^[i.1 + 1] (startOf Q)).q ((turn z)^[i.1 + 1] (startOf Q)).q =
        scalar G ((turn z)^[j.1 + 1] (startOf Q)).q ((turn z)^[j.1 + 1] (startOf Q)).q := by
      rw [← hnorm i, ← hnorm j, hij]
    rcases lt_trichotomy i.1 j.1 with h | h | h
    · have := (iterate_strict G z hz Q hg (j.1 + 1) (fun l hl => hout l (by omega))).2 (i.1 + 1) (by omega)
      rw [e] at this
      exact absurd this (lt_irrefl _)
    · exact Fin.ext h
    · have := (iterate_strict G z hz Q hg (i.1 + 1) (fun l hl => hout l (by omega))).2 (j.1 + 1) (by omega)
      rw [e] at this
      exact absurd this (lt_irrefl _)
  have := Finset.card_le_card_of_injOn (s := Finset.univ) (t := S) m (fun i _ => hmem i) (fun i _ j _ h => hinj h)
  simpa using this

/-- if the search has not ended inside, it has been outside after every one of its turns -/
theorem loop_outside (z : Zone) (n : Nat) (s : St) (h : z.inside (loop z n s).q = false) :
    ∀ i < n + 1, z.inside ((turn z)^[i] s).q = false := by
  obtain ⟨k, hk, he, ho, hin⟩ := loop_iterate z n s
  have : k = n := by
    by_contra hne
    have := hin (by omega)
    rw [← he, h] at this
    exact absurd this (by simp)
  subst this
  intro i hi
  rcases Nat.lt_succ_iff_lt_or_eq.mp hi with h' | h'
  · exact ho i h'
  · rw [h', ← he]; exact h

/-- **C84** (acceptance).  If no more lattice vectors than the zone has faces are closer to the rounded point than the origin,
and no translate of the point lies on a face plane, the search ends inside the zone. -/
theorem C84_accepts_partial (G : Fin 3 → Fin 3 → ℚ) (z : Zone) (hz : GoodZone G z) (Q : Pt) (hg : Generic G z Q)
    (S : Finset IPt) (hS : ∀ n, Closer G (fun i => Q i - Move.round (Q i)) n → n ∈ S) (hcard : S.card ≤ z.taus.length) :
    z.inside (movePrim z Q).1 = true := by
  rw [movePrim_eq]
  by_contra h
  have h' : z.inside (loop z z.taus.length (startOf Q)).q = false := by simpa using h
  have := turns_le G z hz Q hg _ (loop_outside z _ _ h') S hS
  omega

private def IsInt (x : ℚ) : Prop := ∃ k : ℤ, x = k

private theorem IsInt.add {x y : ℚ} (hx : IsInt x) (hy : IsInt y) : IsInt (x + y) := by
  obtain ⟨a, rfl⟩ := hx
  obtain ⟨b, rfl⟩ := hy
  exact ⟨a + b, by push_cast; rfl⟩

private theorem IsInt.sub {x y : ℚ} (hx : IsInt x) (hy : IsInt y) : IsInt (x - y) := by
  obtain ⟨a, rfl⟩ := hx
  obtain ⟨b, rfl⟩ := hy
  exact ⟨a - b, by push_cast; rfl⟩

private theorem IsInt.mul {x y : ℚ} (hx : IsInt x) (hy : IsInt y) : IsInt (x * y) := by
  obtain ⟨a, rfl⟩ := hx
  obtain ⟨b, rfl⟩ := hy
  exact ⟨a * b, by push_cast; rfl⟩

private theorem IsInt.den {ι : Type} [Fintype ι] [DecidableEq ι] (f : ι → ℚ) (i : ι) : IsInt ((∏ j, ((f j).den : ℚ)) * f i) := by
  rw [← Finset.prod_erase_mul _ _ (Finset.mem_univ i)]
  refine ⟨(∏ j ∈ Finset.univ.erase i, ((f j).den : ℤ)) * (f i).num, ?_⟩
  push_cast
  rw [mul_assoc]
  congr 1
  rw [mul_comm]
  exact Rat.mul_den_eq_num (f i)

/-- the squared lengths of the translates of a point have a common denominator -/
theorem scalar_denominator (G : Fin 3 → Fin 3 → ℚ) (Q : Pt) : ∃ D : ℚ, 0 < D ∧ ∀ n : IPt, ∃ k : ℤ,
    D * scalar G (fun i => Q i - n i) (fun i => Q i - n i) = k := by
  let g : ℚ := ∏ p : Fin 3 × Fin 3, ((G p.1 p.2).den : ℚ)
  let d : ℚ := ∏ i : Fin 3, ((Q i).den : ℚ)
  have hg : 0 < g := Finset.prod_pos fun p _ => by exact_mod_cast (G p.1 p.2).den_pos
  have hd : 0 < d := Finset.prod_pos fun p _ => by exact_mod_cast (Q p).den_pos
  have hdi : IsInt d := ⟨∏ i : Fin 3, ((Q i).den : ℤ), by push_cast; rfl⟩
  have hG : ∀ i j, IsInt (g * G i j) := fun i j => IsInt.den (fun p : Fin 3 × Fin 3 => G p.1 p.2) (i, j)
  have hQ : ∀ i, IsInt (d * Q i) := fun i => IsInt.den Q i
  refine ⟨g * d * d, by positivity, fun n => ?_⟩
  have hq : ∀ i, IsInt (d * (Q i - n i)) := fun i => by
    rw [mul_sub]
    exact (hQ i).sub (hdi.mul ⟨n i, rfl⟩)
  have hterm : ∀ i j, IsInt (g * G i j * (d * (Q i - n i)) * (d * (Q j - n j))) := fun i j => ((hG i j).mul (hq i)).mul (hq j)
  obtain ⟨k, hk⟩ := (((((((hterm 0 0).add (hterm 0 1)).add (hterm 0 2)).add (hterm 1 0)).add (hterm 1 1)).add (hterm 1 2)).add
    (((hterm 2 0).add (hterm 2 1)).add (hterm 2 2)))
  refine ⟨k, ?_⟩
  rw [← hk]
  unfold scalar
  ring

/-- **C84** (given time).  A search without a limit would end for every point that has no translate on a face plane. -/
theorem C84_ends (G : Fin 3 → Fin 3 → ℚ) (z : Zone) (hz : GoodZone G z) (hpsd : ∀ x : Pt, 0 ≤ scalar G x x)
    (Q : Pt) (hg : Generic G z Q) : ∃ m, ∀ m' ≥ m, z.inside (loop z m' (startOf Q)).q = true := by
  obtain ⟨D, hD, hint⟩ := scalar_denominator G Q
  have hnat : ∀ k, (∀ i < k, z.inside ((turn z)^[i] (startOf Q)).q = false) →
      ∃ a : ℕ, D * scalar G ((turn z)^[k] (startOf Q)).q ((turn z)^[k] (startOf Q)).q = a := by
    intro k hk
    obtain ⟨⟨m, hm, _⟩, _⟩ := iterate_strict G z hz Q hg k hk
    have hq : ((turn z)^[k] (startOf Q)).q = fun i => Q i - (Move.round (Q i) + m i : ℤ) := by
      funext i
      rw [hm i]
      unfold startOf
      push_cast
      ring
    obtain ⟨c, hc⟩ := hint (fun i => Move.round (Q i) + m i)
    rw [hq, hc]
    have : (0 : ℚ) ≤ c := by rw [← hc]; exact mul_nonneg hD.le (hpsd _)
    have h0 : 0 ≤ c := by exact_mod_cast this
    exact ⟨c.toNat, by rw [← Int.cast_natCast, Int.toNat_of_nonneg h0]⟩
  have hdec : ∀ k, (∀ i < k, z.inside ((turn z)^[i] (startOf Q)).q = false) → ∀ a : ℕ,
      D * scalar G ((turn z)^[k] (startOf Q)).q ((turn z)^[k] (startOf Q)).q = a →
      ∃ a0 : ℕ, D * scalar G (startOf Q).q (startOf Q).q = a0 ∧ a + k ≤ a0 := by
    intro k
    induction k with
    | zero => intro _ a ha; exact ⟨a, ha, by omega⟩
    | succ k ih =>
      intro hk a ha
      have hk' : ∀ i < k, z.inside ((turn z)^[i] (startOf Q)).q = false := fun i hi => hk i (by omega)
      obtain ⟨b, hb⟩ := hnat k hk'
      obtain ⟨a0, h0, hle⟩ := ih hk' b hb
      refine ⟨a0, h0, ?_⟩
      have := (iterate_strict G z hz Q hg (k + 1) hk).2 k (by omega)
      have : (a : ℚ) < b := by rw [← ha, ← hb]; exact mul_lt_mul_of_pos_left this hD
      have : a < b := by exact_mod_cast this
      omega
  obtain ⟨a0, h0⟩ := hnat 0 (by omega)
  refine ⟨a0, fun m' hm' => ?_⟩
  by_contra h
  have h' : z.inside (loop z m' (startOf Q)).q = false := by simpa using h
  have ho := loop_outside z _ _ h'
  obtain ⟨a, ha⟩ := hnat (m' + 1) ho
  obtain ⟨a1, h1, hle⟩ := hdec (m' + 1) ho a ha
  have h0' : D * scalar G (startOf Q).q (startOf Q).q = a0 := h0
  rw [h0'] at h1
  have : a0 = a1 := by exact_mod_cast h1
  omega

/-- If of any two opposite vectors at most one is listed, and every vector that can be closer is one of them or opposite to one,
then no more than their number are closer at the same time. -/
theorem accepts_of_reps (G : Fin 3 → Fin 3 → ℚ) (z : Zone) (hz : GoodZone G z) (hpsd : ∀ x : Pt, 0 ≤ scalar G x x)
    (R : Finset IPt) (hR : ∀ q : Pt, (∀ i, |q i| ≤ 1 / 2) → ∀ n, Closer G q n → n ∈ R ∨ (fun i => -n i) ∈ R)
    (hcard : R.card ≤ z.taus.length) (Q : Pt) (hg : Generic G z Q) : z.inside (movePrim z Q).1 = true := by
  classical
  set q : Pt := fun i => Q i - Move.round (Q i) with hq
  refine C84_accepts_partial G z hz Q hg (R.image fun v => if Closer G q v then v else fun i => -v i) (fun n hn => ?_)
    (Finset.card_image_le.trans hcard)
  rw [Finset.mem_image]
  rcases hR q (fun i => round_box (Q i)) n hn with h | h
  · exact ⟨n, h, if_pos hn⟩
  · refine ⟨_, h, ?_⟩
    rw [if_neg]
    · funext i; simp
    · intro h'
      have hn' : Closer G q n := hn
      unfold Closer at h' hn'
      have h0 := hpsd (ofInts n)
      have e : scalar G (fun i => q i - n i) (fun i => q i - n i) + scalar G (fun i => q i - ((fun i => -n i : IPt) i : ℤ)) (fun i => q i - ((fun i => -n i : IPt) i : ℤ)) =
          2 * scalar G q q + 2 * scalar G (ofInts n) (ofInts n) := by
        unfold scalar ofInts
        push_cast
        ring
      linarith

/-- the metric of a lattice whose three basis vectors are equally long and make equal angles: the simple, face-centred and
body-centred cubic lattices and the rhombohedral ones, in their primitive basis -/
def rhombMetric (a h : ℚ) : Fin 3 → Fin 3 → ℚ := fun i j => if i = j then a else h

theorem rhomb_psd (a h : ℚ) (h1 : -a ≤ 2 * h) (h2 : h ≤ a) (x : Pt) : 0 ≤ scalar (rhombMetric a h) x x := by
  unfold scalar rhombMetric
  simp only [Fin.isValue, reduceIte, zero_ne_one, one_ne_zero, Fin.reduceEq]
  rcases le_total 0 h with hh | hh
  · nlinarith [mul_nonneg (sub_nonneg.mpr h2) (sq_nonneg (x 0)), mul_nonneg (sub_nonneg.mpr h2) (sq_nonneg (x 1)),
      mul_nonneg (sub_nonneg.mpr h2) (sq_nonneg (x 2)), mul_nonneg hh (sq_nonneg (x 0 + x 1 + x 2))]
  · have h3 : 0 ≤ a + 2 * h := by linarith
    have h4 : 0 ≤ -h := by linarith
    nlinarith [mul_nonneg h3 (sq_nonneg (x 0)), mul_nonneg h3 (sq_nonneg (x 1)), mul_nonneg h3 (sq_nonneg (x 2)),
      mul_nonneg h4 (sq_nonneg (x 0 - x 1)), mul_nonneg h4 (sq_nonneg (x 0 - x 2)), mul_nonneg h4 (sq_nonneg (x 1 - x 2))]

def rhombReps : Finset IPt := {![1, 0, 0], ![0, 1, 0], ![0, 0, 1], ![1, 1, 0], ![1, 0, 1], ![0, 1, 1]}

private theorem two_mul_le_abs {q : ℚ} (hq : |q| ≤ 1 / 2) (u : ℚ) : 2 * q * u ≤ |u| := by
  have h1 : 2 * q * u ≤ |2 * q * u| := le_abs_self _
  rw [abs_mul, abs_mul] at h1
  have h2 : |(2 : ℚ)| = 2 := by norm_num
  rw [h2] at h1
  nlinarith [abs_nonneg u]

private theorem sq_abs_ge (n : ℤ) : |(n : ℚ)| ≤ (n : ℚ) ^ 2 := by
  have : |n| ≤ n ^ 2 := by
    rw [← sq_abs]
    rcases eq_or_lt_of_le (abs_nonneg n) with h | h
    · rw [← h]; norm_num
    · nlinarith
  exact_mod_cast this

private theorem sq_abs_ge2 (n : ℤ) (h : 2 ≤ |n|) : |(n : ℚ)| + 2 ≤ (n : ℚ) ^ 2 := by
  have : |n| + 2 ≤ n ^ 2 := by
    rw [← sq_abs]
    nlinarith
  exact_mod_cast this

private theorem sq_abs_ge3 (n : ℤ) (h : 3 ≤ |n|) : |(n : ℚ)| + 6 ≤ (n : ℚ) ^ 2 := by
  have : |n| + 6 ≤ n ^ 2 := by
    rw [← sq_abs]
    nlinarith
  exact_mod_cast this

private theorem sq_three (n : ℤ) : 3 * |(n : ℚ)| ≤ (n : ℚ) ^ 2 + 2 := by
  have : 3 * |n| ≤ n ^ 2 + 2 := by
    rw [← sq_abs]
    have h0 := abs_nonneg n
    rcases lt_or_ge |n| 2 with h | h
    · interval_cases |n| <;> norm_num
    · nlinarith
  exact_mod_cast this

private theorem sq_two (n : ℤ) : 2 * |(n : ℚ)| ≤ (n : ℚ) ^ 2 + 1 := by
  rw [← sq_abs (n : ℚ)]
  nlinarith [sq_nonneg (|(n : ℚ)| - 1)]

private theorem rhomb_closer_ints (a h : ℚ) (q : Pt) (hq : ∀ i, |q i| ≤ 1 / 2) (n : IPt) (hn : Closer (rhombMetric a h) q n) :
    (a - h) * ((n 0 : ℚ) ^ 2 + (n 1 : ℚ) ^ 2 + (n 2 : ℚ) ^ 2) + h * ((n 0 + n 1 + n 2 : ℚ)) ^ 2 <
      |(a - h) * n 0 + h * (n 0 + n 1 + n 2)| + |(a - h) * n 1 + h * (n 0 + n 1 + n 2)| + |(a - h) * n 2 + h * (n 0 + n 1 + n 2)| := by
  have h0 := two_mul_le_abs (hq 0) ((a - h) * n 0 + h * (n 0 + n 1 + n 2))
  have h1 := two_mul_le_abs (hq 1) ((a - h) * n 1 + h * (n 0 + n 1 + n 2))
  have h2 := two_mul_le_abs (hq 2) ((a - h) * n 2 + h * (n 0 + n 1 + n 2))
  unfold Closer scalar rhombMetric at hn
  simp only [Fin.isValue, reduceIte, zero_ne_one, one_ne_zero, Fin.reduceEq] at hn
  nlinarith

theorem rhomb_small (a h : ℚ) (ha : 0 < a) (h1 : -a ≤ 3 * h) (h2 : 2 * h ≤ a) (q : Pt) (hq : ∀ i, |q i| ≤ 1 / 2) (n : IPt)
    (hn : Closer (rhombMetric a h) q n) : ∀ i, |n i| ≤ 2 := by
  rcases le_total 0 h with hh | hh
  · have hlt := rhomb_closer_ints a h q hq n hn
    have hah : 0 ≤ a - h := by linarith
    have hu : ∀ m s : ℚ, |(a - h) * m + h * s| ≤ (a - h) * |m| + h * |s| := fun m s => by
      refine (abs_add_le _ _).trans ?_
      rw [abs_mul, abs_mul, abs_of_nonneg hah, abs_of_nonneg hh]
    have k0 := hu (n 0) (n 0 + n 1 + n 2)
    have k1 := hu (n 1) (n 0 + n 1 + n 2)
    have k2 := hu (n 2) (n 0 + n 1 + n 2)
    have hs := sq_three (n 0 + n 1 + n 2)
    push_cast at hs
    have hs' := mul_le_mul_of_nonneg_left hs hh
    by_contra hc
    push Not at hc
    obtain ⟨i, hi⟩ := hc
    have g0 := mul_le_mul_of_nonneg_left (sq_abs_ge (n 0)) hah
    have g1 := mul_le_mul_of_nonneg_left (sq_abs_ge (n 1)) hah
    have g2 := mul_le_mul_of_nonneg_left (sq_abs_ge (n 2)) hah
    have gi := mul_le_mul_of_nonneg_left (sq_abs_ge2 (n i) hi.le) hah
    fin_cases i <;> simp only [Fin.zero_eta, Fin.mk_one, Fin.reduceFinMk] at gi <;> nlinarith
  · have hg : 0 ≤ -h := by linarith
    have hb : 0 ≤ a + 2 * h := by linarith
    have p0 := mul_le_mul_of_nonneg_left (two_mul_le_abs (hq 0) (n 0)) hb
    have p1 := mul_le_mul_of_nonneg_left (two_mul_le_abs (hq 1) (n 1)) hb
    have p2 := mul_le_mul_of_nonneg_left (two_mul_le_abs (hq 2) (n 2)) hb
    have pd : ∀ i j, (-h) * (2 * (q i - q j) * (n i - n j)) ≤ (-h) * (((n i - n j : ℤ) : ℚ) ^ 2 + 1) := fun i j => by
      refine mul_le_mul_of_nonneg_left ?_ hg
      have b1 := two_mul_le_abs (hq i) ((n i : ℚ) - n j)
      have b2 := two_mul_le_abs (q := -q j) (by rw [abs_neg]; exact hq j) ((n i : ℚ) - n j)
      have b3 := sq_two (n i - n j)
      push_cast at b3 ⊢
      nlinarith
    have d0 := pd 0 1
    have d1 := pd 0 2
    have d2 := pd 1 2
    push_cast at d0 d1 d2
    unfold Closer scalar rhombMetric at hn
    simp only [Fin.isValue, reduceIte, zero_ne_one, one_ne_zero, Fin.reduceEq] at hn
    have hlt : (a + 2 * h) * ((n 0 : ℚ) ^ 2 + (n 1 : ℚ) ^ 2 + (n 2 : ℚ) ^ 2) < (a + 2 * h) * (|(n 0 : ℚ)| + |(n 1 : ℚ)| + |(n 2 : ℚ)|) + 3 * (-h) := by
      nlinarith
    by_contra hc
    push Not at hc
    obtain ⟨i, hi⟩ := hc
    have g0 := mul_le_mul_of_nonneg_left (sq_abs_ge (n 0)) hb
    have g1 := mul_le_mul_of_nonneg_left (sq_abs_ge (n 1)) hb
    have g2 := mul_le_mul_of_nonneg_left (sq_abs_ge (n 2)) hb
    have gi := mul_le_mul_of_nonneg_left (sq_abs_ge3 (n i) hi) hb
    fin_cases i <;> simp only [Fin.zero_eta, Fin.mk_one, Fin.reduceFinMk] at gi <;> nlinarith

set_option maxHeartbeats 4000000 in
theorem rhomb_reps (a h : ℚ) (ha : 0 < a) (h1 : -a ≤ 3 * h) (h2 : 2 * h ≤ a) (q : Pt) (hq : ∀ i, |q i| ≤ 1 / 2) (n : IPt)
    (hn : Closer (rhombMetric a h) q n) : n ∈ rhombReps ∨ (fun i => -n i) ∈ rhombReps := by
  have hs := rhomb_small a h ha h1 h2 q hq n hn
  have hlt := rhomb_closer_ints a h q hq n hn
  have e : n = ![n 0, n 1, n 2] := by funext i; fin_cases i <;> rfl
  have s0 := abs_le.mp (hs 0)
  have s1 := abs_le.mp (hs 1)
  have s2 := abs_le.mp (hs 2)
  generalize n 0 = x at *
  generalize n 1 = y at *
  generalize n 2 = w at *
  rw [e]
  clear hs hn e
  obtain ⟨l0, u0⟩ := s0
  obtain ⟨l1, u1⟩ := s1
  obtain ⟨l2, u2⟩ := s2
  generalize k0 : (a - h) * (x : ℚ) + h * (x + y + w) = v0 at hlt
  generalize k1 : (a - h) * (y : ℚ) + h * (x + y + w) = v1 at hlt
  generalize k2 : (a - h) * (w : ℚ) + h * (x + y + w) = v2 at hlt
  interval_cases x <;> interval_cases y <;> interval_cases w <;>
    first
    | (left; decide)
    | (right; decide)
    | (exfalso
       push_cast at hlt k0 k1 k2
       rcases abs_choice v0 with j0 | j0 <;> rcases abs_choice v1 with j1 | j1 <;> rcases abs_choice v2 with j2 | j2 <;>
         rw [j0, j1, j2] at hlt <;> linarith)

/-- **C84** (rhombohedral and cubic lattices).  In the lattices with three equally long basis vectors at equal angles between
60° and about 109.5° (the simple, face-centred and body-centred cubic ones among them) every point that has no translate on a face
plane ends inside. -/
theorem C84_rhombohedral_partial (a h : ℚ) (ha : 0 < a) (h1 : -a ≤ 3 * h) (h2 : 2 * h ≤ a) (z : Zone)
    (hz : GoodZone (rhombMetric a h) z) (hfaces : 6 ≤ z.taus.length) (Q : Pt) (hg : Generic (rhombMetric a h) z Q) :
    z.inside (movePrim z Q).1 = true :=
  accepts_of_reps _ z hz (rhomb_psd a h (by linarith) (by linarith)) rhombReps (rhomb_reps a h ha h1 h2)
    (le_trans (by decide) hfaces) Q hg

/-- the metric of a lattice with one basis vector perpendicular to the other two -/
def prismMetric (a b h c : ℚ) : Fin 3 → Fin 3 → ℚ := ![![a, h, 0], ![h, b, 0], ![0, 0, c]]

private theorem plane_bound (a b k X Y : ℚ) (hk : 0 ≤ k) (ha : 2 * k ≤ a) (hb : 2 * k ≤ b) (hX : 1 ≤ X) (hY : 1 ≤ Y) :
    |a * X + k * Y| + |k * X + b * Y| ≤ a * X ^ 2 + 2 * k * X * Y + b * Y ^ 2 ∧
    |a * X - k * Y| + |-(k * X) + b * Y| ≤ a * X ^ 2 - 2 * k * X * Y + b * Y ^ 2 := by
  have p1 : 0 ≤ (a - 2 * k) * (X * (X - 1)) := mul_nonneg (by linarith) (mul_nonneg (by linarith) (by linarith))
  have p2 : 0 ≤ (b - 2 * k) * (Y * (Y - 1)) := mul_nonneg (by linarith) (mul_nonneg (by linarith) (by linarith))
  have p3 : 0 ≤ k * ((X - 1) * (Y - 1)) := mul_nonneg hk (mul_nonneg (by linarith) (by linarith))
  have p4 : 0 ≤ k * (X * (X - 1)) := mul_nonneg hk (mul_nonneg (by linarith) (by linarith))
  have p5 : 0 ≤ k * (Y * (Y - 1)) := mul_nonneg hk (mul_nonneg (by linarith) (by linarith))
  have p6 : 0 ≤ k * (X - Y) ^ 2 := mul_nonneg hk (sq_nonneg _)
  have p7 : 0 ≤ (a - 2 * k) * X := mul_nonneg (by linarith) (by linarith)
  have p8 : 0 ≤ (b - 2 * k) * Y := mul_nonneg (by linarith) (by linarith)
  have p9 : 0 ≤ k * (X - 1) := mul_nonneg hk (by linarith)
  have p10 : 0 ≤ k * (Y - 1) := mul_nonneg hk (by linarith)
  constructor
  · rw [abs_of_nonneg (by nlinarith), abs_of_nonneg (by nlinarith)]
    nlinarith
  · rcases abs_choice (a * X - k * Y) with e | e <;> rcases abs_choice (-(k * X) + b * Y) with e' | e' <;> rw [e, e']
    · nlinarith
    · nlinarith [mul_nonneg hk (sq_nonneg (2 * X - Y - 2)), mul_nonneg hk (sq_nonneg (Y - 1))]
    · nlinarith [mul_nonneg hk (sq_nonneg (2 * Y - X - 2)), mul_nonneg hk (sq_nonneg (X - 1))]
    · nlinarith

/-- in a plane with a reduced basis only the basis vectors and their opposites can be closer than the origin to a point of the
box around it -/
theorem plane_closer (a b h : ℚ) (ha : 0 < a) (hb : 0 < b) (h1 : 2 * |h| ≤ a) (h2 : 2 * |h| ≤ b) (q0 q1 : ℚ) (hq0 : |q0| ≤ 1 / 2)
    (hq1 : |q1| ≤ 1 / 2) (x y : ℤ) (hgain : 0 < 2 * (q0 * (a * x + h * y) + q1 * (h * x + b * y)) - (a * x ^ 2 + 2 * h * x * y + b * y ^ 2)) :
    (|x| = 1 ∧ y = 0) ∨ (x = 0 ∧ |y| = 1) := by
  have g0 := two_mul_le_abs hq0 (a * x + h * y)
  have g1 := two_mul_le_abs hq1 (h * x + b * y)
  have hlt : a * (x : ℚ) ^ 2 + 2 * h * x * y + b * (y : ℚ) ^ 2 < |a * x + h * y| + |h * x + b * y| := by nlinarith
  have hk := abs_nonneg h
  by_cases hy : y = 0
  · subst hy
    left
    refine ⟨?_, rfl⟩
    simp only [Int.cast_zero, mul_zero, add_zero, abs_mul, abs_of_pos ha] at hlt
    rcases lt_trichotomy |x| 1 with hx | hx | hx
    · have : x = 0 := abs_eq_zero.mp (by have := abs_nonneg x; omega)
      subst this
      simp at hlt
    · exact hx
    · have h2x : (2 : ℚ) ≤ |(x : ℚ)| := by
        have : 2 ≤ |x| := by omega
        exact_mod_cast this
      rw [← sq_abs (x : ℚ)] at hlt
      nlinarith [mul_nonneg (sub_nonneg.mpr h1) (abs_nonneg (x : ℚ)), mul_nonneg ha.le (mul_nonneg (abs_nonneg (x : ℚ)) (sub_nonneg.mpr h2x))]
  · by_cases hx : x = 0
    · subst hx
      right
      refine ⟨rfl, ?_⟩
      simp only [Int.cast_zero, mul_zero, zero_add, abs_mul, abs_of_pos hb] at hlt
      rcases lt_trichotomy |y| 1 with hx | hx | hx
      · exact absurd (abs_eq_zero.mp (by have := abs_nonneg y; omega)) hy
      · exact hx
      · have h2x : (2 : ℚ) ≤ |(y : ℚ)| := by
          have : 2 ≤ |y| := by omega
          exact_mod_cast this
        rw [← sq_abs (y : ℚ)] at hlt
        nlinarith [mul_nonneg (sub_nonneg.mpr h2) (abs_nonneg (y : ℚ)), mul_nonneg hb.le (mul_nonneg (abs_nonneg (y : ℚ)) (sub_nonneg.mpr h2x))]
    · exfalso
      have hX : (1 : ℚ) ≤ |(x : ℚ)| := by
        have : 1 ≤ |x| := Int.one_le_abs hx
        exact_mod_cast this
      have hY : (1 : ℚ) ≤ |(y : ℚ)| := by
        have : 1 ≤ |y| := Int.one_le_abs hy
        exact_mod_cast this
      obtain ⟨b1, b2⟩ := plane_bound a b |h| |(x : ℚ)| |(y : ℚ)| hk h1 h2 hX hY
      revert b1 b2 hlt
      generalize (x : ℚ) = u
      generalize (y : ℚ) = v
      intro hlt b1 b2
      rcases abs_choice h with e | e <;> rcases abs_choice u with e1 | e1 <;> rcases abs_choice v with e2 | e2 <;>
        rw [e, e1, e2] at b1 b2 <;> clear e e1 e2
      · nlinarith
      · have := b2
        rw [show a * u - h * -v = a * u + h * v by ring, show -(h * u) + b * -v = -(h * u + b * v) by ring, abs_neg] at this
        nlinarith
      · have := b2
        rw [show a * -u - h * v = -(a * u + h * v) by ring, show -(h * -u) + b * v = (h * u + b * v) by ring, abs_neg] at this
        nlinarith
      · have := b1
        rw [show a * -u + h * -v = -(a * u + h * v) by ring, show (h * -u) + b * -v = -(h * u + b * v) by ring, abs_neg, abs_neg] at this
        nlinarith
      · have := b2
        rw [show a * u - -h * v = a * u + h * v by ring, show -(-h * u) + b * v = (h * u + b * v) by ring] at this
        nlinarith
      · have := b1
        rw [show a * u + -h * -v = a * u + h * v by ring, show (-h * u) + b * -v = -(h * u + b * v) by ring, abs_neg] at this
        nlinarith
      · have := b1
        rw [show a * -u + -h * v = -(a * u + h * v) by ring, show (-h * -u) + b * v = (h * u + b * v) by ring, abs_neg] at this
        nlinarith
      · have := b2
        rw [show a * -u - -h * -v = -(a * u + h * v) by ring, show -(-h * -u) + b * -v = -(h * u + b * v) by ring, abs_neg, abs_neg] at this
        nlinarith

def prismReps : Finset IPt := {![1, 0, 0], ![0, 1, 0], ![1, 0, 1], ![1, 0, -1], ![0, 1, 1], ![0, 1, -1]}

theorem prism_reps (a b h : ℚ) (ha : 0 < a) (hb : 0 < b) (h1 : 2 * |h| ≤ a) (h2 : 2 * |h| ≤ b) (q : Pt) (hq : ∀ i, |q i| ≤ 1 / 2)
    (n : IPt) (hn : Closer (prismMetric a b h (a + b)) q n) : n ∈ prismReps ∨ (fun i => -n i) ∈ prismReps := by
  have e : n = ![n 0, n 1, n 2] := by funext i; fin_cases i <;> rfl
  unfold Closer scalar prismMetric at hn
  simp at hn
  have hz := two_mul_le_abs (hq 2) (n 2)
  have hz' : 2 * q 2 * n 2 - (n 2 : ℚ) ^ 2 ≤ 0 := by linarith [sq_abs_ge (n 2)]
  have hsum : 0 < (2 * (q 0 * (a * n 0 + h * n 1) + q 1 * (h * n 0 + b * n 1)) - (a * (n 0 : ℚ) ^ 2 + 2 * h * n 0 * n 1 + b * (n 1 : ℚ) ^ 2)) +
      (a + b) * (2 * q 2 * n 2 - (n 2 : ℚ) ^ 2) := by nlinarith
  have hgain : 0 < 2 * (q 0 * (a * n 0 + h * n 1) + q 1 * (h * n 0 + b * n 1)) - (a * (n 0 : ℚ) ^ 2 + 2 * h * n 0 * n 1 + b * (n 1 : ℚ) ^ 2) := by
    nlinarith [mul_nonneg (add_pos ha hb).le (neg_nonneg.mpr hz')]
  have hp := plane_closer a b h ha hb h1 h2 (q 0) (q 1) (hq 0) (hq 1) (n 0) (n 1) hgain
  have hn2 : |n 2| ≤ 1 := by
    by_contra hc
    have h3 := sq_abs_ge2 (n 2) (by omega)
    have hz2 : 2 * q 2 * n 2 - (n 2 : ℚ) ^ 2 ≤ -2 := by linarith
    have hz3 := mul_le_mul_of_nonneg_left hz2 (add_pos ha hb).le
    have g0 := two_mul_le_abs (hq 0) (a * n 0 + h * n 1)
    have g1 := two_mul_le_abs (hq 1) (h * n 0 + b * n 1)
    rcases hp with ⟨hx, hy⟩ | ⟨hx, hy⟩
    · have hx' : |(n 0 : ℚ)| = 1 := by exact_mod_cast hx
      have hsq : (n 0 : ℚ) ^ 2 = 1 := by rw [← sq_abs, hx']; norm_num
      simp only [hy, Int.cast_zero, mul_zero, add_zero, abs_mul, hx', abs_of_pos ha] at g0 g1
      simp only [hy, Int.cast_zero, hsq] at hsum
      nlinarith
    · have hx' : |(n 1 : ℚ)| = 1 := by exact_mod_cast hy
      have hsq : (n 1 : ℚ) ^ 2 = 1 := by rw [← sq_abs, hx']; norm_num
      simp only [hx, Int.cast_zero, mul_zero, zero_add, abs_mul, hx', abs_of_pos hb] at g0 g1
      simp only [hx, Int.cast_zero, hsq] at hsum
      nlinarith
  generalize n 0 = x at *
  generalize n 1 = y at *
  generalize n 2 = w at *
  rw [e]
  clear hn hz hz' hsum hgain
  have hw := abs_le.mp hn2
  obtain ⟨w1, w2⟩ := hw
  rcases hp with ⟨hx, rfl⟩ | ⟨rfl, hx⟩ <;> rcases (abs_eq (by norm_num : (0:ℤ) ≤ 1)).mp hx with rfl | rfl <;> interval_cases w <;>
    first
    | (left; decide)
    | (right; decide)

theorem prism_psd (a b h c : ℚ) (ha : 0 < a) (hc : 0 ≤ c) (h1 : 2 * |h| ≤ a) (h2 : 2 * |h| ≤ b) (x : Pt) :
    0 ≤ scalar (prismMetric a b h c) x x := by
  unfold scalar prismMetric
  simp
  have k := abs_nonneg h
  have : 0 ≤ (a - |h|) * x 0 ^ 2 := mul_nonneg (by linarith) (sq_nonneg _)
  have : 0 ≤ (b - |h|) * x 1 ^ 2 := mul_nonneg (by linarith) (sq_nonneg _)
  have : 0 ≤ c * x 2 ^ 2 := mul_nonneg hc (sq_nonneg _)
  have : 0 ≤ (|h| + h) * (x 0 + x 1) ^ 2 := mul_nonneg (by linarith [neg_abs_le h]) (sq_nonneg _)
  have : 0 ≤ (|h| - h) * (x 0 - x 1) ^ 2 := mul_nonneg (by linarith [le_abs_self h]) (sq_nonneg _)
  nlinarith

private theorem prism_scalar (a b h c : ℚ) (q : Pt) (t : IPt) (ht : t 2 = 0 ∨ (t 0 = 0 ∧ t 1 = 0)) :
    (t 2 = 0 ∧ ∀ c', scalar (prismMetric a b h c) q (ofInts t) = scalar (prismMetric a b h c') q (ofInts t)) ∨
    ((t 0 = 0 ∧ t 1 = 0) ∧ ∀ c', scalar (prismMetric a b h c') q (ofInts t) = c' * (q 2 * t 2)) := by
  rcases ht with h' | ⟨h1, h2⟩
  · left
    refine ⟨h', fun c' => ?_⟩
    simp [scalar, prismMetric, ofInts, h']
  · right
    refine ⟨⟨h1, h2⟩, fun c' => ?_⟩
    simp [scalar, prismMetric, ofInts, h1, h2]
    ring

/-- **C84** (one axis perpendicular to the others).  For monoclinic, orthorhombic, tetragonal and hexagonal primitive lattices,
described by the shortest basis of their plane, every point that has no translate on a face plane ends inside. -/
theorem C84_prism_partial (a b h c : ℚ) (ha : 0 < a) (hb : 0 < b) (hc : 0 < c) (h1 : 2 * |h| ≤ a) (h2 : 2 * |h| ≤ b) (z : Zone)
    (hz : GoodZone (prismMetric a b h c) z)
    (hshape : ∀ j < z.taus.length, tauAt z j 2 = 0 ∨ (tauAt z j 0 = 0 ∧ tauAt z j 1 = 0))
    (hfaces : 6 ≤ z.taus.length) (Q : Pt) (hg : Generic (prismMetric a b h c) z Q) :
    z.inside (movePrim z Q).1 = true := by
  have hab := add_pos ha hb
  have hz' : GoodZone (prismMetric a b h (a + b)) z :=
    { symm := fun i j => by fin_cases i <;> fin_cases j <;> rfl
      pos := fun j hj => by
        have hp := hz.pos j hj
        rcases hshape j hj with e | e
        · rcases prism_scalar a b h c (ofInts (tauAt z j)) (tauAt z j) (Or.inl e) with ⟨_, h'⟩ | ⟨_, h'⟩
          · rw [← h']; exact hp
          · rw [h', e] at hp; simp at hp
        · rcases prism_scalar a b h c (ofInts (tauAt z j)) (tauAt z j) (Or.inr e) with ⟨_, h'⟩ | ⟨_, h'⟩
          · rw [← h']; exact hp
          · rw [h'] at hp ⊢
            exact mul_pos hab (pos_of_mul_pos_right hp hc.le)
      ratio := fun j hj q => by
        rw [hz.ratio j hj q]
        rcases hshape j hj with e | e
        · have k : ∀ q', scalar (prismMetric a b h c) q' (ofInts (tauAt z j)) = scalar (prismMetric a b h (a + b)) q' (ofInts (tauAt z j)) := fun q' => by
            simp [scalar, prismMetric, ofInts, e]
          rw [k, k]
        · have k : ∀ q' c', scalar (prismMetric a b h c') q' (ofInts (tauAt z j)) = c' * (q' 2 * tauAt z j 2) := fun q' c' => by
            simp [scalar, prismMetric, ofInts, e.1, e.2]; ring
          rw [k, k, k, k, mul_div_mul_left _ _ hc.ne', mul_div_mul_left _ _ hab.ne']
      closer := fun q hq => by
        refine hz.closer q fun j hj => ?_
        have := hq j hj
        rcases hshape j hj with e | e
        · have k : ∀ q', scalar (prismMetric a b h c) q' (ofInts (tauAt z j)) = scalar (prismMetric a b h (a + b)) q' (ofInts (tauAt z j)) := fun q' => by
            simp [scalar, prismMetric, ofInts, e]
          rw [k, k]; exact this
        · have k : ∀ q' c', scalar (prismMetric a b h c') q' (ofInts (tauAt z j)) = c' * (q' 2 * tauAt z j 2) := fun q' c' => by
            simp [scalar, prismMetric, ofInts, e.1, e.2]; ring
          rw [k, k, ← mul_assoc, mul_comm 2, mul_assoc] at this ⊢
          exact mul_le_mul_of_nonneg_left (le_of_mul_le_mul_left this hab) hc.le }
  have hg' : Generic (prismMetric a b h (a + b)) z Q := fun n j hj => by
    have := hg n j hj
    rcases hshape j hj with e | e
    · have k : ∀ q', scalar (prismMetric a b h c) q' (ofInts (tauAt z j)) = scalar (prismMetric a b h (a + b)) q' (ofInts (tauAt z j)) := fun q' => by
        simp [scalar, prismMetric, ofInts, e]
      rw [k, k] at this; exact this
    · have k : ∀ q' c', scalar (prismMetric a b h c') q' (ofInts (tauAt z j)) = c' * (q' 2 * tauAt z j 2) := fun q' c' => by
        simp [scalar, prismMetric, ofInts, e.1, e.2]; ring
      rw [k, k, ← mul_assoc, mul_comm 2, mul_assoc] at this ⊢
      exact fun he => this (by rw [mul_left_cancel₀ hab.ne' he])
  exact accepts_of_reps _ z hz' (prism_psd a b h (a + b) ha hab.le h1 h2) prismReps (prism_reps a b h ha hb h1 h2)
    (le_trans (by decide) hfaces) Q hg'

/-- **C84** (orthogonal axes).  With three perpendicular axes every point is brought inside, by rounding alone. -/
theorem C84_orthogonal (a b c : ℚ) (ha : 0 < a) (hb : 0 < b) (hc : 0 < c) (z : Zone) (hz : GoodZone (prismMetric a b 0 c) z) (Q : Pt) :
    movePrim z Q = ((fun i => Q i - Move.round (Q i)), fun i => Move.round (Q i)) ∧ z.inside (movePrim z Q).1 = true := by
  have hin : z.inside (startOf Q).q = true := by
    refine hz.closer _ fun j hj => ?_
    have k0 := mul_le_mul_of_nonneg_left ((two_mul_le_abs (round_box (Q 0)) (tauAt z j 0)).trans (sq_abs_ge _)) ha.le
    have k1 := mul_le_mul_of_nonneg_left ((two_mul_le_abs (round_box (Q 1)) (tauAt z j 1)).trans (sq_abs_ge _)) hb.le
    have k2 := mul_le_mul_of_nonneg_left ((two_mul_le_abs (round_box (Q 2)) (tauAt z j 2)).trans (sq_abs_ge _)) hc.le
    simp [scalar, prismMetric, ofInts, startOf]
    nlinarith
  have hl : ∀ n, loop z n (startOf Q) = startOf Q := fun n => by
    cases n with
    | zero => rfl
    | succ n => simp [loop, hin]
  have e : movePrim z Q = ((loop z z.taus.length (startOf Q)).q, (loop z z.taus.length (startOf Q)).tau) := rfl
  rw [e, hl]
  exact ⟨rfl, hin⟩

/-- the two tests for being inside are the same test: `contains` in either setting is the zone's test of the primitive coordinates -/
structure SameTest (c : Centring) (z : Zone) (contains : OnLattice → Pt → Bool) : Prop where
  primitive : ∀ q, contains .primitive q = z.inside q
  standard : ∀ q on qp, toPrimitive (letter c) .standard .inverseAngstrom q = some (on, qp) → contains .standard q = z.inside qp

/-- **C84** (from the search to the function).  `moveinto` gives an answer in either setting wherever the search ends inside. -/
theorem C84_moveinto (c : Centring) (z : Zone) (contains : OnLattice → Pt → Bool) (hc : SameTest c z contains) (Q : Pt) :
    ((moveinto (letter c) z contains .primitive Q).isSome = true ↔ z.inside (movePrim z Q).1 = true) ∧
    ∃ on Qp, toPrimitive (letter c) .standard .inverseAngstrom Q = some (on, Qp) ∧
      ((moveinto (letter c) z contains .standard Q).isSome = true ↔ z.inside (movePrim z Qp).1 = true) := by
  constructor
  · unfold moveinto
    dsimp only
    rw [if_pos (Or.inl rfl), hc.primitive]
    by_cases h : z.inside (movePrim z Q).1 = true <;> simp [h]
  · obtain ⟨⟨on, Qp, hQp, hon, hback⟩, _⟩ := C19_roundtrip c .inverseAngstrom Q
    refine ⟨on, Qp, hQp, ?_⟩
    by_cases hP : doesNothing (letter c) = true
    · have hid : ∀ q : Pt, toPrimitive (letter c) .standard .inverseAngstrom q = some (.standard, q) := fun q => by
        simp [toPrimitive, hP]
      have hQ : Qp = Q := by
        rw [hid] at hQp
        exact (congrArg Prod.snd (Option.some.inj hQp)).symm
      subst hQ
      unfold moveinto
      dsimp only
      rw [if_pos (Or.inr ⟨rfl, hP⟩), hc.standard _ _ _ (hid _)]
      by_cases h : z.inside (movePrim z Qp).1 = true <;> simp [h]
    · have hcP : c ≠ .P := by rintro rfl; exact hP rfl
      rw [if_neg hcP] at hon
      subst hon
      obtain ⟨m, hm⟩ : ∃ m, getInvPt (letter c) = some m := by cases c <;> exact ⟨_, rfl⟩
      have hint : ∀ v, fromPrimitiveIntRecip (letter c) v = some (Mat.mulVec m v) := by
        intro v
        simp [fromPrimitiveIntRecip, hP, hm]
      obtain ⟨_, ⟨on', w, hw, hon', hback'⟩⟩ := C19_roundtrip c .inverseAngstrom (movePrim z Qp).1
      rw [if_neg hcP] at hon'
      subst hon'
      unfold moveinto
      dsimp only
      rw [if_neg (by simp [hP]), if_pos rfl, hQp]
      dsimp only
      rw [hw, hint]
      dsimp only
      rw [hc.standard _ _ _ hback']
      by_cases h : z.inside (movePrim z Qp).1 = true <;> simp [h]

/-- **C84** (rhombohedral and cubic lattices, for the function).  The statement above for `moveinto`, in the primitive setting and in the
conventional one, where the point's primitive coordinates count. -/
theorem C84_rhombohedral_moveinto_partial (c : Centring) (a h : ℚ) (ha : 0 < a) (h1 : -a ≤ 3 * h) (h2 : 2 * h ≤ a) (z : Zone)
    (hz : GoodZone (rhombMetric a h) z) (hfaces : 6 ≤ z.taus.length) (contains : OnLattice → Pt → Bool) (hc : SameTest c z contains) (Q : Pt) :
    (Generic (rhombMetric a h) z Q → ∃ r, moveinto (letter c) z contains .primitive Q = some r) ∧
    (∀ on Qp, toPrimitive (letter c) .standard .inverseAngstrom Q = some (on, Qp) → Generic (rhombMetric a h) z Qp →
      ∃ r, moveinto (letter c) z contains .standard Q = some r) := by
  obtain ⟨k1, on', Qp', hQ', k2⟩ := C84_moveinto c z contains hc Q
  refine ⟨fun hg => Option.isSome_iff_exists.mp (k1.mpr (C84_rhombohedral_partial a h ha h1 h2 z hz hfaces Q hg)), fun on Qp hQ hg => ?_⟩
  rw [hQ'] at hQ
  have e : Qp' = Qp := congrArg Prod.snd (Option.some.inj hQ)
  subst e
  exact Option.isSome_iff_exists.mp (k2.mpr (C84_rhombohedral_partial a h ha h1 h2 z hz hfaces Qp' hg))

/-- the zone with the given faces: the points at least as close to the origin as to each of their lattice vectors -/
def zoneOf (G : Fin 3 → Fin 3 → ℚ) (taus : List IPt) (len : List ℚ) : Zone where
  taus := taus
  proj j q := scalar G q (ofInts (taus.getD j 0)) / len.getD j 1
  len j := len.getD j 1
  inside q := taus.all fun t => decide (2 * scalar G q (ofInts t) ≤ scalar G (ofInts t) (ofInts t))

theorem zoneOf_good (G : Fin 3 → Fin 3 → ℚ) (taus : List IPt) (len : List ℚ) (hsymm : ∀ i j, G i j = G j i)
    (hpos : ∀ j < taus.length, 0 < len.getD j 1)
    (hlen : ∀ j < taus.length, scalar G (ofInts (taus.getD j 0)) (ofInts (taus.getD j 0)) = len.getD j 1 * len.getD j 1) :
    GoodZone G (zoneOf G taus len) where
  symm := hsymm
  pos j hj := by
    show 0 < scalar G (ofInts (taus.getD j 0)) (ofInts (taus.getD j 0))
    rw [hlen j hj]
    exact mul_pos (hpos j hj) (hpos j hj)
  ratio j hj q := by
    show scalar G q (ofInts (taus.getD j 0)) / len.getD j 1 / len.getD j 1 =
      scalar G q (ofInts (taus.getD j 0)) / scalar G (ofInts (taus.getD j 0)) (ofInts (taus.getD j 0))
    rw [hlen j hj, div_div]
  closer q h := by
    show (taus.all fun t => decide (2 * scalar G q (ofInts t) ≤ scalar G (ofInts t) (ofInts t))) = true
    rw [List.all_eq_true]
    intro t ht
    obtain ⟨j, hj, e⟩ := List.getElem_of_mem ht
    have := h j hj
    have e' : tauAt (zoneOf G taus len) j = t := by
      show taus.getD j 0 = t
      simp [List.getD_eq_getElem?_getD, hj, e]
    rw [e'] at this
    simpa using this

/-- the face-centred cubic lattice of vectors with twelve nearest neighbours at distance 2 -/
def fccZone : Zone := zoneOf (rhombMetric 4 2)
  [![1, 0, 0], ![-1, 0, 0], ![0, 1, 0], ![0, -1, 0], ![0, 0, 1], ![0, 0, -1], ![1, -1, 0], ![-1, 1, 0], ![1, 0, -1], ![-1, 0, 1], ![0, 1, -1],
    ![0, -1, 1]] [2, 2, 2, 2, 2, 2, 2, 2, 2, 2, 2, 2]

theorem fccZone_good : GoodZone (rhombMetric 4 2) fccZone := by
  refine zoneOf_good _ _ _ (by decide +kernel) (by decide +kernel) (by decide +kernel)

/-- the hexagonal lattice with sides 2 and 3 -/
def hexZone : Zone := zoneOf (prismMetric 4 4 2 9)
  [![1, 0, 0], ![-1, 0, 0], ![0, 1, 0], ![0, -1, 0], ![1, -1, 0], ![-1, 1, 0], ![0, 0, 1], ![0, 0, -1]] [2, 2, 2, 2, 2, 2, 3, 3]

theorem hexZone_good : GoodZone (prismMetric 4 4 2 9) hexZone := by
  refine zoneOf_good _ _ _ (by decide +kernel) (by decide +kernel) (by decide +kernel)

/-- a point of the face-centred cubic lattice that meets the conditions and needs turns of the loop -/
example : Generic (rhombMetric 4 2) fccZone ![49/100, 47/100, 43/100] ∧ fccZone.inside (startOf ![49/100, 47/100, 43/100]).q = false ∧
    fccZone.inside (movePrim fccZone ![49/100, 47/100, 43/100]).1 = true := by
  refine ⟨fun n j hj => ?_, by decide +kernel, ?_⟩
  · have hj' : j < 12 := hj
    intro he
    have key : ∀ m : ℤ, 100 * (m : ℚ) = ((100 * m : ℤ) : ℚ) := fun m => by push_cast; rfl
    interval_cases j <;> simp [scalar, rhombMetric, ofInts, tauAt, fccZone, zoneOf] at he
    all_goals
      field_simp at he
      ring_nf at he
      norm_cast at he
      omega
  · decide +kernel

/-- the hexagonal lattice likewise -/
example : Generic (prismMetric 4 4 2 9) hexZone ![49/100, 47/100, 43/100] ∧ hexZone.inside (startOf ![49/100, 47/100, 43/100]).q = false ∧
    hexZone.inside (movePrim hexZone ![49/100, 47/100, 43/100]).1 = true ∧
    ∀ j < hexZone.taus.length, tauAt hexZone j 2 = 0 ∨ (tauAt hexZone j 0 = 0 ∧ tauAt hexZone j 1 = 0) := by
  refine ⟨fun n j hj => ?_, by decide +kernel, by decide +kernel, by decide +kernel⟩
  have hj' : j < 8 := hj
  intro he
  interval_cases j <;> simp [scalar, prismMetric, ofInts, tauAt, hexZone, zoneOf] at he
  all_goals
    field_simp at he
    ring_nf at he
    norm_cast at he
    omega

/-- a test in the conventional setting that agrees with the zone's own -/
example : SameTest .I fccZone fun on q => match on with
    | .primitive => fccZone.inside q
    | .standard => ((toPrimitive (letter .I) .standard .inverseAngstrom q).map fun r => fccZone.inside r.2).getD false
    | .other => false where
  primitive q := rfl
  standard q on qp h := by simp [h]

theorem iterate_periodic {α : Type} (f : α → α) (s : α) (p : Nat) (hp : 0 < p) (he : f^[p] s = s) (P : α → Prop)
    (h : ∀ i < p, P (f^[i] s)) (i : Nat) : P (f^[i] s) := by
  have : f^[i] s = f^[i % p] s := by
    conv_lhs => rw [← Nat.mod_add_div i p]
    rw [Function.iterate_add_apply, Function.iterate_mul]
    congr 1
    exact Function.iterate_fixed he _
  rw [this]
  exact h _ (Nat.mod_lt _ hp)

/-- an orthorhombic lattice with sides 1, 2 and 3, described by the vectors `a`, `a + b` and `c` -/
def orthoZone : Zone := zoneOf (prismMetric 1 5 1 9)
  [![-1, 0, 0], ![1, 0, 0], ![-1, 1, 0], ![1, -1, 0], ![0, 0, -1], ![0, 0, 1]] [1, 1, 2, 2, 3, 3]

theorem orthoZone_good : GoodZone (prismMetric 1 5 1 9) orthoZone := by
  refine zoneOf_good _ _ _ (by decide +kernel) (by decide +kernel) (by decide +kernel)

private theorem shift_sq (x : ℚ) (m : ℤ) (h : |x| ≤ 1 / 2) : x ^ 2 ≤ (x - m) ^ 2 := by
  have := (two_mul_le_abs h m).trans (sq_abs_ge m)
  nlinarith

/-- it is the first zone of the lattice -/
theorem orthoZone_nearest (q : Pt) : orthoZone.inside q = true ↔ Nearest (prismMetric 1 5 1 9) q := by
  constructor
  · intro h n
    simp [orthoZone, zoneOf, scalar, prismMetric, ofInts] at h
    have hu : |q 0 + q 1| ≤ 1 / 2 := by rw [abs_le]; constructor <;> linarith [h.1, h.2.1]
    have hv : |q 1| ≤ 1 / 2 := by rw [abs_le]; constructor <;> linarith [h.2.2.1, h.2.2.2.1]
    have hw : |q 2| ≤ 1 / 2 := by rw [abs_le]; constructor <;> linarith [h.2.2.2.2.1, h.2.2.2.2.2]
    have k0 := shift_sq _ (n 0 + n 1) hu
    have k1 := shift_sq _ (n 1) hv
    have k2 := shift_sq _ (n 2) hw
    push_cast at k0
    simp [scalar, prismMetric]
    nlinarith
  · intro h
    refine orthoZone_good.closer q fun j _ => ?_
    have := h (tauAt orthoZone j)
    have e : scalar (prismMetric 1 5 1 9) (fun i => q i - tauAt orthoZone j i) (fun i => q i - tauAt orthoZone j i) =
        scalar (prismMetric 1 5 1 9) q q - 2 * scalar (prismMetric 1 5 1 9) q (ofInts (tauAt orthoZone j)) +
          scalar (prismMetric 1 5 1 9) (ofInts (tauAt orthoZone j)) (ofInts (tauAt orthoZone j)) := by
      simp [scalar, prismMetric, ofInts]
      ring
    linarith

theorem turn_to (z : Zone) (s : St) (q : Pt) (tau last : IPt) (h : (turn z s).q = q ∧ (turn z s).tau = tau ∧ (turn z s).last = last) :
    turn z s = ⟨q, tau, last⟩ := by
  obtain ⟨rfl, rfl, rfl⟩ := h
  rfl

private theorem ortho_cycle (i : Nat) : orthoZone.inside ((turn orthoZone)^[i] ⟨![1/4, 1/2, -1/2], ![-1, -1, 0], ![0, 0, 1]⟩).q = false := by
  have t1 : turn orthoZone ⟨![1/4, 1/2, -1/2], ![-1, -1, 0], ![0, 0, 1]⟩ = ⟨![5/4, -1/2, -1/2], ![-2, 0, 0], ![-1, 1, 0]⟩ :=
    turn_to _ _ _ _ _ (by decide +kernel)
  have t2 : turn orthoZone ⟨![5/4, -1/2, -1/2], ![-2, 0, 0], ![-1, 1, 0]⟩ = ⟨![5/4, -1/2, 1/2], ![-2, 0, -1], ![0, 0, -1]⟩ :=
    turn_to _ _ _ _ _ (by decide +kernel)
  have t3 : turn orthoZone ⟨![5/4, -1/2, 1/2], ![-2, 0, -1], ![0, 0, -1]⟩ = ⟨![1/4, 1/2, 1/2], ![-1, -1, -1], ![1, -1, 0]⟩ :=
    turn_to _ _ _ _ _ (by decide +kernel)
  have t4 : turn orthoZone ⟨![1/4, 1/2, 1/2], ![-1, -1, -1], ![1, -1, 0]⟩ = ⟨![1/4, 1/2, -1/2], ![-1, -1, 0], ![0, 0, 1]⟩ :=
    turn_to _ _ _ _ _ (by decide +kernel)
  refine iterate_periodic (turn orthoZone) _ 4 (by norm_num) ?_ (fun s => orthoZone.inside s.q = false) ?_ i
  · show turn orthoZone (turn orthoZone (turn orthoZone (turn orthoZone _))) = _
    rw [t1, t2, t3, t4]
  · intro i hi
    interval_cases i
    · show orthoZone.inside ![1/4, 1/2, -1/2] = false
      decide +kernel
    · show orthoZone.inside (turn orthoZone _).q = false
      rw [t1]; decide +kernel
    · show orthoZone.inside (turn orthoZone (turn orthoZone _)).q = false
      rw [t1, t2]; decide +kernel
    · show orthoZone.inside (turn orthoZone (turn orthoZone (turn orthoZone _))).q = false
      rw [t1, t2, t3]; decide +kernel

private theorem ortho_start : startOf ![-3/4, -1/2, -1/2] = ⟨![1/4, 1/2, 1/2], ![-1, -1, -1], ![-1, -1, -1]⟩ := by
  have h : (startOf ![-3/4, -1/2, -1/2]).q = ![1/4, 1/2, 1/2] ∧ (startOf ![-3/4, -1/2, -1/2]).tau = ![-1, -1, -1] ∧
    (startOf ![-3/4, -1/2, -1/2]).last = ![-1, -1, -1] := by decide +kernel
  have e : startOf ![-3/4, -1/2, -1/2] = ⟨(startOf ![-3/4, -1/2, -1/2]).q, (startOf ![-3/4, -1/2, -1/2]).tau, (startOf ![-3/4, -1/2, -1/2]).last⟩ := rfl
  rw [e, h.1, h.2.1, h.2.2]

/-- **C84** is false in general: in an orthorhombic lattice described by a basis that is not the shortest one, the search goes round in
a circle from a point with translates on the zone's surface.  It would never end inside, however many turns were allowed, and `moveinto`
throws, although translates of the point are in the zone. -/
theorem C84_cycle_counterexample :
    GoodZone (prismMetric 1 5 1 9) orthoZone ∧ (∀ q, orthoZone.inside q = true ↔ Nearest (prismMetric 1 5 1 9) q) ∧
    orthoZone.inside ![1/4, -1/2, -1/2] = true ∧
    (∀ turns, orthoZone.inside (loop orthoZone turns (startOf ![-3/4, -1/2, -1/2])).q = false) ∧
    ∀ contains, (∀ on q, contains on q = orthoZone.inside q) → moveinto .P orthoZone contains .standard ![-3/4, -1/2, -1/2] = none := by
  have hall : ∀ i, orthoZone.inside ((turn orthoZone)^[i] (startOf ![-3/4, -1/2, -1/2])).q = false := fun i => by
    rw [ortho_start]
    cases i with
    | zero =>
      show orthoZone.inside ![1/4, 1/2, 1/2] = false
      decide +kernel
    | succ i =>
      have t0 : turn orthoZone ⟨![1/4, 1/2, 1/2], ![-1, -1, -1], ![-1, -1, -1]⟩ = ⟨![1/4, 1/2, -1/2], ![-1, -1, 0], ![0, 0, 1]⟩ :=
        turn_to _ _ _ _ _ (by decide +kernel)
      rw [Function.iterate_succ_apply, t0]
      exact ortho_cycle i
  have hloop : ∀ turns, orthoZone.inside (loop orthoZone turns (startOf ![-3/4, -1/2, -1/2])).q = false := fun turns => by
    obtain ⟨k, _, e, _, _⟩ := loop_iterate orthoZone turns (startOf ![-3/4, -1/2, -1/2])
    rw [e]
    exact hall k
  refine ⟨orthoZone_good, orthoZone_nearest, by decide +kernel, hloop, fun contains hc => ?_⟩
  unfold moveinto
  dsimp only
  rw [if_pos (Or.inr ⟨rfl, rfl⟩), hc, movePrim_eq, hloop]
  rfl

/-- the hexagonal lattice with sides 2 and 3, described by a long basis of its plane -/
def longZone : Zone := zoneOf (prismMetric 572916 63076 (-190098) 9)
  [![-72, -217, 0], ![72, 217, 0], ![73, 220, 0], ![-73, -220, 0], ![-145, -437, 0], ![145, 437, 0], ![0, 0, 1], ![0, 0, -1]]
  [2, 2, 2, 2, 2, 2, 3, 3]

theorem longZone_good : GoodZone (prismMetric 572916 63076 (-190098) 9) longZone := by
  refine zoneOf_good _ _ _ (by decide +kernel) (by decide +kernel) (by decide +kernel)

/-- the two bases are of the same lattice: each is expressed in the other by integers -/
theorem longZone_same_lattice (x : Pt) : ∀ q : Pt, (∀ i, q i = (![![220, -73, 0], ![217, -72, 0], ![0, 0, 1]] : Fin 3 → Fin 3 → ℚ) i 0 * x 0 +
      (![![220, -73, 0], ![217, -72, 0], ![0, 0, 1]] : Fin 3 → Fin 3 → ℚ) i 1 * x 1 + (![![220, -73, 0], ![217, -72, 0], ![0, 0, 1]] : Fin 3 → Fin 3 → ℚ) i 2 * x 2) →
    scalar (prismMetric 572916 63076 (-190098) 9) x x = scalar (prismMetric 4 4 2 9) q q ∧ (longZone.inside x = hexZone.inside q) := by
  intro q hq
  have h0 := hq 0
  have h1 := hq 1
  have h2 := hq 2
  simp at h0 h1 h2
  constructor
  · simp [scalar, prismMetric, h0, h1, h2]
    ring
  · rw [Bool.eq_iff_iff]
    simp [longZone, hexZone, zoneOf, scalar, prismMetric, ofInts, h0, h1, h2]
    constructor <;> intro h <;> refine ⟨?_, ?_, ?_, ?_, ?_, ?_, ?_, ?_⟩ <;> linarith [h.1, h.2.1, h.2.2.1, h.2.2.2.1, h.2.2.2.2.1, h.2.2.2.2.2.1, h.2.2.2.2.2.2.1, h.2.2.2.2.2.2.2]

private theorem long_start : startOf ![5/11, -5/11, 1/5] = ⟨![5/11, -5/11, 1/5], ![0, 0, 0], ![0, 0, 0]⟩ := by
  have h : (startOf ![5/11, -5/11, 1/5]).q = ![5/11, -5/11, 1/5] ∧ (startOf ![5/11, -5/11, 1/5]).tau = ![0, 0, 0] ∧
    (startOf ![5/11, -5/11, 1/5]).last = ![0, 0, 0] := by decide +kernel
  have e : startOf ![5/11, -5/11, 1/5] = ⟨(startOf ![5/11, -5/11, 1/5]).q, (startOf ![5/11, -5/11, 1/5]).tau, (startOf ![5/11, -5/11, 1/5]).last⟩ := rfl
  rw [e, h.1, h.2.1, h.2.2]

private theorem loop_next (z : Zone) (n : Nat) (s s' : St) (h : z.inside s.q = false) (ht : turn z s = s') : loop z (n + 1) s = loop z n s' := by
  rw [← ht]
  simp [loop, h]

/-- **C84** is false in general also for points that have no translate on the surface: the limit on the number of turns, the number of
faces, is too small if the basis is long.  Here one more turn would do. -/
theorem C84_limit_counterexample :
    GoodZone (prismMetric 572916 63076 (-190098) 9) longZone ∧ Generic (prismMetric 572916 63076 (-190098) 9) longZone ![5/11, -5/11, 1/5] ∧
    longZone.inside (loop longZone (longZone.taus.length + 1) (startOf ![5/11, -5/11, 1/5])).q = true ∧
    ∀ contains, (∀ on q, contains on q = longZone.inside q) → moveinto .P longZone contains .standard ![5/11, -5/11, 1/5] = none := by
  have t0 : turn longZone ⟨![5/11, -5/11, 1/5], ![0, 0, 0], ![0, 0, 0]⟩ = ⟨![157613/11, 475008/11, 1/5], ![-14328, -43183, 0], ![-14328, -43183, 0]⟩ := turn_to _ _ _ _ _ (by decide +kernel)
  have t1 : turn longZone ⟨![157613/11, 475008/11, 1/5], ![-14328, -43183, 0], ![-14328, -43183, 0]⟩ = ⟨![-292/11, -885/11, 1/5], ![27, 80, 0], ![14355, 43263, 0]⟩ := turn_to _ _ _ _ _ (by decide +kernel)
  have t2 : turn longZone ⟨![-292/11, -885/11, 1/5], ![27, 80, 0], ![14355, 43263, 0]⟩ = ⟨![38516/11, 116078/11, 1/5], ![-3501, -10553, 0], ![-3528, -10633, 0]⟩ := turn_to _ _ _ _ _ (by decide +kernel)
  have t3 : turn longZone ⟨![38516/11, 116078/11, 1/5], ![-3501, -10553, 0], ![-3528, -10633, 0]⟩ = ⟨![19244/11, 57998/11, 1/5], ![-1749, -5273, 0], ![1752, 5280, 0]⟩ := turn_to _ _ _ _ _ (by decide +kernel)
  have t4 : turn longZone ⟨![19244/11, 57998/11, 1/5], ![-1749, -5273, 0], ![1752, 5280, 0]⟩ = ⟨![104/11, 314/11, 1/5], ![-9, -29, 0], ![1740, 5244, 0]⟩ := turn_to _ _ _ _ _ (by decide +kernel)
  have t5 : turn longZone ⟨![104/11, 314/11, 1/5], ![-9, -29, 0], ![1740, 5244, 0]⟩ = ⟨![-4648/11, -14008/11, 1/5], ![423, 1273, 0], ![432, 1302, 0]⟩ := turn_to _ _ _ _ _ (by decide +kernel)
  have t6 : turn longZone ⟨![-4648/11, -14008/11, 1/5], ![423, 1273, 0], ![432, 1302, 0]⟩ = ⟨![137/11, 413/11, 1/5], ![-12, -38, 0], ![-435, -1311, 0]⟩ := turn_to _ _ _ _ _ (by decide +kernel)
  have t7 : turn longZone ⟨![137/11, 413/11, 1/5], ![-12, -38, 0], ![-435, -1311, 0]⟩ = ⟨![-655/11, -1974/11, 1/5], ![60, 179, 0], ![72, 217, 0]⟩ := turn_to _ _ _ _ _ (by decide +kernel)
  have t8 : turn longZone ⟨![-655/11, -1974/11, 1/5], ![60, 179, 0], ![72, 217, 0]⟩ = ⟨![148/11, 446/11, 1/5], ![-13, -41, 0], ![-73, -220, 0]⟩ := turn_to _ _ _ _ _ (by decide +kernel)
  have h8 : ∀ n, loop longZone (n + 8) (startOf ![5/11, -5/11, 1/5]) = loop longZone n ⟨![-655/11, -1974/11, 1/5], ![60, 179, 0], ![72, 217, 0]⟩ := fun n => by
    rw [long_start, loop_next _ (n + 7) _ _ (by decide +kernel) t0, loop_next _ (n + 6) _ _ (by decide +kernel) t1,
      loop_next _ (n + 5) _ _ (by decide +kernel) t2, loop_next _ (n + 4) _ _ (by decide +kernel) t3,
      loop_next _ (n + 3) _ _ (by decide +kernel) t4, loop_next _ (n + 2) _ _ (by decide +kernel) t5,
      loop_next _ (n + 1) _ _ (by decide +kernel) t6, loop_next _ n _ _ (by decide +kernel) t7]
  refine ⟨longZone_good, fun n j hj => ?_, ?_, fun contains hc => ?_⟩
  · have hj' : j < 8 := hj
    intro he
    interval_cases j <;> simp [scalar, prismMetric, ofInts, tauAt, longZone, zoneOf] at he
    all_goals
      field_simp at he
      ring_nf at he
      norm_cast at he
      omega
  · have hl : longZone.taus.length + 1 = 1 + 8 := rfl
    rw [hl, h8, loop_next _ 0 _ _ (by decide +kernel) t8]
    show longZone.inside ![148/11, 446/11, 1/5] = true
    decide +kernel
  · have hl : longZone.taus.length = 0 + 8 := rfl
    unfold moveinto
    dsimp only
    have hin : longZone.inside (movePrim longZone ![5/11, -5/11, 1/5]).1 = false := by
      rw [movePrim_eq, hl, h8]
      show longZone.inside ![-655/11, -1974/11, 1/5] = false
      decide +kernel
    rw [if_pos (Or.inr ⟨rfl, rfl⟩), hc, hin]
    rfl

end Brille.Props
