/-
What the certificate of a row of the table of space groups proves.
-/
import Verif.Proofs.HallTable

namespace Brille.Hall
open Brille.Mot Brille.Sym Brille.Spg Brille.Spec

theorem lift_inj {m n : Nat} (h : lift m = lift n) : m = n := by
  unfold lift at h
  split at h <;> split at h <;> omega

theorem W_inj {p q : Mo} (h : p.motion.W = q.motion.W) : p.rot = q.rot := by
  have e := fun i j => congrFun (congrFun h i) j
  have e00 : p.a = q.a := lift_inj (e 0 0)
  have e01 : p.b = q.b := lift_inj (e 0 1)
  have e02 : p.c = q.c := lift_inj (e 0 2)
  have e10 : p.d = q.d := lift_inj (e 1 0)
  have e11 : p.e = q.e := lift_inj (e 1 1)
  have e12 : p.f = q.f := lift_inj (e 1 2)
  have e20 : p.g = q.g := lift_inj (e 2 0)
  have e21 : p.h = q.h := lift_inj (e 2 1)
  have e22 : p.i = q.i := lift_inj (e 2 2)
  unfold Mo.rot
  rw [e00, e01, e02, e10, e11, e12, e20, e21, e22]

theorem rot_W (p : Mo) : p.rot.motion.W = p.motion.W := rfl

theorem one_W : Mo.one.motion.W = idMat := by funext i j; fin_cases i <;> fin_cases j <;> rfl

theorem rots_spec : ∀ (K acc : List Mo), acc.Nodup → (rots K acc).Nodup ∧
    ∀ p, p ∈ rots K acc ↔ p ∈ acc ∨ ∃ k ∈ K, k.rot = p := by
  intro K
  induction K with
  | nil => intro acc h; exact ⟨h, by simp [rots]⟩
  | cons k K ih =>
    intro acc h
    rw [rots]
    cases hm : mem k.rot acc with
    | true =>
      rw [mem_iff] at hm
      obtain ⟨h1, h2⟩ := ih acc h
      refine ⟨h1, fun p => ?_⟩
      rw [cond_true, h2]
      simp only [List.mem_cons, exists_eq_or_imp]
      constructor
      · rintro (h | h) <;> tauto
      · rintro (h | rfl | h) <;> tauto
    | false =>
      have hm' : k.rot ∉ acc := by rw [← mem_iff, hm]; simp
      obtain ⟨h1, h2⟩ := ih (k.rot :: acc) (List.nodup_cons.mpr ⟨hm', h⟩)
      refine ⟨h1, fun p => ?_⟩
      rw [cond_false, h2]
      simp only [List.mem_cons, exists_eq_or_imp]
      constructor
      · rintro ((rfl | h) | h) <;> tauto
      · rintro (h | rfl | h) <;> tauto

theorem rots_rot {K : List Mo} {p : Mo} (h : p ∈ rots K []) : p.rot = p := by
  rcases ((rots_spec K [] (by simp)).2 p).mp h with h | ⟨k, _, rfl⟩
  · simp at h
  · rfl

theorem rots_nodup (K : List Mo) : ((rots K []).map fun k => k.motion.W).Nodup := by
  have h := (rots_spec K [] (by simp)).1
  rw [List.nodup_iff_pairwise_ne] at h ⊢
  rw [List.pairwise_map]
  refine h.imp_of_mem ?_
  intro a b ha hb hab he
  exact hab (by rw [← rots_rot ha, ← rots_rot hb]; exact W_inj he)

theorem codes_mem : ∀ {l : List Motion} {cs : List Mo}, codes l = some cs →
    (∀ m ∈ l, ∃ c ∈ cs, encode m = some c) ∧ (∀ c ∈ cs, ∃ m ∈ l, encode m = some c) := by
  intro l
  induction l with
  | nil => intro cs h; rw [codes] at h; cases h; simp
  | cons m l ih =>
    intro cs h
    rw [codes] at h
    cases he : encode m with
    | none => rw [he] at h; cases h
    | some c =>
      rw [he] at h
      obtain ⟨cs', h', rfl⟩ := Option.map_eq_some_iff.mp h
      obtain ⟨h1, h2⟩ := ih h'
      constructor
      · intro x hx
        rcases List.mem_cons.mp hx with rfl | hx
        · exact ⟨c, by simp, he⟩
        · obtain ⟨y, hy, e⟩ := h1 x hx; exact ⟨y, List.mem_cons_of_mem _ hy, e⟩
      · intro x hx
        rcases List.mem_cons.mp hx with rfl | hx
        · exact ⟨m, by simp, he⟩
        · obtain ⟨y, hy, e⟩ := h2 x hx; exact ⟨y, List.mem_cons_of_mem _ hy, e⟩

/-- what is known of a row -/
structure RowFacts (r : Row) (h : Symbol) (ts : List (Fin 3 → ℚ)) (gs : List Motion) : Prop where
  decoded : fromAscii (bytes r.hallSymbol) = some h
  valid : h.validate = true
  gens : h.generators = some gs
  centring : centrings h.L = some ts
  grid : ∀ g ∈ gs, OnGrid 12 g
  closed : ClosedSet red (generate motionOps gs)
  fin : ∀ g ∈ gs, ∃ n, 0 < n ∧ red g ^ n = 1
  translations : ∀ m ∈ generate motionOps gs, m.W = idMat → ∃ t ∈ ts, SameModLattice t m.w
  translations' : ∀ t ∈ ts, ∃ m ∈ generate motionOps gs, m.W = idMat ∧ SameModLattice t m.w
  number : ∃ u, PG.uniqueRotations ((generate motionOps gs).map Motion.W) false = some u ∧
    PG.pointgroupNumber u = r.pointgroup ∧ certSnap h.L u = true

theorem facts {r : Row} (hc : cert r = true) : ∃ h ts gs, RowFacts r h ts gs := by
  unfold cert at hc
  cases hd : fromAscii (bytes r.hallSymbol) with
  | none => rw [hd] at hc; cases hc
  | some h =>
    rw [hd] at hc
    simp only [Bool.and_eq_true] at hc
    obtain ⟨hv, hc⟩ := hc
    split at hc
    swap
    · cases hc
    rename_i T gs hT hgs
    cases hcs : codes gs with
    | none => rw [hcs] at hc; cases hc
    | some cs =>
      rw [hcs] at hc
      dsimp only at hc
      cases hK : group [Mo.one] cs with
      | none => rw [hK] at hc; cases hc
      | some K =>
        rw [hK] at hc
        dsimp only at hc
        obtain ⟨hI, hS⟩ := group_spec hcs hK
        unfold certGroup at hc
        rw [Bool.and_eq_true, Bool.and_eq_true, List.all_eq_true, List.all_eq_true] at hc
        rw [Bool.and_eq_true] at hc
        obtain ⟨⟨c1, c2⟩, c3, c4⟩ := hc
        unfold centringCodes at hT
        cases hts : centrings h.L with
        | none => rw [hts] at hT; cases hT
        | some ts =>
          rw [hts] at hT
          dsimp only at hT
          obtain ⟨t1, t2⟩ := codes_mem hT
          have hKW : ∀ R, R ∈ (generate motionOps gs).map Motion.W ↔ R ∈ (rots K []).map fun k => k.motion.W := by
            intro R
            rw [List.mem_map, List.mem_map]
            constructor
            · rintro ⟨m, hm, rfl⟩
              obtain ⟨k, hk, he⟩ := List.mem_map.mp ((hI.same _).mp (List.mem_map_of_mem hm))
              refine ⟨k.rot, ((rots_spec K [] (by simp)).2 _).mpr (Or.inr ⟨k, hk, rfl⟩), ?_⟩
              exact ((red_eq_iff _ _).mp he).1
            · rintro ⟨p, hp, rfl⟩
              rcases ((rots_spec K [] (by simp)).2 p).mp hp with hp | ⟨k, hk, rfl⟩
              · simp at hp
              · obtain ⟨m, hm, he⟩ := List.mem_map.mp ((hI.same _).mpr (List.mem_map_of_mem hk))
                exact ⟨m, hm, ((red_eq_iff _ _).mp he).1⟩
          refine ⟨h, ts, gs, hd, hv, hgs, hts, hS, hI.closed, hI.fin, ?_, ?_, ?_⟩
          · intro m hm hW
            obtain ⟨k, hk, he⟩ := List.mem_map.mp ((hI.same _).mp (List.mem_map_of_mem hm))
            have hkW : k.motion.W = idMat := ((red_eq_iff _ _).mp he).1.trans hW
            have hk1 : k.rot.eq Mo.one = true := by
              rw [Mo.eq_iff, show Mo.one = Mo.one.rot from rfl]
              exact W_inj (hkW.trans one_W.symm)
            have := c1 k hk
            rw [hk1, cond_true, mem_iff] at this
            obtain ⟨x, hx, hex⟩ := t2 k this
            obtain ⟨t, ht, rfl⟩ := List.mem_map.mp hx
            refine ⟨t, ht, ?_⟩
            have : red m = red (⟨idMat, t⟩ : Motion) := by
              rw [← (encode_some hex).2.1]; exact he.symm
            exact ((red_eq_iff _ _).mp this).2
          · intro t ht
            obtain ⟨c, hc, hec⟩ := t1 ⟨idMat, t⟩ (List.mem_map_of_mem (f := fun t => (⟨idMat, t⟩ : Motion)) ht)
            have hcK := mem_iff.mp (c2 c hc)
            obtain ⟨m, hm, he⟩ := List.mem_map.mp ((hI.same _).mpr (List.mem_map_of_mem hcK))
            have : red m = red (⟨idMat, t⟩ : Motion) := by
              rw [← (encode_some hec).2.1]; exact he
            exact ⟨m, hm, ((red_eq_iff _ _).mp this).1, ((red_eq_iff _ _).mp this).2⟩
          · have hne : (generate motionOps gs).map Motion.W ≠ [] := by
              intro h0
              have h1 := generate_one (reads_motion (n := 12) (by norm_num) (by norm_num)) gs hS
              obtain ⟨m, hm, _⟩ := List.mem_map.mp h1
              have := List.mem_map_of_mem (f := Motion.W) hm
              rw [h0] at this
              simp at this
            obtain ⟨u, hu⟩ := PG.uniqueRotations_isSome false hne
            refine ⟨u, hu, ?_⟩
            obtain ⟨u1, u2⟩ := PG.uniqueRotations_some hu
            have hperm : u.Perm ((rots K []).map fun k => k.motion.W) := by
              rw [List.perm_ext_iff_of_nodup u1 (rots_nodup K)]
              intro R
              rw [u2, ← hKW]
              simp
            rw [PG.pointgroupNumber_perm hperm]
            refine ⟨Nat.eq_of_beq_eq_true c3, ?_⟩
            have hmem : ∀ R, R ∈ u ↔ R ∈ (rots K []).map fun k => k.motion.W := fun R => hperm.mem_iff
            unfold certSnap at c4 ⊢
            dsimp only at c4 ⊢
            have hmem' : ∀ R, R ∈ u.map Mat.transpose ↔
                R ∈ ((rots K []).map fun k => k.motion.W).map Mat.transpose := fun R => (hperm.map _).mem_iff
            rw [Snap.certS_congr hmem, Snap.certS_congr hmem']
            exact c4

theorem row_facts {j : Nat} (h1 : 1 ≤ j) (h2 : j ≤ 530) : ∃ h ts gs, RowFacts (row j) h ts gs :=
  facts (cert_all _ (rows_mem h1 h2))

theorem symmetry_eq {r : Row} {h ts gs} (hf : RowFacts r h ts gs) :
    spacegroupSymmetry r = some (generate motionOps gs) := by
  unfold spacegroupSymmetry
  rw [hf.decoded, Option.bind_some, hf.gens, Option.map_some]

/-- generators of finite order: inverses are products -/
theorem inverse_mem {gs : List Motion} (hS : ∀ g ∈ gs, OnGrid 12 g) (hc : ClosedSet red (generate motionOps gs))
    (hf : ∀ g ∈ gs, ∃ n, 0 < n ∧ red g ^ n = 1) {y : Reduced} (hy : y ∈ (generate motionOps gs).map red) :
    ∃ z ∈ (generate motionOps gs).map red, y * z = 1 := by
  have hr := reads_motion (n := 12) (by norm_num) (by norm_num)
  have h1 := generate_one hr gs hS
  have hpow : ∀ y ∈ (generate motionOps gs).map red, ∀ n, y ^ n ∈ (generate motionOps gs).map red := by
    intro y hy n
    induction n with
    | zero => simpa using h1
    | succ n ih => rw [pow_succ]; exact hc _ ih _ hy
  refine Submonoid.closure_induction (motive := fun y _ => ∃ z ∈ (generate motionOps gs).map red, y * z = 1) ?_ ?_ ?_
    (generate_closure hr hS y hy)
  · intro x hx
    obtain ⟨g, hg, rfl⟩ := List.mem_map.mp hx
    obtain ⟨n, hn, he⟩ := hf g hg
    refine ⟨red g ^ (n - 1), hpow _ (generate_gen hr hS hg (motion_order_pos g)) _, ?_⟩
    rw [← pow_succ', show n - 1 + 1 = n by omega, he]
  · exact ⟨1, h1, one_mul 1⟩
  · rintro x y _ _ ⟨a, ha, hxa⟩ ⟨b, hb, hyb⟩
    refine ⟨b * a, hc _ hb _ ha, ?_⟩
    rw [mul_assoc, ← mul_assoc y, hyb, one_mul, hxa]

end Brille.Hall
