/- Renumbering faces. -/
import Verif.Model.FaceEdit
import Verif.Spec.Polyhedron
import Verif.Props.Unique
import Verif.Props.Faces

namespace Brille.FaceEdit

open Brille.Faces

variable {α : Type}

/-- the number of points kept before `i` -/
def rank (keep : List Bool) (i : Nat) : Nat := (keep.take i).count true

theorem newIndex_get (m : Nat) : ∀ (keep : List Bool) (c i : Nat), keep[i]? = some true →
    (newIndex m c keep)[i]? = some (c + rank keep i)
  | [], c, i, h => by simp at h
  | true :: keep, c, 0, h => by simp [newIndex, rank]
  | true :: keep, c, i + 1, h => by
    have := newIndex_get m keep (c + 1) i (by simpa using h)
    simp only [newIndex, List.getElem?_cons_succ, this, rank, List.take_succ_cons, List.count_cons_self]
    congr 1
    omega
  | false :: keep, c, 0, h => by simp at h
  | false :: keep, c, i + 1, h => by
    have := newIndex_get m keep c i (by simpa using h)
    simp only [newIndex, List.getElem?_cons_succ, this, rank, List.take_succ_cons]
    simp

theorem newIndex_length (m : Nat) : ∀ (keep : List Bool) (c : Nat), (newIndex m c keep).length = keep.length
  | [], _ => rfl
  | true :: keep, c => by simp [newIndex, newIndex_length m keep]
  | false :: keep, c => by simp [newIndex, newIndex_length m keep]

theorem extract_cons (b : Bool) (keep : List Bool) (p : α) (points : List α) :
    extract (b :: keep) (p :: points) = if b then p :: extract keep points else extract keep points := by
  cases b <;> simp [extract]

theorem extract_get : ∀ (keep : List Bool) (points : List α) (i : Nat), keep.length = points.length →
    keep[i]? = some true → (extract keep points)[rank keep i]? = points[i]?
  | [], _, i, _, h => by simp at h
  | b :: keep, [], i, hl, _ => by simp at hl
  | b :: keep, p :: points, 0, hl, h => by
    have : b = true := by simpa using h
    subst this
    simp [extract_cons, rank]
  | b :: keep, p :: points, i + 1, hl, h => by
    have ih := extract_get keep points i (by simpa using hl) (by simpa using h)
    cases b with
    | true => simpa [extract_cons, rank, Nat.add_comm] using ih
    | false => simpa [extract_cons, rank] using ih

theorem extract_length : ∀ (keep : List Bool) (points : List α), keep.length = points.length →
    (extract keep points).length = keep.count true
  | [], [], _ => by simp [extract]
  | [], _ :: _, hl => by simp at hl
  | b :: keep, [], hl => by simp at hl
  | b :: keep, p :: points, hl => by
    have ih := extract_length keep points (by simpa using hl)
    cases b <;> simp [extract_cons, ih]

theorem extract_sublist : ∀ (keep : List Bool) (points : List α), (extract keep points).Sublist points
  | [], points => by simp [extract]
  | b :: keep, [] => by simp [extract]
  | b :: keep, p :: points => by
    rw [extract_cons]
    split
    · exact (extract_sublist keep points).cons_cons p
    · exact (extract_sublist keep points).cons p

/-- each kept place comes from a kept point -/
theorem extract_mem_rank : ∀ (keep : List Bool) (k : Nat), k < keep.count true →
    ∃ i, keep[i]? = some true ∧ rank keep i = k
  | [], k, h => by simp at h
  | true :: keep, 0, _ => ⟨0, by simp, by simp [rank]⟩
  | true :: keep, k + 1, h => by
    obtain ⟨i, h1, h2⟩ := extract_mem_rank keep k (by simpa using h)
    exact ⟨i + 1, by simpa using h1, by simpa [rank] using h2⟩
  | false :: keep, k, h => by
    obtain ⟨i, h1, h2⟩ := extract_mem_rank keep k (by simpa using h)
    exact ⟨i + 1, by simpa using h1, by simpa [rank] using h2⟩

theorem rank_lt (keep : List Bool) (i : Nat) (h : keep[i]? = some true) : rank keep i < keep.count true := by
  obtain ⟨hi, he⟩ := List.getElem?_eq_some_iff.mp h
  have : keep = keep.take i ++ true :: keep.drop (i + 1) := by
    conv_lhs => rw [← List.take_append_drop i keep, List.drop_eq_getElem_cons hi, he]
  rw [rank]
  conv_rhs => rw [this]
  simp

theorem onFace_get (n : Nat) (faces : List Face) (i : Nat) (hi : i < n) :
    (onFace n faces)[i]? = some (faces.any fun f => decide (i ∈ f)) := by
  simp [onFace, List.getElem?_range hi]

theorem onFace_true (n : Nat) (faces : List Face) (i : Nat) :
    (onFace n faces)[i]? = some true ↔ i < n ∧ ∃ f ∈ faces, i ∈ f := by
  by_cases hi : i < n
  · rw [onFace_get n faces i hi]
    simp [hi, List.any_eq_true]
  · have : (onFace n faces)[i]? = none := by
      rw [List.getElem?_eq_none]
      simpa [onFace] using hi
    simp [this, hi]

theorem onFace_length (n : Nat) (faces : List Face) : (onFace n faces).length = n := by simp [onFace]

theorem count_lt_iff (keep : List Bool) : keep.count true < keep.length ↔ false ∈ keep := by
  have h1 : keep.count true + keep.count false = keep.length := by
    induction keep with
    | nil => simp
    | cons b k ih => cases b <;> simp <;> omega
  rw [← List.count_pos_iff (a := false) (l := keep)]
  omega

/-- the loop over representatives -/
theorem renumber_spec (uni : List Bool) (u : List Nat) (hl : u.length = uni.length)
    (h1 : ∀ i r : Nat, u[i]? = some r → r ≤ i ∧ uni[r]? = some true)
    (h2 : ∀ i r : Nat, u[i]? = some r → (uni[i]? = some true ↔ r = i)) :
    ∀ (rest : List Bool) (j cnt : Nat) (index : List Nat), uni.drop j = rest → cnt = rank uni j → index.length = u.length →
      (∀ i < j, ∀ r : Nat, u[i]? = some r → index[i]? = some (rank uni r)) → (∀ i ≥ j, index[i]? = u[i]?) →
      ∀ i r : Nat, u[i]? = some r → (renumber rest j cnt index)[i]? = some (rank uni r)
  | [], j, cnt, index, hd, _, hil, hlt, _, i, r, hu => by
    have hj : uni.length ≤ j := List.drop_eq_nil_iff.mp hd
    have hi : i < u.length := (List.getElem?_eq_some_iff.mp hu).1
    exact hlt i (by omega) r hu
  | b :: rest, j, cnt, index, hd, hc, hil, hlt, hge, i, r, hu => by
    have hj : j < uni.length := by
      by_contra hc
      rw [List.drop_eq_nil_of_le (by omega)] at hd
      cases hd
    have hcons := List.drop_eq_getElem_cons hj
    rw [hd] at hcons
    obtain ⟨hb, hrest⟩ := List.cons.inj hcons
    have hjb : uni[j]? = some b := by rw [List.getElem?_eq_getElem hj, hb]
    have hrank : rank uni (j + 1) = rank uni j + if b then 1 else 0 := by
      unfold rank
      rw [List.take_add_one, List.getElem?_eq_getElem hj, ← hb]
      cases b <;> simp
    obtain ⟨rj, hrj⟩ : ∃ rj, u[j]? = some rj := ⟨u[j]'(by omega), List.getElem?_eq_getElem (by omega)⟩
    have hrj1 := h1 j rj hrj
    have hrj2 := h2 j rj hrj
    cases b with
    | true =>
      have e : rj = j := hrj2.mp hjb
      refine renumber_spec uni u hl h1 h2 rest (j + 1) (cnt + 1) _ hrest.symm (by simp [hrank, hc])
        (by simpa using hil) ?_ ?_ i r hu
      · intro i hi r hr
        by_cases hij : i = j
        · subst hij
          have : r = rj := by rw [hrj] at hr; exact (Option.some.inj hr).symm
          rw [List.getElem?_set_self (by omega), this, e, hc]
        · rw [List.getElem?_set_ne (by omega)]
          exact hlt i (by omega) r hr
      · intro i hi
        rw [List.getElem?_set_ne (by omega)]
        exact hge i (by omega)
    | false =>
      have e : rj ≠ j := fun h => by rw [hrj2.mpr h] at hjb; cases hjb
      have e2 : index.getD j 0 = rj := by
        rw [List.getD_eq_getElem?_getD, hge j (le_refl _), hrj]; rfl
      have huni : uni[rj]? = some true := hrj1.2
      obtain ⟨rr, hrr⟩ : ∃ rr, u[rj]? = some rr := ⟨u[rj]'(by omega), List.getElem?_eq_getElem (by omega)⟩
      have hrr2 : rr = rj := (h2 rj rr hrr).mp huni
      have e3 : index.getD rj 0 = rank uni rj := by
        rw [List.getD_eq_getElem?_getD, hlt rj (by omega) rr hrr, hrr2]; rfl
      refine renumber_spec uni u hl h1 h2 rest (j + 1) cnt _ hrest.symm (by simp [hrank, hc])
        (by simpa using hil) ?_ ?_ i r hu
      · intro i hi r hr
        by_cases hij : i = j
        · subst hij
          have : r = rj := by rw [hrj] at hr; exact (Option.some.inj hr).symm
          rw [List.getElem?_set_self (by omega), e2, e3, this]
        · rw [List.getElem?_set_ne (by omega)]
          exact hlt i (by omega) r hr
      · intro i hi
        rw [List.getElem?_set_ne (by omega)]
        exact hge i (by omega)

/-- for an equivalence, the flags of `is_unique` mark the representatives of `unique_idx` -/
theorem isUnique_iff (eq : α → α → Bool) (hrefl : ∀ x, eq x x = true)
    (htrans : ∀ x y z, eq x y = true → eq y z = true → eq x z = true) (points : List α) (i r : Nat)
    (hr : (Approx.uniqueIdx eq points)[i]? = some r) :
    (Approx.isUnique (fun x y => !eq x y) points)[i]? = some true ↔ r = i := by
  obtain ⟨u1, u2, u3⟩ := Props.C46_unique_idx eq hrefl points
  obtain ⟨l1, l2⟩ := Props.C46_is_unique (fun x y => !eq x y) points
  obtain ⟨hri, hrr, x, y, hx, hy, hxy⟩ := u2 i r hr
  rw [l2 i x hx]
  constructor
  · intro h
    by_contra hne
    have := h r y (by omega) hy
    simp [hxy] at this
  · rintro rfl j z hj hz
    simp only [Bool.not_eq_true', ← Bool.not_eq_true]
    intro hxz
    have hjl : j < (Approx.uniqueIdx eq points).length := by
      rw [u1]; exact (List.getElem?_eq_some_iff.mp hz).1
    obtain ⟨rj, hrj⟩ : ∃ rj, (Approx.uniqueIdx eq points)[j]? = some rj := ⟨_, List.getElem?_eq_getElem hjl⟩
    obtain ⟨a, b, z', w, hz', hw, hzw⟩ := u2 j rj hrj
    rw [hz] at hz'
    cases hz'
    have := u3 r rj x w hrr b (by omega) hx hw
    rw [htrans x z w hxz hzw] at this
    cases this

theorem removeDuplicates_index (eq : α → α → Bool) (hrefl : ∀ x, eq x x = true)
    (htrans : ∀ x y z, eq x y = true → eq y z = true → eq x z = true) (points : List α) (i : Nat)
    (hi : i < points.length) :
    ∃ p q k, points[i]? = some p ∧ eq p q = true ∧
      (renumber (Approx.isUnique (fun x y => !eq x y) points) 0 0 (Approx.uniqueIdx eq points))[i]? = some k ∧
      (extract (Approx.isUnique (fun x y => !eq x y) points) points)[k]? = some q := by
  obtain ⟨u1, u2, u3⟩ := Props.C46_unique_idx eq hrefl points
  obtain ⟨l1, l2⟩ := Props.C46_is_unique (fun x y => !eq x y) points
  obtain ⟨r, hr⟩ : ∃ r, (Approx.uniqueIdx eq points)[i]? = some r :=
    ⟨_, List.getElem?_eq_getElem (by rw [u1]; exact hi)⟩
  have h2 := fun i r hr => isUnique_iff eq hrefl htrans points i r hr
  have h1 : ∀ i r : Nat, (Approx.uniqueIdx eq points)[i]? = some r → r ≤ i ∧
      (Approx.isUnique (fun x y => !eq x y) points)[r]? = some true := by
    intro i r hr
    obtain ⟨a, b, _⟩ := u2 i r hr
    exact ⟨a, (h2 r r b).mpr rfl⟩
  have := renumber_spec _ _ (by rw [u1, l1]) h1 h2 _ 0 0 _ rfl (by simp [rank]) rfl (by simp) (by simp) i r hr
  obtain ⟨hri, hrr, x, y, hx, hy, hxy⟩ := u2 i r hr
  exact ⟨x, y, _, hx, hxy, this, by rw [extract_get _ _ r l1 (h1 i r hr).2, hy]⟩

theorem foldl_set_get (n : Nat) : ∀ (present : List Nat) (k : Nat) (idx : List Nat), present.Nodup → idx.length = n →
    (∀ x ∈ present, x < n) → ∀ j (hj : j < present.length),
    ((present.zipIdx k).foldl (fun indexes (x, kept) => indexes.set x kept) idx)[present[j]]? = some (k + j)
  | [], _, _, _, _, _, j, hj => by simp at hj
  | p :: ps, k, idx, hn, hl, hlt, j, hj => by
    have keepOld : ∀ (ps : List Nat) (k : Nat) (idx : List Nat) (x : Nat), x ∉ ps →
        ((ps.zipIdx k).foldl (fun indexes (x, kept) => indexes.set x kept) idx)[x]? = idx[x]? := by
      intro ps
      induction ps with
      | nil => intro k idx x _; rfl
      | cons q qs ih =>
        intro k idx x hx
        rw [List.zipIdx_cons, List.foldl_cons, ih _ _ _ (fun h => hx (by simp [h])),
          List.getElem?_set_ne (fun h => hx (by simp [h]))]
    rw [List.zipIdx_cons, List.foldl_cons]
    rw [List.nodup_cons] at hn
    cases j with
    | zero =>
      rw [List.getElem_cons_zero, keepOld ps (k + 1) _ p hn.1,
        List.getElem?_set_self (by rw [hl]; exact hlt p (by simp))]
      rfl
    | succ j =>
      rw [List.getElem_cons_succ, foldl_set_get n ps (k + 1) _ hn.2 (by simpa using hl)
        (fun x hx => hlt x (by simp [hx])) j (by simpa using hj)]
      congr 1
      omega

theorem insertionSort_pairwise_lt (l : List Nat) (h : l.Nodup) : (l.insertionSort (· ≤ ·)).Pairwise (· < ·) := by
  have h1 : (l.insertionSort (· ≤ ·)).Pairwise (· ≤ ·) := List.pairwise_insertionSort _ l
  have h2 : (l.insertionSort (· ≤ ·)).Nodup := ((List.perm_insertionSort _ l).nodup_iff).mpr h
  exact (h1.and h2).imp fun ⟨a, b⟩ => lt_of_le_of_ne a b

theorem rank_present (n : Nat) (present : List Nat) (hs : present.Pairwise (· < ·)) (j : Nat) (hj : j < present.length)
    (hlt : present[j] < n) :
    rank ((List.range n).map fun i => decide (i ∈ present)) present[j] = j := by
  have hnd : present.Nodup := hs.imp fun h => Nat.ne_of_lt h
  unfold rank
  rw [← List.map_take, List.take_range, min_eq_left (by omega), List.count_eq_countP, List.countP_map]
  have e : ((fun b : Bool => b == true) ∘ fun i => decide (i ∈ present)) = fun i => decide (i ∈ present) := by
    funext i; simp
  rw [e, List.countP_eq_length_filter]
  have hp : ((List.range present[j]).filter fun i => decide (i ∈ present)).Perm (present.take j) := by
    rw [List.perm_ext_iff_of_nodup (List.nodup_range.filter _) (hnd.sublist (List.take_sublist _ _))]
    intro i
    simp only [List.mem_filter, List.mem_range, decide_eq_true_eq]
    constructor
    · rintro ⟨h1, h2⟩
      obtain ⟨k, hk, rfl⟩ := List.getElem_of_mem h2
      rw [List.mem_take_iff_getElem]
      refine ⟨k, ?_, rfl⟩
      by_contra hc
      have hjk : j ≤ k := by omega
      rcases Nat.lt_or_ge j k with h | h
      · have := List.pairwise_iff_getElem.mp hs j k hj hk h
        omega
      · have : j = k := by omega
        subst this
        omega
    · intro h
      obtain ⟨k, hk, rfl⟩ := List.mem_take_iff_getElem.mp h
      exact ⟨List.pairwise_iff_getElem.mp hs k j (by omega) hj (by omega), List.getElem_mem _⟩
  rw [hp.length_eq, List.length_take]
  omega

end Brille.FaceEdit
