import Verif.Model.SetOps
import Verif.Lemmas.Sort
import Verif.Lemmas.Cumulative
/-!
# Lemmas: unique and set operations
-/

namespace Rumpy
open Spec

theorem collectValues_eq {v : View} (hw : v.WF) (rd : α → φ) (typed : Bool) (mem : Int → α) :
    collectValues rd typed mem v = (v.denote mem).toList.map rd := by
  have key : v.addrs.map (fun p => rd (mem p)) = (v.denote mem).toList.map rd := by
    rw [addrs_map hw]
    simp only [Nd.toList, List.map_map]
    rfl
  unfold collectValues
  split
  · rename_i h
    rw [Bool.and_eq_true] at h
    rw [← key, addrs_map hw, sizeOf_eq, ← map_rank_indices, List.map_map]
    apply List.map_congr_left
    intro idx hi
    rw [mem_indices] at hi
    simp only [Function.comp]
    show rd (mem _) = rd (mem (v.addr idx))
    rw [cFlag_addr hw h.1 hi]
  · exact key

/-! ### Sorted distinct values -/

theorem sortValues_sorted [LinearOrder φ] (l : List φ) : (sortValues l).Pairwise (· ≤ ·) :=
  List.pairwise_insertionSort _ _

theorem sortValues_mem [LinearOrder φ] {l : List φ} {x : φ} : x ∈ sortValues l ↔ x ∈ l :=
  List.mem_insertionSort _

theorem dedupRest_spec [LinearOrder φ] (same : φ → φ → Bool) :
    ∀ (l : List φ) (prev : φ), (∀ x ∈ prev :: l, ∀ y ∈ prev :: l, same x y = true ↔ x = y) →
      (prev :: l).Pairwise (· ≤ ·) →
      (prev :: dedupRest same prev l).Pairwise (· < ·) ∧ ∀ x, x ∈ prev :: dedupRest same prev l ↔ x ∈ prev :: l
  | [], prev, _, _ => by simp [dedupRest]
  | y :: ys, prev, hs, hp => by
    have hsub : ∀ x, x ∈ prev :: ys → x ∈ prev :: y :: ys := by
      intro x hx; simp only [List.mem_cons] at hx ⊢; tauto
    unfold dedupRest
    by_cases h : same y prev = true
    · have hyp : y = prev := (hs y (by simp) prev (by simp)).1 h
      rw [if_pos h]
      have := dedupRest_spec same ys prev (fun a ha b hb => hs a (hsub a ha) b (hsub b hb))
        (hp.sublist (by simp))
      refine ⟨this.1, fun x => (this.2 x).trans ?_⟩
      simp only [List.mem_cons, hyp]; tauto
    · have hyp : y ≠ prev := fun e => h ((hs y (by simp) prev (by simp)).2 e)
      rw [if_neg h]
      have hp' := List.pairwise_cons.1 hp
      have := dedupRest_spec same ys y (fun a ha b hb => hs a (List.mem_cons_of_mem _ ha) b (List.mem_cons_of_mem _ hb))
        hp'.2
      refine ⟨?_, fun x => ?_⟩
      · rw [List.pairwise_cons]
        refine ⟨?_, this.1⟩
        intro z hz
        have hz' := (this.2 z).1 hz
        have hle := (List.pairwise_cons.1 hp'.2).1
        have hy : prev < y := lt_of_le_of_ne (hp'.1 y (by simp)) (Ne.symm hyp)
        rcases List.mem_cons.1 hz' with rfl | hz'
        · exact hy
        · exact lt_of_lt_of_le hy (hle z hz')
      · rw [List.mem_cons, this.2 x, List.mem_cons (l := y :: ys)]

theorem dedupBy_spec [LinearOrder φ] (same : φ → φ → Bool) (l : List φ)
    (hs : ∀ x ∈ l, ∀ y ∈ l, same x y = true ↔ x = y) (hp : l.Pairwise (· ≤ ·)) :
    SortedSet (dedupBy same l) (· ∈ l) := by
  cases l with
  | nil => exact ⟨by simp [dedupBy], by simp [dedupBy]⟩
  | cons x xs => exact dedupRest_spec same xs x hs hp

theorem sortedUnique_spec [LinearOrder φ] (l : List φ) : SortedSet (sortedUnique l) (· ∈ l) := by
  have h := dedupBy_spec (fun a b : φ => a == b) (sortValues l) (fun x _ y _ => by simp) (sortValues_sorted l)
  exact ⟨h.1, fun x => (h.2 x).trans sortValues_mem⟩

/-! ### Merges -/

section Merge
variable [LinearOrder φ]

theorem intersectLoop_mem : ∀ (fuel : Nat) (xs ys : List φ), xs.length + ys.length ≤ fuel →
    xs.Pairwise (· < ·) → ys.Pairwise (· < ·) → ∀ z, z ∈ intersectLoop fuel xs ys ↔ z ∈ xs ∧ z ∈ ys
  | 0, xs, ys, h, _, _, z => by
    have : xs = [] := List.length_eq_zero_iff.1 (by omega)
    subst this; simp [intersectLoop]
  | fuel + 1, [], ys, _, _, _, z => by simp [intersectLoop]
  | fuel + 1, x :: xs, [], _, _, _, z => by simp [intersectLoop]
  | fuel + 1, x :: xs, y :: ys, h, hx, hy, z => by
    simp only [List.length_cons] at h
    have hx' := List.pairwise_cons.1 hx
    have hy' := List.pairwise_cons.1 hy
    unfold intersectLoop
    by_cases h1 : x < y
    · rw [if_pos h1, intersectLoop_mem fuel xs (y :: ys) (by simp; omega) hx'.2 hy]
      constructor
      · rintro ⟨a, b⟩; exact ⟨by simp [a], b⟩
      · rintro ⟨a, b⟩
        rcases List.mem_cons.1 a with rfl | a
        · rcases List.mem_cons.1 b with rfl | b
          · exact absurd h1 (lt_irrefl _)
          · exact absurd (h1.trans (hy'.1 _ b)) (lt_irrefl _)
        · exact ⟨a, b⟩
    · rw [if_neg h1]
      by_cases h2 : y < x
      · rw [if_pos h2, intersectLoop_mem fuel (x :: xs) ys (by simp; omega) hx hy'.2]
        constructor
        · rintro ⟨a, b⟩; exact ⟨a, by simp [b]⟩
        · rintro ⟨a, b⟩
          rcases List.mem_cons.1 b with rfl | b
          · rcases List.mem_cons.1 a with rfl | a
            · exact absurd h2 (lt_irrefl _)
            · exact absurd (h2.trans (hx'.1 _ a)) (lt_irrefl _)
          · exact ⟨a, b⟩
      · rw [if_neg h2]
        have he : x = y := le_antisymm (not_lt.1 h2) (not_lt.1 h1)
        subst he
        rw [List.mem_cons, intersectLoop_mem fuel xs ys (by omega) hx'.2 hy'.2]
        simp only [List.mem_cons]
        constructor
        · rintro (rfl | ⟨a, b⟩)
          · simp
          · exact ⟨Or.inr a, Or.inr b⟩
        · rintro ⟨rfl | a, b⟩
          · exact Or.inl rfl
          · rcases b with rfl | b
            · exact Or.inl rfl
            · exact Or.inr ⟨a, b⟩

theorem unionLoop_mem : ∀ (fuel : Nat) (xs ys : List φ) (z : φ), z ∈ unionLoop fuel xs ys ↔ z ∈ xs ∨ z ∈ ys
  | 0, xs, ys, z => by simp [unionLoop]
  | fuel + 1, [], ys, z => by simp [unionLoop]
  | fuel + 1, x :: xs, [], z => by simp [unionLoop]
  | fuel + 1, x :: xs, y :: ys, z => by
    unfold unionLoop
    by_cases h1 : x < y
    · rw [if_pos h1, List.mem_cons, unionLoop_mem fuel]
      simp only [List.mem_cons]; tauto
    · rw [if_neg h1]
      by_cases h2 : y < x
      · rw [if_pos h2, List.mem_cons, unionLoop_mem fuel]
        simp only [List.mem_cons]; tauto
      · rw [if_neg h2, List.mem_cons, unionLoop_mem fuel]
        have he : x = y := le_antisymm (not_lt.1 h2) (not_lt.1 h1)
        subst he
        simp only [List.mem_cons]; tauto

theorem diffLoop_mem : ∀ (fuel : Nat) (xs ys : List φ), xs.length + ys.length ≤ fuel →
    xs.Pairwise (· < ·) → ys.Pairwise (· < ·) → ∀ z, z ∈ diffLoop fuel xs ys ↔ z ∈ xs ∧ z ∉ ys
  | 0, xs, ys, h, _, _, z => by
    have : xs = [] := List.length_eq_zero_iff.1 (by omega)
    subst this; simp [diffLoop]
  | fuel + 1, [], ys, _, _, _, z => by simp [diffLoop]
  | fuel + 1, x :: xs, [], h, hx, hy, z => by
    simp only [List.length_cons] at h
    unfold diffLoop
    rw [List.mem_cons, diffLoop_mem fuel xs [] (by simp at h ⊢; omega) (List.pairwise_cons.1 hx).2 hy]
    simp
  | fuel + 1, x :: xs, y :: ys, h, hx, hy, z => by
    simp only [List.length_cons] at h
    have hx' := List.pairwise_cons.1 hx
    have hy' := List.pairwise_cons.1 hy
    unfold diffLoop
    by_cases h1 : x < y
    · rw [if_pos h1, List.mem_cons, diffLoop_mem fuel xs (y :: ys) (by simp; omega) hx'.2 hy]
      have hn : x ∉ y :: ys := by
        rw [List.mem_cons, not_or]
        exact ⟨h1.ne, fun hm => absurd (h1.trans (hy'.1 _ hm)) (lt_irrefl _)⟩
      constructor
      · rintro (rfl | ⟨a, b⟩)
        · exact ⟨by simp, hn⟩
        · exact ⟨by simp [a], b⟩
      · rintro ⟨a, b⟩
        rcases List.mem_cons.1 a with rfl | a
        · exact Or.inl rfl
        · exact Or.inr ⟨a, b⟩
    · rw [if_neg h1]
      by_cases h2 : y < x
      · rw [if_pos h2, diffLoop_mem fuel (x :: xs) ys (by simp; omega) hx hy'.2]
        have hn : y ∉ x :: xs := by
          rw [List.mem_cons, not_or]
          exact ⟨h2.ne, fun hm => absurd (h2.trans (hx'.1 _ hm)) (lt_irrefl _)⟩
        constructor
        · rintro ⟨a, b⟩
          refine ⟨a, ?_⟩
          rw [List.mem_cons, not_or]
          exact ⟨fun e => hn (e ▸ a), b⟩
        · rintro ⟨a, b⟩
          rw [List.mem_cons, not_or] at b
          exact ⟨a, b.2⟩
      · rw [if_neg h2]
        have he : x = y := le_antisymm (not_lt.1 h2) (not_lt.1 h1)
        subst he
        rw [diffLoop_mem fuel xs ys (by omega) hx'.2 hy'.2]
        constructor
        · rintro ⟨a, b⟩
          refine ⟨by simp [a], ?_⟩
          rw [List.mem_cons, not_or]
          exact ⟨fun e => absurd (hx'.1 _ a) (e ▸ lt_irrefl _), b⟩
        · rintro ⟨a, b⟩
          rw [List.mem_cons, not_or] at b
          exact ⟨(List.mem_cons.1 a).resolve_left b.1, b.2⟩

theorem xorLoop_mem : ∀ (fuel : Nat) (xs ys : List φ), xs.length + ys.length ≤ fuel →
    xs.Pairwise (· < ·) → ys.Pairwise (· < ·) →
    ∀ z, z ∈ xorLoop fuel xs ys ↔ (z ∈ xs ∧ z ∉ ys) ∨ (z ∉ xs ∧ z ∈ ys)
  | 0, xs, ys, h, _, _, z => by
    have h1 : xs = [] := List.length_eq_zero_iff.1 (by omega)
    have h2 : ys = [] := List.length_eq_zero_iff.1 (by omega)
    subst h1; subst h2; simp [xorLoop]
  | fuel + 1, [], ys, _, _, _, z => by simp [xorLoop]
  | fuel + 1, x :: xs, [], _, _, _, z => by simp [xorLoop]
  | fuel + 1, x :: xs, y :: ys, h, hx, hy, z => by
    simp only [List.length_cons] at h
    have hx' := List.pairwise_cons.1 hx
    have hy' := List.pairwise_cons.1 hy
    have hxx : x ∉ xs := fun hm => absurd (hx'.1 _ hm) (lt_irrefl _)
    have hyy : y ∉ ys := fun hm => absurd (hy'.1 _ hm) (lt_irrefl _)
    unfold xorLoop
    by_cases h1 : x < y
    · rw [if_pos h1, List.mem_cons, xorLoop_mem fuel xs (y :: ys) (by simp; omega) hx'.2 hy]
      have hn : x ∉ y :: ys := by
        rw [List.mem_cons, not_or]
        exact ⟨h1.ne, fun hm => absurd (h1.trans (hy'.1 _ hm)) (lt_irrefl _)⟩
      by_cases hz : z = x
      · subst hz; simp only [List.mem_cons, true_or, true_and] at hn ⊢; tauto
      · simp only [List.mem_cons, hz, false_or]
    · rw [if_neg h1]
      by_cases h2 : y < x
      · rw [if_pos h2, List.mem_cons, xorLoop_mem fuel (x :: xs) ys (by simp; omega) hx hy'.2]
        have hn : y ∉ x :: xs := by
          rw [List.mem_cons, not_or]
          exact ⟨h2.ne, fun hm => absurd (h2.trans (hx'.1 _ hm)) (lt_irrefl _)⟩
        by_cases hz : z = y
        · subst hz; simp only [List.mem_cons, true_or, true_and] at hn ⊢; tauto
        · simp only [List.mem_cons, hz, false_or]
      · rw [if_neg h2]
        have he : x = y := le_antisymm (not_lt.1 h2) (not_lt.1 h1)
        subst he
        rw [xorLoop_mem fuel xs ys (by omega) hx'.2 hy'.2]
        by_cases hz : z = x
        · subst hz; simp only [List.mem_cons, true_or, true_and]; tauto
        · simp only [List.mem_cons, hz, false_or]

/-- Sortedness of each merge follows from membership: everything produced later is larger. -/
theorem lt_of_mem_tails {x y : φ} {xs ys : List φ} (hx : (x :: xs).Pairwise (· < ·)) (hy : (y :: ys).Pairwise (· < ·))
    (h : x < y) {z : φ} (hz : z ∈ xs ∨ z ∈ y :: ys) : x < z := by
  rcases hz with hz | hz
  · exact (List.pairwise_cons.1 hx).1 z hz
  · rcases List.mem_cons.1 hz with rfl | hz
    · exact h
    · exact h.trans ((List.pairwise_cons.1 hy).1 z hz)

theorem intersectLoop_sorted : ∀ (fuel : Nat) (xs ys : List φ), xs.length + ys.length ≤ fuel →
    xs.Pairwise (· < ·) → ys.Pairwise (· < ·) → (intersectLoop fuel xs ys).Pairwise (· < ·)
  | 0, xs, ys, h, _, _ => by
    have : xs = [] := List.length_eq_zero_iff.1 (by omega)
    subst this; simp [intersectLoop]
  | fuel + 1, [], ys, _, _, _ => by simp [intersectLoop]
  | fuel + 1, x :: xs, [], _, _, _ => by simp [intersectLoop]
  | fuel + 1, x :: xs, y :: ys, h, hx, hy => by
    simp only [List.length_cons] at h
    have hx' := List.pairwise_cons.1 hx
    have hy' := List.pairwise_cons.1 hy
    unfold intersectLoop
    split
    · exact intersectLoop_sorted fuel _ _ (by simp; omega) hx'.2 hy
    · split
      · exact intersectLoop_sorted fuel _ _ (by simp; omega) hx hy'.2
      · rw [List.pairwise_cons]
        refine ⟨fun z hz => ?_, intersectLoop_sorted fuel _ _ (by omega) hx'.2 hy'.2⟩
        exact hx'.1 z ((intersectLoop_mem fuel xs ys (by omega) hx'.2 hy'.2 z).1 hz).1

theorem unionLoop_sorted : ∀ (fuel : Nat) (xs ys : List φ), xs.length + ys.length ≤ fuel →
    xs.Pairwise (· < ·) → ys.Pairwise (· < ·) → (unionLoop fuel xs ys).Pairwise (· < ·)
  | 0, xs, ys, h, _, hy => by
    have : xs = [] := List.length_eq_zero_iff.1 (by omega)
    subst this; simpa [unionLoop] using hy
  | fuel + 1, [], ys, _, _, hy => by simpa [unionLoop] using hy
  | fuel + 1, x :: xs, [], _, hx, _ => by simpa [unionLoop] using hx
  | fuel + 1, x :: xs, y :: ys, h, hx, hy => by
    simp only [List.length_cons] at h
    have hx' := List.pairwise_cons.1 hx
    have hy' := List.pairwise_cons.1 hy
    unfold unionLoop
    split
    · rename_i h1
      rw [List.pairwise_cons]
      refine ⟨fun z hz => lt_of_mem_tails hx hy h1 ((unionLoop_mem _ _ _ z).1 hz), ?_⟩
      exact unionLoop_sorted fuel _ _ (by simp; omega) hx'.2 hy
    · split
      · rename_i h2
        rw [List.pairwise_cons]
        refine ⟨fun z hz => lt_of_mem_tails hy hx h2 ((unionLoop_mem _ _ _ z).1 hz).symm, ?_⟩
        exact unionLoop_sorted fuel _ _ (by simp; omega) hx hy'.2
      · rename_i h1 h2
        have he : x = y := le_antisymm (not_lt.1 h2) (not_lt.1 h1)
        subst he
        rw [List.pairwise_cons]
        refine ⟨fun z hz => ?_, unionLoop_sorted fuel _ _ (by omega) hx'.2 hy'.2⟩
        rcases (unionLoop_mem _ _ _ z).1 hz with hz | hz
        · exact hx'.1 z hz
        · exact hy'.1 z hz

theorem diffLoop_sorted : ∀ (fuel : Nat) (xs ys : List φ), xs.length + ys.length ≤ fuel →
    xs.Pairwise (· < ·) → ys.Pairwise (· < ·) → (diffLoop fuel xs ys).Pairwise (· < ·)
  | 0, xs, ys, h, _, _ => by
    have : xs = [] := List.length_eq_zero_iff.1 (by omega)
    subst this; simp [diffLoop]
  | fuel + 1, [], ys, _, _, _ => by simp [diffLoop]
  | fuel + 1, x :: xs, [], h, hx, hy => by
    simp only [List.length_cons] at h
    have hx' := List.pairwise_cons.1 hx
    have hl : xs.length + ([] : List φ).length ≤ fuel := by simp at h ⊢; omega
    unfold diffLoop
    rw [List.pairwise_cons]
    exact ⟨fun z hz => hx'.1 z ((diffLoop_mem fuel xs [] hl hx'.2 hy z).1 hz).1, diffLoop_sorted fuel _ _ hl hx'.2 hy⟩
  | fuel + 1, x :: xs, y :: ys, h, hx, hy => by
    simp only [List.length_cons] at h
    have hx' := List.pairwise_cons.1 hx
    have hy' := List.pairwise_cons.1 hy
    have hl : xs.length + (y :: ys).length ≤ fuel := by simp; omega
    unfold diffLoop
    split
    · rw [List.pairwise_cons]
      exact ⟨fun z hz => hx'.1 z ((diffLoop_mem fuel xs _ hl hx'.2 hy z).1 hz).1, diffLoop_sorted fuel _ _ hl hx'.2 hy⟩
    · split
      · exact diffLoop_sorted fuel _ _ (by simp; omega) hx hy'.2
      · exact diffLoop_sorted fuel _ _ (by omega) hx'.2 hy'.2

theorem xorLoop_sorted : ∀ (fuel : Nat) (xs ys : List φ), xs.length + ys.length ≤ fuel →
    xs.Pairwise (· < ·) → ys.Pairwise (· < ·) → (xorLoop fuel xs ys).Pairwise (· < ·)
  | 0, xs, ys, h, _, hy => by
    have : xs = [] := List.length_eq_zero_iff.1 (by omega)
    subst this; simpa [xorLoop] using hy
  | fuel + 1, [], ys, _, _, hy => by simpa [xorLoop] using hy
  | fuel + 1, x :: xs, [], _, hx, _ => by simpa [xorLoop] using hx
  | fuel + 1, x :: xs, y :: ys, h, hx, hy => by
    simp only [List.length_cons] at h
    have hx' := List.pairwise_cons.1 hx
    have hy' := List.pairwise_cons.1 hy
    have hl : xs.length + (y :: ys).length ≤ fuel := by simp; omega
    have hl2 : (x :: xs).length + ys.length ≤ fuel := by simp; omega
    unfold xorLoop
    split
    · rename_i h1
      rw [List.pairwise_cons]
      refine ⟨fun z hz => lt_of_mem_tails hx hy h1 ?_, xorLoop_sorted fuel _ _ hl hx'.2 hy⟩
      rcases (xorLoop_mem fuel _ _ hl hx'.2 hy z).1 hz with hz | hz
      · exact Or.inl hz.1
      · exact Or.inr hz.2
    · split
      · rename_i h2
        rw [List.pairwise_cons]
        refine ⟨fun z hz => lt_of_mem_tails hy hx h2 ?_, xorLoop_sorted fuel _ _ hl2 hx hy'.2⟩
        rcases (xorLoop_mem fuel _ _ hl2 hx hy'.2 z).1 hz with hz | hz
        · exact Or.inr hz.1
        · exact Or.inl hz.2
      · exact xorLoop_sorted fuel _ _ (by omega) hx'.2 hy'.2

end Merge

/-! ### `unique_all` -/

section UniqueAll
variable [LinearOrder φ] (near : φ → φ → Bool)

/-- What the loop of `unique_all` computes from its state on sorted pairs. -/
theorem uniqueLoop_spec : ∀ (rest : List (φ × Nat)) (prev : φ) (first count idx : Nat) (inv : List Nat),
    (∀ p ∈ rest, prev ≤ p.1) → (rest.map Prod.fst).Pairwise (· ≤ ·) →
    (∀ x ∈ prev :: rest.map Prod.fst, ∀ y ∈ prev :: rest.map Prod.fst, near x y = true ↔ x = y) →
    (rest.map Prod.snd).Nodup → (∀ p ∈ rest, p.2 < inv.length) →
    let r := uniqueLoop near rest prev first count idx inv
    (∃ vs fs cs, r.values = prev :: vs ∧ r.values.Pairwise (· < ·) ∧
      (∀ x, x ∈ r.values ↔ x ∈ prev :: rest.map Prod.fst) ∧
      r.first = (rest.filterMap fun p => if p.1 = prev then some p.2 else none).foldl min first :: fs ∧
      r.counts = (count + (rest.map Prod.fst).count prev) :: cs ∧
      fs = vs.map (fun x => (rest.filterMap fun p => if p.1 = x then some p.2 else none).foldl min
        ((rest.filterMap fun p => if p.1 = x then some p.2 else none).headD 0)) ∧
      cs = vs.map (fun x => (rest.map Prod.fst).count x)) ∧
    r.inverse.length = inv.length ∧
    (∀ p ∈ rest, ∃ k, r.inverse[p.2]? = some (idx + k) ∧ r.values[k]? = some p.1) ∧
    (∀ j, j ∉ rest.map Prod.snd → r.inverse[j]? = inv[j]?)
  | [], prev, first, count, idx, inv, _, _, _, _, _ => by
    intro r
    refine ⟨⟨[], [], [], ?_⟩, ?_⟩ <;> simp [r, uniqueLoop]
  | (v, i) :: rest, prev, first, count, idx, inv, hle, hp, hs, hn, hi => by
    intro r
    have hp' := List.pairwise_cons.1 (List.map_cons ▸ hp)
    have hn' := List.nodup_cons.1 (List.map_cons ▸ hn)
    have hleR : ∀ p ∈ rest, v ≤ p.1 := fun p hpm => hp'.1 p.1 (List.mem_map_of_mem hpm)
    by_cases h : near v prev = true
    · have hv : v = prev := (hs v (by simp) prev (by simp)).1 h
      subst hv
      have hr : r = uniqueLoop near rest v (if i < first then i else first) (count + 1) idx (inv.set i idx) := by
        simp only [r]; conv_lhs => unfold uniqueLoop
        rw [if_pos h]
      have ih := uniqueLoop_spec rest v (if i < first then i else first) (count + 1) idx (inv.set i idx) hleR hp'.2
        (fun a ha b hb => hs a (by simp only [List.map_cons, List.mem_cons] at ha ⊢; tauto) b
          (by simp only [List.map_cons, List.mem_cons] at hb ⊢; tauto)) hn'.2
        (fun p hpm => by rw [List.length_set]; exact hi p (by simp [hpm]))
      simp only at ih
      rw [← hr] at ih
      obtain ⟨⟨vs, fs, cs, h1, h2, h3, h4, h5, h6, h7⟩, h8, h9, h10⟩ := ih
      have hvs : ∀ x ∈ vs, x ≠ v := by
        intro x hx e
        rw [h1] at h2
        have := (List.pairwise_cons.1 h2).1 x hx
        rw [e] at this; exact lt_irrefl _ this
      refine ⟨⟨vs, fs, cs, h1, h2, ?_, ?_, ?_, ?_, ?_⟩, ?_, ?_, ?_⟩
      · intro x; rw [h3]; simp only [List.map_cons, List.mem_cons]; tauto
      · rw [h4]; simp only [List.filterMap_cons, if_true, List.foldl_cons]
        congr 2
        rw [Nat.min_def]; split <;> split <;> omega
      · rw [h5]; simp only [List.map_cons, List.count_cons_self]; congr 1; omega
      · rw [h6]
        apply List.map_congr_left
        intro x hx
        have : ¬ v = x := fun e => hvs x hx e.symm
        simp only [List.filterMap_cons, if_neg this]
      · rw [h7]
        apply List.map_congr_left
        intro x hx
        rw [List.map_cons, List.count_cons_of_ne (fun e => hvs x hx e.symm)]
      · rw [h8, List.length_set]
      · intro p hpm
        rcases List.mem_cons.1 hpm with rfl | hpm
        · refine ⟨0, ?_, by rw [h1]; rfl⟩
          rw [h10 i hn'.1, List.getElem?_set_self (hi (v, i) (by simp))]; rfl
        · exact h9 p hpm
      · intro j hj
        rw [List.map_cons, List.mem_cons, not_or] at hj
        rw [h10 j hj.2, List.getElem?_set_ne (fun e => hj.1 e.symm)]
    · have hv : v ≠ prev := fun e => h ((hs v (by simp) prev (by simp)).2 e)
      have hlt : prev < v := lt_of_le_of_ne (hle (v, i) (by simp)) (Ne.symm hv)
      have hnot : ∀ p ∈ rest, p.1 ≠ prev := fun p hpm e => absurd (hlt.trans_le (hleR p hpm)) (e ▸ lt_irrefl _)
      have ih := uniqueLoop_spec rest v i 1 (idx + 1) (inv.set i (idx + 1)) hleR hp'.2
        (fun a ha b hb => hs a (by simp only [List.map_cons, List.mem_cons] at ha ⊢; tauto) b
          (by simp only [List.map_cons, List.mem_cons] at hb ⊢; tauto)) hn'.2
        (fun p hpm => by rw [List.length_set]; exact hi p (by simp [hpm]))
      simp only at ih
      have hr : r = ⟨prev :: (uniqueLoop near rest v i 1 (idx + 1) (inv.set i (idx + 1))).values,
          first :: (uniqueLoop near rest v i 1 (idx + 1) (inv.set i (idx + 1))).first,
          (uniqueLoop near rest v i 1 (idx + 1) (inv.set i (idx + 1))).inverse,
          count :: (uniqueLoop near rest v i 1 (idx + 1) (inv.set i (idx + 1))).counts⟩ := by
        simp only [r]; conv_lhs => unfold uniqueLoop
        rw [if_neg h]
      generalize uniqueLoop near rest v i 1 (idx + 1) (inv.set i (idx + 1)) = q at ih hr
      obtain ⟨⟨vs, fs, cs, h1, h2, h3, h4, h5, h6, h7⟩, h8, h9, h10⟩ := ih
      rw [hr]
      have hvs : ∀ x ∈ vs, x ≠ v := by
        intro x hx e
        rw [h1] at h2
        have := (List.pairwise_cons.1 h2).1 x hx
        rw [e] at this; exact lt_irrefl _ this
      refine ⟨⟨q.values, q.first, q.counts, rfl, ?_, ?_, ?_, ?_, ?_, ?_⟩, ?_, ?_, ?_⟩
      · rw [List.pairwise_cons]
        refine ⟨fun z hz => ?_, h2⟩
        rw [h3] at hz
        rcases List.mem_cons.1 hz with rfl | hz
        · exact hlt
        · obtain ⟨p, hpm, rfl⟩ := List.mem_map.1 hz
          exact hlt.trans_le (hleR p hpm)
      · intro x; rw [List.mem_cons, h3]; simp only [List.map_cons, List.mem_cons]
      · have : (((v, i) :: rest).filterMap fun p => if p.1 = prev then some p.2 else none) = [] := by
          rw [List.filterMap_eq_nil_iff]
          intro p hpm
          rcases List.mem_cons.1 hpm with rfl | hpm
          · rw [if_neg hv]
          · rw [if_neg (hnot p hpm)]
        rw [this]; rfl
      · have : (List.map Prod.fst ((v, i) :: rest)).count prev = 0 := by
          rw [List.count_eq_zero]
          intro hm
          obtain ⟨p, hpm, e⟩ := List.mem_map.1 hm
          rcases List.mem_cons.1 hpm with rfl | hpm
          · exact hv e
          · exact hnot p hpm e
        rw [this]; rfl
      · rw [h4, h1, List.map_cons, h6]
        congr 1
        · simp
        · apply List.map_congr_left
          intro x hx
          have : ¬ v = x := fun e => hvs x hx e.symm
          simp only [List.filterMap_cons, if_neg this]
      · rw [h5, h1, List.map_cons, h7]
        congr 1
        · simp [Nat.add_comm]
        · apply List.map_congr_left
          intro x hx
          rw [List.map_cons, List.count_cons_of_ne (fun e => hvs x hx e.symm)]
      · simp only [h8, List.length_set]
      · intro p hpm
        rcases List.mem_cons.1 hpm with rfl | hpm
        · refine ⟨1, ?_, by simp [h1]⟩
          rw [h10 i hn'.1, List.getElem?_set_self (hi (v, i) (by simp))]
        · obtain ⟨k, hk1, hk2⟩ := h9 p hpm
          exact ⟨k + 1, by rw [hk1]; congr 1; omega, by simpa using hk2⟩
      · intro j hj
        rw [List.map_cons, List.mem_cons, not_or] at hj
        simp only
        rw [h10 j hj.2, List.getElem?_set_ne (fun e => hj.1 e.symm)]

theorem foldl_min_spec : ∀ (l : List Nat) (a : Nat),
    (l.foldl min a = a ∨ l.foldl min a ∈ l) ∧ l.foldl min a ≤ a ∧ ∀ x ∈ l, l.foldl min a ≤ x
  | [], a => by simp
  | b :: l, a => by
    have ih := foldl_min_spec l (min a b)
    rw [List.foldl_cons]
    refine ⟨?_, ?_, ?_⟩
    · rcases ih.1 with h | h
      · rw [h, Nat.min_def]; split <;> simp
      · exact Or.inr (by simp [h])
    · exact ih.2.1.trans (Nat.min_le_left _ _)
    · intro x hx
      rcases List.mem_cons.1 hx with rfl | hx
      · exact ih.2.1.trans (Nat.min_le_right _ _)
      · exact ih.2.2 x hx

theorem idxOf_of_least {l : List φ} {x : φ} {k : Nat} (hk : l[k]? = some x) (hl : ∀ j, l[j]? = some x → k ≤ j) :
    l.idxOf x = k := by
  have hm : x ∈ l := List.mem_of_getElem? hk
  have hlt := List.idxOf_lt_length_of_mem hm
  apply Nat.le_antisymm
  · by_contra hc
    rw [Nat.not_le] at hc
    have := List.not_of_lt_findIdx (p := (· == x)) (xs := l) hc
    rw [List.getElem?_eq_some_iff] at hk
    obtain ⟨_, hk⟩ := hk
    simp [hk] at this
  · apply hl
    rw [List.getElem?_eq_getElem hlt, List.getElem_idxOf]

theorem uniqueAll_spec (l : List φ) (hs : ∀ x ∈ l, ∀ y ∈ l, near x y = true ↔ x = y) :
    SortedSet (uniqueAll near l).values (· ∈ l) ∧
    (uniqueAll near l).first = (uniqueAll near l).values.map (l.idxOf ·) ∧
    (uniqueAll near l).counts = (uniqueAll near l).values.map (l.count ·) ∧
    (uniqueAll near l).inverse.map ((uniqueAll near l).values[·]?) = l.map some := by
  have hperm := sortPairs_perm (id : φ → φ) l.zipIdx
  have hsort := (sortPairs_sorted (id : φ → φ) l)
  have hmemP : ∀ p ∈ sortPairs (id : φ → φ) l.zipIdx, l[p.2]? = some p.1 := fun p hp => sortPairs_mem id hp
  have hmemP' : ∀ j x, l[j]? = some x → (x, j) ∈ sortPairs (id : φ → φ) l.zipIdx := fun j x h =>
    hperm.mem_iff.2 (List.mem_zipIdx_iff_getElem?.2 h)
  have hnod : ((sortPairs (id : φ → φ) l.zipIdx).map Prod.snd).Nodup := by
    rw [(hperm.map Prod.snd).nodup_iff, List.zipIdx_map_snd]
    exact List.nodup_range'
  unfold uniqueAll
  cases hq : sortPairs (id : φ → φ) l.zipIdx with
  | nil =>
    have : l = [] := by
      have := hperm.length_eq
      rw [hq] at this
      simpa using this.symm
    subst this
    refine ⟨⟨by simp, by simp⟩, ?_, ?_, ?_⟩ <;> simp
  | cons vi rest =>
    obtain ⟨v, i⟩ := vi
    rw [hq] at hperm hsort hmemP hmemP' hnod
    have hi : ∀ p ∈ (v, i) :: rest, p.2 < l.length := fun p hp => (List.getElem?_eq_some_iff.1 (hmemP p hp)).1
    have hmem : ∀ x, x ∈ v :: rest.map Prod.fst ↔ x ∈ l := fun x => hsort.1.mem_iff
    have hpw : (v :: rest.map Prod.fst).Pairwise (· ≤ ·) := hsort.2
    have hpw' := List.pairwise_cons.1 hpw
    have hn' := List.nodup_cons.1 hnod
    have h := uniqueLoop_spec near rest v i 1 0 ((List.replicate l.length 0).set i 0)
      (fun p hp => hpw'.1 _ (List.mem_map_of_mem hp)) hpw'.2
      (fun x hx y hy => hs x ((hmem x).1 hx) y ((hmem y).1 hy)) hn'.2
      (fun p hp => by simpa using hi p (by simp [hp]))
    simp only at h ⊢
    generalize uniqueLoop near rest v i 1 0 ((List.replicate l.length 0).set i 0) = r at h ⊢
    obtain ⟨⟨vs, fs, cs, h1, h2, h3, h4, h5, h6, h7⟩, h8, h9, h10⟩ := h
    have hcount : ∀ x, l.count x = (v :: rest.map Prod.fst).count x := fun x => (hsort.1.count_eq x).symm
    have hvs : ∀ x ∈ vs, x ≠ v := by
      intro x hx e
      rw [h1] at h2
      have := (List.pairwise_cons.1 h2).1 x hx
      rw [e] at this; exact lt_irrefl _ this
    refine ⟨⟨h2, fun x => (h3 x).trans (hmem x)⟩, ?_, ?_, ?_⟩
    · rw [h1, h4, h6, List.map_cons]
      congr 1
      · symm
        have hf := foldl_min_spec (rest.filterMap fun p => if p.1 = v then some p.2 else none) i
        apply idxOf_of_least
        · rcases hf.1 with e | e
          · rw [e]; exact hmemP (v, i) (by simp)
          · obtain ⟨p, hp, e⟩ := List.mem_filterMap.1 e
            by_cases hpv : p.1 = v
            · rw [if_pos hpv] at e
              rw [← Option.some.inj e, hmemP p (by simp [hp]), hpv]
            · rw [if_neg hpv] at e; cases e
        · intro j hj
          rcases List.mem_cons.1 (hmemP' j v hj) with e | e
          · have : j = i := congrArg Prod.snd e
            rw [this]; exact hf.2.1
          · apply hf.2.2
            rw [List.mem_filterMap]
            exact ⟨(v, j), e, if_pos rfl⟩
      · apply List.map_congr_left
        intro x hx
        symm
        have hxm : x ∈ rest.map Prod.fst := by
          have := (h3 x).1 (by rw [h1]; simp [hx])
          exact (List.mem_cons.1 this).resolve_left (hvs x hx)
        generalize hL : (rest.filterMap fun p => if p.1 = x then some p.2 else none) = L
        have hLm : ∀ j, j ∈ L ↔ (x, j) ∈ rest := by
          intro j
          rw [← hL, List.mem_filterMap]
          constructor
          · rintro ⟨p, hp, e⟩
            by_cases hpx : p.1 = x
            · rw [if_pos hpx] at e
              have : p = (x, j) := Prod.ext hpx (Option.some.inj e)
              rwa [← this]
            · rw [if_neg hpx] at e; cases e
          · intro h; exact ⟨(x, j), h, if_pos rfl⟩
        have hne : L ≠ [] := by
          obtain ⟨p, hp, e⟩ := List.mem_map.1 hxm
          have : p.2 ∈ L := (hLm p.2).2 (by rw [← e]; exact hp)
          intro e'; rw [e'] at this; cases this
        have hf := foldl_min_spec L (L.headD 0)
        have hin : L.foldl min (L.headD 0) ∈ L := by
          rcases hf.1 with e | e
          · rw [e]
            cases L with
            | nil => exact absurd rfl hne
            | cons a L => simp
          · exact e
        apply idxOf_of_least
        · exact hmemP _ (List.mem_cons_of_mem _ ((hLm _).1 hin))
        · intro j hj
          rcases List.mem_cons.1 (hmemP' j x hj) with e | e
          · exact absurd (congrArg Prod.fst e) (hvs x hx)
          · exact hf.2.2 j ((hLm j).2 e)
    · rw [h1, h5, h7, List.map_cons]
      congr 1
      · rw [hcount, List.count_cons_self]; omega
      · apply List.map_congr_left
        intro x hx
        rw [hcount, List.count_cons_of_ne (fun e => hvs x hx e.symm)]
    · have hlen : r.inverse.length = l.length := by rw [h8]; simp
      apply List.ext_getElem?
      intro j
      rw [List.getElem?_map, List.getElem?_map]
      by_cases hj : j < l.length
      · have hlj : l[j]? = some l[j] := List.getElem?_eq_getElem hj
        rw [hlj]
        rcases List.mem_cons.1 (hmemP' j _ hlj) with e | e
        · have e1 : l[j] = v := congrArg Prod.fst e
          have e2 : j = i := congrArg Prod.snd e
          rw [h10 j (by rw [e2]; exact hn'.1), e1, e2, List.getElem?_set_self (by simpa using hi (v, i) (by simp))]
          simp [h1]
        · obtain ⟨k, hk1, hk2⟩ := h9 _ e
          simp only [Nat.zero_add] at hk1
          rw [hk1, Option.map_some, hk2]
          rfl
      · rw [List.getElem?_eq_none (by omega), List.getElem?_eq_none (by omega)]; rfl

end UniqueAll

end Rumpy
