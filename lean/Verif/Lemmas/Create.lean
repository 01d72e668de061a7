import Verif.Spec.Create
import Verif.Model.Create
import Verif.Lemmas.Rearrange
import Verif.Lemmas.Elementwise
/-!
# Lemmas: ranges, grids, triangles and diagonals
-/

namespace Rumpy
open Spec

/-- Stores that agree with `g` where they hit, over a background that agrees elsewhere, give `g`. -/
theorem writes_nd {ws : List (Nat × α)} {d : List α} {nd : Nd α} (hd : d.length = size nd.shape)
    (h : ∀ idx, InShape nd.shape idx → ∀ y, (rank nd.shape idx, y) ∈ ws → y = nd.get idx)
    (h0 : ∀ idx, InShape nd.shape idx → (∀ y, (rank nd.shape idx, y) ∉ ws) → d[rank nd.shape idx]? = some (nd.get idx)) :
    writes ws d = nd.toList := by
  apply eq_toList (by rw [writes_length, hd])
  intro idx hi
  by_cases hm : rank nd.shape idx ∈ ws.map (·.1)
  · exact writes_get_of_agree hm (h idx hi) (by rw [hd]; exact rank_lt hi)
  · rw [writes_get_notMem hm]
    apply h0 idx hi
    intro y hy
    exact hm (List.mem_map.2 ⟨_, hy, rfl⟩)

theorem inShape_two {n m : Nat} {idx : List Nat} (h : InShape [n, m] idx) :
    ∃ i j, idx = [i, j] ∧ i < n ∧ j < m := by
  match idx, h with
  | [i, j], h => exact ⟨i, j, rfl, h.1, h.2.1⟩

theorem rank_two (n m i j : Nat) : rank [n, m] [i, j] = i * m + j := by simp [rank, size]

theorem two_inj {m i j i' j' : Nat} (hj : j < m) (hj' : j' < m) (h : i * m + j = i' * m + j') : i = i' ∧ j = j' := by
  have e := congrArg (· % m) h
  have e2 := congrArg (· / m) h
  simp only [Nat.add_comm (_ * m), Nat.add_mul_mod_self_right, Nat.mod_eq_of_lt hj, Nat.mod_eq_of_lt hj'] at e
  have hm : 0 < m := by omega
  simp only [Nat.add_comm (_ * m), Nat.add_mul_div_right _ _ hm, Nat.div_eq_of_lt hj, Nat.div_eq_of_lt hj'] at e2
  omega

/-- Stores into the positions of a matrix chosen by `p`, over zeros. -/
theorem writes_mask {n m : Nat} {p : Nat → Nat → Prop} [∀ i j, Decidable (p i j)] {f : Nat → Nat → α} {zero : α}
    {ws : List (Nat × α)}
    (h : ∀ k y, (k, y) ∈ ws ↔ ∃ i j, i < n ∧ j < m ∧ p i j ∧ k = i * m + j ∧ y = f i j) :
    writes ws (List.replicate (n * m) zero) = (Nd.mask n m p f zero).toList := by
  have hs : (Nd.mask n m p f zero).shape = [n, m] := rfl
  apply writes_nd
  · simp [hs, size]
  · intro idx hi y hy
    obtain ⟨i, j, rfl, h1, h2⟩ := inShape_two hi
    rw [hs, rank_two] at hy
    obtain ⟨i', j', h1', h2', hp, e, rfl⟩ := (h _ _).1 hy
    obtain ⟨rfl, rfl⟩ := two_inj h2 h2' e
    exact (if_pos hp).symm
  · intro idx hi hno
    obtain ⟨i, j, rfl, h1, h2⟩ := inShape_two hi
    rw [hs, rank_two] at hno ⊢
    have hp : ¬ p i j := fun hp => hno _ ((h _ _).2 ⟨i, j, h1, h2, hp, rfl, rfl⟩)
    have hlt : i * m + j < n * m := by
      have := rank_lt hi
      rw [hs, rank_two] at this
      simpa [size] using this
    rw [List.getElem?_replicate, if_pos hlt]
    exact congrArg some (if_neg hp).symm

theorem mask_congr {n m : Nat} {p q : Nat → Nat → Prop} [∀ i j, Decidable (p i j)] [∀ i j, Decidable (q i j)]
    {f g : Nat → Nat → α} {zero : α} (hp : ∀ i j, i < n → j < m → (p i j ↔ q i j))
    (hf : ∀ i j, i < n → j < m → q i j → f i j = g i j) : (Nd.mask n m p f zero).Same (Nd.mask n m q g zero) := by
  refine ⟨rfl, fun idx hi => ?_⟩
  obtain ⟨i, j, rfl, h1, h2⟩ := inShape_two hi
  show (if p i j then f i j else zero) = if q i j then g i j else zero
  by_cases h : q i j
  · rw [if_pos h, if_pos ((hp i j h1 h2).2 h), hf i j h1 h2 h]
  · rw [if_neg h, if_neg fun h' => h ((hp i j h1 h2).1 h')]

theorem tri_is (n m : Nat) (k : Int) (one zero : α) :
    (tri n m k one zero).Is (Nd.mask n m (fun i j => (j : Int) ≤ i + k) (fun _ _ => one) zero) := by
  refine ⟨rfl, writes_mask fun k' y => ?_⟩
  simp only [List.mem_flatMap, List.mem_range]
  constructor
  · rintro ⟨i, hi, j, hj, h⟩
    split at h
    · rename_i hp
      simp only [List.mem_singleton, Prod.mk.injEq] at h
      exact ⟨i, j, hi, hj, hp, h⟩
    · simp at h
  · rintro ⟨i, j, hi, hj, hp, h⟩
    refine ⟨i, hi, j, hj, ?_⟩
    rw [if_pos hp]
    simpa using h

theorem eye_is (n : Nat) (one zero : α) :
    (eye n one zero).Is (Nd.mask n n (fun i j => i = j) (fun _ _ => one) zero) := by
  refine ⟨rfl, writes_mask fun k y => ?_⟩
  simp only [List.mem_map, List.mem_range, Prod.mk.injEq]
  constructor
  · rintro ⟨i, hi, h1, h2⟩
    exact ⟨i, i, hi, hi, rfl, h1.symm, h2.symm⟩
  · rintro ⟨i, j, hi, hj, rfl, h1, h2⟩
    exact ⟨i, hi, h1.symm, h2.symm⟩

theorem extractTriangle_eq (mem : Int → α) {v : View} (hw : v.WF) (k : Int) (lower : Bool) (zero : α) {n m : Nat}
    (hs : v.shape = [n, m]) :
    ∃ r, extractTriangle mem v k lower zero = some r ∧
      r.Is (if lower then (v.denote mem).lower k zero else (v.denote mem).upper k zero) := by
  have hds : (v.denote mem).shape = [n, m] := hs
  have hspec : (if lower then (v.denote mem).lower k zero else (v.denote mem).upper k zero)
      = Nd.mask n m (fun i j => if lower = true then (j : Int) ≤ i + k else (i : Int) + k ≤ j) (fun i j => mem (v.addr [i, j])) zero := by
    cases lower <;> simp [Nd.lower, Nd.upper, Nd.mask, hds] <;> rfl
  rw [hspec]
  unfold extractTriangle
  rw [hs]
  dsimp only
  by_cases h0 : n = 0 ∨ m = 0
  · rw [if_pos h0]
    refine ⟨_, rfl, rfl, ?_⟩
    have : n * m = 0 := by rcases h0 with rfl | rfl <;> simp
    have e : indices [n, m] = [] := by
      apply List.length_eq_zero_iff.1
      rw [length_indices]; simpa [size] using this
    show List.replicate (n * m) zero = List.map _ (indices [n, m])
    rw [e, this]; rfl
  · rw [if_neg h0]
    have hn : 0 < n := by omega
    have hm : 0 < m := by omega
    by_cases hc : v.cFlag = true
    · rw [if_pos hc]
      refine ⟨_, rfl, rfl, writes_mask fun k' y => ?_⟩
      have haddr : ∀ i j, i < n → j < m → mem (v.addr [i, j]) = mem (v.offset + ((i * m + j : Nat) : Int) * v.item) := by
        intro i j hi hj
        rw [cFlag_addr hw hc (by rw [hs]; exact ⟨hi, hj, trivial⟩), hs, rank_two]
      simp only [List.mem_flatMap, List.mem_range]
      constructor
      · rintro ⟨i, hi, h⟩
        cases lower
        · simp only [Bool.false_eq_true, if_false] at h ⊢
          split at h
          · simp only [List.mem_map, List.mem_range, Prod.mk.injEq] at h
            obtain ⟨c, hcc, h1, h2⟩ := h
            refine ⟨i, min (max ((i : Int) + k) 0).toNat m + c, hi, by omega, by omega, by omega, ?_⟩
            rw [haddr _ _ hi (by omega), ← h2, Nat.add_assoc]
          · simp at h
        · simp only [if_true] at h ⊢
          split at h
          · simp only [List.mem_map, List.mem_range, Prod.mk.injEq] at h
            obtain ⟨c, hcc, h1, h2⟩ := h
            refine ⟨i, c, hi, by omega, by omega, by omega, ?_⟩
            rw [haddr _ _ hi (by omega), ← h2]
            rfl
          · simp at h
      · rintro ⟨i, j, hi, hj, hp, rfl, rfl⟩
        refine ⟨i, hi, ?_⟩
        cases lower
        · simp only [Bool.false_eq_true, if_false] at hp ⊢
          rw [if_pos (by omega)]
          simp only [List.mem_map, List.mem_range, Prod.mk.injEq]
          refine ⟨j - min (max ((i : Int) + k) 0).toNat m, by omega, by omega, ?_⟩
          rw [haddr _ _ hi hj]
          congr 4
          omega
        · simp only [if_true] at hp ⊢
          rw [if_pos (by omega)]
          simp only [List.mem_map, List.mem_range, Prod.mk.injEq]
          exact ⟨j, by omega, by omega, (haddr _ _ hi hj).symm⟩
    · rw [if_neg hc]
      refine ⟨_, rfl, rfl, writes_mask fun k' y => ?_⟩
      simp only [List.mem_flatMap, List.mem_range]
      constructor
      · rintro ⟨i, hi, j, hj, h⟩
        by_cases hp : (if lower then decide ((j : Int) ≤ (i : Int) + k) else decide ((j : Int) ≥ (i : Int) + k)) = true
        · rw [if_pos hp] at h
          simp only [List.mem_singleton, Prod.mk.injEq] at h
          refine ⟨i, j, hi, hj, ?_, h⟩
          cases lower <;> simpa using hp
        · rw [if_neg hp] at h
          simp at h
      · rintro ⟨i, j, hi, hj, hp, h⟩
        refine ⟨i, hi, j, hj, ?_⟩
        rw [if_pos (by cases lower <;> simpa using hp)]
        simpa using h

theorem diagflat_eq (mem : Int → α) {v : View} (hw : v.WF) (k : Int) (zero : α) :
    (diagflat mem v k zero).Is (Nd.onDiagonal (v.denote mem).toList k zero) := by
  have hlen : (v.denote mem).toList.length = size v.shape := Nd.length_toList _
  unfold diagflat Nd.onDiagonal
  dsimp only
  rw [sizeOf_eq, hlen]
  set L := (v.denote mem).toList with hL
  set N := size v.shape + k.natAbs with hN
  have hmain : ∀ ws : List (Nat × α), (∀ k' y, (k', y) ∈ ws ↔ ∃ t, ∃ ht : t < L.length,
      k' = (if k ≥ 0 then t else t + (-k).toNat) * N + (if k ≥ 0 then t + k.toNat else t) ∧ y = L[t]) →
      writes ws (List.replicate (N * N) zero) = (Nd.mask N N (fun i j => (j : Int) = i + k) (fun i j => L.getD (min i j) zero) zero).toList := by
    intro ws h
    apply writes_mask
    intro k' y
    rw [h]
    constructor
    · rintro ⟨t, ht, e, rfl⟩
      refine ⟨_, _, ?_, ?_, ?_, e, ?_⟩
      · split <;> omega
      · split <;> omega
      · split <;> omega
      · rw [show min (if k ≥ 0 then t else t + (-k).toNat) (if k ≥ 0 then t + k.toNat else t) = t by split <;> omega,
          List.getD_eq_getElem _ _ ht]
    · rintro ⟨i, j, hi, hj, hp, rfl, rfl⟩
      refine ⟨min i j, by omega, ?_, List.getD_eq_getElem _ _ _⟩
      congr 1
      · congr 1
        split <;> omega
      · split <;> omega
  split
  · rename_i h0
    refine ⟨rfl, ?_⟩
    have := hmain [] (by
      intro k' y
      constructor
      · intro h; simp at h
      · rintro ⟨t, ht, _⟩; omega)
    exact this
  · refine ⟨rfl, hmain _ fun k' y => ?_⟩
    rw [show L = v.addrs.map mem from (addrs_map hw mem).symm]
    simp only [List.mem_map, Prod.exists, List.length_map, List.getElem_map]
    constructor
    · rintro ⟨a, t, hm, e⟩
      obtain ⟨ht, ha⟩ := List.getElem?_eq_some_iff.1 (List.mk_mem_zipIdx_iff_getElem?.1 hm)
      refine ⟨t, ht, ?_, ?_⟩
      · rw [← (Prod.mk.inj e).1]; split <;> rfl
      · rw [ha]; exact (Prod.mk.inj e).2.symm
    · rintro ⟨t, ht, rfl, rfl⟩
      refine ⟨v.addrs[t], t, List.mk_mem_zipIdx_iff_getElem?.2 (List.getElem?_eq_getElem ht), ?_⟩
      congr 1
      split <;> rfl

end Rumpy
