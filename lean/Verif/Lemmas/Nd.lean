import Verif.Spec.Nd
import Mathlib.Tactic.Ring
import Mathlib.Tactic.Linarith
import Mathlib.Data.List.Nodup
import Mathlib.Data.List.Range
/-! Facts about the n-d array specification: row-major enumeration and rank. -/

namespace Spec

theorem InShape.length_eq : ∀ {s idx : List Nat}, InShape s idx → idx.length = s.length
  | [], [], _ => rfl
  | _ :: _, _ :: _, h => by simp [InShape.length_eq h.2]

@[simp] theorem inShape_nil {idx} : InShape [] idx ↔ idx = [] := by
  cases idx <;> simp [InShape]

theorem inShape_cons {n s idx} :
    InShape (n :: s) idx ↔ ∃ i t, idx = i :: t ∧ i < n ∧ InShape s t := by
  cases idx with
  | nil => simp [InShape]
  | cons i t => simp [InShape]

theorem mem_indices : ∀ {s idx : List Nat}, idx ∈ indices s ↔ InShape s idx
  | [], idx => by simp [indices]
  | n :: s, idx => by
    rw [inShape_cons]
    simp only [indices, List.mem_flatMap, List.mem_range, List.mem_map]
    constructor
    · rintro ⟨i, hi, t, ht, rfl⟩
      exact ⟨i, t, rfl, hi, mem_indices.1 ht⟩
    · rintro ⟨i, t, rfl, hi, ht⟩
      exact ⟨i, hi, t, mem_indices.2 ht, rfl⟩

theorem rank_lt : ∀ {s idx : List Nat}, InShape s idx → rank s idx < size s
  | [], [], _ => by simp [rank, size]
  | n :: s, i :: idx, h => by
    have h1 := rank_lt h.2
    simp only [rank, size]
    calc i * size s + rank s idx < i * size s + size s := by omega
      _ = (i + 1) * size s := by ring
      _ ≤ n * size s := Nat.mul_le_mul_right _ h.1

theorem size_pos_of_inShape {s idx : List Nat} (h : InShape s idx) : 0 < size s :=
  Nat.lt_of_le_of_lt (Nat.zero_le _) (rank_lt h)

theorem length_indices : ∀ s : List Nat, (indices s).length = size s
  | [] => rfl
  | n :: s => by
    simp [indices, size, List.length_flatMap, length_indices s]

private theorem flatMap_range_add (a k : Nat) :
    (List.range a).flatMap (fun i => (List.range k).map fun j => i * k + j)
      = List.range (a * k) := by
  induction a with
  | zero => simp
  | succ a ih =>
    rw [List.range_succ, List.flatMap_append, ih, Nat.succ_mul, List.range_add]
    simp

theorem map_rank_indices : ∀ s : List Nat, (indices s).map (rank s) = List.range (size s)
  | [] => by simp [indices, rank, size]
  | n :: s => by
    simp only [indices, size, List.map_flatMap, List.map_map]
    rw [← flatMap_range_add n (size s)]
    congr 1
    funext i
    rw [← map_rank_indices s, List.map_map]
    rfl

theorem rank_inj : ∀ {s a b : List Nat}, InShape s a → InShape s b → rank s a = rank s b → a = b
  | [], [], [], _, _, _ => rfl
  | n :: s, i :: a, j :: b, ha, hb, h => by
    simp only [rank] at h
    have h1 := rank_lt ha.2
    have h2 := rank_lt hb.2
    have hij : i = j := by
      rcases Nat.lt_trichotomy i j with hlt | heq | hgt
      · have : (i + 1) * size s ≤ j * size s := Nat.mul_le_mul_right _ hlt
        rw [Nat.succ_mul] at this; omega
      · exact heq
      · have : (j + 1) * size s ≤ i * size s := Nat.mul_le_mul_right _ hgt
        rw [Nat.succ_mul] at this; omega
    subst hij
    have : a = b := rank_inj ha.2 hb.2 (by omega)
    rw [this]

theorem indices_nodup (s : List Nat) : (indices s).Nodup := by
  have h : ((indices s).map (rank s)).Nodup := by
    rw [map_rank_indices]; exact List.nodup_range
  exact List.Nodup.of_map _ h

/-- A list of indices inside the shape whose ranks are consecutive from 0 is the
row-major enumeration. -/
theorem eq_indices_of_rank {s : List Nat} {l : List (List Nat)}
    (hin : ∀ idx ∈ l, InShape s idx) (hr : l.map (rank s) = List.range (size s)) :
    l = indices s := by
  have key : ∀ (l m : List (List Nat)), (∀ idx ∈ l, InShape s idx) → (∀ idx ∈ m, InShape s idx) →
      l.map (rank s) = m.map (rank s) → l = m := by
    intro l
    induction l with
    | nil => intro m _ _ h; cases m with
      | nil => rfl
      | cons b m => simp at h
    | cons a l ih =>
      intro m hl hm h
      cases m with
      | nil => simp at h
      | cons b m =>
        simp only [List.map_cons, List.cons.injEq] at h
        have hab := rank_inj (hl a (by simp)) (hm b (by simp)) h.1
        rw [hab, ih m (fun i hi => hl i (by simp [hi])) (fun i hi => hm i (by simp [hi])) h.2]
  exact key l _ hin (fun idx h => mem_indices.1 h) (by rw [hr, map_rank_indices])

theorem inShape_replicate_zero {s : List Nat} (h : 0 < size s) :
    InShape s (List.replicate s.length 0) := by
  induction s with
  | nil => simp
  | cons n s ih =>
    simp only [size] at h
    have hn : 0 < n := Nat.pos_of_mul_pos_right h
    have hs : 0 < size s := Nat.pos_of_mul_pos_left h
    exact ⟨hn, ih hs⟩

theorem rank_replicate_zero : ∀ s : List Nat, rank s (List.replicate s.length 0) = 0
  | [] => rfl
  | n :: s => by simp [rank, List.replicate_succ, rank_replicate_zero s]

theorem rankF_lt : ∀ {s idx : List Nat}, InShape s idx → rankF s idx < size s
  | [], [], _ => by simp [rankF, size]
  | n :: s, i :: idx, h => by
    have h1 := rankF_lt h.2
    have h2 := h.1
    simp only [rankF, size]
    calc i + n * rankF s idx < n + n * rankF s idx := by omega
      _ = n * (rankF s idx + 1) := by ring
      _ ≤ n * size s := Nat.mul_le_mul_left _ h1

theorem rankF_inj : ∀ {s a b : List Nat}, InShape s a → InShape s b → rankF s a = rankF s b → a = b
  | [], [], [], _, _, _ => rfl
  | n :: s, i :: a, j :: b, ha, hb, h => by
    simp only [rankF] at h
    have hi := ha.1
    have hj := hb.1
    have h1 : (i + n * rankF s a) % n = (j + n * rankF s b) % n := by rw [h]
    rw [Nat.add_mul_mod_self_left, Nat.add_mul_mod_self_left, Nat.mod_eq_of_lt hi,
      Nat.mod_eq_of_lt hj] at h1
    subst h1
    have h2 : n * rankF s a = n * rankF s b := by omega
    have h3 := Nat.eq_of_mul_eq_mul_left (by omega) h2
    rw [rankF_inj ha.2 hb.2 h3]

theorem size_append (s t : List Nat) : size (s ++ t) = size s * size t := by
  induction s with
  | nil => simp [size]
  | cons n s ih => simp [size, ih, Nat.mul_assoc]

theorem size_reverse (s : List Nat) : size s.reverse = size s := by
  induction s with
  | nil => rfl
  | cons n s ih => simp [size_append, ih, size, Nat.mul_comm]

theorem size_eq_zero_iff {s : List Nat} : size s = 0 ↔ 0 ∈ s := by
  induction s with
  | nil => simp [size]
  | cons n s ih =>
    simp only [size, Nat.mul_eq_zero, ih, List.mem_cons]
    constructor
    · rintro (h | h) <;> simp_all
    · rintro (h | h) <;> simp_all

namespace Nd

theorem Same.refl (a : Nd α) : Same a a := ⟨rfl, fun _ _ => rfl⟩

theorem Same.symm {a b : Nd α} (h : Same a b) : Same b a :=
  ⟨h.1.symm, fun idx hi => (h.2 idx (h.1 ▸ hi)).symm⟩

theorem Same.trans {a b c : Nd α} (h : Same a b) (h' : Same b c) : Same a c :=
  ⟨h.1.trans h'.1, fun idx hi => (h.2 idx hi).trans (h'.2 idx (h.1 ▸ hi))⟩

theorem toList_congr {a b : Nd α} (h : Same a b) : a.toList = b.toList := by
  unfold toList
  rw [h.1]
  apply List.map_congr_left
  intro idx hi
  exact h.2 idx (h.1 ▸ mem_indices.1 hi)

theorem length_toList (a : Nd α) : a.toList.length = size a.shape := by
  simp [toList, length_indices]

end Nd

end Spec
