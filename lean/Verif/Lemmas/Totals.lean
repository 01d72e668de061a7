import Verif.Model.Totals
import Verif.Lemmas.Reduce
import Verif.Lemmas.Arith
import Mathlib.Algebra.Order.BigOperators.Group.List
import Mathlib.Data.Multiset.Basic
import Mathlib.Tactic.Abel
/-!
# Lemmas: reductions whose kernel obeys no laws

`Folded` says how a value came about: every element entered once, and the accumulators were combined in some order.
-/

namespace Rumpy
open Spec

/-- `a` was computed from the elements `l` by at most `k` combinations one after the other. -/
inductive Folded (c : α → α → α) (e : α) : Nat → List α → α → Prop
  | nil : Folded c e 0 [] e
  | step {k : Nat} {l : List α} {a : α} (x : α) : Folded c e k l a → Folded c e (k + 1) (l ++ [x]) (c a x)
  | join {k : Nat} {l l' : List α} {a b : α} : Folded c e k l a → Folded c e k l' b → Folded c e (k + 1) (l ++ l') (c a b)
  | perm {k : Nat} {l l' : List α} {a : α} : l.Perm l' → Folded c e k l a → Folded c e k l' a
  | le {k k' : Nat} {l : List α} {a : α} : k ≤ k' → Folded c e k l a → Folded c e k' l a

theorem foldl_folded (c : α → α → α) (e : α) (d : Nat → α) : ∀ n,
    Folded c e n ((List.range n).map d) ((List.range n).foldl (fun acc i => c acc (d i)) e)
  | 0 => .nil
  | n + 1 => by
    rw [List.range_succ, List.foldl_append, List.map_append]
    exact .step _ (foldl_folded c e d n)

theorem list_folded (c : α → α → α) (e : α) : ∀ l : List α, Folded c e l.length l (l.foldl c e) := by
  intro l
  induction l using List.reverseRecOn with
  | nil => exact .nil
  | append_singleton l x ih =>
    rw [List.foldl_append, List.length_append]
    exact .step x ih

/-- The elements of the eight accumulators together. -/
def lanes8 (ls : Nat → List α) : List α := ls 0 ++ ls 1 ++ (ls 2 ++ ls 3) ++ (ls 4 ++ ls 5 ++ (ls 6 ++ ls 7))

theorem lanes8_snoc (ls : Nat → List α) (x : Nat → α) :
    (lanes8 fun k => ls k ++ [x k]).Perm (lanes8 ls ++ (List.range 8).map x) := by
  rw [← Multiset.coe_eq_coe]
  have : (List.range 8).map x = [x 0] ++ [x 1] ++ [x 2] ++ [x 3] ++ [x 4] ++ [x 5] ++ [x 6] ++ [x 7] := rfl
  rw [this]
  simp only [lanes8, ← Multiset.coe_add]
  abel

theorem chunkLoop_folded (c : α → α → α) (e : α) (d : Nat → α) (stop : Nat) (h8 : 8 ∣ stop) :
    ∀ (fuel i m : Nat) (r : Nat → α), i = 8 * m → i ≤ stop → stop ≤ i + 8 * fuel →
      (∃ ls : Nat → List α, (∀ k, Folded c e m (ls k) (r k)) ∧ (lanes8 ls).Perm ((List.range i).map d)) →
      (chunkLoop c d stop fuel i r).1 = stop ∧
      ∃ ls : Nat → List α, (∀ k, Folded c e (stop / 8) (ls k) ((chunkLoop c d stop fuel i r).2 k)) ∧
        (lanes8 ls).Perm ((List.range stop).map d)
  | 0, i, m, r, hm, h1, h2, ⟨ls, h, hp⟩ => by
    have : i = stop := by omega
    subst this
    have : i / 8 = m := by omega
    rw [this]
    exact ⟨rfl, ls, h, hp⟩
  | fuel + 1, i, m, r, hm, h1, h2, ⟨ls, h, hp⟩ => by
    unfold chunkLoop
    by_cases hlt : i < stop
    · rw [if_pos hlt]
      refine chunkLoop_folded c e d stop h8 fuel (i + 8) (m + 1) _ (by omega) (by omega) (by omega) ?_
      refine ⟨fun k => ls k ++ [d (i + k)], fun k => .step _ (h k), ?_⟩
      refine (lanes8_snoc ls fun k => d (i + k)).trans ?_
      rw [List.range_add, List.map_append, List.map_map]
      exact hp.append_right _
    · rw [if_neg hlt]
      have : i = stop := by omega
      subst this
      have : i / 8 = m := by omega
      rw [this]
      exact ⟨rfl, ls, h, hp⟩

theorem restLoop_folded (c : α → α → α) (e : α) (d : Nat → α) (n : Nat) :
    ∀ (fuel i k : Nat) (a : α), i ≤ n → n ≤ i + fuel → Folded c e k ((List.range i).map d) a →
      Folded c e (k + (n - i)) ((List.range n).map d) (restLoop c d n fuel i a)
  | 0, i, k, a, h1, h2, h => by
    have : i = n := by omega
    subst this
    rw [Nat.sub_self]
    exact h
  | fuel + 1, i, k, a, h1, h2, h => by
    unfold restLoop
    by_cases hlt : i < n
    · rw [if_pos hlt]
      have := restLoop_folded c e d n fuel (i + 1) (k + 1) (c a (d i)) (by omega) (by omega) (by
        rw [List.range_succ, List.map_append]; exact .step _ h)
      rwa [show k + (n - i) = k + 1 + (n - (i + 1)) by omega]
    · rw [if_neg hlt]
      have : i = n := by omega
      subst this
      rw [Nat.sub_self]
      exact h

/-- The eight-accumulator loop takes every element once, and no element goes through more than `n` combinations. -/
theorem reduce8_folded (c : α → α → α) (e : α) (d : Nat → α) (n : Nat) :
    Folded c e n ((List.range n).map d) (reduce8 c e d n) := by
  unfold reduce8
  split
  · next h => subst h; exact .nil
  · split
    · exact foldl_folded c e d n
    · next h0 h8 =>
      have hstep := chunkLoop_folded c e d (n - n % 8) (by omega) n 8 1 (fun k => c e (d k)) (by omega) (by omega) (by omega)
        ⟨fun k => [d k], fun k => .step (l := []) _ .nil, List.Perm.refl _⟩
      obtain ⟨h1, ls, h2, h3⟩ := hstep
      generalize chunkLoop c d (n - n % 8) n 8 (fun k => c e (d k)) = p at h1 h2
      obtain ⟨i, r⟩ := p
      simp only at h1 h2
      subst h1
      dsimp only
      have ht : Folded c e ((n - n % 8) / 8 + 3) (lanes8 ls) (tree8 c r) :=
        .join (.join (.join (h2 0) (h2 1)) (.join (h2 2) (h2 3))) (.join (.join (h2 4) (h2 5)) (.join (h2 6) (h2 7)))
      exact .le (by omega) (restLoop_folded c e d n n _ _ _ (by omega) (by omega) (.perm h3 ht))

theorem map_range_size {s : List Nat} {val : Nat → α} {get : List Nat → α} (h : ∀ idx, InShape s idx → val (rank s idx) = get idx) :
    (List.range (size s)).map val = (indices s).map get := by
  rw [← map_rank_indices, List.map_map]
  exact List.map_congr_left fun i hi => h i (mem_indices.1 hi)

theorem length_toList (nd : Nd α) : nd.toList.length = size nd.shape := by
  rw [Nd.toList, List.length_map, length_indices]

theorem reduceTyped_folded (c : α → α → α) (e : α) (mem : Int → α) {v : View} (hw : v.WF) {x : α} (h : reduceTyped c e mem v = some x) :
    Folded c e (size v.shape) (v.denote mem).toList x := by
  unfold Nd.toList
  unfold reduceTyped at h
  dsimp only at h
  rw [sizeOf_eq] at h
  split at h
  · next h0 =>
    have : indices v.shape = [] := List.eq_nil_of_length_eq_zero (by rw [length_indices, h0])
    simp only [Option.some.injEq] at h
    subst h
    rw [h0]
    simp only [View.denote, this, List.map_nil]
    exact .nil
  · split at h
    · next hc =>
      simp only [Option.some.injEq] at h
      subst h
      have := reduce8_folded c e (fun i => mem (v.offset + i * v.item)) (size v.shape)
      rwa [map_range_size (get := (v.denote mem).get) fun idx hi => by simp only [View.denote, cFlag_addr hw hc hi]] at this
    · split at h
      · next hn =>
        simp only [Option.some.injEq] at h
        subst h
        have := reduce8_folded c e (fun i => mem (v.offset + stride1 v.shape.length v * i)) (size v.shape)
        rwa [map_range_size (get := (v.denote mem).get) fun idx hi => by simp only [View.denote, stride1_addr hw hn hi]] at this
      · simp at h

theorem reduceAxis_folded {α : Type} (c : α → α → α) (e : α) (mem : Int → α) {v : View} (hw : v.WF) {axis : Nat} (hax : axis < v.shape.length)
    (zero : α) : ∃ f : List Nat → α, (reduceAxis c e mem v axis zero).data = (indices (v.shape.eraseIdx axis)).map f ∧
      ∀ i, InShape (v.shape.eraseIdx axis) i → Folded c e (v.shape.getD axis 0) (laneOf (v.denote mem) axis i) (f i) := by
  have hl : ∀ i, Folded c e (v.shape.getD axis 0) (laneOf (v.denote mem) axis i) (laneFold c e mem v axis i) := fun i =>
    foldl_folded c e (fun j => mem (v.addr (i.insertIdx axis j))) _
  unfold reduceAxis
  dsimp only
  rw [sizeOf_eq, outShape_size]
  split
  · next h =>
    refine ⟨laneFold c e mem v axis, ?_, fun i _ => hl i⟩
    dsimp only
    apply List.ext_getElem
    · simp [length_indices]
    · intro n h1 h2
      have : v.shape.getD axis 0 = 0 := by
        rcases h with h | h
        · simp [h] at h1
        · exact h
      simp only [List.getElem_replicate, List.getElem_map, laneFold, this, List.range_zero, List.foldl_nil]
  · next h =>
    push Not at h
    split
    · next hst =>
      dsimp only
      rw [lanes_eq (fun b => reduce8 c e (fun j => mem (v.offset + b + j * v.item)) (v.shape.getD axis 0)) hw _ (by simp)]
      refine ⟨_, rfl, fun i hi => ?_⟩
      have := reduce8_folded c e (fun j => mem (v.offset + byteOffset i (v.strides.eraseIdx axis) + j * v.item)) (v.shape.getD axis 0)
      have he : (List.range (v.shape.getD axis 0)).map (fun j : Nat => mem (v.offset + byteOffset i (v.strides.eraseIdx axis) + j * v.item)) =
          laneOf (v.denote mem) axis i := by
        apply List.map_congr_left
        intro j _
        simp only [View.denote]
        rw [lane_addr hw hax hi, hst, Int.mul_comm]
      rwa [he] at this
    · split
      · next hc =>
        dsimp only
        rw [sizeOf_eq, sizeOf_eq]
        exact ⟨_, accumulateRows_eq c e mem hw hc hax h.1, fun i _ => hl i⟩
      · dsimp only
        rw [lanes_eq (fun b => reduce8 c e (fun j => mem (v.offset + b + v.strides.getD axis 0 * j)) (v.shape.getD axis 0)) hw _ (by simp)]
        refine ⟨_, rfl, fun i hi => ?_⟩
        have := reduce8_folded c e (fun j => mem (v.offset + byteOffset i (v.strides.eraseIdx axis) + v.strides.getD axis 0 * j))
          (v.shape.getD axis 0)
        have he : (List.range (v.shape.getD axis 0)).map
            (fun j : Nat => mem (v.offset + byteOffset i (v.strides.eraseIdx axis) + v.strides.getD axis 0 * j)) =
            laneOf (v.denote mem) axis i := by
          apply List.map_congr_left
          intro j _
          simp only [View.denote]
          rw [lane_addr hw hax hi]
        rwa [he] at this

theorem reduceAxisFallback_folded {α : Type} (c : α → α → α) (e : α) (mem : Int → α) {v : View} (hw : v.WF) {axis : Nat} (hax : axis < v.shape.length)
    (hn : v.shape.getD axis 0 ≠ 0) (zero : α) :
    ∃ f : List Nat → α, (reduceAxisFallback c e mem v axis zero).data = (indices (v.shape.eraseIdx axis)).map f ∧
      ∀ i, InShape (v.shape.eraseIdx axis) i → Folded c e (v.shape.getD axis 0) (laneOf (v.denote mem) axis i) (f i) :=
  ⟨_, reduceAxisFallback_eq c e mem hw hax hn zero, fun i _ => foldl_folded c e (fun j => mem (v.addr (i.insertIdx axis j))) _⟩

end Rumpy
