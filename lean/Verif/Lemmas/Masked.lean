import Verif.Model.Masked
import Verif.Lemmas.Elementwise
import Verif.Lemmas.Copy
import Verif.Spec.Masked
/-!
# Lemmas: conditions, masked stores, resizing
-/

namespace Rumpy
open Spec

theorem flatAddrs_eq {fast : Bool} {v : View} (hw : v.WF) (h : fast = true → v.cFlag = true) : flatAddrs fast v = v.addrs := by
  unfold flatAddrs
  split
  · next hf =>
    rw [addrs_eq hw, sizeOf_eq, ← map_rank_indices, List.map_map]
    apply List.map_congr_left
    intro i hi
    rw [cFlag_addr hw (h hf) (mem_indices.1 hi)]; rfl
  · rfl

theorem condFlags_eq {fast : Bool} {c : Held Nat} (hw : c.view.WF) (h1 : c.view.item = 1) (h : fast = true → c.view.cFlag = true) :
    condFlags fast c = c.nd.toList.map (· != 0) := by
  unfold condFlags
  split
  · next hf =>
    unfold Nd.toList
    rw [List.map_map, sizeOf_eq, ← map_rank_indices, List.map_map]
    apply List.map_congr_left
    intro i hi
    have := cFlag_addr hw (h hf) (mem_indices.1 hi)
    show (c.mem (c.view.offset + ((rank c.view.shape i : Nat) : Int)) != 0) = (c.mem (c.view.addr i) != 0)
    rw [this, h1]
    simp
  · rw [addrs_eq hw]
    unfold Nd.toList
    rw [List.map_map, List.map_map]
    rfl

theorem length_addrs {v : View} (hw : v.WF) : v.addrs.length = size v.shape := by
  rw [addrs_eq hw, List.length_map, length_indices]

theorem addrs_getElem? {v : View} (hw : v.WF) {i : List Nat} (hi : InShape v.shape i) :
    v.addrs[rank v.shape i]? = some (v.addr i) := by
  rw [addrs_eq hw, List.getElem?_map, indices_getElem?_rank hi]; rfl

theorem placeLoop_other {src : Nat → Int} {n : Nat} {conv : α → α} : ∀ (l : List (Bool × Int)) (k : Nat) (mem : Int → α) (p : Int),
    (true, p) ∉ l → placeLoop src n conv l k mem p = mem p
  | [], _, _, _, _ => rfl
  | (m, q) :: l, k, mem, p, h => by
    rw [List.mem_cons, not_or] at h
    unfold placeLoop
    cases m
    · rw [if_neg (by simp)]
      exact placeLoop_other l k mem p h.2
    · rw [if_pos rfl, placeLoop_other l _ _ p h.2, if_neg]
      rintro rfl
      exact h.1 rfl

theorem placeLoop_at {src : Nat → Int} {n : Nat} (hn : 0 < n) {conv : α → α} : ∀ (l : List (Bool × Int)) (k : Nat) (mem : Int → α)
    (j : Nat) (p : Int), (l.map (·.2)).Nodup → (∀ i, i < n → src i ∉ l.map (·.2)) → l[j]? = some (true, p) →
    placeLoop src n conv l k mem p = conv (mem (src ((k + ((l.map (·.1)).take j).count true) % n)))
  | [], _, _, j, p, _, _, h => by simp at h
  | (m, q) :: l, k, mem, 0, p, hnd, hsrc, h => by
    simp only [List.getElem?_cons_zero, Option.some.injEq, Prod.mk.injEq] at h
    obtain ⟨rfl, rfl⟩ := h
    rw [List.map_cons, List.nodup_cons] at hnd
    unfold placeLoop
    rw [if_pos rfl, placeLoop_other l _ _ q fun hm => hnd.1 (List.mem_map.2 ⟨_, hm, rfl⟩), if_pos rfl]
    simp
  | (m, q) :: l, k, mem, j + 1, p, hnd, hsrc, h => by
    rw [List.getElem?_cons_succ] at h
    rw [List.map_cons, List.nodup_cons] at hnd
    have hsrc' : ∀ i, i < n → src i ∉ l.map (·.2) := fun i hi hm => hsrc i hi (by rw [List.map_cons]; exact List.mem_cons_of_mem _ hm)
    unfold placeLoop
    cases m
    · rw [if_neg (by simp), placeLoop_at hn l k mem j p hnd.2 hsrc' h]
      simp
    · rw [if_pos rfl, placeLoop_at hn l (k + 1) _ j p hnd.2 hsrc' h]
      have hne : src ((k + 1 + ((l.map (·.1)).take j).count true) % n) ≠ q := by
        intro he
        have h1 := hsrc ((k + 1 + ((l.map (·.1)).take j).count true) % n) (Nat.mod_lt _ hn)
        rw [he] at h1
        exact h1 (by simp)
      rw [if_neg hne]
      simp only [List.map_cons, List.take_succ_cons, List.count_cons_self]
      congr 4; omega

theorem putmaskLoop_other {src : Nat → Int} {n : Nat} {conv : α → α} : ∀ (l : List (Bool × Int)) (k : Nat) (mem : Int → α) (p : Int),
    (true, p) ∉ l → putmaskLoop src n conv l k mem p = mem p
  | [], _, _, _, _ => rfl
  | (m, q) :: l, k, mem, p, h => by
    rw [List.mem_cons, not_or] at h
    unfold putmaskLoop
    rw [putmaskLoop_other l _ _ p h.2]
    cases m
    · rfl
    · rw [if_pos rfl, if_neg]
      rintro rfl
      exact h.1 rfl

theorem putmaskLoop_at {src : Nat → Int} {n : Nat} (hn : 0 < n) {conv : α → α} : ∀ (l : List (Bool × Int)) (k : Nat) (mem : Int → α)
    (j : Nat) (p : Int), (l.map (·.2)).Nodup → (∀ i, i < n → src i ∉ l.map (·.2)) → l[j]? = some (true, p) →
    putmaskLoop src n conv l k mem p = conv (mem (src ((k + j) % n)))
  | [], _, _, j, p, _, _, h => by simp at h
  | (m, q) :: l, k, mem, 0, p, hnd, hsrc, h => by
    simp only [List.getElem?_cons_zero, Option.some.injEq, Prod.mk.injEq] at h
    obtain ⟨rfl, rfl⟩ := h
    rw [List.map_cons, List.nodup_cons] at hnd
    unfold putmaskLoop
    rw [putmaskLoop_other l _ _ q fun hm => hnd.1 (List.mem_map.2 ⟨_, hm, rfl⟩), if_pos rfl, if_pos rfl]
    simp
  | (m, q) :: l, k, mem, j + 1, p, hnd, hsrc, h => by
    rw [List.getElem?_cons_succ] at h
    rw [List.map_cons, List.nodup_cons] at hnd
    have hsrc' : ∀ i, i < n → src i ∉ l.map (·.2) := fun i hi hm => hsrc i hi (by rw [List.map_cons]; exact List.mem_cons_of_mem _ hm)
    unfold putmaskLoop
    rw [putmaskLoop_at hn l (k + 1) _ j p hnd.2 hsrc' h]
    have e : k + 1 + j = k + (j + 1) := by omega
    rw [e]
    have hne : src ((k + (j + 1)) % n) ≠ q := by
      intro he
      have h1 := hsrc ((k + (j + 1)) % n) (Nat.mod_lt _ hn)
      rw [he] at h1
      exact h1 (by simp)
    cases m
    · rfl
    · rw [if_pos rfl, if_neg hne]

/-- `0 .. q*n` in blocks of `n`. -/
theorem range_runs (q n : Nat) : (List.range q).flatMap (fun t => (List.range n).map fun j => t * n + j) = List.range (q * n) := by
  induction q with
  | zero => simp
  | succ q ih =>
    rw [List.range_succ, List.flatMap_append, ih, Nat.succ_mul, List.range_add]
    simp

theorem writes_range (f : Nat → α) (n : Nat) (d : List α) (hd : d.length = n) :
    writes ((List.range n).map fun i => (i, f i)) d = (List.range n).map f := by
  have := writes_zipIdx f (List.range n) d (by simpa using hd)
  rw [← this]
  congr 1
  apply List.ext_getElem
  · simp
  · intro i h1 h2
    simp

theorem neighbourDiffs_eq [Sub α] (x : α) : ∀ l : List α, neighbourDiffs l = (List.range (l.length - 1)).map fun i => l.getD (i + 1) x - l.getD i x
  | [] => rfl
  | [a] => rfl
  | a :: b :: r => by
    rw [neighbourDiffs, neighbourDiffs_eq x (b :: r)]
    simp only [List.length_cons, Nat.add_sub_cancel, List.range_succ_eq_map, List.map_cons, List.map_map]
    rfl

end Rumpy
