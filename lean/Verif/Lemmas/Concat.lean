import Verif.Model.Concat
import Verif.Lemmas.Array
/-!
# Lemmas: joining and splitting
-/

namespace Rumpy
open Spec

/-- Destination multi-indices of the copy loops. -/
def concatTargets (axis : Nat) : List (Nd α) → Nat → List (List Nat)
  | [], _ => []
  | a :: r, off => (indices a.shape).map (fun idx => idx.modify axis (· + off))
      ++ concatTargets axis r (off + a.shape.getD axis 0)

theorem set_getD_self {s : List Nat} {axis : Nat} (h : axis < s.length) : s.set axis (s.getD axis 0) = s := by
  rw [List.getD_eq_getElem _ _ h]; exact List.set_getElem_self h

theorem compatible_iff {axis : Nat} {s t : List Nat} (hax : axis < s.length) :
    concatCompatible axis s t = true ↔ t = s.set axis (t.getD axis 0) := by
  unfold concatCompatible
  simp only [Bool.and_eq_true, beq_iff_eq, List.all_eq_true, List.mem_range, Bool.or_eq_true]
  constructor
  · rintro ⟨hl, h⟩
    apply List.ext_getElem
    · simp [hl]
    · intro i h1 h2
      rw [List.getElem_set]
      split
      · rename_i he
        subst he
        rw [List.getD_eq_getElem _ _ h1]
      · rename_i hne
        have := h i (by omega)
        rcases this with h3 | h3
        · omega
        · rw [List.getD_eq_getElem _ _ (by omega), List.getD_eq_getElem _ _ h1] at h3
          exact h3.symm
  · intro h
    have hl : t.length = s.length := by rw [h]; simp
    refine ⟨hl, fun i hi => ?_⟩
    by_cases he : i = axis
    · exact Or.inl he
    · right
      rw [h]
      simp [List.getD, List.getElem?_set, Ne.symm he]

theorem inShape_shift {s : List Nat} {axis n off tot : Nat} {idx : List Nat} (hax : axis < s.length)
    (h : InShape (s.set axis n) idx) (ht : off + n ≤ tot) :
    InShape (s.set axis tot) (idx.modify axis (· + off)) ∧
      (idx.modify axis (· + off)).getD axis 0 = idx.getD axis 0 + off := by
  have hl : idx.length = s.length := by rw [h.length_eq]; simp
  have h2 := getD_modify_self (l := idx) (k := axis) (f := (· + off)) (by omega)
  refine ⟨?_, h2⟩
  rw [inShape_set hax] at h ⊢
  refine ⟨by simpa using hl, by rw [h2]; have := h.2.1; omega, fun k hk hne => ?_⟩
  rw [getD_modify_ne (Ne.symm hne)]
  exact h.2.2 k hk hne

theorem axisTotal_cons (axis : Nat) (a : Nd α) (r : List (Nd α)) :
    axisTotal axis (a :: r) = a.shape.getD axis 0 + axisTotal axis r := by
  simp [axisTotal]

theorem concatTargets_spec {axis : Nat} {s : List Nat} (hax : axis < s.length) :
    ∀ (arrs : List (Nd α)) (off tot : Nat), (∀ a ∈ arrs, a.shape = s.set axis (a.shape.getD axis 0)) →
    off + axisTotal axis arrs ≤ tot →
    (concatTargets axis arrs off).Nodup ∧
    ∀ j ∈ concatTargets axis arrs off, InShape (s.set axis tot) j ∧ off ≤ j.getD axis 0 ∧
      j.getD axis 0 < off + axisTotal axis arrs
  | [], off, tot, _, _ => by simp [concatTargets]
  | a :: r, off, tot, hs, ht => by
    rw [axisTotal_cons] at ht
    have ha := hs a (by simp)
    set n := a.shape.getD axis 0 with hn
    obtain ⟨ih1, ih2⟩ := concatTargets_spec hax r (off + n) tot (fun x hx => hs x (by simp [hx])) (by omega)
    have hfirst : ∀ j ∈ (indices a.shape).map (fun idx => idx.modify axis (· + off)),
        InShape (s.set axis tot) j ∧ off ≤ j.getD axis 0 ∧ j.getD axis 0 < off + n := by
      intro j hj
      obtain ⟨idx, hi, rfl⟩ := List.mem_map.1 hj
      rw [mem_indices, ha] at hi
      obtain ⟨h1, h2⟩ := inShape_shift hax hi (off := off) (tot := tot) (by omega)
      rw [inShape_set hax] at hi
      exact ⟨h1, by omega, by have := hi.2.1; omega⟩
    constructor
    · rw [concatTargets, List.nodup_append]
      refine ⟨?_, ih1, ?_⟩
      · apply (List.nodup_map_iff_inj_on (indices_nodup _)).2
        intro x hx y hy hxy
        rw [mem_indices] at hx hy
        have hlx := hx.length_eq
        have hly := hy.length_eq
        apply List.ext_getElem (by omega)
        intro i h1 h2
        have := congrArg (fun l => l.getD i 0) hxy
        by_cases he : axis = i
        · subst he
          rw [getD_modify_self h1, getD_modify_self h2, List.getD_eq_getElem _ _ h1,
            List.getD_eq_getElem _ _ h2] at this
          omega
        ·
          rw [getD_modify_ne he, getD_modify_ne he, List.getD_eq_getElem _ _ h1,
            List.getD_eq_getElem _ _ h2] at this
          exact this
      · intro x hx y hy he
        have h1 := hfirst x hx
        have h2 := ih2 y hy
        rw [he] at h1
        omega
    · intro j hj
      rw [concatTargets, List.mem_append] at hj
      rw [axisTotal_cons]
      rcases hj with hj | hj
      · obtain ⟨h1, h2, h3⟩ := hfirst j hj
        exact ⟨h1, h2, by omega⟩
      · obtain ⟨h1, h2, h3⟩ := ih2 j hj
        exact ⟨h1, by omega, by omega⟩

theorem concatWrites_targets {axis : Nat} {s : List Nat} (hax : axis < s.length) (tot : Nat) :
    ∀ (arrs : List (Nd α)) (off : Nat), (∀ a ∈ arrs, a.shape = s.set axis (a.shape.getD axis 0)) →
    (concatWrites axis (s.set axis tot) arrs off).map (·.1)
      = (concatTargets axis arrs off).map (rank (s.set axis tot))
  | [], _, _ => rfl
  | a :: r, off, hs => by
    have ha := hs a (by simp)
    rw [concatWrites, concatTargets, List.map_append, List.map_append,
      concatWrites_targets hax tot r _ (fun x hx => hs x (by simp [hx]))]
    congr 1
    rw [odometerAll_eq, List.map_map, List.map_map]
    apply List.map_congr_left
    intro idx hi
    rw [mem_indices] at hi
    have hl := hi.length_eq
    have hl2 : a.shape.length = s.length := by rw [ha]; simp
    simp only [Function.comp]
    rw [linearIndex_eq (by simp; omega)]

/-- Sum of the axis lengths before the `k`-th array. -/
theorem concatWrites_mem {axis : Nat} {s : List Nat} (hax : axis < s.length) (tot : Nat) :
    ∀ (arrs : List (Nd α)) (off k : Nat) (a : Nd α),
    (∀ a ∈ arrs, a.shape = s.set axis (a.shape.getD axis 0)) → arrs[k]? = some a →
    ∀ idx, InShape a.shape idx →
    (rank (s.set axis tot) (idx.modify axis (· + (off + axisTotal axis (arrs.take k)))), a.get idx)
      ∈ concatWrites axis (s.set axis tot) arrs off
  | [], _, k, a, _, h => by simp at h
  | b :: r, off, 0, a, hs, h => by
    intro idx hi
    simp only [List.getElem?_cons_zero, Option.some.injEq] at h
    subst h
    rw [concatWrites, List.mem_append]
    left
    rw [odometerAll_eq]
    refine List.mem_map.2 ⟨idx, mem_indices.2 hi, ?_⟩
    have hl2 : b.shape.length = s.length := by rw [hs b (by simp)]; simp
    rw [linearIndex_eq (by simp [hi.length_eq, hl2])]
    simp [axisTotal]
  | b :: r, off, k + 1, a, hs, h => by
    intro idx hi
    rw [concatWrites, List.mem_append]
    right
    have := concatWrites_mem hax tot r (off + b.shape.getD axis 0) k a
      (fun x hx => hs x (by simp [hx])) (by simpa using h) idx hi
    rw [List.take_succ_cons, axisTotal_cons, ← Nat.add_assoc]
    exact this

/-- Every position along the axis belongs to exactly one array. -/
theorem exists_segment {axis : Nat} : ∀ (arrs : List (Nd α)) (j : Nat), j < axisTotal axis arrs →
    ∃ k a, arrs[k]? = some a ∧ axisTotal axis (arrs.take k) ≤ j ∧
      j < axisTotal axis (arrs.take k) + a.shape.getD axis 0
  | [], j, h => by simp [axisTotal] at h
  | b :: r, j, h => by
    rw [axisTotal_cons] at h
    by_cases hj : j < b.shape.getD axis 0
    · exact ⟨0, b, rfl, by simp [axisTotal], by simpa [axisTotal] using hj⟩
    · obtain ⟨k, a, h1, h2, h3⟩ := exists_segment (axis := axis) r (j - b.shape.getD axis 0) (by omega)
      refine ⟨k + 1, a, by simpa using h1, ?_, ?_⟩
      · rw [List.take_succ_cons, axisTotal_cons]; omega
      · rw [List.take_succ_cons, axisTotal_cons]; omega

end Rumpy
