import Verif.Model.Array
import Verif.Lemmas.InBounds
/-!
# Lemmas: result arrays and stores
-/

namespace Rumpy
open Spec

theorem linearIndexAux_eq : ∀ {s idx : List Nat}, idx.length = s.length →
    linearIndexAux idx s = (rank s idx, size s)
  | [], [], _ => by simp [linearIndexAux, rank, size]
  | n :: s, i :: idx, h => by
    rw [linearIndexAux, linearIndexAux_eq (by simpa using h)]
    simp [rank, size, Nat.add_comm, Nat.mul_comm]

theorem linearIndex_eq {s idx : List Nat} (h : idx.length = s.length) : linearIndex idx s = rank s idx := by
  simp [linearIndex, linearIndexAux_eq h]

@[simp] theorem writes_nil (d : List α) : writes [] d = d := rfl
@[simp] theorem writes_cons (w : Nat × α) (ws : List (Nat × α)) (d : List α) :
    writes (w :: ws) d = writes ws (d.set w.1 w.2) := rfl

theorem writes_append (a b : List (Nat × α)) (d : List α) : writes (a ++ b) d = writes b (writes a d) := by
  simp [writes, List.foldl_append]

@[simp] theorem writes_length (ws : List (Nat × α)) (d : List α) : (writes ws d).length = d.length := by
  induction ws generalizing d with
  | nil => rfl
  | cons w ws ih => simp [ih]

theorem writes_get_notMem {ws : List (Nat × α)} {d : List α} {k : Nat} (h : k ∉ ws.map (·.1)) :
    (writes ws d)[k]? = d[k]? := by
  induction ws generalizing d with
  | nil => rfl
  | cons w ws ih =>
    simp only [List.map_cons, List.mem_cons, not_or] at h
    rw [writes_cons, ih h.2, List.getElem?_set_ne (Ne.symm h.1)]

/-- With distinct positions each store survives. -/
theorem writes_get {ws : List (Nat × α)} {d : List α} {k : Nat} {x : α}
    (hn : (ws.map (·.1)).Nodup) (hm : (k, x) ∈ ws) (hk : k < d.length) :
    (writes ws d)[k]? = some x := by
  induction ws generalizing d with
  | nil => simp at hm
  | cons w ws ih =>
    simp only [List.map_cons, List.nodup_cons] at hn
    rcases List.mem_cons.1 hm with rfl | hm
    · rw [writes_cons, writes_get_notMem hn.1, List.getElem?_set_self hk]
    · rw [writes_cons]
      exact ih hn.2 hm (by simpa using hk)

/-- When several stores hit a position they may agree. -/
theorem writes_get_of_agree {ws : List (Nat × α)} {d : List α} {k : Nat} {x : α}
    (hm : k ∈ ws.map (·.1)) (ha : ∀ y, (k, y) ∈ ws → y = x) (hk : k < d.length) :
    (writes ws d)[k]? = some x := by
  induction ws generalizing d with
  | nil => simp at hm
  | cons w ws ih =>
    rw [writes_cons]
    by_cases hin : k ∈ ws.map (·.1)
    · exact ih hin (fun y hy => ha y (by simp [hy])) (by simpa using hk)
    · simp only [List.map_cons, List.mem_cons] at hm
      have e : k = w.1 := by tauto
      rw [writes_get_notMem hin, e, List.getElem?_set_self (by rw [← e]; exact hk)]
      have := ha w.2 (by rw [e]; simp)
      rw [this]

/-- A list is the row-major listing of an n-d array as soon as it has the right length and
the right element at each row-major position. -/
theorem eq_toList {d : List α} {nd : Nd α} (hl : d.length = size nd.shape)
    (h : ∀ idx, InShape nd.shape idx → d[rank nd.shape idx]? = some (nd.get idx)) : d = nd.toList := by
  apply List.ext_getElem?
  intro k
  by_cases hk : k < size nd.shape
  · obtain ⟨idx, hi, rfl⟩ := exists_rank hk
    rw [h idx hi]
    have h2 : (indices nd.shape)[rank nd.shape idx]? = some idx := by
      have hk' : rank nd.shape idx < (indices nd.shape).length := by rw [length_indices]; exact hk
      rw [List.getElem?_eq_getElem hk', Option.some.injEq]
      have hin := mem_indices.1 (List.getElem_mem hk')
      apply rank_inj hin hi
      have h3 := map_rank_indices nd.shape
      have h4 : ((indices nd.shape).map (rank nd.shape))[rank nd.shape idx]? = some (rank nd.shape idx) := by
        rw [h3]; simp [hk]
      simpa [List.getElem?_map, List.getElem?_eq_getElem hk'] using h4
    simp [Nd.toList, List.getElem?_map, h2]
  · rw [List.getElem?_eq_none (by omega), List.getElem?_eq_none (by rw [Nd.length_toList]; omega)]

theorem indices_getElem?_rank {s idx : List Nat} (hi : InShape s idx) : (indices s)[rank s idx]? = some idx := by
  have hk' : rank s idx < (indices s).length := by rw [length_indices]; exact rank_lt hi
  rw [List.getElem?_eq_getElem hk', Option.some.injEq]
  have hin := mem_indices.1 (List.getElem_mem hk')
  apply rank_inj hin hi
  have h4 : ((indices s).map (rank s))[rank s idx]? = some (rank s idx) := by
    rw [map_rank_indices]; simp [rank_lt hi]
  simpa [List.getElem?_map, List.getElem?_eq_getElem hk'] using h4

theorem toList_getElem? {nd : Nd α} {idx : List Nat} (hi : InShape nd.shape idx) :
    nd.toList[rank nd.shape idx]? = some (nd.get idx) := by
  simp [Nd.toList, List.getElem?_map, indices_getElem?_rank hi]

theorem Arr.Is.at? {a : Arr α} {nd : Nd α} (h : a.Is nd) {idx : List Nat} (hi : InShape nd.shape idx) :
    a.at? idx = some (nd.get idx) := by
  unfold Arr.at?
  rw [h.1, h.2, toList_getElem? hi]

theorem Arr.is_iff {a : Arr α} {nd : Nd α} : a.Is nd ↔
    a.shape = nd.shape ∧ a.data.length = size nd.shape ∧
      ∀ idx, InShape nd.shape idx → a.at? idx = some (nd.get idx) := by
  constructor
  · intro h
    exact ⟨h.1, by rw [h.2, Nd.length_toList], fun idx hi => h.at? hi⟩
  · rintro ⟨h1, h2, h3⟩
    refine ⟨h1, eq_toList h2 fun idx hi => ?_⟩
    have := h3 idx hi
    unfold Arr.at? at this
    rw [h1] at this
    exact this

theorem odometerAll_eq (s : List Nat) : odometerAll s = indices s := by
  unfold odometerAll; rw [sizeOf_eq, odometer_eq]

/-- Stores at the row-major positions of all indices fill the array with `f`. -/
theorem writes_indices (s : List Nat) (f : List Nat → α) (d : List α) (hd : d.length = size s) :
    writes ((indices s).map fun idx => (rank s idx, f idx)) d = (indices s).map f := by
  have := eq_toList (d := writes ((indices s).map fun idx => (rank s idx, f idx)) d) (nd := ⟨s, f⟩)
    (by simp [hd]) (fun idx hi => by
      apply writes_get
      · simp only [List.map_map, Function.comp_def]
        have : ((indices s).map (rank s)).Nodup := by rw [map_rank_indices]; exact List.nodup_range
        exact this
      · exact List.mem_map.2 ⟨idx, mem_indices.2 hi, rfl⟩
      · rw [hd]; exact rank_lt hi)
  exact this

end Rumpy
