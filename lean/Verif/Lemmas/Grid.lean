import Verif.Lemmas.Create
import Verif.Lemmas.Copy
import Verif.Lemmas.Broadcast
/-!
# Lemmas: index grids and mesh grids
-/

namespace Rumpy
open Spec

theorem split_at {dims : List Nat} {d : Nat} (hd : d < dims.length) :
    dims = dims.take d ++ (dims.getD d 0 :: dims.drop (d + 1)) := by
  rw [List.getD_eq_getElem _ _ hd, List.getElem_cons_drop, List.take_append_drop]

/-- The three nested loops of the fast path visit the grid points in row-major order. -/
theorem grid_loops (dims : List Nat) (d : Nat) (hd : d < dims.length) (base : Nat) (store : Nat → α) :
    ((List.range (size (dims.take d))).flatMap fun r => (List.range (dims.getD d 0)).flatMap fun x =>
      (List.range (size (dims.drop (d + 1)))).map fun s =>
        (base + r * dims.getD d 0 * size (dims.drop (d + 1)) + x * size (dims.drop (d + 1)) + s, store x))
    = (indices dims).map fun i => (base + rank dims i, store (i.getD d 0)) := by
  conv_rhs => rw [split_at hd]
  rw [indices_append, List.map_flatMap, ← map_rank_indices (dims.take d), List.flatMap_map]
  apply List.flatMap_congr
  intro i hi
  have hil : i.length = (dims.take d).length := (mem_indices.1 hi).length_eq
  have hid : i.length = d := by rw [hil, List.length_take]; omega
  simp only [indices, List.map_flatMap, List.map_map]
  apply List.flatMap_congr
  intro x hx
  rw [← map_rank_indices (dims.drop (d + 1)), List.map_map]
  apply List.map_congr_left
  intro t ht
  simp only [Function.comp_apply]
  rw [rank_append _ _ hil]
  simp only [rank, size, Prod.mk.injEq]
  constructor
  · ring
  · congr 1
    rw [List.getD_append_right _ _ _ _ (by omega), hid]
    simp

theorem grid_writes (dims : List Nat) (store : Nat → α) (d : List α) (n : Nat) (hd : d.length = n * size dims) :
    writes ((List.range n).flatMap fun k => (indices dims).map fun i => (k * size dims + rank dims i, store (i.getD k 0))) d
    = (Nd.toList ⟨n :: dims, fun idx => store (idx.tail.getD (idx.headD 0) 0)⟩) := by
  have := writes_indices (n :: dims) (fun idx => store (idx.tail.getD (idx.headD 0) 0)) d (by rw [hd]; simp [size])
  show _ = (indices (n :: dims)).map _
  rw [← this]
  congr 1
  simp only [indices, List.map_flatMap, List.map_map]
  apply List.flatMap_congr
  intro k _
  apply List.map_congr_left
  intro i _
  simp [rank]

theorem indicesArr_is (fast : Bool) (store : Nat → α) (dims : List Nat) (zero : α) :
    (indicesArr fast store dims zero).Is ⟨if dims = [] then [0] else dims.length :: dims,
      fun idx => store (idx.tail.getD (idx.headD 0) 0)⟩ := by
  unfold indicesArr
  dsimp only
  by_cases h : dims.length = 0
  · rw [if_pos h, if_pos (List.length_eq_zero_iff.1 h)]
    exact ⟨rfl, rfl⟩
  have hne : dims ≠ [] := fun e => h (by rw [e]; rfl)
  rw [if_neg h, if_neg hne]
  have hlen : (List.replicate (Rumpy.sizeOf (dims.length :: dims)) zero).length = dims.length * size dims := by
    rw [List.length_replicate, sizeOf_eq]; rfl
  by_cases h0 : Rumpy.sizeOf dims = 0
  · rw [if_pos h0]
    refine ⟨rfl, ?_⟩
    rw [sizeOf_eq] at h0
    have e : indices (dims.length :: dims) = [] := by
      apply List.length_eq_zero_iff.1; rw [length_indices]; simp [size, h0]
    show List.replicate _ zero = (indices (dims.length :: dims)).map _
    rw [e, sizeOf_eq]; simp [size, h0]
  rw [if_neg h0]
  cases fast
  · rw [if_neg (by simp)]
    refine ⟨rfl, ?_⟩
    rw [← grid_writes dims store _ _ hlen, sizeOf_eq, odometerAll_eq, indices_zipIdx]
    simp only [List.map_map, Function.comp_def, sizeOf_eq]
  · rw [if_pos rfl]
    refine ⟨rfl, ?_⟩
    rw [← grid_writes dims store _ _ hlen]
    refine congrArg (fun ws => writes ws _) (List.flatMap_congr fun k hk => ?_)
    simp only [sizeOf_eq]
    exact grid_loops dims k (List.mem_range.1 hk) _ store

/-! ### meshgrid -/

theorem broadcastLoop_strides {x : Int} : ∀ {os : List Nat} {sts : List Int} {ns : List Nat} {st : List Int},
    View.broadcastLoop os sts ns = some st → x ∈ st → x = 0 ∨ x ∈ sts
  | [], sts, ns, st, h, hx => by
    simp only [View.broadcastLoop, Option.some.injEq] at h
    subst h; simp at hx
  | o :: os, [], ns, st, h, hx => by simp [View.broadcastLoop] at h
  | o :: os, t :: sts, [], st, h, hx => by simp [View.broadcastLoop] at h
  | o :: os, t :: sts, n :: ns, st, h, hx => by
    unfold View.broadcastLoop at h
    split at h
    · obtain ⟨st', h', rfl⟩ := Option.map_eq_some_iff.1 h
      rcases List.mem_cons.1 hx with rfl | hx
      · exact .inr (by simp)
      · exact (broadcastLoop_strides h' hx).imp id fun h => by simp [h]
    · split at h
      · obtain ⟨st', h', rfl⟩ := Option.map_eq_some_iff.1 h
        rcases List.mem_cons.1 hx with rfl | hx
        · exact .inl rfl
        · exact (broadcastLoop_strides h' hx).imp id fun h => by simp [h]
      · simp at h

theorem broadcastTo_strides {v v' : View} {t : List Nat} (h : v.broadcastTo t = some v') {x : Int} (hx : x ∈ v'.strides) :
    x = 0 ∨ x ∈ v.strides := by
  unfold View.broadcastTo at h
  dsimp only at h
  split at h
  · simp at h
  · split at h
    · simp at h
    · rename_i st hl
      simp only [Option.some.injEq] at h
      subst h
      simp only [View.viewWith, List.mem_append, List.mem_replicate] at hx
      rcases hx with hx | hx
      · exact .inl hx.2
      · exact broadcastLoop_strides hl hx

theorem cStrides_dvd (item : Nat) : ∀ (s : List Nat) (x : Int), x ∈ cStrides s item → (item : Int) ∣ x
  | [], x, h => by simp [cStrides, cStridesAux] at h
  | n :: s, x, h => by
    rw [cStrides_cons] at h
    rcases List.mem_cons.1 h with rfl | h
    · push_cast
      exact Int.dvd_mul_right _ _
    · exact cStrides_dvd item s x h

/-- An axis vector: length `n` on axis `d`, one elsewhere. -/
theorem size_axis (k d n : Nat) (hd : d < k) : size ((List.replicate k 1).set d n) = n := by
  induction k generalizing d with
  | zero => omega
  | succ k ih =>
    cases d with
    | zero =>
      have : size (List.replicate k 1) = 1 := by
        clear ih hd
        induction k with
        | zero => rfl
        | succ k ih => simp [List.replicate_succ, size, ih]
      simp [List.replicate_succ, size, this]
    | succ d =>
      simp only [List.replicate_succ, List.set_cons_succ, size]
      rw [ih d (by omega), one_mul]

theorem size_ones (k : Nat) : size (List.replicate k 1) = 1 := by
  induction k with
  | zero => rfl
  | succ k ih => simp [List.replicate_succ, size, ih]

theorem rank_zeros : ∀ (s : List Nat) (idx : List Nat), (∀ x ∈ idx, x = 0) → rank s idx = 0
  | [], _, _ => by simp [rank]
  | n :: s, [], _ => by simp [rank, rank_zeros s [] (by simp)]
  | n :: s, x :: idx, h => by
    have hx : x = 0 := h x (by simp)
    simp [rank, hx, rank_zeros s idx fun y hy => h y (by simp [hy])]

theorem rank_axis (k d n : Nat) (hd : d < k) (out idx : List Nat) (hl : idx.length = k)
    (hlt : idx.getD d 0 < n) :
    rank ((List.replicate k 1).set d n)
      (List.zipWith (fun e i => if e = 1 then 0 else i) ((List.replicate k 1).set d n) idx) = idx.getD d 0 := by
  induction k generalizing d idx with
  | zero => omega
  | succ k ih =>
    match idx, hl with
    | x :: idx, hl =>
      have hl' : idx.length = k := by simpa using hl
      cases d with
      | zero =>
        have hz : rank (List.replicate k 1) (List.zipWith (fun e i => if e = 1 then 0 else i) (List.replicate k 1) idx) = 0 := by
          apply rank_zeros
          intro y hy
          rw [List.mem_iff_getElem] at hy
          obtain ⟨j, hj, rfl⟩ := hy
          simp
        simp only [List.getD_cons_zero] at hlt
        simp only [List.replicate_succ, List.set_cons_zero, List.zipWith_cons_cons, rank, List.headD_cons, List.tail_cons,
          hz, size_ones, mul_one, add_zero, List.getD_cons_zero]
        split
        · omega
        · rfl
      | succ d =>
        simp only [List.getD_cons_succ] at hlt
        simp only [List.replicate_succ, List.set_cons_succ, List.zipWith_cons_cons, rank, List.headD_cons, List.tail_cons,
          if_true, zero_mul, zero_add, List.getD_cons_succ]
        exact ih d (by omega) idx hl' hlt

/-- One output of `meshgrid`. -/
theorem mesh_one (eight : Bool) (a : Held α) (zero : α) (hw : a.view.WF) {n : Nat} (hs : a.view.shape = [n])
    (hc : a.view.cFlag = true) (out : List Nat) (d : Nat) (hd : d < out.length) (hn : out.getD d 0 = n) :
    ∃ r b, a.view.reshape ((List.replicate out.length 1).set d n) = some r ∧ r.broadcastTo out = some b ∧
      (copyArr eight a.mem b zero).Is ⟨out, fun idx => a.nd.get [idx.getD d 0]⟩ := by
  set bc := (List.replicate out.length 1).set d n with hbc
  have hbl : bc.length = out.length := by simp [hbc]
  have hr : a.view.reshape bc = some (a.view.viewWith 0 bc (cStrides bc a.view.item)) := by
    unfold View.reshape
    rw [sizeOf_eq, sizeOf_eq, hs, size_axis _ _ _ hd]
    simp [hc, size]
  set r := a.view.viewWith 0 bc (cStrides bc a.view.item) with hrdef
  have hrw : r.WF := View.WF.viewWith (cStrides_length _ _)
  have hbs : (r.broadcastTo out).isSome := by
    rw [broadcastTo_isSome hrw]
    refine ⟨le_of_eq hbl, fun k hk => ?_⟩
    have hk' : k < bc.length := hk
    show dimR bc k = 1 ∨ dimR bc k = dimR out k
    unfold dimR
    rw [if_pos hk', if_pos (by omega)]
    by_cases he : bc.length - 1 - k = d
    · right
      rw [hbl] at he
      rw [hbl, he, hbc, List.getD_eq_getElem _ _ (by simp; omega), List.getElem_set_self,
        List.getD_eq_getElem _ _ (by omega)]
      rw [List.getD_eq_getElem _ _ (by omega)] at hn
      exact hn.symm
    · left
      rw [hbc, List.getD_eq_getElem _ _ (by simp at hk' ⊢; omega), List.getElem_set_ne (by rw [hbc] at he; omega)]
      simp
  obtain ⟨b, hb⟩ := Option.isSome_iff_exists.1 hbs
  refine ⟨r, b, hr, hb, ?_⟩
  obtain ⟨hbw, hbshape, haddr, hin⟩ := broadcastTo_addr hrw hb
  have hbi : b.item = a.view.item := (broadcastTo_item hb).trans rfl
  have hcopy := copyArr_eq eight a.mem hbw (fun _ s hsm => by
    rcases broadcastTo_strides hb hsm with rfl | h
    · exact Int.dvd_zero _
    · rw [hbi]; exact cStrides_dvd _ _ _ h) zero
  refine hcopy.congr ⟨hbshape, fun idx hi => ?_⟩
  have hi' : InShape out idx := by rw [← hbshape]; exact hi
  have hlen : idx.length = out.length := hi'.length_eq
  have hlt : idx.getD d 0 < n := by
    rw [← hn]; exact ((inShape_iff_getD).1 hi').2 d hd
  show a.mem (b.addr idx) = a.mem (a.view.addr [idx.getD d 0])
  rw [haddr idx hi', cFlag_addr hw hc (idx := [idx.getD d 0]) (by rw [hs]; exact ⟨hlt, trivial⟩), hs]
  have hz := hin idx hi'
  have e0 : out.length - r.shape.length = 0 := by
    show out.length - bc.length = 0
    omega
  rw [e0, List.drop_zero] at hz ⊢
  have hadr : ∀ i, InShape bc i → r.addr i = a.view.offset + (rank bc i : Nat) * (a.view.item : Int) := by
    intro i hi
    show a.view.offset + 0 + byteOffset i (cStrides bc a.view.item) = _
    rw [byteOffset_cStrides _ _ _ hi.length_eq]
    push_cast; ring
  rw [hadr _ hz]
  show a.mem (a.view.offset + (rank bc (List.zipWith _ bc idx) : Nat) * _) = _
  rw [hbc, rank_axis _ _ _ hd out idx hlen hlt]
  simp [rank, size]

end Rumpy
