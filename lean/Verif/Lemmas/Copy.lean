import Verif.Model.Copy
import Verif.Lemmas.Cumulative
/-!
# Lemmas: copying
-/

namespace Rumpy
open Spec

theorem copyFront_length (d : List α) (dst n : Nat) : (copyFront d dst n).length = d.length := by
  simp [copyFront]

theorem copyFront_get {d : List α} {dst n j : Nat} (hj : j < n) (hd : dst + n ≤ d.length) :
    (copyFront d dst n)[dst + j]? = d[j]? := by
  have hjd : j < d.length := by omega
  rw [List.getElem?_eq_getElem hjd]
  unfold copyFront
  apply writes_get_of_agree
  · simp only [List.map_map, List.mem_map, Function.comp_apply]
    refine ⟨(d[j], j), ?_, rfl⟩
    rw [List.mem_zipIdx_iff_getElem?]
    simp [hj, List.getElem?_take, List.getElem?_eq_getElem hjd]
  · intro y hy
    obtain ⟨x, hx, he⟩ := List.mem_map.1 hy
    rw [List.mem_zipIdx_iff_getElem?] at hx
    have h1 : x.2 = j := by have := congrArg Prod.fst he; simp at this; omega
    have h2 : x.1 = y := congrArg Prod.snd he
    rw [h1, h2, List.getElem?_take, if_pos hj, List.getElem?_eq_getElem hjd] at hx
    exact (Option.some.inj hx).symm
  · omega

theorem copyFront_get_lt {d : List α} {dst n k : Nat} (hk : k < dst) : (copyFront d dst n)[k]? = d[k]? := by
  unfold copyFront
  apply writes_get_notMem
  simp only [List.map_map, List.mem_map, Function.comp_apply, not_exists, not_and]
  rintro x _ h
  omega

/-- Copying the first row over the others. -/
theorem copyRows (f : Nat → α) {n0 n1 : Nat} {d : List α} (hd : d.length = n0 * n1)
    (h0 : ∀ j, j < n1 → d[j]? = some (f j)) : ∀ k, k + 1 ≤ n0 →
    let e := (List.range' 1 k).foldl (fun d i => copyFront d (i * n1) n1) d
    e.length = n0 * n1 ∧ ∀ i j, i ≤ k → j < n1 → e[i * n1 + j]? = some (f j)
  | 0, _ => by
    refine ⟨hd, ?_⟩
    intro i j hi hj
    obtain rfl : i = 0 := by omega
    simpa using h0 j hj
  | k + 1, hk => by
    have ih := copyRows f hd h0 k (by omega)
    dsimp only at ih ⊢
    rw [List.range'_1_concat, List.foldl_append]
    simp only [List.foldl_cons, List.foldl_nil]
    generalize (List.range' 1 k).foldl (fun d i => copyFront d (i * n1) n1) d = e at ih ⊢
    refine ⟨by rw [copyFront_length, ih.1], ?_⟩
    intro i j hi hj
    have hb : (1 + k) * n1 + n1 ≤ n0 * n1 := by
      have := Nat.mul_le_mul_right n1 hk
      calc (1 + k) * n1 + n1 = (k + 1 + 1) * n1 := by ring
        _ ≤ n0 * n1 := this
    by_cases he : i = 1 + k
    · subst he
      rw [copyFront_get hj (by rw [ih.1]; exact hb)]
      simpa using ih.2 0 j (by omega) hj
    · rw [copyFront_get_lt, ih.2 i j (by omega) hj]
      have : (i + 1) * n1 ≤ (1 + k) * n1 := Nat.mul_le_mul_right n1 (by omega)
      calc i * n1 + j < i * n1 + n1 := by omega
        _ = (i + 1) * n1 := by ring
        _ ≤ _ := this

theorem tdiv_mul_cancel_dvd {a b : Int} (h : b ∣ a) : a.tdiv b * b = a := Int.tdiv_mul_cancel h

theorem byteOffset_dvd {n : Int} : ∀ {idx : List Nat} {st : List Int}, (∀ s ∈ st, n ∣ s) → n ∣ byteOffset idx st
  | [], _, _ => by simp [byteOffset]
  | i :: idx, [], _ => by simp [byteOffset]
  | i :: idx, s :: st, h => by
    rw [byteOffset]
    exact Int.dvd_add (Int.dvd_mul_of_dvd_right (h s (by simp))) (byteOffset_dvd fun t ht => h t (by simp [ht]))

theorem shape_two {α : Type} {s : List α} {d : α} (h : s.length = 2) : s = [s.getD 0 d, s.getD 1 d] := by
  rcases s with _ | ⟨a, _ | ⟨b, _ | ⟨c, s⟩⟩⟩ <;> simp_all

theorem copyBroadcast_eq (mem : Int → α) {v : View} (hw : v.WF) (hal : ∀ s ∈ v.strides, (v.item : Int) ∣ s) (zero : α) :
    copyBroadcast mem v zero = (v.denote mem).toList := by
  show _ = (indices v.shape).map fun i => mem (v.addr i)
  unfold copyBroadcast
  dsimp only
  rw [sizeOf_eq]
  by_cases h0 : size v.shape = 0
  · rw [if_pos h0, h0, size_zero_of_indices h0]; rfl
  rw [if_neg h0]
  by_cases h2 : v.shape.length = 2
  swap
  · rw [if_neg (by tauto), if_neg (by tauto)]
    rw [writes_odometer v.shape (fun i => mem (v.offset + (byteOffset i v.strides).tdiv v.item * v.item)) _ (by simp)]
    apply List.map_congr_left
    intro i _
    rw [tdiv_mul_cancel_dvd (byteOffset_dvd hal)]
    rfl
  have hs2 : v.strides.length = 2 := hw.len.trans h2
  have hs := shape_two (d := 0) h2
  have ht := shape_two (d := 0) hs2
  have hm0 : (v.item : Int) ∣ v.strides.getD 0 0 := hal _ (by
    rw [List.getD_eq_getElem _ _ (by omega)]; exact List.getElem_mem _)
  have hm1 : (v.item : Int) ∣ v.strides.getD 1 0 := hal _ (by
    rw [List.getD_eq_getElem _ _ (by omega)]; exact List.getElem_mem _)
  have haddr : ∀ i j, v.addr [i, j] = v.offset + (i * v.strides.getD 0 0 + j * v.strides.getD 1 0) := by
    intro i j
    unfold View.addr
    rw [ht]
    simp [byteOffset]
  have hrank : ∀ i j, rank v.shape [i, j] = i * v.shape.getD 1 0 + j := by
    intro i j
    rw [hs]
    simp [rank, size]
  have hsz : size v.shape = v.shape.getD 0 0 * v.shape.getD 1 0 := by
    conv_lhs => rw [hs]
    simp [size]
  have hin : ∀ idx, InShape v.shape idx → ∃ i j, idx = [i, j] ∧ i < v.shape.getD 0 0 ∧ j < v.shape.getD 1 0 := by
    intro idx hi
    rw [hs] at hi
    rcases idx with _ | ⟨i, _ | ⟨j, _ | ⟨k, idx⟩⟩⟩
    · simp [InShape] at hi
    · simp [InShape] at hi
    · exact ⟨i, j, rfl, hi.1, hi.2.1⟩
    · simp [InShape] at hi
  have hto : ∀ i j, i < v.shape.getD 0 0 → j < v.shape.getD 1 0 → InShape v.shape [i, j] := by
    intro i j hi hj
    rw [hs]
    exact ⟨hi, hj, trivial⟩
  by_cases hr : v.strides.getD 0 0 = 0 ∧ v.strides.getD 1 0 ≠ 0
  · rw [if_pos ⟨h2, hr⟩]
    have hn0 : v.shape.getD 0 0 ≠ 0 := by intro h; rw [hsz, h] at h0; simp at h0
    have key := copyRows (fun j : Nat => mem (v.offset + (v.strides.getD 1 0).tdiv v.item * j * v.item))
      (n0 := v.shape.getD 0 0) (n1 := v.shape.getD 1 0)
      (d := writes ((List.range (v.shape.getD 1 0)).map fun (j : Nat) =>
        (j, mem (v.offset + (v.strides.getD 1 0).tdiv v.item * j * v.item))) (List.replicate (size v.shape) zero))
      (by simp [hsz]) (by
        intro j hj
        apply writes_get
        · simp [Function.comp_def, List.nodup_range]
        · exact List.mem_map.2 ⟨j, List.mem_range.2 hj, rfl⟩
        · rw [List.length_replicate, hsz]
          calc j < 1 * v.shape.getD 1 0 := by omega
            _ ≤ _ := Nat.mul_le_mul_right _ (by omega)) (v.shape.getD 0 0 - 1) (by omega)
    dsimp only at key
    apply eq_toList (nd := ⟨v.shape, fun i => mem (v.addr i)⟩)
    · rw [key.1, hsz]
    · intro idx hi
      obtain ⟨i, j, rfl, h1, h2⟩ := hin idx hi
      rw [show rank (Nd.mk v.shape fun i => mem (v.addr i)).shape [i, j] = _ from hrank i j, key.2 i j (by omega) h2]
      dsimp only
      rw [haddr, hr.1]
      congr 2
      have := tdiv_mul_cancel_dvd hm1
      rw [mul_right_comm, this]; ring
  rw [if_neg (by tauto)]
  by_cases hc : v.strides.getD 0 0 ≠ 0 ∧ v.strides.getD 1 0 = 0
  · rw [if_pos ⟨h2, hc⟩]
    apply writes_cover _ (by simp)
    · intro w hw'
      simp only [List.mem_flatMap, List.mem_range, List.mem_map] at hw'
      obtain ⟨i, hi, j, hj, rfl⟩ := hw'
      refine ⟨[i, j], hto i j hi hj, ?_⟩
      rw [hrank, haddr, hc.2]
      congr 3
      rw [mul_right_comm, tdiv_mul_cancel_dvd hm0]; ring
    · intro idx hi
      obtain ⟨i, j, rfl, h1, h2⟩ := hin idx hi
      simp only [List.mem_flatMap, List.mem_range, List.mem_map]
      refine ⟨i, h1, j, h2, ?_⟩
      rw [hrank, haddr, hc.2]
      congr 3
      rw [mul_right_comm, tdiv_mul_cancel_dvd hm0]; ring
  rw [if_neg (by tauto)]
  rw [writes_odometer v.shape (fun i => mem (v.offset + (byteOffset i v.strides).tdiv v.item * v.item)) _ (by simp)]
  apply List.map_congr_left
  intro i _
  rw [tdiv_mul_cancel_dvd (byteOffset_dvd hal)]
  rfl

theorem copyArr_eq (eight : Bool) (mem : Int → α) {v : View} (hw : v.WF)
    (hal : eight = true → ∀ s ∈ v.strides, (v.item : Int) ∣ s) (zero : α) :
    (copyArr eight mem v zero).Is (v.denote mem) := by
  unfold copyArr
  dsimp only
  rw [sizeOf_eq]
  by_cases h0 : size v.shape = 0
  · rw [if_pos h0]
    refine ⟨rfl, ?_⟩
    show _ = (indices v.shape).map _
    rw [size_zero_of_indices h0]; rfl
  rw [if_neg h0]
  by_cases hc : v.cFlag = true
  · rw [if_pos hc]
    refine ⟨rfl, ?_⟩
    show _ = (indices v.shape).map fun i => mem (v.addr i)
    dsimp only
    rw [← map_rank_indices, List.map_map]
    apply List.map_congr_left
    intro i hi
    rw [cFlag_addr hw hc (mem_indices.1 hi)]; rfl
  rw [if_neg hc]
  split
  · rename_i h
    exact ⟨rfl, copyBroadcast_eq mem hw (hal h) zero⟩
  · exact ⟨rfl, writes_odometer v.shape (fun i => mem (v.addr i)) _ (by simp)⟩

end Rumpy
