import Verif.Model.Fft
import Verif.Spec.Fft
import Verif.Lemmas.Cumulative
import Verif.Lemmas.Rearrange
import Mathlib.RingTheory.RootsOfUnity.PrimitiveRoots
import Mathlib.Algebra.Field.GeomSum
import Mathlib.Algebra.BigOperators.Ring.Finset
/-!
# Lemmas: Fourier transforms
-/

namespace Rumpy
open Spec

/-! ### Lanes of a buffer -/

def dotNat : List Nat → List Nat → Nat
  | i :: idx, s :: st => i * s + dotNat idx st
  | _, _ => 0

theorem elemStrides_cons (n : Nat) : ∀ s : List Nat, elemStrides (n :: s) = size s :: elemStrides s
  | [] => rfl
  | m :: s => by
    show ((elemStrides (m :: s)).headD 1 * m) :: elemStrides (m :: s) = _
    rw [elemStrides_cons m s]
    simp [size, Nat.mul_comm]

theorem rank_eq_dot : ∀ {s idx : List Nat}, idx.length = s.length → rank s idx = dotNat idx (elemStrides s)
  | [], [], _ => rfl
  | n :: s, i :: idx, h => by
    rw [elemStrides_cons, rank, dotNat, rank_eq_dot (by simpa using h)]

theorem length_elemStrides : ∀ s : List Nat, (elemStrides s).length = s.length
  | [] => rfl
  | n :: s => by rw [elemStrides_cons]; simp [length_elemStrides s]

theorem dot_insertIdx : ∀ {idx st : List Nat} {axis : Nat} (j : Nat), axis < st.length → idx.length + 1 = st.length →
    dotNat (idx.insertIdx axis j) st = dotNat idx (st.eraseIdx axis) + j * st.getD axis 0
  | idx, s :: st, 0, j, _, _ => by simp [dotNat, Nat.add_comm]
  | i :: idx, s :: st, axis + 1, j, h, hl => by
    simp only [List.insertIdx_succ_cons, List.eraseIdx_cons_succ, List.getD_cons_succ, dotNat]
    rw [dot_insertIdx j (by simpa using h) (by simpa using hl)]
    omega
  | [], [], _, _, h, _ => by simp at h
  | [], [s], _ + 1, _, h, _ => by simp at h
  | [], s :: s' :: st, _ + 1, _, _, hl => by simp at hl

theorem transform_aux : ∀ {sh st idx : List Nat} (q : Nat), InShape sh idx → st.length = sh.length →
    (sh.zip st).foldr (fun p acc => if p.1 > 0 then (acc.1 + (acc.2 % p.1) * p.2, acc.2 / p.1) else acc)
      (0, q * size sh + rank sh idx) = (dotNat idx st, q)
  | [], [], [], q, _, _ => by simp [dotNat, size, rank]
  | n :: sh, s :: st, i :: idx, q, h, hl => by
    have e : q * size (n :: sh) + rank (n :: sh) (i :: idx) = (q * n + i) * size sh + rank sh idx := by
      simp only [size, rank]; ring
    rw [List.zip_cons_cons, List.foldr_cons, e, transform_aux (q * n + i) h.2 (by simpa using hl)]
    have hn : n > 0 := by have := h.1; omega
    rw [if_pos hn]
    have h1 : (q * n + i) % n = i := by rw [Nat.mul_comm, Nat.mul_add_mod]; exact Nat.mod_eq_of_lt h.1
    have h2 : (q * n + i) / n = q := by
      rw [Nat.mul_comm, Nat.mul_add_div hn, Nat.div_eq_of_lt h.1]; rfl
    simp only [h1, h2, dotNat]
    rw [Nat.add_comm]

theorem indexFromTransform_eq {sh st idx : List Nat} (h : InShape sh idx) (hl : st.length = sh.length) :
    indexFromTransform (rank sh idx) sh st = dotNat idx st := by
  unfold indexFromTransform
  rw [List.foldl_reverse]
  have := transform_aux (q := 0) h hl
  rw [Nat.zero_mul, Nat.zero_add] at this
  rw [this]

/-- Position `i` of the lane through `idx`. -/
theorem lane_rank {s idx : List Nat} {axis : Nat} (hax : axis < s.length) (h : InShape (s.eraseIdx axis) idx) (i : Nat) :
    indexFromTransform (rank (s.eraseIdx axis) idx) (s.eraseIdx axis) ((elemStrides s).eraseIdx axis)
      + i * (elemStrides s).getD axis 0 = rank s (idx.insertIdx axis i) := by
  have hl := h.length_eq
  have he : (s.eraseIdx axis).length = s.length - 1 := by rw [List.length_eraseIdx_of_lt hax]
  have hse : ((elemStrides s).eraseIdx axis).length = s.length - 1 := by
    rw [List.length_eraseIdx_of_lt (by rw [length_elemStrides]; exact hax), length_elemStrides]
  rw [indexFromTransform_eq h (by omega), ← dot_insertIdx i (by rw [length_elemStrides]; exact hax) (by rw [length_elemStrides]; omega)]
  rw [rank_eq_dot]
  rw [List.length_insertIdx_of_le_length (by omega)]
  omega

/-- The elements of the lane through `idx` (an index without the axis). -/
def laneOf (B : List Nat → α) (n axis : Nat) (idx : List Nat) : List α := (List.range n).map fun i => B (idx.insertIdx axis i)

theorem indices_getD {s idx : List Nat} (B : List Nat → α) (zero : α) (h : InShape s idx) :
    ((indices s).map B).getD (rank s idx) zero = B idx := by
  have := toList_getElem? (nd := ⟨s, B⟩) h
  rw [List.getD]
  have e : ((indices s).map B)[rank s idx]? = some (B idx) := this
  rw [e, Option.getD_some]

theorem readLane_eq {s idx : List Nat} {axis : Nat} (hax : axis < s.length) (h : InShape (s.eraseIdx axis) idx) (zero : α)
    (B : List Nat → α) :
    readLane zero ((indices s).map B)
      (indexFromTransform (rank (s.eraseIdx axis) idx) (s.eraseIdx axis) ((elemStrides s).eraseIdx axis))
      ((elemStrides s).getD axis 0) (s.getD axis 0) = laneOf B (s.getD axis 0) axis idx := by
  unfold readLane laneOf
  apply List.map_congr_left
  intro i hi
  rw [lane_rank hax h, indices_getD B zero (inShape_insertIdx hax h (List.mem_range.1 hi))]

theorem writeLane_eq {s idx : List Nat} {axis : Nat} (hax : axis < s.length) (h : InShape (s.eraseIdx axis) idx) (zero : α)
    (B : List Nat → α) (work : List α) :
    writeLane zero work
      (indexFromTransform (rank (s.eraseIdx axis) idx) (s.eraseIdx axis) ((elemStrides s).eraseIdx axis))
      ((elemStrides s).getD axis 0) (s.getD axis 0) ((indices s).map B) =
    (indices s).map fun j => if j.eraseIdx axis = idx then work.getD (j.getD axis 0) zero else B j := by
  unfold writeLane
  have e : ((List.range (s.getD axis 0)).map fun i =>
      (indexFromTransform (rank (s.eraseIdx axis) idx) (s.eraseIdx axis) ((elemStrides s).eraseIdx axis)
        + i * (elemStrides s).getD axis 0, work.getD i zero))
      = (List.range (s.getD axis 0)).map fun i => (rank s (idx.insertIdx axis i), work.getD i zero) := by
    apply List.map_congr_left
    intro i _
    rw [lane_rank hax h]
  rw [e]
  have hl := h.length_eq
  have he : (s.eraseIdx axis).length = s.length - 1 := by rw [List.length_eraseIdx_of_lt hax]
  apply eq_toList (nd := ⟨s, fun j => if j.eraseIdx axis = idx then work.getD (j.getD axis 0) zero else B j⟩)
  · simp [length_indices]
  · intro j hj
    dsimp only at hj ⊢
    have hjl := hj.length_eq
    by_cases hc : j.eraseIdx axis = idx
    · rw [if_pos hc]
      have hins : idx.insertIdx axis (j.getD axis 0) = j := by
        rw [← hc, insertIdx_eraseIdx_set _ (by omega)]
        exact Rumpy.set_getD_self (by omega)
      apply writes_get_of_agree
      · rw [List.map_map]
        refine List.mem_map.2 ⟨j.getD axis 0, List.mem_range.2 (inShape_getD hj hax), ?_⟩
        show rank s _ = _
        rw [hins]
      · intro y hy
        obtain ⟨i, hi, e⟩ := List.mem_map.1 hy
        simp only [Prod.mk.injEq] at e
        have := rank_inj (inShape_insertIdx hax h (List.mem_range.1 hi)) hj e.1
        rw [← e.2, ← this, getD_insertIdx_self _ _ _ (by omega)]
      · simpa [length_indices] using rank_lt hj
    · rw [if_neg hc, writes_get_notMem]
      · exact toList_getElem? (nd := ⟨s, B⟩) hj
      · intro hm
        rw [List.map_map] at hm
        obtain ⟨i, hi, e⟩ := List.mem_map.1 hm
        have := rank_inj (inShape_insertIdx hax h (List.mem_range.1 hi)) hj e
        rw [← this, eraseIdx_insertIdx_self _ _ _ (by omega)] at hc
        exact hc rfl

/-- All lanes, one after the other, in place. -/
theorem lanes_fold {s : List Nat} {axis : Nat} (hax : axis < s.length) (zero : α) (plan : List α → List α) :
    ∀ (L : List (List Nat)) (B : List Nat → α), L.Nodup → (∀ idx ∈ L, InShape (s.eraseIdx axis) idx) →
    (L.map (rank (s.eraseIdx axis))).foldl (fun buf t =>
      writeLane zero (plan (readLane zero buf
          (indexFromTransform t (s.eraseIdx axis) ((elemStrides s).eraseIdx axis))
          ((elemStrides s).getD axis 0) (s.getD axis 0)))
        (indexFromTransform t (s.eraseIdx axis) ((elemStrides s).eraseIdx axis))
        ((elemStrides s).getD axis 0) (s.getD axis 0) buf) ((indices s).map B)
    = (indices s).map fun j => if j.eraseIdx axis ∈ L then
        (plan (laneOf B (s.getD axis 0) axis (j.eraseIdx axis))).getD (j.getD axis 0) zero else B j
  | [], B, _, _ => by simp
  | idx :: L, B, hn, hL => by
    rw [List.nodup_cons] at hn
    have hi := hL idx (by simp)
    have hlen := hi.length_eq
    have he : (s.eraseIdx axis).length = s.length - 1 := by rw [List.length_eraseIdx_of_lt hax]
    rw [List.map_cons, List.foldl_cons, readLane_eq hax hi, writeLane_eq hax hi,
      lanes_fold hax zero plan L _ hn.2 fun i h => hL i (by simp [h])]
    apply List.map_congr_left
    intro j hj
    have hjl := (mem_indices.1 hj).length_eq
    have hjin := inShape_eraseIdx axis (mem_indices.1 hj)
    have key : ∀ i' ∈ L, laneOf (fun j => if j.eraseIdx axis = idx then
        (plan (laneOf B (s.getD axis 0) axis idx)).getD (j.getD axis 0) zero else B j) (s.getD axis 0) axis i'
        = laneOf B (s.getD axis 0) axis i' := by
      intro i' hi'
      have hl' := (hL i' (by simp [hi'])).length_eq
      apply List.map_congr_left
      intro k _
      dsimp only
      rw [eraseIdx_insertIdx_self _ _ _ (by omega), if_neg]
      rintro rfl
      exact hn.1 hi'
    by_cases h1 : j.eraseIdx axis ∈ L
    · rw [if_pos h1, if_pos (by simp [h1]), key _ h1]
    · rw [if_neg h1]
      by_cases h2 : j.eraseIdx axis = idx
      · rw [if_pos h2, if_pos (by simp [h2]), h2]
      · rw [if_neg h2, if_neg (by simp [h1, h2])]

theorem range_eq_rank (s : List Nat) : List.range (size s) = (indices s).map (rank s) := (map_rank_indices s).symm

theorem fftAlongAxis_eq {s : List Nat} {axis : Nat} (hax : axis < s.length) (zero : α) (plan : List α → List α)
    (B : List Nat → α) :
    fftAlongAxis zero plan s axis ((indices s).map B)
      = (indices s).map fun j => (plan (laneOf B (s.getD axis 0) axis (j.eraseIdx axis))).getD (j.getD axis 0) zero := by
  unfold fftAlongAxis
  dsimp only
  have hsz : size s = size (s.eraseIdx axis) * s.getD axis 0 := by
    rw [← size_set_getD hax, Rumpy.set_getD_self hax]
  by_cases h0 : sizeOf (s.eraseIdx axis) = 0 ∨ s.getD axis 0 = 0
  · rw [if_pos h0]
    have : size s = 0 := by
      rw [hsz]
      rcases h0 with h | h
      · rw [sizeOf_eq] at h; simp [h]
      · rw [h, Nat.mul_zero]
    have hnil : indices s = [] := List.length_eq_zero_iff.1 (by rw [length_indices, this])
    simp [hnil]
  · rw [if_neg h0, sizeOf_eq, range_eq_rank, lanes_fold hax zero plan _ B (indices_nodup _) (fun i h => mem_indices.1 h)]
    apply List.map_congr_left
    intro j hj
    rw [if_pos (mem_indices.2 (inShape_eraseIdx axis (mem_indices.1 hj)))]

/-- Lanes read from one buffer and written, possibly shortened or lengthened, to another. -/
theorem lanes_fold_out {s : List Nat} {axis : Nat} (hax : axis < s.length) (m : Nat) (zero : α) (plan : List α → List α)
    (B : List Nat → α) : ∀ (L : List (List Nat)) (C : List Nat → α), (∀ idx ∈ L, InShape (s.eraseIdx axis) idx) →
    (L.map (rank (s.eraseIdx axis))).foldl (fun out t =>
      writeLane zero (plan (readLane zero ((indices s).map B)
          (indexFromTransform t (s.eraseIdx axis) ((elemStrides s).eraseIdx axis))
          ((elemStrides s).getD axis 0) (s.getD axis 0)))
        (indexFromTransform t (s.eraseIdx axis) ((elemStrides (s.set axis m)).eraseIdx axis))
        ((elemStrides (s.set axis m)).getD axis 0) ((s.set axis m).getD axis 0) out) ((indices (s.set axis m)).map C)
    = (indices (s.set axis m)).map fun j => if j.eraseIdx axis ∈ L then
        (plan (laneOf B (s.getD axis 0) axis (j.eraseIdx axis))).getD (j.getD axis 0) zero else C j
  | [], C, _ => by simp
  | idx :: L, C, hL => by
    have hi := hL idx (by simp)
    have hsh : (s.set axis m).eraseIdx axis = s.eraseIdx axis := by rw [List.eraseIdx_set_eq]
    have hax' : axis < (s.set axis m).length := by simpa using hax
    have hw := fun work => writeLane_eq (idx := idx) hax' (by rw [hsh]; exact hi) zero C work
    rw [hsh] at hw
    rw [List.map_cons, List.foldl_cons, readLane_eq hax hi, hw,
      lanes_fold_out hax m zero plan B L _ fun i h => hL i (by simp [h])]
    apply List.map_congr_left
    intro j hj
    by_cases h1 : j.eraseIdx axis ∈ L
    · rw [if_pos h1, if_pos (by simp [h1])]
    · rw [if_neg h1]
      by_cases h2 : j.eraseIdx axis = idx
      · rw [if_pos h2, if_pos (by simp [h2]), h2]
      · rw [if_neg h2, if_neg (by simp [h1, h2])]

theorem rfftAlongAxis_eq {s : List Nat} {axis : Nat} (hax : axis < s.length) (m : Nat) (zero : α) (plan : List α → List α)
    (B : List Nat → α) (hpos : 0 < size (s.eraseIdx axis)) :
    rfftAlongAxis zero plan s (s.set axis m) axis ((indices s).map B)
      = some ((indices (s.set axis m)).map fun j =>
          (plan (laneOf B (s.getD axis 0) axis (j.eraseIdx axis))).getD (j.getD axis 0) zero) := by
  unfold rfftAlongAxis
  dsimp only
  rw [if_neg (by rw [sizeOf_eq]; omega), sizeOf_eq (s.eraseIdx axis), Nat.max_eq_left (by omega), range_eq_rank]
  have hr : List.replicate (sizeOf (s.set axis m)) zero = (indices (s.set axis m)).map fun _ => zero := by
    rw [sizeOf_eq, ← length_indices, ← List.map_const', ]
  rw [hr, lanes_fold_out hax m zero plan B _ _ (fun i h => mem_indices.1 h)]
  congr 1
  apply List.map_congr_left
  intro j hj
  rw [if_pos]
  have := inShape_eraseIdx axis (mem_indices.1 hj)
  rw [List.eraseIdx_set_eq] at this
  exact mem_indices.2 this

theorem toComplexBuffer_eq (wide : Bool) (mem : Int → α) {v : View} (hw : v.WF) :
    toComplexBuffer wide mem v = (indices v.shape).map (v.denote mem).get := by
  unfold toComplexBuffer
  by_cases h : (v.cFlag && wide) = true
  · rw [if_pos h]
    have hc : v.cFlag = true := by simp_all
    rw [sizeOf_eq, range_eq_rank, List.map_map]
    apply List.map_congr_left
    intro idx hi
    show mem _ = mem (v.addr idx)
    rw [cFlag_addr hw hc (mem_indices.1 hi)]
  · rw [if_neg h, addrs_map hw]; rfl

/-! ### The exact transform -/

/-- The plan computes the exact discrete Fourier transform with the root of unity `w n`. -/
def IsDft [CommRing K] (w : Nat → K) (plan : Nat → List K → List K) : Prop :=
  ∀ xs : List K, plan xs.length xs = dftList (w xs.length) xs

theorem laneOf_dft [CommRing K] {w : Nat → K} {plan : Nat → List K → List K} (hp : IsDft w plan) {s : List Nat} {axis : Nat}
    (hax : axis < s.length) (B : List Nat → K) {j : List Nat} (hj : InShape s j) :
    (plan (s.getD axis 0) (laneOf B (s.getD axis 0) axis (j.eraseIdx axis))).getD (j.getD axis 0) 0
      = ((⟨s, B⟩ : Nd K).dftAxis w axis).get j := by
  have hlen : (laneOf B (s.getD axis 0) axis (j.eraseIdx axis)).length = s.getD axis 0 := by simp [laneOf]
  have := hp (laneOf B (s.getD axis 0) axis (j.eraseIdx axis))
  rw [hlen] at this
  rw [this]
  unfold dftList
  rw [hlen]
  have hlt := inShape_getD hj hax
  rw [List.getD_eq_getElem _ _ (by simpa using hlt)]
  simp only [List.getElem_map, List.getElem_range]
  unfold Nd.dftAxis
  apply Finset.sum_congr rfl
  intro i hi
  congr 1
  rw [Finset.mem_range] at hi
  have hjl := hj.length_eq
  rw [List.getD_eq_getElem _ _ (by rw [hlen]; exact hi)]
  simp only [laneOf, List.getElem_map, List.getElem_range]
  rw [insertIdx_eraseIdx_set _ (by omega)]

theorem fftAxes_eq [CommRing K] {w : Nat → K} {plan : Nat → List K → List K} (hp : IsDft w plan) :
    ∀ (axes : List Nat) (s : List Nat) (B : List Nat → K), (∀ ax ∈ axes, ax < s.length) →
    fftAxes 0 plan s axes ((indices s).map B) = ((⟨s, B⟩ : Nd K).dft w axes).toList ∧ ((⟨s, B⟩ : Nd K).dft w axes).shape = s
  | [], s, B, _ => ⟨rfl, rfl⟩
  | ax :: axes, s, B, h => by
    have hax := h ax (by simp)
    have ih := fftAxes_eq hp axes s ((⟨s, B⟩ : Nd K).dftAxis w ax).get fun a ha => h a (by simp [ha])
    have e : (⟨s, ((⟨s, B⟩ : Nd K).dftAxis w ax).get⟩ : Nd K) = (⟨s, B⟩ : Nd K).dftAxis w ax := rfl
    rw [e] at ih
    refine ⟨?_, ih.2⟩
    have hstep : (if s.getD ax 0 > 0 then fftAlongAxis 0 (plan (s.getD ax 0)) s ax ((indices s).map B) else (indices s).map B)
        = (indices s).map ((⟨s, B⟩ : Nd K).dftAxis w ax).get := by
      by_cases h0 : s.getD ax 0 > 0
      · rw [if_pos h0, fftAlongAxis_eq hax]
        apply List.map_congr_left
        intro j hj
        exact laneOf_dft hp hax B (mem_indices.1 hj)
      · rw [if_neg h0]
        apply List.map_congr_left
        intro j hj
        have := inShape_getD (mem_indices.1 hj) hax
        omega
    have : fftAxes 0 plan s (ax :: axes) ((indices s).map B)
        = fftAxes 0 plan s axes (if s.getD ax 0 > 0 then fftAlongAxis 0 (plan (s.getD ax 0)) s ax ((indices s).map B) else (indices s).map B) := rfl
    rw [this, hstep, ih.1]
    rfl

theorem dft_shape [CommRing K] (w : Nat → K) : ∀ (axes : List Nat) (a : Nd K), (a.dft w axes).shape = a.shape
  | [], _ => rfl
  | ax :: axes, a => (dft_shape w axes (a.dftAxis w ax)).trans rfl

/-- Transforms along two axes (or twice along the same one with inverse roots) can be exchanged. -/
theorem dftAxis_comm [CommRing K] (w z : Nat → K) (a : Nd K) {x y : Nat} (hxy : x ≠ y) :
    (a.dftAxis w x).dftAxis z y = (a.dftAxis z y).dftAxis w x := by
  unfold Nd.dftAxis
  congr 1
  funext idx
  dsimp only
  have e1 : ∀ j i : Nat, (idx.set y j).set x i = (idx.set x i).set y j := fun j i => List.set_comm _ _ (Ne.symm hxy)
  have e2 : ∀ j : Nat, (idx.set y j).getD x 0 = idx.getD x 0 := fun j => by
    simp [List.getD, List.getElem?_set, Ne.symm hxy]
  have e3 : ∀ j : Nat, (idx.set x j).getD y 0 = idx.getD y 0 := fun j => by
    simp [List.getD, List.getElem?_set, hxy]
  simp only [e2, e3, Finset.sum_mul]
  rw [Finset.sum_comm]
  apply Finset.sum_congr rfl
  intro i _
  apply Finset.sum_congr rfl
  intro j _
  rw [e1]
  ring

theorem orth [Field K] {ζ : K} {n : Nat} (h : IsPrimitiveRoot ζ n) {i k : Nat} (hi : i < n) (hk : k < n) :
    ((Finset.range n).sum fun j => ζ ^ (i * j) * (ζ⁻¹) ^ (j * k)) = if i = k then (n : K) else 0 := by
  have hn : 0 < n := by omega
  have hz : ζ ≠ 0 := h.ne_zero (by omega)
  have e : ∀ j, ζ ^ (i * j) * (ζ⁻¹) ^ (j * k) = (ζ ^ i * (ζ ^ k)⁻¹) ^ j := by
    intro j
    rw [mul_pow, inv_pow, inv_pow, ← pow_mul, ← pow_mul, Nat.mul_comm j k]
  simp only [e]
  by_cases hik : i = k
  · subst hik
    rw [if_pos rfl, mul_inv_cancel₀ (pow_ne_zero _ hz)]
    simp
  · rw [if_neg hik]
    set a := ζ ^ i * (ζ ^ k)⁻¹ with ha
    have h1 : a ≠ 1 := by
      intro h1
      apply hik
      apply h.pow_inj hi hk
      rw [ha] at h1
      have := congrArg (· * ζ ^ k) h1
      simpa [mul_assoc, inv_mul_cancel₀ (pow_ne_zero k hz)] using this
    have hn' : a ^ n = 1 := by
      rw [ha, mul_pow, inv_pow, ← pow_mul, ← pow_mul, Nat.mul_comm i, Nat.mul_comm k, pow_mul, pow_mul, h.pow_eq_one]
      simp
    rw [geom_sum_eq h1, hn']
    simp

/-- The inverse transform after the transform, along one axis. -/
theorem dftAxis_inv [Field K] {w : Nat → K} (hw : ∀ n, 0 < n → IsPrimitiveRoot (w n) n) (a : Nd K) {x : Nat} {idx : List Nat}
    (hx : x < a.shape.length) (hi : InShape a.shape idx) :
    ((a.dftAxis w x).dftAxis (fun n => (w n)⁻¹) x).get idx = (a.shape.getD x 0 : K) * a.get idx := by
  have hl := hi.length_eq
  have hk := inShape_getD hi hx
  unfold Nd.dftAxis
  dsimp only
  set n := a.shape.getD x 0 with hn
  have hw' := hw n (by omega)
  have e1 : ∀ j i : Nat, (idx.set x j).set x i = idx.set x i := fun j i => List.set_set _
  have e2 : ∀ j : Nat, (idx.set x j).getD x 0 = j := fun j => getD_set_self (by omega) j
  simp only [e1, e2, Finset.sum_mul]
  rw [Finset.sum_comm]
  have : ∀ i ∈ Finset.range n, ((Finset.range n).sum fun j => a.get (idx.set x i) * w n ^ (i * j) * (w n)⁻¹ ^ (j * idx.getD x 0))
      = if i = idx.getD x 0 then a.get (idx.set x i) * (n : K) else 0 := by
    intro i hi'
    rw [Finset.mem_range] at hi'
    have ho := orth hw' hi' hk
    simp only [mul_assoc]
    rw [← Finset.mul_sum, ho]
    split <;> simp
  rw [Finset.sum_congr rfl this, Finset.sum_ite_eq' (Finset.range n), if_pos (Finset.mem_range.2 hk)]
  have : idx.set x (idx.getD x 0) = idx := Rumpy.set_getD_self (by omega)
  rw [this, mul_comm]

end Rumpy

namespace Rumpy
open Spec

theorem dftAxis_congr [CommRing K] (w : Nat → K) {a b : Nd K} (h : a.Same b) {x : Nat} (hx : x < a.shape.length) :
    (a.dftAxis w x).Same (b.dftAxis w x) := by
  refine ⟨h.1, fun idx hi => ?_⟩
  have hi' : InShape a.shape idx := hi
  have hl := hi'.length_eq
  unfold Nd.dftAxis
  dsimp only
  rw [h.1]
  apply Finset.sum_congr rfl
  intro j hj
  rw [Finset.mem_range] at hj
  rw [h.2]
  have : InShape (a.shape.set x (a.shape.getD x 0)) (idx.set x j) := by
    rw [Spec.inShape_set hx]
    refine ⟨by simpa using hl, ?_, fun k hk hne => ?_⟩
    · rw [getD_set_self (by omega), h.1]; exact hj
    · have : (idx.set x j).getD k 0 = idx.getD k 0 := by simp [List.getD, List.getElem?_set, Ne.symm hne]
      rw [this]
      exact inShape_getD hi' hk
  rwa [Rumpy.set_getD_self hx] at this

theorem dft_congr [CommRing K] (w : Nat → K) : ∀ (axes : List Nat) {a b : Nd K}, a.Same b → (∀ x ∈ axes, x < a.shape.length) →
    (a.dft w axes).Same (b.dft w axes)
  | [], _, _, h, _ => h
  | x :: axes, a, b, h, hx => dft_congr w axes (dftAxis_congr w h (hx x (by simp))) fun y hy => hx y (by simp [hy])

/-- The two roots belong to opposite directions. -/
def Opposite [Field K] (w z : Nat → K) : Prop := ∀ n, 0 < n → IsPrimitiveRoot (w n) n ∧ z n = (w n)⁻¹

theorem dftAxis_opp [Field K] {w z : Nat → K} (h : Opposite w z) (a : Nd K) {x : Nat} (hx : x < a.shape.length) :
    ((a.dftAxis w x).dftAxis z x).Same (a.scale (a.shape.getD x 0 : K)) := by
  refine ⟨rfl, fun idx hi => ?_⟩
  have hi' : InShape a.shape idx := hi
  have hp := inShape_getD hi' hx
  have hw : ∀ n, 0 < n → IsPrimitiveRoot (w n) n := fun n hn => (h n hn).1
  have := dftAxis_inv hw a hx hi'
  rw [show (a.scale (a.shape.getD x 0 : K)).get idx = (a.shape.getD x 0 : K) * a.get idx from rfl, ← this]
  unfold Nd.dftAxis
  dsimp only
  rw [(h _ (by omega)).2]

theorem Opposite.symm [Field K] {w z : Nat → K} (h : Opposite w z) : Opposite z w := fun n hn => by
  obtain ⟨h1, h2⟩ := h n hn
  rw [h2]
  exact ⟨h1.inv, (inv_inv _).symm⟩

theorem dftAxis_swap [Field K] {w z : Nat → K} (h : Opposite w z) (a : Nd K) {x y : Nat} (hx : x < a.shape.length) :
    ((a.dftAxis w x).dftAxis z y).Same ((a.dftAxis z y).dftAxis w x) := by
  by_cases hxy : x = y
  · subst hxy
    exact (dftAxis_opp h a hx).trans (dftAxis_opp h.symm a hx).symm
  · rw [dftAxis_comm w z a hxy]
    exact .refl _

theorem dft_push [Field K] {w z : Nat → K} (h : Opposite w z) {y : Nat} : ∀ (axes : List Nat) (a : Nd K),
    y < a.shape.length → (∀ x ∈ axes, x < a.shape.length) → ((a.dft w axes).dftAxis z y).Same ((a.dftAxis z y).dft w axes)
  | [], a, _, _ => .refl _
  | x :: axes, a, hy, hx => by
    have ih := dft_push h axes (a.dftAxis w x) hy fun u hu => hx u (by simp [hu])
    have := dft_congr w axes (dftAxis_swap (y := y) h a (hx x (by simp))) fun u hu => hx u (by simp [hu])
    exact ih.trans this

theorem scale_same [CommRing K] (c : K) {a b : Nd K} (h : a.Same b) : (a.scale c).Same (b.scale c) :=
  ⟨h.1, fun idx hi => by show c * _ = c * _; rw [h.2 idx hi]⟩

theorem dft_opp [Field K] {w z : Nat → K} (h : Opposite w z) : ∀ (axes : List Nat) (a : Nd K), (∀ x ∈ axes, x < a.shape.length) →
    ((a.dft w axes).dft z axes).Same (a.scale ((axes.map fun x => a.shape.getD x 0).prod : Nat))
  | [], a, _ => ⟨rfl, fun idx _ => by show a.get idx = _ * a.get idx; simp⟩
  | x :: axes, a, hx => by
    have hx0 := hx x (by simp)
    have hxs : ∀ u ∈ axes, u < a.shape.length := fun u hu => hx u (by simp [hu])
    have h1 := dft_push (y := x) h axes (a.dftAxis w x) hx0 hxs
    have h2 := dft_congr w axes (dftAxis_opp h a hx0) hxs
    have h3 := dft_congr z axes (h1.trans h2) (by
      intro u hu
      show u < ((a.dftAxis w x).dft w axes).shape.length
      rw [dft_shape]
      exact hxs u hu)
    have h4 := dft_opp h axes (a.scale (a.shape.getD x 0 : K)) hxs
    refine (h3.trans h4).trans ⟨rfl, fun idx _ => ?_⟩
    show _ * (_ * a.get idx) = _ * a.get idx
    rw [List.map_cons, List.prod_cons, Nat.cast_mul]
    show (((axes.map fun x => a.shape.getD x 0).prod : Nat) : K) * _ = _
    ring

theorem dft_perm [CommRing K] (w : Nat → K) {l m : List Nat} (h : l.Perm m) (a : Nd K) : a.dft w l = a.dft w m := by
  unfold Nd.dft
  haveI : RightCommutative (Nd.dftAxis w) := ⟨fun a x y => by
    by_cases hxy : x = y
    · rw [hxy]
    · exact dftAxis_comm w w a hxy⟩
  exact h.foldl_eq a

/-! ### Hermitian symmetry -/

theorem writes_prefix (f : β → α) (l : List β) (d : List α) (h : l.length ≤ d.length) :
    writes (l.zipIdx.map fun x => (x.2, f x.1)) d = l.map f ++ d.drop l.length := by
  have := writes_zipIdx f l (d.take l.length) (by simp [h])
  have key : ∀ (ws : List (Nat × α)) (a b : List α), (∀ w ∈ ws, w.1 < a.length) → writes ws (a ++ b) = writes ws a ++ b := by
    intro ws
    induction ws with
    | nil => intro a b _; rfl
    | cons w ws ih =>
      intro a b hw
      rw [writes_cons, writes_cons, List.set_append_left _ _ (hw w (by simp)), ih]
      intro u hu
      rw [List.length_set]
      exact hw u (by simp [hu])
  conv_lhs => rw [← List.take_append_drop l.length d]
  rw [key, this]
  intro w hw
  obtain ⟨x, hx, rfl⟩ := List.mem_map.1 hw
  have := List.snd_lt_of_mem_zipIdx hx
  simpa [h] using this

theorem mirror_get (g : Nat → α) {c n : Nat} (hc : c < n) (B : Nat → α) :
    writes ((List.range c).map fun k => (n - (k + 1), g (k + 1))) ((List.range n).map B)
      = (List.range n).map fun i => if n - c ≤ i then g (n - i) else B i := by
  apply List.ext_getElem?
  intro i
  by_cases hi : i < n
  · have hr : ((List.range n).map fun i => if n - c ≤ i then g (n - i) else B i)[i]? = some (if n - c ≤ i then g (n - i) else B i) := by
      simp [hi]
    rw [hr]
    by_cases h : n - c ≤ i
    · rw [if_pos h]
      apply writes_get_of_agree
      · rw [List.map_map]
        refine List.mem_map.2 ⟨n - i - 1, List.mem_range.2 (by omega), ?_⟩
        show n - (n - i - 1 + 1) = i
        omega
      · intro y hy
        obtain ⟨k, hk, e⟩ := List.mem_map.1 hy
        simp only [Prod.mk.injEq] at e
        rw [List.mem_range] at hk
        rw [← e.2]
        congr 1
        omega
      · simpa using hi
    · rw [if_neg h, writes_get_notMem]
      · simp [hi]
      · intro hm
        rw [List.map_map] at hm
        obtain ⟨k, hk, e⟩ := List.mem_map.1 hm
        rw [List.mem_range] at hk
        change n - (k + 1) = i at e
        omega
  · rw [List.getElem?_eq_none (by simp; omega), List.getElem?_eq_none (by simp; omega)]

/-- The transform of a list at frequency `k`. -/
def freq [CommRing K] (w : K) (xs : List K) (k : Nat) : K := (Finset.range xs.length).sum fun j => xs.getD j 0 * w ^ (j * k)

theorem dftList_eq [CommRing K] (w : K) (xs : List K) : dftList w xs = (List.range xs.length).map (freq w xs) := rfl

/-- The spectrum of real data is Hermitian. -/
theorem freq_conj [Field K] {w : K} (σ : K →+* K) {xs : List K} (hw : IsPrimitiveRoot w xs.length) (hσ : σ w = w⁻¹)
    (hx : ∀ x ∈ xs, σ x = x) {k : Nat} (hk : k ≤ xs.length) : σ (freq w xs k) = freq w xs (xs.length - k) := by
  unfold freq
  rw [map_sum]
  apply Finset.sum_congr rfl
  intro j hj
  rw [Finset.mem_range] at hj
  rw [map_mul, map_pow, hσ, List.getD_eq_getElem _ _ hj, hx _ (List.getElem_mem hj)]
  congr 1
  have hz : w ≠ 0 := hw.ne_zero (by omega)
  rw [inv_pow]
  apply inv_eq_of_mul_eq_one_right
  rw [← pow_add, ← Nat.mul_add, Nat.add_sub_cancel' hk, Nat.mul_comm, pow_mul, hw.pow_eq_one, one_pow]

/-- Transform and inverse transform of a list, times a constant in between. -/
theorem dftList_inv [Field K] {w : K} {xs : List K} (hw : IsPrimitiveRoot w xs.length) (c : K) :
    dftList (w⁻¹) ((List.range xs.length).map fun k => c * freq w xs k) = xs.map fun x => (xs.length : K) * (c * x) := by
  apply List.ext_getElem
  · simp [dftList]
  · intro k h1 h2
    have hk : k < xs.length := by simpa using h2
    simp only [dftList, List.length_map, List.length_range, List.getElem_map, List.getElem_range]
    have e : ∀ j ∈ Finset.range xs.length, ((List.range xs.length).map fun k => c * freq w xs k).getD j 0 * w⁻¹ ^ (j * k)
        = (Finset.range xs.length).sum fun i => c * (xs.getD i 0) * (w ^ (i * j) * w⁻¹ ^ (j * k)) := by
      intro j hj
      rw [Finset.mem_range] at hj
      rw [List.getD_eq_getElem _ _ (by simpa using hj)]
      simp only [List.getElem_map, List.getElem_range, freq, Finset.mul_sum, Finset.sum_mul]
      apply Finset.sum_congr rfl
      intro i _
      ring
    rw [Finset.sum_congr rfl e, Finset.sum_comm]
    have e2 : ∀ i ∈ Finset.range xs.length, ((Finset.range xs.length).sum fun j => c * (xs.getD i 0) * (w ^ (i * j) * w⁻¹ ^ (j * k)))
        = if i = k then c * (xs.getD i 0) * (xs.length : K) else 0 := by
      intro i hi
      rw [Finset.mem_range] at hi
      rw [← Finset.mul_sum, orth hw hi hk]
      split <;> simp
    rw [Finset.sum_congr rfl e2, Finset.sum_ite_eq' (Finset.range xs.length), if_pos (Finset.mem_range.2 hk), List.getD_eq_getElem _ _ hk]
    ring

/-- Filling in the negative frequencies of an even-length real signal. -/
theorem fill_even [Field K] {w : K} (σ : K →+* K) {xs : List K} (hw : IsPrimitiveRoot w xs.length) (hσ : σ w = w⁻¹)
    (hx : ∀ x ∈ xs, σ x = x) {m : Nat} (hm : xs.length = 2 * m) (hm0 : 0 < m) (c : K) (hc : σ c = c) (g B : Nat → K)
    (hg : ∀ k, 1 ≤ k → k < m → g k = σ (c * freq w xs k)) (hB : ∀ k, k ≤ m → B k = c * freq w xs k) :
    writes ((List.range (m - 1)).map fun k => (2 * m - (k + 1), g (k + 1))) ((List.range (2 * m)).map B)
      = (List.range xs.length).map fun k => c * freq w xs k := by
  rw [mirror_get g (by omega), hm]
  apply List.map_congr_left
  intro i hi
  rw [List.mem_range] at hi
  split
  · rw [hg _ (by omega) (by omega), map_mul, hc, freq_conj σ hw hσ hx (by omega)]
    congr 2
    omega
  · exact hB i (by omega)

end Rumpy
