import Verif.Lemmas.Layout
import Mathlib.Data.List.Pairwise
/-!
# C01, C02, C03: iteration order, fresh storage, contiguity flags
-/

namespace Props
open Spec Rumpy

/-! ### The specification is what it says -/

/-- `Spec.indices` lists exactly the multi-indices inside the shape ... -/
theorem spec_indices_mem (s idx : List Nat) : idx ∈ indices s ↔ InShape s idx := mem_indices

/-- ... in strictly increasing lexicographic order (hence without repetition). -/
theorem spec_indices_sorted (s : List Nat) : (indices s).Pairwise (· < ·) := by
  induction s with
  | nil => simp [indices]
  | cons n s ih =>
    simp only [indices, List.pairwise_flatMap]
    refine ⟨?_, ?_⟩
    · intro i _
      rw [List.pairwise_map]
      exact ih.imp fun h => List.Lex.cons h
    · refine List.pairwise_lt_range.imp ?_
      intro a b hab x hx y hy
      simp only [List.mem_map] at hx hy
      obtain ⟨x', _, rfl⟩ := hx
      obtain ⟨y', _, rfl⟩ := hy
      exact List.Lex.rel hab

/-! ### C01 -/

/-- C01 (offset iterator): the iterator behind element-wise functions, copies and
reductions yields, for every shape and every stride vector (negative and zero
strides included), exactly the addresses of the elements in row-major order,
each once, and then stops. -/
theorem C01_iter_row_major (shape : List Nat) (strides : List Int) (base : Int)
    (hl : strides.length = shape.length) :
    (StridedIter.new shape strides base).toList
      = (indices shape).map fun idx => base + byteOffset idx strides :=
  toList_new hl base

example : (StridedIter.new [2, 3] [-8, 16] 100).toList = [100, 116, 132, 92, 108, 124] := by decide

/-- C01 (odometer): the other walk, used by the generic loops, also visits every
multi-index once, in row-major order. -/
theorem C01_odometer_row_major (shape : List Nat) : odometerAll shape = indices shape := by
  unfold odometerAll
  rw [sizeOf_eq]
  exact odometer_eq shape

example : odometerAll [2, 0, 3] = [] := by decide
example : odometerAll [2, 2] = [[0, 0], [0, 1], [1, 0], [1, 1]] := by decide

/-- C01 (axis iterator): the iterator used by axis reductions yields one base
address per index of the remaining axes, in row-major order; each base is the
address of the lane's element 0 along the dropped axis. -/
theorem C01_axis_iter_row_major (shape : List Nat) (strides : List Int) (axis : Nat) (base : Int)
    (hl : strides.length = shape.length) :
    (axisOffsetIter shape strides axis base).toList
      = (indices (shape.eraseIdx axis)).map fun idx => base + byteOffset idx (strides.eraseIdx axis) := by
  unfold axisOffsetIter
  dsimp only
  split
  · rename_i h
    have h' : shape.eraseIdx axis = [] := by simpa using h
    rw [h', toList_new (by rfl)]
    simp [indices, byteOffset]
  · apply toList_new
    simp [List.length_eraseIdx, hl]

example : (axisOffsetIter [2, 3] [24, 8] 0 0).toList = [0, 8, 16] := by decide
example : (axisOffsetIter [5] [8] 0 7).toList = [7] := by decide

/-! ### C02 -/

/-- The bytes occupied by the element at `idx` of a C-ordered fresh array. -/
def freshBytes (shape : List Nat) (item : Nat) (idx : List Nat) (byte : Int) : Prop :=
  byteOffset idx (cStrides shape item) ≤ byte ∧ byte < byteOffset idx (cStrides shape item) + item

/-- The bytes occupied by the element at `idx` of an F-ordered fresh array. -/
def freshBytesF (shape : List Nat) (item : Nat) (idx : List Nat) (byte : Int) : Prop :=
  byteOffset idx (fStrides shape item) ≤ byte ∧ byte < byteOffset idx (fStrides shape item) + item

/-- C02: in a fresh array every byte of every element is inside the allocation of
`size * itemsize` bytes. -/
theorem C02_fresh_in_bounds (shape : List Nat) (item : Nat) (idx : List Nat) (byte : Int)
    (hi : InShape shape idx) (hb : freshBytes shape item idx byte) :
    0 ≤ byte ∧ byte < ((size shape * item : Nat) : Int) := by
  unfold freshBytes at hb
  rw [byteOffset_cStrides item shape idx hi.length_eq] at hb
  have h := rank_lt hi
  have h2 : item * (rank shape idx + 1) ≤ item * size shape := Nat.mul_le_mul_left _ h
  have h3 : item * (rank shape idx + 1) = item * rank shape idx + item := by ring
  have h4 : size shape * item = item * size shape := Nat.mul_comm _ _
  constructor
  · have : (0 : Int) ≤ ((item * rank shape idx : Nat) : Int) := Int.natCast_nonneg _
    omega
  · omega

/-- C02: two different elements of a fresh array share no byte. -/
theorem C02_fresh_disjoint (shape : List Nat) (item : Nat) (a b : List Nat) (byte : Int)
    (ha : InShape shape a) (hb : InShape shape b)
    (h1 : freshBytes shape item a byte) (h2 : freshBytes shape item b byte) : a = b := by
  unfold freshBytes at h1 h2
  rw [byteOffset_cStrides item shape _ ha.length_eq] at h1
  rw [byteOffset_cStrides item shape _ hb.length_eq] at h2
  apply rank_inj ha hb
  rcases Nat.lt_trichotomy (rank shape a) (rank shape b) with h | h | h
  · have : item * (rank shape a + 1) ≤ item * rank shape b := Nat.mul_le_mul_left _ h
    have h3 : item * (rank shape a + 1) = item * rank shape a + item := by ring
    omega
  · exact h
  · have : item * (rank shape b + 1) ≤ item * rank shape a := Nat.mul_le_mul_left _ h
    have h3 : item * (rank shape b + 1) = item * rank shape b + item := by ring
    omega

/-- C02: every byte of the allocation belongs to some element. -/
theorem C02_fresh_covers (shape : List Nat) (item : Nat) (byte : Nat)
    (h : byte < size shape * item) :
    ∃ idx, InShape shape idx ∧ freshBytes shape item idx byte := by
  have hitem : 0 < item := by
    rcases Nat.eq_zero_or_pos item with h0 | h0
    · rw [h0] at h; simp at h
    · exact h0
  have hq : byte / item < size shape := by
    rw [Nat.div_lt_iff_lt_mul hitem]; exact h
  have hm : byte / item ∈ (indices shape).map (rank shape) := by
    rw [map_rank_indices]; exact List.mem_range.2 hq
  obtain ⟨idx, hidx, hr⟩ := List.mem_map.1 hm
  have hi := mem_indices.1 hidx
  refine ⟨idx, hi, ?_⟩
  unfold freshBytes
  rw [byteOffset_cStrides item shape idx hi.length_eq, hr]
  have h1 := Nat.div_add_mod byte item
  have h2 := Nat.mod_lt byte hitem
  constructor <;> omega

/-- C02 for the column-major layout: inside the allocation. -/
theorem C02_fresh_in_bounds_F (shape : List Nat) (item : Nat) (idx : List Nat) (byte : Int)
    (hi : InShape shape idx) (hb : freshBytesF shape item idx byte) :
    0 ≤ byte ∧ byte < ((size shape * item : Nat) : Int) := by
  unfold freshBytesF fStrides at hb
  rw [byteOffset_fStridesLoop shape idx _ hi.length_eq] at hb
  have h := rankF_lt hi
  have h2 : item * (rankF shape idx + 1) ≤ item * size shape := Nat.mul_le_mul_left _ h
  have h3 : item * (rankF shape idx + 1) = item * rankF shape idx + item := by ring
  have h4 : size shape * item = item * size shape := Nat.mul_comm _ _
  have h5 : (item : Int) * (rankF shape idx : Int) = ((item * rankF shape idx : Nat) : Int) := by
    push_cast; rfl
  rw [h5] at hb
  constructor
  · have : (0 : Int) ≤ ((item * rankF shape idx : Nat) : Int) := Int.natCast_nonneg _
    omega
  · omega

/-- C02 for the column-major layout: no sharing. -/
theorem C02_fresh_disjoint_F (shape : List Nat) (item : Nat) (a b : List Nat) (byte : Int)
    (ha : InShape shape a) (hb : InShape shape b)
    (h1 : freshBytesF shape item a byte) (h2 : freshBytesF shape item b byte) : a = b := by
  unfold freshBytesF fStrides at h1 h2
  rw [byteOffset_fStridesLoop shape _ _ ha.length_eq] at h1
  rw [byteOffset_fStridesLoop shape _ _ hb.length_eq] at h2
  have e : ∀ r : Nat, (item : Int) * (r : Int) = ((item * r : Nat) : Int) := by
    intro r; push_cast; rfl
  rw [e] at h1 h2
  apply rankF_inj ha hb
  rcases Nat.lt_trichotomy (rankF shape a) (rankF shape b) with h | h | h
  · have : item * (rankF shape a + 1) ≤ item * rankF shape b := Nat.mul_le_mul_left _ h
    have h3 : item * (rankF shape a + 1) = item * rankF shape a + item := by ring
    omega
  · exact h
  · have : item * (rankF shape b + 1) ≤ item * rankF shape a := Nat.mul_le_mul_left _ h
    have h3 : item * (rankF shape b + 1) = item * rankF shape b + item := by ring
    omega

example : InShape [2, 3] [1, 2] ∧ freshBytes [2, 3] 8 [1, 2] 47 := by
  unfold freshBytes; decide
example : ¬ freshBytes [2, 3] 8 [1, 1] 47 := by
  unfold freshBytes; decide

/-! ### C03 -/

/-- C03: an array flagged C-contiguous stores its element of row-major position
`r` exactly `r` items after its first element. -/
theorem C03_c_flag_sound (shape : List Nat) (strides : List Int) (item : Nat)
    (hl : strides.length = shape.length) (h : isCContiguous shape strides item = true)
    (idx : List Nat) (hi : InShape shape idx) :
    byteOffset idx strides = (item * rank shape idx : Nat) :=
  isC_sound hl h hi

/-- C03, converse: a non-empty array that is laid out in row-major order is
flagged C-contiguous. -/
theorem C03_c_flag_complete (shape : List Nat) (strides : List Int) (item : Nat)
    (hl : strides.length = shape.length) (hp : 0 < size shape)
    (h : ∀ idx, InShape shape idx → byteOffset idx strides = (item * rank shape idx : Nat)) :
    isCContiguous shape strides item = true := by
  unfold isCContiguous
  rcases hr : isCAux item shape strides with e | b
  · rfl
  · cases b with
    | true => rfl
    | false =>
      obtain ⟨idx, hi, hne⟩ := isCAux_done_false hl hr hp
      exact absurd (h idx hi) hne

/-- C03: an array flagged F-contiguous stores its element of column-major position
`r` exactly `r` items after its first element. -/
theorem C03_f_flag_sound (shape : List Nat) (strides : List Int) (item : Nat)
    (hl : strides.length = shape.length) (h : isFContiguous shape strides item = true)
    (idx : List Nat) (hi : InShape shape idx) :
    byteOffset idx strides = (item * rankF shape idx : Nat) := by
  have := isFAux_sound hl h idx hi
  rw [this]; push_cast; rfl

/-- C03, converse for the F flag. -/
theorem C03_f_flag_complete (shape : List Nat) (strides : List Int) (item : Nat)
    (hl : strides.length = shape.length) (hp : 0 < size shape)
    (h : ∀ idx, InShape shape idx → byteOffset idx strides = (item * rankF shape idx : Nat)) :
    isFContiguous shape strides item = true := by
  cases hr : isFContiguous shape strides item with
  | true => rfl
  | false =>
    obtain ⟨idx, hi, hne⟩ := isFAux_complete hl hp hr
    exact absurd (by rw [h idx hi]; push_cast; rfl) hne

/-- C03: a block copy is right.  For a C-contiguous array, reading `size` items
one after another from the first element yields exactly the elements in
row-major order; this is what every flat loop and `memcpy` relies on. -/
theorem C03_flat_read (mem : Int → α) (shape : List Nat) (strides : List Int) (item : Nat)
    (offset : Int) (hl : strides.length = shape.length)
    (h : isCContiguous shape strides item = true) :
    (List.range (size shape)).map (fun r : Nat => mem (offset + (r : Int) * (item : Int)))
      = (indices shape).map fun idx => mem (offset + byteOffset idx strides) := by
  rw [← map_rank_indices, List.map_map]
  apply List.map_congr_left
  intro idx hi
  have := isC_sound hl h (mem_indices.1 hi)
  simp only [Function.comp]
  rw [this]
  congr 1
  push_cast; ring

example : isCContiguous [2, 1, 3] [24, 999, 8] 8 = true := by decide
example : isCContiguous [2, 3] [8, 16] 8 = false ∧ isFContiguous [2, 3] [8, 16] 8 = true := by decide

end Props
