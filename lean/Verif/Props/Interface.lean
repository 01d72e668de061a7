import Verif.Spec.Interface
import Verif.Model.Interface
import Verif.Lemmas.Array
import Verif.Lemmas.Select
import Verif.Lemmas.Text
import Verif.Lemmas.Cumulative

/-!
# C82: exchange of arrays through `__array_interface__`
-/

namespace Props
open Spec Rumpy

theorem width_eq (d : DType) : d.width = DType.itemsize d := by
  cases d <;> first | rfl | simp [DType.width, DType.itemsize, Nat.mul_comm]

theorem parse_digits {n : Nat} (h : n < 2 ^ 64) : parseUsize (Nat.toDigits 10 n) = some n :=
  parseUsize_digits (showNat_digits n) (parseDigits_showNat n) h

/-- C82.  Every typestr that NumPy writes for a little-endian array is understood as the dtype it
stands for. -/
theorem C82_typestr (d : DType) (h : ∀ n, d = .str n ∨ d = .bytes n → n < 2 ^ 64) : dtypeFromTypestr (numpyTypestr false d) = .ok d := by
  cases d with
  | datetime u => cases u <;> decide
  | timedelta u => cases u <;> decide
  | str n =>
    have hp := parse_digits (h n (Or.inl rfl))
    unfold dtypeFromTypestr numpyTypestr
    simp [hp]
  | bytes n =>
    have hp := parse_digits (h n (Or.inr rfl))
    unfold dtypeFromTypestr numpyTypestr
    simp [bytesOrKind, hp]
  | _ => decide

example : dtypeFromTypestr "<M8[ns]".toList = .ok (.datetime .ns) ∧ dtypeFromTypestr "<U12".toList = .ok (.str 12) := by decide

/-- C82.  An array whose elements no dtype here can hold (objects, records, long doubles) is refused: its typestr is a
byte order, a kind and a size that no dtype has. -/
theorem C82_unsupported (mem : Int → BitVec 8) (i : Interface) (o k : Char) (n : Nat) (hn : n < 2 ^ 64) (ht : i.typestr = o :: k :: Nat.toDigits 10 n)
    (ho : o = '<' ∨ o = '>' ∨ o = '|') (hk : k ∉ ['M', 'm', 'U', 'S', '<', '>', '|'])
    (hno : ∀ (d : DType) (o' : Char), numpyTypestr false d ≠ o' :: k :: Nat.toDigits 10 n) : fromInterface mem none i = .error := by
  have hp := parse_digits hn
  have hks : kindSize (o :: k :: Nat.toDigits 10 n) = .error := by
    unfold kindSize
    rw [if_neg (by simp)]
    have e1 : (o :: k :: Nat.toDigits 10 n).getD 1 'f' = k := rfl
    have e2 : (parseUsize ((o :: k :: Nat.toDigits 10 n).drop 2)).getD 8 = n := by
      show (parseUsize (Nat.toDigits 10 n)).getD 8 = n
      rw [hp]
      rfl
    rw [e1, e2]
    have : kindTable k n = none := by
      unfold kindTable
      split
      · exact absurd rfl (hno .f64 '<')
      · exact absurd rfl (hno .f32 '<')
      · exact absurd rfl (hno .f16 '<')
      · exact absurd rfl (hno .i64 '<')
      · exact absurd rfl (hno .i32 '<')
      · exact absurd rfl (hno .i16 '<')
      · exact absurd rfl (hno .i8 '|')
      · exact absurd rfl (hno .u64 '<')
      · exact absurd rfl (hno .u32 '<')
      · exact absurd rfl (hno .u16 '<')
      · exact absurd rfl (hno .u8 '|')
      · exact absurd rfl (hno .bool '|')
      · exact absurd rfl (hno .c64 '<')
      · exact absurd rfl (hno .c128 '<')
      · rfl
    rw [this]
  simp only [List.mem_cons, List.not_mem_nil, or_false, not_or] at hk
  obtain ⟨k1, k2, k3, k4, k5, k6, k7⟩ := hk
  have hbk : bytesOrKind (o :: k :: Nat.toDigits 10 n) = .error := by
    unfold bytesOrKind
    rcases ho with rfl | rfl | rfl
    · simp [hks]
    · simp [hks]
    · rw [List.dropWhile_cons_of_pos (by simp), List.dropWhile_cons_of_neg (by simpa using k7)]
      split
      · next h => exact absurd (List.cons.inj h).1 k4
      · exact hks
  have hd : dtypeFromTypestr i.typestr = .error := by
    rw [ht]
    unfold dtypeFromTypestr
    rw [if_neg (by simp [k1]), if_neg (by simp [k2])]
    split
    · next h =>
      exfalso
      rcases ho with rfl | rfl | rfl
      · rw [List.dropWhile_cons_of_pos (by simp), List.dropWhile_cons_of_neg (by simpa using k5), List.dropWhile_cons_of_neg (by simpa using k6)] at h
        exact k3 (List.cons.inj h).1
      · rw [List.dropWhile_cons_of_neg (by simp), List.dropWhile_cons_of_pos (by simp), List.dropWhile_cons_of_neg (by simpa using k6)] at h
        exact k3 (List.cons.inj h).1
      · simp at h
    · exact hbk
  unfold fromInterface
  dsimp only
  rw [hd]

/-- Objects of eight bytes: no dtype has that typestr. -/
example : (∀ (d : DType) (o' : Char), numpyTypestr false d ≠ o' :: 'O' :: Nat.toDigits 10 8) ∧
    fromInterface (fun _ => 0) none ⟨[2], "|O8".toList, 0, none⟩ = .error := by
  refine ⟨?_, by decide⟩
  intro d o'
  cases d with
  | datetime u => cases u <;> simp [numpyTypestr]
  | timedelta u => cases u <;> simp [numpyTypestr]
  | _ => simp [numpyTypestr]

theorem importAs_is (mem : Int → BitVec 8) (d : DType) (i : Interface) :
    (importAs mem d i).Is ⟨i.shape, fun idx => copyBytes d ((interfaceReads d i idx).map mem)⟩ := by
  unfold importAs
  dsimp only
  rw [sizeOf_eq]
  split
  · next h0 =>
    refine ⟨rfl, ?_⟩
    have : indices i.shape = [] := List.eq_nil_of_length_eq_zero (by rw [length_indices, h0])
    simp [h0, Nd.toList, this]
  · rw [writes_odometer i.shape (fun idx => copyBytes d ((interfaceReads d i idx).map mem)) _ (by simp)]
    exact ⟨rfl, rfl⟩

theorem zipWith_byteOffset : ∀ (idx : List Nat) (st : List Int), (List.zipWith (fun (i : Nat) (s : Int) => (i : Int) * s) idx st).sum = byteOffset idx st
  | [], _ => by simp [byteOffset]
  | _ :: _, [] => by simp [byteOffset]
  | i :: idx, s :: st => by simp [byteOffset, zipWith_byteOffset idx st]

/-- The dictionary of another library's array. -/
def offered (e : Exported) : Interface := ⟨e.shape, numpyTypestr e.big e.dtype, e.data, e.strides⟩

theorem offered_addr (e : Exported) {idx : List Nat} (hi : InShape e.shape idx) :
    e.data + byteOffset idx (interfaceStrides e.dtype (offered e)) = e.addr idx := by
  unfold Exported.addr interfaceStrides offered
  cases hs : e.strides with
  | some st =>
    simp only [Option.getD_some]
    rw [zipWith_byteOffset]
  | none =>
    simp only [Option.getD_none]
    rw [byteOffset_cStrides _ _ _ hi.length_eq, width_eq]
    push_cast
    rw [Int.mul_comm]

/-- C82.  A little-endian array of another library is taken over exactly: same dtype, same shape, and
at every index the bytes the other library has there, whatever its strides.  (Truth values must be
stored as 0 and 1.) -/
theorem C82_import_partial (e : Exported) (hl : e.big = false) (hn : ∀ n, e.dtype = .str n ∨ e.dtype = .bytes n → n < 2 ^ 64) (mem : Int → BitVec 8)
    (hb : e.dtype = .bool → ∀ idx, InShape e.shape idx → mem (e.addr idx) = 0#8 ∨ mem (e.addr idx) = 1#8) :
    ∃ r, fromInterface mem none (offered e) = .ok (e.dtype, r) ∧ r.Is ⟨e.shape, e.bytes mem⟩ := by
  refine ⟨importAs mem e.dtype (offered e), ?_, Arr.Is.congr (importAs_is mem e.dtype (offered e)) ⟨rfl, fun idx hi => ?_⟩⟩
  · unfold fromInterface
    dsimp only
    have : (offered e).typestr = numpyTypestr false e.dtype := by unfold offered; rw [hl]
    rw [this, C82_typestr e.dtype hn]
  · have hi : InShape e.shape idx := hi
    show copyBytes e.dtype ((interfaceReads e.dtype (offered e) idx).map mem) = e.bytes mem idx
    have h1 : (interfaceReads e.dtype (offered e) idx).map mem = (List.range e.dtype.width).map fun k : Nat => mem (e.addr idx + (k : Int)) := by
      unfold interfaceReads
      rw [List.map_map, width_eq]
      refine List.map_congr_left fun k _ => ?_
      show mem (e.data + byteOffset idx _ + _) = _
      rw [offered_addr e hi]
    rw [h1]
    unfold Exported.bytes
    rw [hl]
    dsimp only
    rw [if_neg (by decide)]
    by_cases hbool : e.dtype = .bool
    · rw [hbool]
      show copyBytes .bool ((List.range 1).map _) = (List.range 1).map _
      rcases hb hbool idx hi with h | h <;> simp [copyBytes, h]
    · unfold copyBytes
      split
      · next h => exact absurd h hbool
      · rfl

/-- A reversed array of 32-bit integers. -/
example : (match fromInterface (fun p => BitVec.ofInt 8 p) none (offered ⟨[2], .i32, false, 4, some [-4]⟩) with
    | .ok (_, r) => r.data
    | _ => []) = [[4#8, 5#8, 6#8, 7#8], [0#8, 1#8, 2#8, 3#8]] := by
  decide +kernel

/-- C82.  Only bytes of the other array are read. -/
theorem C82_import_reads (e : Exported) {idx : List Nat} (hi : InShape e.shape idx) :
    ∀ p ∈ interfaceReads e.dtype (offered e) idx, e.Owns p := by
  intro p hp
  unfold interfaceReads at hp
  obtain ⟨k, hk, rfl⟩ := List.mem_map.mp hp
  have hk' : k < e.dtype.width := by rw [width_eq]; simpa using hk
  refine ⟨idx, hi, ?_, ?_⟩
  · show e.addr idx ≤ e.data + byteOffset idx _ + _
    rw [offered_addr e hi]
    omega
  · show e.data + byteOffset idx _ + _ < _
    rw [offered_addr e hi]
    omega

/-- C82.  A big-endian array is taken over without exchanging the bytes: the number 1 becomes 256. -/
theorem C82_big_endian_counterexample :
    let e : Exported := ⟨[1], .i16, true, 0, none⟩
    let mem : Int → BitVec 8 := fun p => if p = 1 then 1#8 else 0#8
    (match fromInterface mem none (offered e) with
      | .ok (d, r) => (d, r.data)
      | _ => (.bool, [])) = (.i16, [[0#8, 1#8]]) ∧
    e.bytes mem [0] = [1#8, 0#8] := by
  decide +kernel

/-- C82.  With `dtype`, the bytes are not converted but read as if they were of that dtype, also past
the end of the other array: of two 32-bit integers 1 and 2 the first element asked for as `float64`
takes both, and the second takes bytes that do not belong to the array. -/
theorem C82_dtype_counterexample :
    let e : Exported := ⟨[2], .i32, false, 0, none⟩
    let mem : Int → BitVec 8 := fun p => if p = 0 then 1#8 else if p = 4 then 2#8 else 0#8
    (match fromInterface mem (some .f64) (offered e) with
      | .ok (d, r) => (d, r.data.head?)
      | _ => (.bool, none)) = (.f64, some [1#8, 0#8, 0#8, 0#8, 2#8, 0#8, 0#8, 0#8]) ∧
    (8 : Int) ∈ interfaceReads .f64 (offered e) [1] ∧ ¬ e.Owns 8 := by
  refine ⟨by decide +kernel, by decide +kernel, ?_⟩
  rintro ⟨idx, hi, h1, h2⟩
  match idx, hi with
  | [i], hi =>
    have h0 : i < 2 := hi.1
    simp only [Exported.addr, Spec.rank, DType.width, Spec.size] at h1 h2
    omega

/-- C82.  A text that is no typestr is an error, except that a size that is no number counts as 8, and
that a text of fewer than two characters panics. -/
theorem C82_typestr_counterexample :
    dtypeFromTypestr "<fxx".toList = .ok .f64 ∧ dtypeFromTypestr "".toList = .panic ∧ dtypeFromTypestr "f".toList = .panic := by
  decide

/-- C82.  An array offered through the interface and taken over again has the same dtype, shape and
elements, for every dtype but strings and every layout. -/
theorem C82_round_trip_partial (d : DType) (hd : ∀ n, d ≠ .str n ∧ d ≠ .bytes n) (v : View)
    (mem : Int → BitVec 8)
    (hb : d = .bool → ∀ idx, InShape v.shape idx → mem (v.addr idx) = 0#8 ∨ mem (v.addr idx) = 1#8) :
    ∃ r, fromInterface mem none (interfaceOf d v) = .ok (d, r) ∧
      r.Is ⟨v.shape, fun idx => (List.range (DType.itemsize d)).map fun k : Nat => mem (v.addr idx + (k : Int))⟩ := by
  refine ⟨importAs mem d (interfaceOf d v), ?_, Arr.Is.congr (importAs_is mem d (interfaceOf d v)) ⟨rfl, fun idx hidx => ?_⟩⟩
  · unfold fromInterface
    dsimp only
    have : dtypeFromTypestr (interfaceOf d v).typestr = .ok d := by
      show dtypeFromTypestr (DType.typestr d).toList = .ok d
      clear hb
      cases d with
      | str n => exact absurd rfl (hd n).1
      | bytes n => exact absurd rfl (hd n).2
      | datetime u => cases u <;> decide
      | timedelta u => cases u <;> decide
      | _ => decide
    rw [this]
  · have hidx : InShape v.shape idx := hidx
    show copyBytes d ((interfaceReads d (interfaceOf d v) idx).map mem) = _
    have h1 : (interfaceReads d (interfaceOf d v) idx).map mem = (List.range (DType.itemsize d)).map fun k : Nat => mem (v.addr idx + (k : Int)) := by
      unfold interfaceReads
      rw [List.map_map]
      rfl
    rw [h1]
    by_cases hbool : d = .bool
    · subst hbool
      show copyBytes .bool ((List.range 1).map fun k : Nat => mem (v.addr idx + (k : Int))) =
        (List.range 1).map fun k : Nat => mem (v.addr idx + (k : Int))
      rcases hb rfl idx hidx with h | h <;> simp [copyBytes, h]
    · unfold copyBytes
      split
      · exact absurd rfl hbool
      · rfl

/-- C82.  Arrays of strings are offered as arrays of empty strings. -/
theorem C82_round_trip_counterexample :
    (match fromInterface (fun p => BitVec.ofInt 8 p) none (interfaceOf (.str 2) (View.fresh [1] 8)) with
      | .ok (d, r) => (d, r.data)
      | _ => (.bool, [])) = (.str 0, [[]]) := by
  decide +kernel

end Props
