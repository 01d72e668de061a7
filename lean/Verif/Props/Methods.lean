import Verif.Spec.Methods
import Verif.Model.Methods
import Verif.Props.Io
import Verif.Props.Rearrange
import Verif.Lemmas.Fft
import Verif.Lemmas.Search
/-!
# C90: flat iterators, `resize`, `repeat`, `view` and `tobytes` as methods of an array
-/

namespace Props
open Spec Rumpy

/-! ### Flat access -/

theorem flatElement_eq (conv : α → α) (mem : Int → α) (v : View) {k : Nat} (hk : k < size v.shape) :
    (v.denote mem).toList[k]? = some (mem (v.addr (unflattenAux v.shape k).1)) ∧
    some (flatElement conv mem v k) = ((v.denote mem).toList[k]?).map conv := by
  obtain ⟨h1, h2, -⟩ := unflattenAux_spec (s := v.shape) (r := k) (by omega)
  rw [Nat.mod_eq_of_lt hk] at h2
  have h := toList_getElem? (nd := v.denote mem) (idx := (unflattenAux v.shape k).1) h1
  have hs : (v.denote mem).shape = v.shape := rfl
  rw [hs, h2] at h
  exact ⟨h, by rw [h]; rfl⟩

/-- The calls of the flat iterator return the elements in row-major order, each as it is in the array when it is asked for, and
then nothing more, however often it is called. -/
theorem C90_flat_iterator (conv : α → α) (v : View) (mems : List (Int → α)) (k : Nat) (hk : k < mems.length) :
    (flatCalls conv v mems 0)[k]? = some (((v.denote mems[k]).toList[k]?).map conv) := by
  have key : ∀ (mems : List (Int → α)) (i k : Nat) (hk : k < mems.length), i ≤ size v.shape →
      (flatCalls conv v mems i)[k]? = some (((v.denote mems[k]).toList[i + k]?).map conv) := by
    intro mems
    induction mems with
    | nil => intro i k hk; simp at hk
    | cons m ms ih =>
      intro i k hk hi
      have hlen : ∀ (m : Int → α), (v.denote m).toList.length = size v.shape := fun m => Nd.length_toList _
      by_cases he : Rumpy.sizeOf v.shape ≤ i
      · have hn : flatNext conv m v i = (none, i) := by rw [flatNext, if_pos he]
        rw [sizeOf_eq] at he
        rw [flatCalls, hn]
        cases k with
        | zero =>
          rw [List.getElem_cons_zero, List.getElem?_cons_zero, List.getElem?_eq_none (by rw [hlen]; omega)]
          rfl
        | succ k =>
          rw [List.getElem?_cons_succ, ih i k (by simpa using hk) hi, List.getElem_cons_succ,
            List.getElem?_eq_none (by rw [hlen]; omega), List.getElem?_eq_none (by rw [hlen]; omega)]
      · have hn : flatNext conv m v i = (some (flatElement conv m v i), i + 1) := by rw [flatNext, if_neg he]
        rw [sizeOf_eq] at he
        rw [flatCalls, hn]
        cases k with
        | zero =>
          rw [List.getElem_cons_zero, List.getElem?_cons_zero]
          exact congrArg some (flatElement_eq conv m v (by omega)).2
        | succ k =>
          rw [List.getElem?_cons_succ, ih (i + 1) k (by simpa using hk) (by omega), List.getElem_cons_succ, Nat.add_right_comm,
            Nat.add_assoc i k 1]
  have h := key mems 0 k hk (Nat.zero_le _)
  rwa [Nat.zero_add] at h

/-- Its length is the number of elements, and an index means what it means for a list. -/
theorem C90_flat_index (conv : α → α) (mem : Int → α) (v : View) (i : Int) :
    flatGetItem conv mem v i = (pyIndex (v.denote mem).toList.length i).bind fun k => ((v.denote mem).toList[k]?).map conv := by
  have hlen : (v.denote mem).toList.length = size v.shape := Nd.length_toList _
  unfold flatGetItem pyIndex
  dsimp only
  rw [hlen, sizeOf_eq]
  by_cases h1 : 0 ≤ i ∧ i < size v.shape
  · rw [if_pos h1, if_neg (by omega), if_neg (by omega), Option.bind_some]
    exact (flatElement_eq conv mem v (by omega)).2
  · rw [if_neg h1]
    by_cases h2 : i < 0 ∧ -(size v.shape : Int) ≤ i
    · rw [if_pos h2, if_pos h2.1, if_neg (by omega), Option.bind_some]
      exact (flatElement_eq conv mem v (by omega)).2
    · rw [if_neg h2, Option.bind_none, if_pos]
      split <;> omega

example : flatCalls id (⟨0, [2, 2], [1, 2], 1, false, true⟩ : View) (List.replicate 5 fun p => p) 0
    = [some 0, some 2, some 1, some 3, none] := by decide

/-! ### resize -/

/-- C90, proved part: `resize` keeps the elements in row-major order, cuts them off or continues them with zeros, for elements a
64-bit float holds exactly. Missing: other elements and negative lengths, see the counterexamples. -/
theorem C90_resize_partial (conv : α → α) (mem : Int → α) (v : View) (hw : v.WF) (shape : List Nat) (zero : α)
    (hex : FloatExact conv (v.denote mem)) :
    (resizeMethod conv mem v shape zero).Is ((v.denote mem).resized shape zero) := by
  unfold resizeMethod
  dsimp only
  rw [sizeOf_eq, sizeOf_eq]
  split
  · next h =>
    refine ⟨rfl, ?_⟩
    show List.replicate (size shape) zero = _
    symm
    rw [h]
    apply List.eq_nil_of_length_eq_zero
    rw [Nd.length_toList]
    exact h
  · next h =>
    have hdata : v.addrs.map mem = (v.denote mem).toList := addrs_map hw mem
    have hlen : (v.denote mem).toList.length = size v.shape := Nd.length_toList _
    have hmap : (v.denote mem).toList.map conv = (v.denote mem).toList := by
      conv_rhs => rw [← List.map_id (v.denote mem).toList]
      apply List.map_congr_left
      intro x hx
      obtain ⟨idx, hi, rfl⟩ := List.mem_map.1 hx
      exact hex idx (mem_indices.1 hi)
    rw [hdata]
    refine ⟨rfl, ?_⟩
    show writes _ _ = _
    rw [writes_prefix conv _ _ (by simp), List.map_take, hmap]
    apply eq_toList
    · simp [hlen, Nd.resized]
    · intro idx hi
      have hi' : InShape shape idx := hi
      have hr := rank_lt hi'
      show _ = some (((v.denote mem).toList[rank shape idx]?).getD zero)
      have hshape : ((v.denote mem).resized shape zero).shape = shape := rfl
      rw [hshape]
      by_cases hlt : rank shape idx < size v.shape
      · rw [List.getElem?_append_left (by simp [hlen]; omega), List.getElem?_take, if_pos (by omega),
          List.getElem?_eq_getElem (by omega)]
        rfl
      · rw [List.getElem?_append_right (by simp [hlen]; omega), List.getElem?_eq_none (by omega : _ ≤ rank shape idx),
          List.getElem?_drop, List.getElem?_replicate, if_pos]
        · rfl
        · simp [hlen]
          omega

example : resizeMethod id (fun p => p + 1) (⟨0, [2, 2], [1, 2], 1, false, true⟩ : View) [6] 0 = ⟨[6], [1, 3, 2, 4, 0, 0]⟩ := by decide

/-- A wide integer is rounded by `resize`. -/
theorem C90_resize_wide_counterexample : resizeMethod viaF64 (fun _ => 2 ^ 53 + 1) (View.fresh [1] 8) [1] 0 = ⟨[1], [2 ^ 53]⟩ := by
  decide +kernel

/-! ### repeat -/

theorem repeatFast_eq (conv : α → α) (cell : Nat → α) (n r : Nat) (zero : α) :
    repeatFast conv cell n r zero = (List.range (n * r)).map fun p => conv (cell (p / r)) := by
  have := writes_cover (s := [n * r]) (f := fun idx => conv (cell (idx.getD 0 0 / r))) (d := List.replicate (n * r) zero)
    (ws := (List.range n).flatMap fun i => (List.range r).map fun j => (i * r + j, conv (cell i))) (by simp [size]) (by
      intro w hw
      obtain ⟨i, hi, hw⟩ := List.mem_flatMap.1 hw
      obtain ⟨k, hk, rfl⟩ := List.mem_map.1 hw
      rw [List.mem_range] at hi hk
      refine ⟨[i * r + k], ⟨by nlinarith, trivial⟩, ?_⟩
      have : (i * r + k) / r = i := by
        rw [Nat.mul_comm, Nat.mul_add_div (by omega), Nat.div_eq_of_lt hk, Nat.add_zero]
      simp [rank, size, this]) (by
      intro idx hi
      obtain ⟨p, rfl, hp⟩ := inShape_one hi
      have hr : 0 < r := by
        rcases Nat.eq_zero_or_pos r with h0 | h0
        · subst h0; simp at hp
        · exact h0
      rw [List.mem_flatMap]
      refine ⟨p / r, List.mem_range.2 (Nat.div_lt_of_lt_mul (by rw [Nat.mul_comm]; exact hp)), ?_⟩
      rw [List.mem_map]
      refine ⟨p % r, List.mem_range.2 (Nat.mod_lt _ hr), ?_⟩
      simp [rank, size, Nat.div_add_mod'])
  rw [repeatFast, this, indices_singleton, List.map_map]
  rfl

/-- The method `repeat` without an axis: every element, in row-major order, as often as asked for. -/
theorem C90_repeat_flat (eight : Bool) (conv : α → α) (mem : Int → α) (v : View) (hw : v.WF) (hal : eight = true → Aligned v)
    (n : Nat) (zero : α) :
    ∃ r, repeatMethod eight conv mem v n none zero = some r ∧
      r.Is ⟨[size v.shape * n], fun idx => conv ((v.denote mem).toList.getD (idx.getD 0 0 / n) zero)⟩ := by
  refine ⟨_, rfl, ?_, ?_⟩
  · simp [sizeOf_eq]
  · dsimp only
    rw [repeatFast_eq, (copyArr_eq eight mem hw hal zero).2, sizeOf_eq]
    unfold Nd.toList
    rw [indices_singleton, List.map_map]
    rfl

/-- C90, proved part: the method `repeat` along an axis, also for no repetitions, for elements a 64-bit float holds exactly.
Missing: other elements (as in C43), and negative axes, which the method does not take. -/
theorem C90_repeat_axis_partial (eight : Bool) (conv : α → α) (mem : Int → α) (v : View) (hw : v.WF) (n ax : Nat)
    (hex : FloatExact conv (v.denote mem)) (zero : α) :
    if ax < v.shape.length then
      ∃ r, repeatMethod eight conv mem v n (some ax) zero = some r ∧ r.Is ((v.denote mem).repeatAxis ax n)
    else repeatMethod eight conv mem v n (some ax) zero = none := by
  split
  · next hlt =>
    unfold repeatMethod
    dsimp only
    rw [if_neg (by omega)]
    have hin : ∀ idx, InShape (v.shape.modify ax (· * n)) idx → InShape v.shape (idx.modify ax (· / n)) := by
      intro idx hi
      rw [modify_eq_set _ _ _ hlt] at hi
      exact inShape_modify hlt hi (fun k hk => Nat.div_lt_of_lt_mul (by rw [Nat.mul_comm]; exact hk))
    split
    · next h1 =>
      refine ⟨_, rfl, rfl, ?_⟩
      obtain ⟨m, hm⟩ := List.length_eq_one_iff.1 h1.1
      have hax : ax = 0 := by omega
      subst hax
      dsimp only
      rw [repeatFast_eq]
      show _ = (indices (v.shape.modify 0 (· * n))).map fun idx => mem (v.addr (idx.modify 0 (· / n)))
      have hmod : v.shape.modify 0 (· * n) = [m * n] := by rw [hm]; rfl
      rw [hmod, indices_singleton, List.map_map]
      have hm0 : v.shape.getD 0 0 = m := by rw [hm]; rfl
      rw [hm0]
      apply List.map_congr_left
      intro p hp
      have hp' := List.mem_range.1 hp
      have hq : InShape v.shape [p / n] := by
        rw [hm]
        exact ⟨Nat.div_lt_of_lt_mul (by rw [Nat.mul_comm]; exact hp'), trivial⟩
      have ha := cFlag_addr hw h1.2 hq
      have hr : rank v.shape [p / n] = p / n := by rw [hm]; simp [rank, size]
      rw [hr] at ha
      have he := hex [p / n] hq
      have he' : conv (mem (v.addr [p / n])) = mem (v.addr [p / n]) := he
      rw [ha] at he'
      show conv _ = mem (v.addr [p / n])
      rw [ha]
      exact he'
    · refine ⟨_, rfl, rfl, ?_⟩
      dsimp only
      rw [writes_zipIdx (fun d : List Nat => conv (mem (v.addr (d.modify ax (· / n))))) _ _ (by
        rw [odometerAll_eq, List.length_replicate, length_indices, sizeOf_eq]), odometerAll_eq]
      show _ = (indices (v.shape.modify ax (· * n))).map fun idx => mem (v.addr (idx.modify ax (· / n)))
      apply List.map_congr_left
      intro idx hi
      exact hex _ (hin idx (mem_indices.1 hi))
  · next h =>
    unfold repeatMethod
    dsimp only
    rw [if_pos (by omega)]

example : (repeatMethod false id (fun p => p) (View.fresh [2, 3] 1) 0 (some 1) 0) = some ⟨[2, 0], []⟩ := by decide

example : (repeatMethod false id (fun p => p) (⟨0, [2, 2], [1, 2], 1, false, true⟩ : View) 2 (some 0) 0)
    = some ⟨[4, 2], [0, 2, 0, 2, 1, 3, 1, 3]⟩ := by decide

/-! ### view and tobytes -/

theorem size_snoc (s : List Nat) (n : Nat) : size (s ++ [n]) = size s * n := by
  induction s with
  | nil => simp [size]
  | cons m s ih => rw [List.cons_append, size, size, ih, Nat.mul_assoc]

/-- The bytes of a contiguous array are the bytes from its offset on. -/
theorem allBytes_contiguous (mem : Int → UInt8) {v : View} (hw : v.WF) (hc : v.cFlag = true) :
    (bytesNd mem v).allBytes = (List.range (size v.shape * v.item)).map fun i : Nat => mem (v.offset + i) := by
  have h := contiguousBytes_eq mem .bool hw (by simp)
  unfold Nd.allBytes
  rw [← h, contiguousBytes]
  rw [if_pos hc, sizeOf_eq]

/-- When `view` succeeds: for contiguous arrays with an axis whose last axis is a whole number of new elements. -/
theorem C90_view_iff (v : View) (item : Nat) :
    (viewDtype v item).isSome ↔ v.cFlag = true ∧ ∃ rest n, v.shape = rest ++ [n] ∧ item ∣ n * v.item := by
  unfold viewDtype
  by_cases hc : v.cFlag = false
  · rw [if_pos hc]
    simp [hc]
  · rw [if_neg hc]
    have hc' : v.cFlag = true := by simpa using hc
    rcases List.eq_nil_or_concat v.shape with hs | ⟨rest, n, hs⟩
    · rw [if_pos hs]
      simp [hs]
    · rw [List.concat_eq_append] at hs
      rw [if_neg (by simp [hs])]
      dsimp only
      have hlast : v.shape.getLastD 0 = n := by simp [hs]
      rw [hlast]
      have hset : v.shape.set (v.shape.length - 1) (n * v.item / item) = rest ++ [n * v.item / item] := by
        rw [hs]
        simp
      rw [hset, sizeOf_eq, sizeOf_eq]
      have hiff : (v.cFlag = true ∧ ∃ rest n, v.shape = rest ++ [n] ∧ item ∣ n * v.item) ↔ item ∣ n * v.item := by
        constructor
        · rintro ⟨-, r, m, he, hd⟩
          rw [hs] at he
          have := List.append_inj_right' he rfl
          simp only [List.cons.injEq, and_true] at this
          rw [this]
          exact hd
        · exact fun hd => ⟨hc', rest, n, hs, hd⟩
      rw [hiff]
      by_cases hd : item ∣ n * v.item
      · rw [if_neg (by simpa using Nat.mod_eq_zero_of_dvd hd), if_neg]
        · simpa using hd
        · rw [not_not, hs, size_snoc, size_snoc, Nat.mul_assoc, Nat.div_mul_cancel hd, Nat.mul_assoc]
      · rw [if_pos (fun h => hd (Nat.dvd_of_mod_eq_zero h))]
        simpa using hd

/-- `view` shows the same bytes in the same order, with only the last length changed. -/
theorem C90_view_partial (mem : Int → UInt8) (v w : View) (hw : v.WF) (item : Nat) (h : viewDtype v item = some w) :
    w.WF ∧ w.cFlag = true ∧ w.offset = v.offset ∧ w.item = item ∧ Rescaled v.shape w.shape v.item item ∧
    (bytesNd mem w).allBytes = (bytesNd mem v).allBytes := by
  have hs : (viewDtype v item).isSome := by rw [h]; rfl
  obtain ⟨hc, rest, n, hsh, hd⟩ := (C90_view_iff v item).1 hs
  unfold viewDtype at h
  rw [if_neg (by simp [hc]), if_neg (by simp [hsh])] at h
  dsimp only at h
  have hlast : v.shape.getLastD 0 = n := by simp [hsh]
  have hset : v.shape.set (v.shape.length - 1) (n * v.item / item) = rest ++ [n * v.item / item] := by
    rw [hsh]
    simp
  rw [hlast, hset, if_neg (by simpa using Nat.mod_eq_zero_of_dvd hd)] at h
  split at h
  · simp at h
  · next hsz =>
    rw [not_not, sizeOf_eq, sizeOf_eq] at hsz
    simp only [Option.some.injEq] at h
    have hwf : w.WF := by
      rw [← h]
      exact ⟨cStrides_length _ _, id, id⟩
    have hcw : w.cFlag = true := by
      rw [← h]
      exact isCContiguous_cStrides _ _
    have hshape : w.shape = rest ++ [n * v.item / item] := by rw [← h]; rfl
    have hoff : w.offset = v.offset := by rw [← h]; rfl
    have hitem : w.item = item := by rw [← h]; rfl
    refine ⟨hwf, hcw, hoff, hitem, ⟨rest, n, _, hsh, hshape, Nat.div_mul_cancel hd⟩, ?_⟩
    rw [allBytes_contiguous mem hwf hcw, allBytes_contiguous mem hw hc, hshape, hitem, hsz, hoff]

/-- Viewing back gives the shape of the original, if its elements are not of size 0. -/
theorem C90_view_back (v w : View) (hw : v.WF) (item : Nat) (hi : 0 < v.item) (h : viewDtype v item = some w) :
    ∃ u, viewDtype w v.item = some u ∧ u.shape = v.shape ∧ u.offset = v.offset ∧ u.item = v.item := by
  obtain ⟨-, hcw, hoff, hitem, ⟨rest, n, n', hs, hs', he⟩, -⟩ := C90_view_partial (fun _ => 0) v w hw item h
  have hsome : (viewDtype w v.item).isSome := by
    rw [C90_view_iff]
    refine ⟨hcw, rest, n', hs', ?_⟩
    rw [hitem, he]
    exact Nat.dvd_mul_left _ _
  obtain ⟨u, hu⟩ := Option.isSome_iff_exists.1 hsome
  have hww : w.WF := (C90_view_partial (fun _ => 0) v w hw item h).1
  obtain ⟨-, -, hou, hiu, ⟨rest2, m, m', hs2, hs2', he2⟩, -⟩ := C90_view_partial (fun _ => 0) w u hww v.item hu
  refine ⟨u, hu, ?_, by rw [hou, hoff], hiu⟩
  rw [hs'] at hs2
  have h1 := List.append_inj_left' hs2 rfl
  have h2 := List.append_inj_right' hs2 rfl
  simp only [List.cons.injEq, and_true] at h2
  rw [hs2', hs, ← h1]
  rw [← h2, hitem, he] at he2
  rw [Nat.eq_of_mul_eq_mul_right hi he2]

example : (viewDtype (View.fresh [3, 2] 8) 4).map (·.shape) = some [3, 4] ∧ (viewDtype (View.fresh [3, 3] 4) 8) = none := by decide

/-- A transposed array cannot be viewed even with a dtype of the same size, nor can a 0-d array; in NumPy both can. -/
theorem C90_view_counterexample :
    viewDtype ⟨0, [2, 2], [8, 16], 8, false, true⟩ 8 = none ∧ viewDtype (View.fresh [] 8) 8 = none := by decide

/-- `tobytes` is the bytes of the elements in row-major order. -/
theorem C90_tobytes (mem : Int → UInt8) (d : DType) (v : View) (hw : v.WF)
    (hal : (d = .f64 ∨ d = .i64) → ∀ s ∈ v.strides, (v.item : Int) ∣ s) : tobytes mem d v = (bytesNd mem v).allBytes :=
  contiguousBytes_eq mem d hw hal

example : tobytes (fun p => p.toNat.toUInt8) .i16 ⟨0, [2, 2], [2, 4], 2, false, true⟩ = [0, 1, 4, 5, 2, 3, 6, 7] := by decide

end Props
