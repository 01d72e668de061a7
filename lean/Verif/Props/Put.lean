import Verif.Model.Put
import Verif.Props.Assign
import Verif.Props.Copyto

/-!
# C110: put with indices and values of every kind
-/

namespace Props

open Spec Rumpy

/-- The argument is this sequence. -/
def _root_.Spec.PutArg.IsSeq (a : PutArg) (xs : List Elem) : Prop := a = .tuple xs ∨ a = .list xs ∨ a = .array xs

/-- The argument is this number or sequence. -/
def _root_.Spec.PutArg.Holds (a : PutArg) (xs : List Elem) : Prop := (∃ x, a = .number x ∧ xs = [x]) ∨ a.IsSeq xs

/-- A real number whose conversion NumPy specifies; integers are at most 2^53 and within the dtype. -/
def PutFits (d : DType) (x : Elem) : Prop :=
  ∃ a : DType, a.Real ∧ x.OfType a ∧ ∀ n, x = .int n → n.natAbs ≤ 2 ^ 53 ∧ ∀ lo hi, d.intRange = some (lo, hi) → lo ≤ n ∧ n ≤ hi

theorem assigned {α : Type} {values : List α} (hv : values ≠ []) : ∀ (ks : List Nat) (o : Nat) (a : List α), (∀ k ∈ ks, k < a.length) →
    (∀ j, j ∉ ks → (assignFlat a ((ks.zipIdx o).filterMap fun kj => (cycled values kj.2).map fun x => (kj.1, x)))[j]? = a[j]?) ∧
    (∀ i k : Nat, ks[i]? = some k → (∀ j, i < j → ks[j]? ≠ some k) →
      (assignFlat a ((ks.zipIdx o).filterMap fun kj => (cycled values kj.2).map fun x => (kj.1, x)))[k]? = cycled values (o + i)) ∧
    (assignFlat a ((ks.zipIdx o).filterMap fun kj => (cycled values kj.2).map fun x => (kj.1, x))).length = a.length
  | [], o, a, _ => ⟨fun _ _ => rfl, fun i k h => by simp at h, rfl⟩
  | k0 :: ks, o, a, h => by
    obtain ⟨x, hx⟩ := Option.isSome_iff_exists.1 (C52_put_every_index values hv o)
    have hr : assignFlat a (((k0 :: ks).zipIdx o).filterMap fun kj => (cycled values kj.2).map fun x => (kj.1, x)) =
        assignFlat (a.set k0 x) ((ks.zipIdx (o + 1)).filterMap fun kj => (cycled values kj.2).map fun x => (kj.1, x)) := by
      rw [List.zipIdx_cons, List.filterMap_cons, hx]
      rfl
    rw [hr]
    obtain ⟨h1, h2, h3⟩ := assigned hv ks (o + 1) (a.set k0 x) fun k hk => by
      rw [List.length_set]
      exact h k (List.mem_cons_of_mem _ hk)
    refine ⟨fun j hj => ?_, fun i k hk hl => ?_, by rw [h3, List.length_set]⟩
    · rw [List.mem_cons, not_or] at hj
      rw [h1 j hj.2, List.getElem?_set_ne (Ne.symm hj.1)]
    · cases i with
      | zero =>
        rw [List.getElem?_cons_zero, Option.some.injEq] at hk
        subst hk
        have hm : k0 ∉ ks := by
          intro hm
          obtain ⟨j, hj⟩ := List.mem_iff_getElem?.1 hm
          exact hl (j + 1) (by omega) (by rw [List.getElem?_cons_succ]; exact hj)
        rw [h1 k0 hm, List.getElem?_set_self (h k0 List.mem_cons_self), Nat.add_zero, hx]
      | succ i =>
        rw [List.getElem?_cons_succ] at hk
        rw [h2 i k hk fun j hj => by
          have := hl (j + 1) (by omega)
          rwa [List.getElem?_cons_succ] at this]
        congr 1
        omega

theorem numF64_fits {d : DType} {x : Elem} (h : PutFits d x) : numF64 x = some (readOrZero x) := by
  obtain ⟨a, ha, hx, hint⟩ := h
  cases x with
  | bool b => rfl
  | int n =>
    have := (hint n rfl).1
    have hlt : n.natAbs < 2 ^ 1024 - 2 ^ 970 := lt_of_le_of_lt this (by decide +kernel)
    rw [numF64, if_pos hlt]
    rfl
  | flt u => rfl
  | cpx u v => cases a <;> first | exact ha.elim | exact hx.elim
  | text t => cases a <;> first | exact ha.elim | exact hx.elim

theorem numsF64_fits {d : DType} : ∀ {xs : List Elem}, (∀ x ∈ xs, PutFits d x) → xs.mapM numF64 = some (xs.map readOrZero)
  | [], _ => rfl
  | x :: xs, h => by
    rw [List.mapM_cons, numF64_fits (h x List.mem_cons_self), numsF64_fits fun y hy => h y (List.mem_cons_of_mem _ hy)]
    rfl

theorem pyIndex_range {n : Nat} {i : Int} {k : Nat} (h : pyIndex n i = some k) : -(n : Int) ≤ i ∧ i < n := by
  unfold pyIndex at h
  split at h
  · omega
  · split at h
    · omega
    · exact absurd h (by simp)

theorem position_lt {n : Nat} : ∀ {idx : List Int} {ks : List Nat}, List.Forall₂ (fun i k => pyIndex n i = some k) idx ks → ∀ k ∈ ks, k < n
  | [], [], _, k, hk => by simp at hk
  | i :: idx, k0 :: ks, h, k, hk => by
    cases h with
    | cons h1 h2 =>
      rcases List.mem_cons.1 hk with rfl | hm
      · have := pyIndex_range h1
        unfold pyIndex at h1
        split at h1
        · simp only [Option.some.injEq] at h1
          omega
        · split at h1
          · simp only [Option.some.injEq] at h1
            omega
          · simp at h1
      · exact position_lt h2 k hm

theorem positions {n : Nat} {f : Elem → Option Int} (hf : ∀ i : Int, -(n : Int) ≤ i ∧ i < n → f (.int i) = some i) :
    ∀ {xs : List Elem} {ks : List Nat}, List.Forall₂ (MeansPosition n) xs ks →
      ∃ idx, xs.mapM f = some idx ∧ List.Forall₂ (fun i k => pyIndex n i = some k) idx ks
  | [], [], _ => ⟨[], rfl, .nil⟩
  | x :: xs, k :: ks, h => by
    cases h with
    | cons h1 h2 =>
      obtain ⟨i, rfl, hi⟩ := h1
      obtain ⟨idx, e, hidx⟩ := positions hf h2
      refine ⟨i :: idx, ?_, .cons hi hidx⟩
      rw [List.mapM_cons, hf i (pyIndex_range hi), e]
      rfl

theorem mapM_pure {α β : Type} (g : α → β) : ∀ xs : List α, xs.mapM (fun x => some (g x)) = some (xs.map g)
  | [] => rfl
  | x :: xs => by
    rw [List.mapM_cons, mapM_pure g xs]
    rfl

theorem wrap64_small {n : Int} (h : -2 ^ 63 ≤ n ∧ n < 2 ^ 63) : wrap64 n = n := by
  unfold wrap64
  rw [Int.bmod_eq_of_le] <;> omega

theorem numI64_small {n : Nat} (hn : n < 2 ^ 63) (i : Int) (h : -(n : Int) ≤ i ∧ i < n) : numI64 (.int i) = some i := by
  have hr : -2 ^ 63 ≤ i ∧ i < 2 ^ 63 := ⟨by omega, by omega⟩
  show (if _ then _ else _) = _
  rw [if_pos hr]

/-- `put` after its arguments have been read. -/
theorem putRead_done {d : DType} (hd : d.Numeric) (mem : Int → Elem) {v : View} (hs : Separate v) {idx : List Int} {ks : List Nat}
    (hk : List.Forall₂ (fun i k => pyIndex (Spec.size v.shape) i = some k) idx ks) {xs : List Elem} (hx : xs ≠ []) (hf : ∀ x ∈ xs, PutFits d x) :
    (putRead d mem v (some idx) (some (xs.map readOrZero))).2 = .ok () ∧
    PutDone d (v.denote mem).toList (v.denote (putRead d mem v (some idx) (some (xs.map readOrZero))).1).toList ks xs ∧
    ∀ p, Foreign v p → (putRead d mem v (some idx) (some (xs.map readOrZero))).1 p = mem p := by
  have hr : putRead d mem v (some idx) (some (xs.map readOrZero)) = put mem v idx (xs.map fun x => writeF64 d (readOrZero x)) := by
    have e : xs.map (fun x => writeF64 d (readOrZero x)) = (xs.map readOrZero).map (writeF64 d) := by
      rw [List.map_map]
      rfl
    rw [e]
    cases d <;> first | rfl | exact hd.elim
  have hne : (xs.map fun x => writeF64 d (readOrZero x)) ≠ [] := by simpa using hx
  obtain ⟨h1, h2, h3⟩ := C52_put mem v hs idx ks _ hne hk
  rw [hr]
  refine ⟨h1, ?_, h3⟩
  rw [h2]
  have hlen : (v.denote mem).toList.length = Spec.size v.shape := by simp [Nd.toList, length_indices, View.denote]
  have hlt : ∀ k ∈ ks, k < (v.denote mem).toList.length := by
    intro k hkm
    rw [hlen]
    exact position_lt hk k hkm
  obtain ⟨a1, a2, a3⟩ := assigned hne ks 0 (v.denote mem).toList hlt
  refine ⟨a3, a1, fun i k hi hl => ?_⟩
  have hpos : 0 < xs.length := List.length_pos_iff.2 hx
  have hm : i % xs.length < xs.length := Nat.mod_lt _ hpos
  refine ⟨xs[i % xs.length], writeF64 d (readOrZero xs[i % xs.length]), List.getElem?_eq_getElem hm, ?_, ?_⟩
  · rw [a2 i k hi hl]
    unfold cycled
    rw [Nat.zero_add, List.length_map, List.getElem?_map, List.getElem?_eq_getElem hm]
    rfl
  · obtain ⟨a, ha, hxa, hint⟩ := hf _ (List.getElem_mem hm)
    exact throughF64_converts ha hd hxa hint

/-- C110 (partial): `put(a, ind, v)` stores the values, converted to the dtype of the array, at the positions that the indices mean,
and keeps everything else.  Indices are integers in a tuple, list or array; values are real numbers, alone or in a tuple, list or array.
Missing: integers beyond 2^53, complex values, the array itself as an argument, no values at all. -/
theorem C110_put_partial (d : DType) (hd : d.Numeric) (mem : Int → Elem) (v : View) (hs : Separate v) (hn : Spec.size v.shape < 2 ^ 63)
    (ind vals : PutArg) (is : List Elem) (ks : List Nat) (xs : List Elem) (hi : ind.IsSeq is) (hv : vals.Holds xs)
    (hk : List.Forall₂ (MeansPosition (Spec.size v.shape)) is ks) (hx : xs ≠ []) (hf : ∀ x ∈ xs, PutFits d x) :
    (putFn d mem v ind vals).2 = .ok () ∧
    PutDone d (v.denote mem).toList (v.denote (putFn d mem v ind vals).1).toList ks xs ∧
    ∀ p, Foreign v p → (putFn d mem v ind vals).1 p = mem p := by
  have hvals : putValues vals = some (xs.map readOrZero) := by
    rcases hv with ⟨x, rfl, rfl⟩ | rfl | rfl | rfl
    · show (numF64 x).map ([·]) = _
      rw [numF64_fits (hf x List.mem_cons_self)]
      rfl
    · exact numsF64_fits hf
    · exact numsF64_fits hf
    · rfl
  have hidx : ∃ idx, putIndices ind = some idx ∧ List.Forall₂ (fun i k => pyIndex (Spec.size v.shape) i = some k) idx ks := by
    rcases hi with rfl | rfl | rfl
    · exact positions (numI64_small hn) hk
    · exact positions (numI64_small hn) hk
    · obtain ⟨idx, e1, e2⟩ := positions (f := fun x => some (readIndex x)) (fun i h => by
        show some (wrap64 i) = some i
        rw [wrap64_small ⟨by omega, by omega⟩]) hk
      rw [mapM_pure] at e1
      exact ⟨idx, e1, e2⟩
  obtain ⟨idx, e1, e2⟩ := hidx
  unfold putFn
  rw [e1, hvals]
  exact putRead_done hd mem hs e2 hx hf

theorem fits_float {d : DType} (a : DType) (ha : a.Real) {u : Flt ℚ} (h : Elem.OfType a (.flt u)) : PutFits d (.flt u) :=
  ⟨a, ha, h, fun n hn => by cases hn⟩

/-- C110 (partial): the same as a method, for lists and arrays of indices and of values.  Missing: also a number or a tuple. -/
theorem C110_put_method_partial (d : DType) (hd : d.Numeric) (mem : Int → Elem) (v : View) (hs : Separate v)
    (hn : Spec.size v.shape ≤ 2 ^ 53) (ind vals : PutArg) (is : List Elem) (ks : List Nat) (xs : List Elem)
    (hi : ind = .list is ∨ ind = .array is) (hv : vals = .list xs ∨ vals = .array xs)
    (hk : List.Forall₂ (MeansPosition (Spec.size v.shape)) is ks) (hx : xs ≠ []) (hf : ∀ x ∈ xs, PutFits d x) :
    (putMethod d mem v ind vals).2 = .ok () ∧
    PutDone d (v.denote mem).toList (v.denote (putMethod d mem v ind vals).1).toList ks xs ∧
    ∀ p, Foreign v p → (putMethod d mem v ind vals).1 p = mem p := by
  have hvals : methodValues vals = some (xs.map readOrZero) := by
    rcases hv with rfl | rfl
    · exact numsF64_fits hf
    · rfl
  have hidx : ∃ idx, methodIndices ind = some idx ∧ List.Forall₂ (fun i k => pyIndex (Spec.size v.shape) i = some k) idx ks := by
    rcases hi with rfl | rfl
    · exact positions (numI64_small (by omega)) hk
    · obtain ⟨idx, e1, e2⟩ := positions (f := fun x => some (fltToInt (-2 ^ 63) (2 ^ 63 - 1) (readOrZero x))) (fun i h => by
        show some (fltToInt (-2 ^ 63) (2 ^ 63 - 1) (.num (intToF64 i))) = some i
        rw [intToF64_exact (by omega), fltToInt_trunc (n := i) ⟨le_refl _, by simp, mul_self_nonneg _⟩ (by omega) (by omega)]) hk
      rw [mapM_pure] at e1
      exact ⟨idx, e1, e2⟩
  obtain ⟨idx, e1, e2⟩ := hidx
  unfold putMethod
  rw [e1, hvals]
  exact putRead_done hd mem hs e2 hx hf

/-- The array `[10, 11, 12]` of int64. -/
def putView : View := ⟨0, [3], [8], 8, true, true⟩

def putMem : Int → Elem := fun p => .int (10 + p / 8)

theorem putView_separate : Separate putView := by
  intro i j hi hj h
  match i, j, hi, hj with
  | [a], [b], _, _ => simp [View.addr, byteOffset, putView] at h; simp; omega

def putShow (r : (Int → Elem) × Outcome Unit) : List Elem × Outcome Unit := ((putView.denote r.1).toList, r.2)

example : PutFits .i64 (.int 7) ∧ PutFits .i64 (.flt (.num 2)) := by
  refine ⟨⟨.i64, trivial, ?_, ?_⟩, fits_float .f64 trivial ?_⟩
  · exact ⟨_, _, rfl, by decide, by decide⟩
  · rintro n h
    cases h
    refine ⟨by decide, ?_⟩
    intro lo hi h
    cases h
    exact ⟨by decide, by decide⟩
  · exact ⟨2, 0, by norm_num, by norm_num, by norm_num, by norm_num⟩

example : List.Forall₂ (MeansPosition (Spec.size putView.shape)) [.int (-1), .int 0] [2, 0] :=
  .cons ⟨-1, rfl, by decide⟩ (.cons ⟨0, rfl, by decide⟩ .nil)

example : putShow (putFn .i64 putMem putView (.array [.int (-1), .int 0]) (.number (.flt (.num 2)))) =
    ([.int 2, .int 11, .int 2], .ok ()) := by decide +kernel

/-! ### Refusals -/

/-- C110: an integer index that means no position is refused and nothing is stored, in a tuple, list or array, by the function. -/
theorem C110_range (d : DType) (mem : Int → Elem) (v : View) (hn : Spec.size v.shape < 2 ^ 63) (ind vals : PutArg) (is : List Elem)
    (hi : ind.IsSeq is) (hint : ∀ x ∈ is, ∃ i : Int, x = .int i ∧ -2 ^ 63 ≤ i ∧ i < 2 ^ 63)
    (h : ∃ x ∈ is, ∀ k, ¬ MeansPosition (Spec.size v.shape) x k) : putFn d mem v ind vals = (mem, .error) := by
  have hlist : ∀ l : List Elem, (∀ x ∈ l, ∃ i : Int, x = .int i ∧ -2 ^ 63 ≤ i ∧ i < 2 ^ 63) →
      l.mapM numI64 = some (l.map readIndex) := by
    intro l
    induction l with
    | nil => intro _; rfl
    | cons x l ih =>
      intro hl
      obtain ⟨i, rfl, h1, h2⟩ := hl x List.mem_cons_self
      have e : numI64 (.int i) = some (readIndex (.int i)) := by
        show (if _ then _ else _) = some (wrap64 i)
        rw [if_pos ⟨h1, h2⟩, wrap64_small ⟨h1, h2⟩]
      rw [List.mapM_cons, e, ih fun y hy => hl y (List.mem_cons_of_mem _ hy)]
      rfl
  have hidx : putIndices ind = some (is.map readIndex) := by
    rcases hi with rfl | rfl | rfl
    · exact hlist is hint
    · exact hlist is hint
    · rfl
  have hbad : ∃ i ∈ is.map readIndex, pyIndex (Spec.size v.shape) i = none := by
    obtain ⟨x, hx, hno⟩ := h
    obtain ⟨i, rfl, h1, h2⟩ := hint x hx
    refine ⟨readIndex (.int i), List.mem_map_of_mem hx, ?_⟩
    show pyIndex _ (wrap64 i) = none
    rw [wrap64_small ⟨h1, h2⟩]
    cases e : pyIndex (Spec.size v.shape) i with
    | none => rfl
    | some k => exact absurd ⟨i, rfl, e⟩ (hno k)
  unfold putFn
  rw [hidx]
  cases putValues vals with
  | none => rfl
  | some us =>
    show putElems d mem v _ us = _
    have := C52_put_error mem v (is.map readIndex) (us.map (writeF64 d)) hbad
    cases d <;> first | exact this | (unfold putElems; rw [this])

example : putFn .i64 putMem putView (.list [.int 0, .int 3]) (.number (.int 5)) = (putMem, .error) :=
  C110_range _ _ _ (by decide) _ _ [.int 0, .int 3] (Or.inr (Or.inl rfl))
    (by intro x hx; simp only [List.mem_cons, List.not_mem_nil, or_false] at hx; rcases hx with rfl | rfl <;> exact ⟨_, rfl, by decide, by decide⟩)
    ⟨.int 3, by simp, by rintro k ⟨i, hi, hk⟩; cases hi; rw [show pyIndex (Spec.size putView.shape) 3 = none by decide] at hk; cases hk⟩

/-- C110: an integer beyond 2^53 is stored rounded, and a complex value is stored as 0 (NumPy: as it is, and its real part). -/
theorem C110_values_counterexample :
    putShow (putFn .i64 putMem putView (.list [.int 0]) (.number (.int (2 ^ 53 + 1)))) = ([.int (2 ^ 53), .int 11, .int 12], .ok ()) ∧
    putShow (putFn .i64 putMem putView (.list [.int 0]) (.array [.cpx (.num 7) (.num 0)])) = ([.int 0, .int 11, .int 12], .ok ()) := by
  decide +kernel

/-- C110: float indices are cut off and strings mean position 0 (NumPy: TypeError). -/
theorem C110_index_counterexample :
    putShow (putFn .i64 putMem putView (.array [.flt (.num (3 / 2))]) (.number (.int 5))) = ([.int 10, .int 5, .int 12], .ok ()) ∧
    putShow (putFn .i64 putMem putView (.array [.text []]) (.number (.int 5))) = ([.int 5, .int 11, .int 12], .ok ()) := by
  decide +kernel

/-- C110: the method refuses a number or a tuple, the function the array itself (NumPy: accepted). -/
theorem C110_refused_counterexample (d : DType) (mem : Int → Elem) (v : View) (a : PutArg) (x : Elem) (l : List Elem) :
    putMethod d mem v a (.number x) = (mem, .error) ∧ putMethod d mem v a (.tuple l) = (mem, .error) ∧
    putMethod d mem v (.tuple l) a = (mem, .error) ∧ putFn d mem v a .itself = (mem, .error) ∧ putFn d mem v (.number x) a = (mem, .error) := by
  unfold putMethod putFn
  refine ⟨?_, ?_, rfl, ?_, rfl⟩
  · cases methodIndices a <;> rfl
  · cases methodIndices a <;> rfl
  · cases putIndices a <;> rfl

/-- C110: into an array of strings nothing is stored, and no error reported (NumPy: the number as text). -/
theorem C110_text_counterexample (n : Nat) (mem : Int → Elem) (v : View) (ind vals : PutArg) :
    (putFn (.str n) mem v ind vals).1 = mem ∧ (putFn (.bytes n) mem v ind vals).1 = mem := by
  unfold putFn putRead
  cases putIndices ind <;> cases putValues vals <;> exact ⟨rfl, rfl⟩

end Props
