import Verif.Model.InsertArg
import Verif.Props.Put
import Verif.Props.Edit
import Verif.Props.Arith
/-!
# C116: `insert` with values of every kind
-/

namespace Props
open Rumpy Spec

/-- A new one-dimensional array is flattened to its elements. -/
theorem flattens_of (eight : Bool) (xs : List Elem) {item : Nat} (hitem : 0 < item) (zero : Elem) :
    Flattens eight (Held.of ⟨[xs.length], xs⟩ item zero) ∧ (Held.of ⟨[xs.length], xs⟩ item zero).nd.toList = xs ∧
      size (Held.of ⟨[xs.length], xs⟩ item zero).view.shape = xs.length := by
  have hrn : (⟨[xs.length], xs⟩ : Arr Elem).Is ⟨[xs.length], fun idx => xs.getD (idx.getD 0 0) zero⟩ := by
    refine ⟨rfl, ?_⟩
    rw [toList_one rfl]
    apply List.ext_getElem
    · simp
    · intro i h1 h2
      simp only [List.getElem_map, List.getElem_range, List.getD_cons_zero]
      exact (List.getD_eq_getElem _ _ h1).symm
  refine ⟨⟨held_of_wf _ _ _, hitem, fun _ x hx => cStrides_dvd item _ x hx, Or.inl rfl⟩, ?_, ?_⟩
  · exact (Rumpy.Nd.Same.toList (hrn.denote hitem zero)).trans hrn.2.symm
  · show size [xs.length] = _
    simp [size]

/-- The only index of a shape of size one is the index of zeros. -/
theorem indices_of_one : ∀ {s : List Nat}, size s = 1 → indices s = [List.replicate s.length 0]
  | [], _ => rfl
  | n :: s, h => by
    have h1 : n * size s = 1 := h
    obtain rfl := Nat.dvd_one.1 ⟨_, h1.symm⟩
    have h2 : size s = 1 := by omega
    simp [indices, indices_of_one h2, List.replicate_succ]

/-- The values: a number, a list of numbers, or an array of one number. -/
def InsertArg.Gives : InsertArg → List Elem → Prop
  | .number x, xs => xs = [x]
  | .list l, xs => xs = l
  | .array _ h, xs => size h.view.shape = 1 ∧ xs = h.nd.toList
  | .other, _ => False

theorem insertValues_of {d : DType} {v : InsertArg} {xs : List Elem} (hv : InsertArg.Gives v xs) (hf : ∀ x ∈ xs, PutFits d x) :
    insertValues d v = some (d, Held.of ⟨[(xs.map fun x => writeF64 d (readOrZero x)).length], xs.map fun x => writeF64 d (readOrZero x)⟩
      (DType.itemsize d) (zeroElem d)) := by
  cases v with
  | number x =>
    cases hv
    show (numF64 x).map _ = _
    rw [numF64_fits (hf x (by simp))]
    rfl
  | list l =>
    cases hv
    show (xs.mapM numF64).map _ = _
    rw [numsF64_fits hf]
    simp only [Option.map_some, List.length_map, List.map_map]
    rfl
  | array e h =>
    obtain ⟨h1, rfl⟩ := hv
    unfold insertValues
    dsimp only
    rw [sizeOf_eq, if_pos h1]
    have h2 : h.nd.toList = [h.nd.get (List.replicate h.view.shape.length 0)] := by
      show (indices h.view.shape).map h.nd.get = _
      rw [indices_of_one h1]
      rfl
    rw [h2]
    rfl
  | other => exact hv.elim

/-- C116 (partial): `insert(a, i, v)` of a number, a list of numbers or an array of one number puts the values, converted to the dtype of
the array, before element `i` of the flattened array.  Missing: integers beyond 2^53 and complex values (`C116_value_counterexample`),
negative positions and the order of F-contiguous arrays (C44). -/
theorem C116_insert_partial (mixed : DType → Held Elem → Option (Arr Elem)) (eight : Bool) {d : DType} (hd : d.Numeric) {a : Held Elem}
    (ha : Flattens eight a) {index : Int} {p : Nat} (h0 : 0 ≤ index) (hp : insertPos (size a.view.shape) index = some p)
    {v : InsertArg} {xs : List Elem} (hv : InsertArg.Gives v xs) (hf : ∀ x ∈ xs, PutFits d x) :
    ∃ (r : Arr Elem) (ys : List Elem), insertFn mixed eight d a index v none = some r ∧ r.shape = [size a.view.shape + xs.length] ∧
      r.data = a.nd.toList.take p ++ ys ++ a.nd.toList.drop p ∧ List.Forall₂ (Converts d) xs ys := by
  have hitem : 0 < DType.itemsize d := by cases d <;> first | exact hd.elim | decide
  obtain ⟨f1, f2, f3⟩ := flattens_of eight (xs.map fun x => writeF64 d (readOrZero x)) hitem (zeroElem d)
  obtain ⟨r, r1, r2, r3⟩ := C44_insert_flat_partial eight a _ ha f1 index p h0 hp (zeroElem d)
  refine ⟨r, xs.map fun x => writeF64 d (readOrZero x), ?_, ?_, ?_, ?_⟩
  · unfold insertFn
    rw [insertValues_of hv hf]
    show (if d = d then _ else _) = _
    rw [if_pos rfl]
    exact r1
  · rw [r2, f3, List.length_map]
  · rw [r3, f2]
  · rw [List.forall₂_map_right_iff]
    refine List.forall₂_same.2 fun x hx => ?_
    obtain ⟨b, hb, hxb, hint⟩ := hf x hx
    exact throughF64_converts hb hd hxb hint

/-- C116.  An array of the same dtype that does not have exactly one element is put in as it is. -/
theorem C116_array (mixed : DType → Held Elem → Option (Arr Elem)) (eight : Bool) {d : DType} {a h : Held Elem}
    (ha : Flattens eight a) (hh : Flattens eight h) (hn : size h.view.shape ≠ 1) {index : Int} {p : Nat} (h0 : 0 ≤ index)
    (hp : insertPos (size a.view.shape) index = some p) :
    ∃ r : Arr Elem, insertFn mixed eight d a index (.array d h) none = some r ∧ r.shape = [size a.view.shape + size h.view.shape] ∧
      r.data = a.nd.toList.take p ++ h.nd.toList ++ a.nd.toList.drop p := by
  obtain ⟨r, r1, r2, r3⟩ := C44_insert_flat_partial eight a h ha hh index p h0 hp (zeroElem d)
  refine ⟨r, ?_, r2, r3⟩
  unfold insertFn insertValues
  dsimp only
  rw [sizeOf_eq, if_neg hn]
  show (if d = d then _ else _) = _
  rw [if_pos rfl]
  exact r1

/-- C116.  Values of another kind are refused, and so is a list with an item that is not a real number. -/
theorem C116_refused (mixed : DType → Held Elem → Option (Arr Elem)) (eight : Bool) (d : DType) (a : Held Elem) (index : Int)
    (axis : Option Int) : insertFn mixed eight d a index .other axis = none ∧
    ∀ l x, x ∈ l → (∃ u w, x = .cpx u w) ∨ (∃ t, x = .text t) → insertFn mixed eight d a index (.list l) axis = none := by
  refine ⟨rfl, fun l x hx hc => ?_⟩
  have h1 : l.mapM numF64 = none := by
    have h2 : numF64 x = none := by
      rcases hc with ⟨u, w, rfl⟩ | ⟨t, rfl⟩ <;> rfl
    induction l with
    | nil => cases hx
    | cons y l ih =>
      rw [List.mapM_cons]
      rcases List.mem_cons.1 hx with rfl | hx
      · rw [h2]; rfl
      · rw [ih hx]
        cases numF64 y <;> rfl
  show ((l.mapM numF64).map _).bind _ = none
  rw [h1]
  rfl

example : ∃ (r : Arr Elem) (ys : List Elem), insertFn (fun _ _ => none) true .i64 (stored .i64 [2] [.int 5, .int 6]) 1
    (.list [.int 7, .flt (.num (3 / 2))]) none = some r ∧ r.shape = [4] ∧ r.data = [.int 5] ++ ys ++ [.int 6] ∧ ys = [.int 7, .int 1] :=
  ⟨⟨[4], [.int 5, .int 7, .int 1, .int 6]⟩, _, by decide +kernel, rfl, rfl, rfl⟩

example : Flattens true (stored .i64 [2] [.int 5, .int 6]) ∧ insertPos (size (stored .i64 [2] [.int 5, .int 6]).view.shape) 1 = some 1 ∧
    InsertArg.Gives (.array .i64 (stored .i64 [1, 1] [.int 7])) [.int 7] ∧ PutFits .i64 (.int 7) :=
  ⟨(flattens_of true [.int 5, .int 6] (by decide) _).1, by decide, ⟨by decide, by decide +kernel⟩, .i64, trivial,
    ⟨_, _, rfl, by decide, by decide⟩, by rintro n h; cases h; exact ⟨by decide, by rintro lo hi h; cases h; exact ⟨by decide, by decide⟩⟩⟩

example : insertFn (fun _ _ => none) true .i64 (stored .i64 [2] [.int 5, .int 6]) 1 (.array .i64 (stored .i64 [1, 1] [.int 7])) none =
    some ⟨[3], [.int 5, .int 7, .int 6]⟩ := by decide +kernel

/-- C116 fails for an array of one element, which passes through a double: `insert(a, 0, array([2**53 + 1]))` puts in 2^53, although two
such elements are put in as they are; and a complex element becomes 0, in a complex array too. -/
theorem C116_value_counterexample :
    insertFn (fun _ _ => none) true .i64 (stored .i64 [1] [.int 5]) 0 (.array .i64 (stored .i64 [1] [.int (2 ^ 53 + 1)])) none =
      some ⟨[2], [.int (2 ^ 53), .int 5]⟩ ∧
    insertFn (fun _ _ => none) true .i64 (stored .i64 [1] [.int 5]) 0 (.array .i64 (stored .i64 [2] [.int (2 ^ 53 + 1), .int 1])) none =
      some ⟨[3], [.int (2 ^ 53 + 1), .int 1, .int 5]⟩ ∧
    insertFn (fun _ _ => none) true .c128 (stored .c128 [1] [.cpx (.num 5) (.num 0)]) 0
      (.array .c128 (stored .c128 [1] [.cpx (.num 2) (.num 3)])) none =
      some ⟨[2], [.cpx (.num 0) (.num 0), .cpx (.num 5) (.num 0)]⟩ := by
  decide +kernel

end Props
