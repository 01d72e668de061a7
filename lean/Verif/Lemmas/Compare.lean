import Verif.Model.Compare
import Verif.Lemmas.Reduce
import Verif.Lemmas.Cumulative
import Verif.Props.Elementwise
import Verif.Spec.Int
/-!
# Lemmas: comparisons and logical functions
-/

namespace Rumpy
open Spec

/-! ### Kernels -/

theorem fltLt_iff [LinearOrder K] (x y : Flt K) : fltLt x y = true ↔ ∃ p q, x.place = some p ∧ y.place = some q ∧ p < q := by
  cases x <;> cases y <;> simp [fltLt, Flt.place]
  exact WithBot.coe_lt_coe.2 (WithTop.coe_lt_top _)

theorem fltEq_iff [LinearOrder K] (x y : Flt K) : fltEq x y = true ↔ ∃ p, x.place = some p ∧ y.place = some p := by
  cases x <;> cases y <;> simp [fltEq, Flt.place] <;> exact eq_comm

theorem cmpFlt_iff [LinearOrder K] (op : Cmp) (x y : Flt K) : cmpFlt op x y = true ↔ op.HoldsFlt x y := by
  have hn : fltEq x y = false ↔ ¬ ∃ p, x.place = some p ∧ y.place = some p := by
    rw [← fltEq_iff]; simp
  unfold Cmp.HoldsFlt
  cases op <;> simp only [cmpFlt, Bool.or_eq_true, Bool.not_eq_true', hn, fltLt_iff, fltEq_iff] <;>
    rcases hx : x.place with _ | p <;> rcases hy : y.place with _ | q <;>
    simp [Cmp.Holds, le_iff_lt_or_eq, eq_comm]

theorem cmpInt_iff (signed : Bool) (op : Cmp) (x y : BitVec w) :
    cmpInt signed op x y = true ↔ op.Holds (intValue signed x) (intValue signed y) := by
  cases signed <;> cases op <;>
    simp [cmpInt, Cmp.Holds, intValue, BitVec.slt_iff_toInt_lt, BitVec.sle_iff_toInt_le, BitVec.ult_iff_toNat_lt, BitVec.ule_iff_toNat_le,
      BitVec.toInt_inj, BitVec.toNat_inj]

theorem isCloseValue_iff [CommRing K] [LinearOrder K] [IsStrictOrderedRing K] (rtol atol : K) (equalNan : Bool) (x y : Flt K) :
    isCloseValue rtol atol equalNan x y = true ↔ IsClose rtol atol (equalNan = true) x y := by
  constructor
  · intro h
    cases x <;> cases y <;> simp [isCloseValue, fltEq] at h <;> constructor <;> exact h
  · intro h
    cases h with
    | num h => simpa [isCloseValue] using h
    | pos => rfl
    | neg => rfl
    | nan h => exact h

/-! ### Promotion -/

theorem promoteOperand_shape (same : Bool) (rd : α → κ) (item : Nat) (zero : κ) {h : Held α} (hw : h.view.WF) :
    (promoteOperand same rd item zero h).view.shape = h.view.shape := by
  unfold promoteOperand
  cases same
  · exact (Props.C15_unary rd h.mem h.view hw zero).2.1
  · rfl

theorem promoteOperand_wf (same : Bool) (rd : α → κ) (item : Nat) (zero : κ) {h : Held α} (hw : h.view.WF) :
    (promoteOperand same rd item zero h).view.WF := by
  unfold promoteOperand
  cases same
  · exact View.WF.fresh _ _
  · exact hw

theorem promoteOperand_same (same : Bool) (rd : α → κ) {item : Nat} (hi : 0 < item) (zero : κ) {h : Held α} (hw : h.view.WF) :
    (promoteOperand same rd item zero h).nd.Same (h.view.denote fun p => rd (h.mem p)) := by
  unfold promoteOperand
  cases same
  · exact (Props.C15_unary rd h.mem h.view hw zero).2.denote hi zero
  · exact ⟨rfl, fun _ _ => rfl⟩

theorem compareOp_eq (typed : Bool) (cmp : κ → κ → Bool) (sameA sameB : Bool) (rdA : α → κ) (rdB : β → κ) {item : Nat}
    (hi : 0 < item) (zero : κ) {a : Held α} {b : Held β} (ha : a.view.WF) (hb : b.view.WF) :
    compareOp typed cmp sameA sameB rdA rdB item zero a b =
      binaryOp typed (fun x y => cmp (rdA x) (rdB y)) a.mem b.mem a.view b.view false := by
  have h1 : compareOp typed cmp sameA sameB rdA rdB item zero a b =
      binaryOp typed cmp (promoteOperand sameA rdA item zero a).mem (promoteOperand sameB rdB item zero b).mem
        (promoteOperand sameA rdA item zero a).view (promoteOperand sameB rdB item zero b).view false := by
    unfold compareOp binaryOp
    rw [promoteOperand_shape sameA rdA item zero ha, promoteOperand_shape sameB rdB item zero hb]
  rw [h1, Props.C15_layout_independent typed typed cmp _ (fun p => rdA (a.mem p)) _ (fun p => rdB (b.mem p)) _ a.view _ b.view
    (promoteOperand_wf sameA rdA item zero ha) (promoteOperand_wf sameB rdB item zero hb) ha hb
    (promoteOperand_same sameA rdA hi zero ha) (promoteOperand_same sameB rdB hi zero hb)]
  rfl

theorem mapBinaryToBool_eq (f : α → β → Bool) (a : Held α) (b : Held β) :
    mapBinaryToBool f a b = binaryOp false f a.mem b.mem a.view b.view false := rfl

/-! ### Scans -/

theorem allLoop_eq (t : α → Bool) (mem : Int → α) : ∀ ps, allLoop t mem ps = (ps.map mem).all t
  | [] => rfl
  | p :: ps => by
    rw [allLoop, allLoop_eq t mem ps, List.map_cons, List.all_cons]
    cases t (mem p) <;> rfl

theorem anyLoop_eq (t : α → Bool) (mem : Int → α) : ∀ ps, anyLoop t mem ps = (ps.map mem).any t
  | [] => rfl
  | p :: ps => by
    rw [anyLoop, anyLoop_eq t mem ps, List.map_cons, List.any_cons]
    cases t (mem p) <;> rfl

theorem toList_nil_of_size {a : Nd α} (h : size a.shape = 0) : a.toList = [] :=
  List.eq_nil_of_length_eq_zero (by rw [Nd.length_toList, h])

theorem allElems_eq (t : α → Bool) {a : Held α} (hw : a.view.WF) : allElems t a = a.nd.toList.all t := by
  unfold allElems
  rw [allLoop_eq, addrs_map hw, sizeOf_eq]
  split
  · next h => rw [toList_nil_of_size (a := a.view.denote a.mem) h |> fun e => (show a.nd.toList = [] from e)]; rfl
  · rfl

theorem anyElems_eq (t : α → Bool) {a : Held α} (hw : a.view.WF) : anyElems t a = a.nd.toList.any t := by
  unfold anyElems
  rw [anyLoop_eq, addrs_map hw, sizeOf_eq]
  split
  · next h => rw [toList_nil_of_size (a := a.view.denote a.mem) h |> fun e => (show a.nd.toList = [] from e)]; rfl
  · rfl

theorem countTruthy_eq (t : α → Bool) {a : Held α} (hw : a.view.WF) : countTruthy t a = a.nd.toList.countP t := by
  have h : ∀ (ps : List Int) (n : Nat), ps.foldl (fun n p => if t (a.mem p) then n + 1 else n) n = n + (ps.map a.mem).countP t := by
    intro ps
    induction ps with
    | nil => intro n; rfl
    | cons p ps ih =>
      intro n
      rw [List.foldl_cons, ih, List.map_cons, List.countP_cons]
      split <;> omega
  unfold countTruthy
  rw [h, addrs_map hw, sizeOf_eq, Nat.zero_add]
  split
  · next h => rw [toList_nil_of_size (a := a.view.denote a.mem) h |> fun e => (show a.nd.toList = [] from e)]; rfl
  · rfl

theorem laneScan_all (t : α → Bool) : ∀ d : List α, laneScan true (fun x => !t x) d = d.all t
  | [] => rfl
  | x :: d => by
    rw [laneScan, laneScan_all t d, List.all_cons]
    cases t x <;> rfl

theorem laneScan_any (t : α → Bool) : ∀ d : List α, laneScan false t d = d.any t
  | [] => rfl
  | x :: d => by
    rw [laneScan, laneScan_any t d, List.any_cons]
    cases t x <;> rfl

/-- The elements of a lane. -/
def laneList (a : Held α) (axis : Nat) (idx : List Nat) : List α :=
  (List.range (a.view.shape.getD axis 0)).map fun j => a.nd.get (idx.insertIdx axis j)

theorem logicalAxis_shape (empty : Bool) (stop : α → Bool) (a : Held α) (axis : Nat) :
    (logicalAxis empty stop a axis).shape =
      if (a.view.shape.eraseIdx axis).isEmpty then [1] else a.view.shape.eraseIdx axis := by
  unfold logicalAxis
  dsimp only
  by_cases h1 : sizeOf (if (a.view.shape.eraseIdx axis).isEmpty then [1] else a.view.shape.eraseIdx axis) = 0
  · rw [if_pos h1]
  · rw [if_neg h1]
    by_cases h2 : a.view.shape.getD axis 0 = 0
    · rw [if_pos h2]
    · rw [if_neg h2]

theorem indices_nil {s : List Nat} (h : size s = 0) : indices s = [] :=
  List.eq_nil_of_length_eq_zero (by rw [length_indices, h])

theorem logicalAxis_data (empty : Bool) (stop : α → Bool) {a : Held α} (hw : a.view.WF) {axis : Nat}
    (hax : axis < a.view.shape.length) :
    (logicalAxis empty stop a axis).data =
      (indices (a.view.shape.eraseIdx axis)).map fun idx => laneScan empty stop (laneList a axis idx) := by
  unfold logicalAxis
  dsimp only
  rw [sizeOf_eq, outShape_size]
  split
  · next h => rw [indices_nil h, h]; rfl
  · split
    · next h =>
      have e : ∀ idx, laneScan empty stop (laneList a axis idx) = empty := by
        intro idx
        unfold laneList
        rw [h]
        rfl
      dsimp only
      rw [List.map_congr_left (fun idx _ => e idx), List.map_const', length_indices]
      cases empty
      · rfl
      · rw [if_pos rfl]
        have := writes_zipIdx (fun _ : Nat => true) (List.range (size (a.view.shape.eraseIdx axis)))
          (List.replicate (size (a.view.shape.eraseIdx axis)) false) (by simp)
        rw [List.map_const', List.length_range] at this
        rw [← this]
        congr 1
        apply List.ext_getElem
        · simp
        · intro n h1 h2; simp
    · dsimp only
      rw [lanes_eq (fun b => laneScan empty stop ((List.range (a.view.shape.getD axis 0)).map fun (j : Nat) =>
        a.mem (a.view.offset + b + a.view.strides.getD axis 0 * j))) hw _ (by simp)]
      apply List.map_congr_left
      intro idx hi
      congr 1
      apply List.map_congr_left
      intro j _
      rw [← lane_addr hw hax (mem_indices.1 hi)]
      rfl

theorem laneIndex_eq {s : List Nat} {axis : Nat} (hax : axis < s.length) {idx : List Nat}
    (hl : idx.length = s.length - 1) (j : Nat) : laneIndex s.length axis idx j = idx.insertIdx axis j := by
  unfold laneIndex
  rw [Nat.min_eq_left (by omega)]
  have hle : axis ≤ idx.length := by omega
  have e1 : (if axis < s.length - 1 then idx.drop axis else []) = idx.drop axis := by
    split
    · rfl
    · rw [List.drop_eq_nil_of_le (by omega)]
  rw [e1, List.set_append_right _ _ (by simp [hle])]
  have e2 : axis - (idx.take axis).length = 0 := by simp [hle]
  rw [e2, List.set_cons_zero]
  conv_rhs => rw [← List.take_append_drop axis idx]
  have := insertIdx_append_self (idx.take axis) (idx.drop axis) j
  rw [List.length_take, Nat.min_eq_left hle] at this
  exact this.symm

theorem laneIndex_one (j : Nat) : laneIndex 1 0 [0] j = [j] := rfl

theorem logicalAxisFallback_shape (empty : Bool) (stop : α → Bool) (a : Held α) (axis : Nat) :
    (logicalAxisFallback empty stop a axis).shape =
      if (a.view.shape.eraseIdx axis).isEmpty then [1] else a.view.shape.eraseIdx axis := by
  unfold logicalAxisFallback
  dsimp only
  by_cases h1 : sizeOf (if (a.view.shape.eraseIdx axis).isEmpty then [1] else a.view.shape.eraseIdx axis) = 0 ∨ a.view.shape.getD axis 0 = 0
  · rw [if_pos h1]
  · rw [if_neg h1]

theorem logicalAxisFallback_data (empty : Bool) (stop : α → Bool) {a : Held α} {axis : Nat}
    (hax : axis < a.view.shape.length) (hn : a.view.shape.getD axis 0 ≠ 0) :
    (logicalAxisFallback empty stop a axis).data =
      (indices (a.view.shape.eraseIdx axis)).map fun idx => laneScan empty stop (laneList a axis idx) := by
  unfold logicalAxisFallback
  dsimp only
  rw [sizeOf_eq, outShape_size]
  split
  · next h =>
    have h : size (a.view.shape.eraseIdx axis) = 0 := by tauto
    rw [indices_nil h, h]; rfl
  · dsimp only
    rw [odometerAll_eq, writes_zipIdx (fun idx => laneScan empty stop ((List.range (a.view.shape.getD axis 0)).map fun j =>
      a.mem (a.view.addr (laneIndex a.view.shape.length axis idx j)))) _ _ (by rw [length_indices, outShape_size]; simp)]
    have hl : (a.view.shape.eraseIdx axis).length = a.view.shape.length - 1 := by rw [List.length_eraseIdx, if_pos hax]
    by_cases he : (a.view.shape.eraseIdx axis).isEmpty = true
    · rw [if_pos he]
      have he := List.isEmpty_iff.1 he
      rw [he] at hl ⊢
      have h1 : a.view.shape.length = 1 := by simp at hl; omega
      have h0 : axis = 0 := by omega
      subst h0
      rw [h1]
      rfl
    · rw [if_neg he]
      apply List.map_congr_left
      intro idx hi
      congr 1
      apply List.map_congr_left
      intro j _
      rw [laneIndex_eq hax (by rw [(mem_indices.1 hi).length_eq, hl])]
      rfl

end Rumpy
