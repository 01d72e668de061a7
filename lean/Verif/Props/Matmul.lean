import Verif.Props.Gufunc
import Verif.Props.Broadcast
import Verif.Props.Reshape
import Verif.Lemmas.Create
import Mathlib.LinearAlgebra.Matrix.Notation
import Mathlib.Tactic.Abel
/-!
# C42: matmul, inner, outer, dot, kron, tensordot, matrix_power
-/

namespace Props
open Spec Rumpy

/-! ### Helper facts -/

theorem foldl_add_range [NonUnitalNonAssocSemiring α] (f : Nat → α) (n : Nat) :
    (List.range n).foldl (fun s k => s + f k) 0 = ∑ k ∈ Finset.range n, f k := by
  induction n with
  | zero => simp
  | succ n ih => rw [List.range_succ, List.foldl_append, ih, Finset.sum_range_succ]; rfl

theorem indices_two (m p : Nat) :
    indices [m, p] = (List.range m).flatMap fun i => (List.range p).map fun j => [i, j] := by
  rw [indices]
  refine List.flatMap_congr fun i _ => ?_
  rw [indices_singleton, List.map_map]
  rfl

theorem addr_two (v : View) (i k : Nat) :
    v.addr [i, k] = v.offset + ((i : Int) * v.strides.getD 0 0 + (k : Int) * v.strides.getD 1 0) := by
  unfold View.addr
  cases h : v.strides with
  | nil => simp [byteOffset]
  | cons s0 t => cases t with
    | nil => simp [byteOffset]
    | cons s1 t => simp [byteOffset]

/-- The sizes bound by `(m,n),(n,p)->(m,p)`. -/
def mnp (m n p : Nat) (d : List Char) : Nat := if d = ['m'] then m else if d = ['n'] then n else p

theorem matmul_resolves {L1 L2 loop : List Nat} (m n p : Nat) (h : IsBroadcastAll [L1, L2] loop) :
    Resolves matmulSig [L1 ++ [m, n], L2 ++ [n, p]] (mnp m n p) [L1, L2] loop :=
  ⟨rfl, by simp [matmulSig, mnp], h⟩

theorem matmul_outs (m n p : Nat) : [['m'], ['p']].map (outputSize matmulSig (mnp m n p)) = [m, p] := by
  simp [outputSize, matmulSig, mnp]

/-- A kernel that combines row `i` and column `j` with `g`. -/
theorem matmul_gufunc {kernel : List (Held α) → View → List (Int × α)} {a b : Held α} {item : Nat} (hitem : 0 < item)
    {zero : α} (ha : a.view.WF) (hb : b.view.WF) {L1 L2 loop : List Nat} {m n p : Nat}
    (sa : a.view.shape = L1 ++ [m, n]) (sb : b.view.shape = L2 ++ [n, p]) (hbc : IsBroadcastAll [L1, L2] loop)
    (ala : LoopAligned a.view L1 loop) (alb : LoopAligned b.view L2 loop)
    (g : (Nat → α) → (Nat → α) → α)
    (hg : ∀ x x' y y', (∀ k < n, x k = x' k) → (∀ k < n, y k = y' k) → g x y = g x' y')
    (hk : ∀ (x y : Held α) (w : View), x.view.shape = [m, n] → y.view.shape = [n, p] →
      (∀ s ∈ x.view.strides, s ∈ a.view.strides ∨ s ∈ b.view.strides) →
      (∀ s ∈ y.view.strides, s ∈ a.view.strides ∨ s ∈ b.view.strides) → (∀ s ∈ w.strides, (item : Int) ∣ s) →
      kernel [x, y] w = (indices [m, p]).map fun c =>
        (w.addr c, g (fun k => x.nd.get [c.getD 0 0, k]) (fun k => y.nd.get [k, c.getD 1 0]))) :
    ∃ arr, gufuncCall matmulSig kernel [a, b] item zero = some arr ∧
      arr.Is { shape := loop ++ [m, p],
               get := fun idx => g (fun k => (a.nd.coreAt loop [m, n] (idx.take loop.length)).get [idx.getD loop.length 0, k])
                 (fun k => (b.nd.coreAt loop [n, p] (idx.take loop.length)).get [k, idx.getD (loop.length + 1) 0]) } := by
  have hr := matmul_resolves m n p hbc
  rw [← sa, ← sb] at hr
  have houts := matmul_outs m n p
  have hins : matmulSig.inputs.map (fun ns => ns.map (mnp m n p)) = [[m, n], [n, p]] := by simp [matmulSig, mnp]
  have := C40_call_partial matmulSig [['m'], ['p']] rfl kernel [a, b] item hitem zero (mnp m n p) [L1, L2] loop hr
    (by simp [ha, hb]) (by simp [matmulSig]) (by
      intro i h l h1 h2
      match i, h1, h2 with
      | 0, h1, h2 => cases h1; cases h2; exact ala
      | 1, h1, h2 => cases h1; cases h2; exact alb
      | i + 2, h1, h2 => simp at h1)
    (fun xs c => match xs with
      | [x, y] => g (fun k => x.get [c.getD 0 0, k]) (fun k => y.get [k, c.getD 1 0])
      | _ => zero)
    (by
      intro xs ys hxy hsh c hc
      rw [hins] at hsh
      rw [houts] at hc
      obtain ⟨i, j, rfl, hi, hj⟩ := inShape_two hc
      cases hxy with
      | nil => rfl
      | cons hx hxy =>
        cases hxy with
        | nil => rfl
        | cons hy hxy =>
          cases hxy with
          | cons => rfl
          | nil =>
            simp only [List.map_cons, List.map_nil, List.cons.injEq, and_true] at hsh
            refine hg _ _ _ _ (fun k hk => hx.2 _ ?_) (fun k hk => hy.2 _ ?_)
            · rw [hsh.1]; simp [InShape, hi, hk]
            · rw [hsh.2]; simp [InShape, hj, hk])
    (by
      intro cores w hsh hst hw
      rw [hins] at hsh
      rw [houts]
      have hl := congrArg List.length hsh
      simp only [List.length_map, List.length_cons, List.length_nil] at hl
      obtain ⟨x, y, rfl⟩ := List.length_eq_two.1 hl
      · simp only [List.map_cons, List.map_nil, List.cons.injEq, and_true] at hsh
        have hs : ∀ z ∈ [x, y], ∀ s ∈ z.view.strides, s ∈ a.view.strides ∨ s ∈ b.view.strides := by
          intro z hz s hs
          obtain ⟨h, hh, h2⟩ := hst z hz
          have := h2 s hs
          simp only [List.mem_cons, List.not_mem_nil, or_false] at hh
          rcases hh with rfl | rfl
          · exact Or.inl this
          · exact Or.inr this
        exact hk x y w hsh.1 hsh.2 (hs x (by simp)) (hs y (by simp)) hw)
  obtain ⟨arr, h1, h2⟩ := this
  refine ⟨arr, h1, h2.congr ⟨by simp only [houts], fun idx hi => ?_⟩⟩
  simp only [matmulSig, List.zipWith_cons_cons, List.zipWith_nil_left, List.map_cons, List.map_nil]
  simp [mnp, List.getD_eq_getElem?_getD]

theorem mem_getD_dvd {l : List Int} {e : Int} (h : ∀ s ∈ l, e ∣ s) (k : Nat) : e ∣ l.getD k 0 := by
  rw [List.getD_eq_getElem?_getD]
  cases hk : l[k]? with
  | none => simp
  | some s => exact h s (List.mem_of_getElem? hk)

theorem matRead_eq {h : Held α} {e : Nat} (hs : ∀ s ∈ h.view.strides, (e : Int) ∣ s) (i k : Nat) :
    matRead h e i k = h.nd.get [i, k] := by
  show h.mem _ = h.mem _
  rw [addr_two, Int.add_mul, Int.mul_assoc, Int.mul_assoc, Int.tdiv_mul_cancel (mem_getD_dvd hs 0),
    Int.tdiv_mul_cancel (mem_getD_dvd hs 1)]

theorem matmulGeneric_eq [NonUnitalNonAssocSemiring α] {e m n p : Nat} {x y : Held α} {w : View}
    (sx : x.view.shape = [m, n]) (sy : y.view.shape = [n, p])
    (dx : ∀ s ∈ x.view.strides, (e : Int) ∣ s) (dy : ∀ s ∈ y.view.strides, (e : Int) ∣ s) (dw : ∀ s ∈ w.strides, (e : Int) ∣ s) :
    matmulGeneric e [x, y] w = (indices [m, p]).map fun c =>
      (w.addr c, ∑ k ∈ Finset.range n, x.nd.get [c.getD 0 0, k] * y.nd.get [k, c.getD 1 0]) := by
  unfold matmulGeneric
  simp only [sx, sy, List.getD_cons_zero, List.getD_cons_succ, indices_two, List.map_flatMap, List.map_map, Function.comp_def]
  refine List.flatMap_congr fun i _ => List.map_congr_left fun j _ => ?_
  rw [addr_two, Int.add_mul, Int.mul_assoc, Int.mul_assoc, Int.tdiv_mul_cancel (mem_getD_dvd dw 0),
    Int.tdiv_mul_cancel (mem_getD_dvd dw 1)]
  simp only [matRead_eq dx, matRead_eq dy, foldl_add_range (fun k => x.nd.get [i, k] * y.nd.get [k, j])]

theorem expandForMatmul_two {a b : View} (ha : a.shape.length ≠ 1) (hb : b.shape.length ≠ 1) :
    expandForMatmul a b = some (a, b, false) := by
  unfold expandForMatmul
  rw [if_neg (fun h => ha h.1), if_neg ha, if_neg hb]

theorem productDTypes_sum {out : DType} (h : out ∈ productDTypes) : matPath out = .sum := by
  cases out <;> first | rfl | simp [productDTypes] at h

theorem itemsize_pos {out : DType} (h : matPath out = .sum) : 0 < Rumpy.DType.itemsize out := by
  cases out <;> simp [matPath, Rumpy.DType.itemsize] at h ⊢

theorem matmul_call [NonUnitalNonAssocSemiring α] {out : DType} (hout : matPath out = .sum) {a b : Held α}
    (ha : a.view.WF) (hb : b.view.WF) {L1 L2 loop : List Nat} {m n p : Nat}
    (sa : a.view.shape = L1 ++ [m, n]) (sb : b.view.shape = L2 ++ [n, p]) (hbc : IsBroadcastAll [L1, L2] loop)
    (ala : LoopAligned a.view L1 loop) (alb : LoopAligned b.view L2 loop)
    (da : ∀ s ∈ a.view.strides, (Rumpy.DType.itemsize out : Int) ∣ s)
    (db : ∀ s ∈ b.view.strides, (Rumpy.DType.itemsize out : Int) ∣ s) :
    ∃ arr, gufuncCall matmulSig (matmulKernel out) [a, b] (Rumpy.DType.itemsize out) 0 = some arr ∧
      arr.Is (a.nd.matmul b.nd loop m n p) :=
  matmul_gufunc (kernel := matmulKernel out) (itemsize_pos hout) (zero := 0) ha hb sa sb hbc ala alb
    (fun x y => ∑ k ∈ Finset.range n, x k * y k)
    (fun x x' y y' hx hy => Finset.sum_congr rfl fun k hk => by
      rw [hx k (Finset.mem_range.1 hk), hy k (Finset.mem_range.1 hk)])
    (fun x y w sx sy hx hy hw => by
      unfold matmulKernel
      rw [hout]
      exact matmulGeneric_eq sx sy (fun s hs => (hx s hs).elim (da s) (db s)) (fun s hs => (hy s hs).elim (da s) (db s)) hw)

theorem isBroadcastAll_left (L : List Nat) : IsBroadcastAll [L, []] L := by
  rw [← broadcastMulti_iff]
  simp only [broadcastMultiShapes, List.foldlM_cons, List.foldlM_nil]
  rw [(broadcastShapes_iff (a := L) (b := []) (r := L)).2 ⟨by simp, fun k hk => Or.inr (Or.inr ⟨by simp [dimR], rfl⟩)⟩]
  rfl

theorem isBroadcastAll_right (L : List Nat) : IsBroadcastAll [[], L] L := by
  rw [← broadcastMulti_iff]
  simp only [broadcastMultiShapes, List.foldlM_cons, List.foldlM_nil]
  rw [(broadcastShapes_iff (a := []) (b := L) (r := L)).2 ⟨by simp, fun k hk => Or.inr (Or.inl ⟨by simp [dimR], rfl⟩)⟩]
  rfl

theorem unsqueeze_append {s t i j : List Nat} (hs : ∀ d ∈ s, d ≠ 1) (hl : i.length = s.length) :
    unsqueeze (s ++ t) (i ++ j) = i ++ unsqueeze t j := by
  induction s generalizing i with
  | nil => cases i with
    | nil => rfl
    | cons => simp at hl
  | cons n s ih => cases i with
    | nil => simp at hl
    | cons x i =>
      rw [List.cons_append, List.cons_append, unsqueeze, if_neg (hs n (by simp)), List.cons_append]
      show x :: _ = _
      rw [ih (fun d hd => hs d (by simp [hd])) (by simpa using hl)]

/-- A freshly made array, squeezed, when only one axis has length 1. -/
theorem squeeze_one {arr : Arr α} {nd : Nd α} (h : arr.Is nd) {item : Nat} (hitem : 0 < item) (zero : α)
    {s t : List Nat} (hs : nd.shape = s ++ 1 :: t) (h1 : ∀ d ∈ s ++ t, d ≠ 1) (hne : s ++ t ≠ []) :
    ((Held.of arr item zero).view.squeeze.denote (Held.of arr item zero).mem).Same
      { shape := s ++ t, get := fun idx => nd.get (idx.take s.length ++ 0 :: idx.drop s.length) } := by
  have hsh : (Held.of arr item zero).view.shape = s ++ 1 :: t := h.1.trans hs
  have hden := h.denote hitem zero
  refine Nd.Same.trans (C10_squeeze_partial _ _ (View.WF.fresh _ _) ?_) ?_
  · obtain ⟨d, t', ht⟩ := List.exists_cons_of_ne_nil hne
    have hd : d ∈ s ++ t := by rw [ht]; simp
    refine ⟨d, ?_, h1 d hd⟩
    rw [hsh]
    rcases List.mem_append.1 hd with hd | hd <;> simp [hd]
  · have e : (Held.of arr item zero).view.shape.filter (· ≠ 1) = s ++ t := by
      rw [hsh, List.filter_append, List.filter_cons_of_neg (by simp), ← List.filter_append]
      exact List.filter_eq_self.2 fun d hd => by simpa using h1 d hd
    refine ⟨e, fun idx hi => ?_⟩
    have hi : InShape ((Held.of arr item zero).view.shape.filter (· ≠ 1)) idx := hi
    rw [e] at hi
    show ((Held.of arr item zero).view.denote (Held.of arr item zero).mem).get (unsqueeze (Held.of arr item zero).view.shape idx) = _
    have htl : (idx.take s.length).length = s.length := by
      rw [List.length_take, hi.length_eq, List.length_append]; omega
    have hsplit := (inShape_append_iff (b := t) (j := idx.drop s.length) htl).1 (by rwa [List.take_append_drop])
    have hu : unsqueeze (s ++ 1 :: t) idx = idx.take s.length ++ 0 :: idx.drop s.length := by
      conv_lhs => rw [← List.take_append_drop s.length idx]
      rw [unsqueeze_append (fun d hd => h1 d (by simp [hd])) htl, show unsqueeze (1 :: t) (idx.drop s.length) = 0 :: unsqueeze t (idx.drop s.length) by
        rw [unsqueeze.eq_def]; simp]
      congr 2
      have := unsqueeze_append (s := t) (t := []) (i := idx.drop s.length) (j := []) (fun d hd => h1 d (by simp [hd])) hsplit.2.length_eq
      simpa [unsqueeze] using this
    rw [hsh, hu]
    refine hden.2 _ ?_
    show InShape arr.shape _
    rw [h.1, hs, inShape_append_iff htl]
    exact ⟨hsplit.1, by simp [InShape, hsplit.2]⟩

theorem coreAt_self {a : Nd α} {loop core l c : List Nat} (hs : a.shape = loop ++ core) (hl : InShape loop l) (hc : InShape core c) :
    (a.coreAt loop core l).get c = a.get (l ++ c) := by
  show a.get _ = _
  rw [hs, Nat.sub_self, List.drop_zero, zipWith_bc_self ((inShape_append_iff hl.length_eq).2 ⟨hl, hc⟩)]

theorem coreAt_none {a : Nd α} {loop core l c : List Nat} (hs : a.shape = core) (hl : InShape loop l) (hc : InShape core c) :
    (a.coreAt loop core l).get c = a.get c := by
  show a.get _ = _
  rw [hs, List.length_append, Nat.add_sub_cancel, ← hl.length_eq, List.drop_left, zipWith_bc_self hc]

/-! ### Stacks of matrices -/

/-- C42 (partial): `matmul` of two stacks of matrices gives, at each position of the broadcast
loop, the matrix product.  Missing: result dtypes without a branch (`C42_matmul_zeros`), operands of
another dtype than the result (`C42_matmul_mixed_counterexample`) and operands whose loop axes the
code misplaces (`C40_call_counterexample`). -/
theorem C42_matmul_partial [NonUnitalNonAssocSemiring α] (out : DType) (hout : out ∈ productDTypes) (a b : Held α)
    (ha : a.view.WF) (hb : b.view.WF) (L1 L2 loop : List Nat) (m n p : Nat)
    (sa : a.view.shape = L1 ++ [m, n]) (sb : b.view.shape = L2 ++ [n, p]) (hbc : IsBroadcastAll [L1, L2] loop)
    (ala : LoopAligned a.view L1 loop) (alb : LoopAligned b.view L2 loop)
    (da : ∀ s ∈ a.view.strides, (Rumpy.DType.itemsize out : Int) ∣ s)
    (db : ∀ s ∈ b.view.strides, (Rumpy.DType.itemsize out : Int) ∣ s) :
    ∃ r, matmul out a b = some r ∧ r.nd.Same (a.nd.matmul b.nd loop m n p) ∧ r.view.WF ∧
      ∀ s ∈ r.view.strides, (Rumpy.DType.itemsize out : Int) ∣ s := by
  replace hout := productDTypes_sum hout
  have hpos := itemsize_pos hout
  obtain ⟨arr, h1, h2⟩ := matmul_call hout ha hb sa sb hbc ala alb da db
  refine ⟨Held.of arr (Rumpy.DType.itemsize out) 0, ?_, h2.denote hpos 0, View.WF.fresh _ _, fun s hs => cStrides_dvd _ _ _ hs⟩
  unfold matmul matmulWith
  rw [expandForMatmul_two (by rw [sa]; simp) (by rw [sb]; simp)]
  simp [h1]

/-- The shape an operand has for the product: a vector on the left is a row, on the right a column. -/
def rowShape (s : List Nat) : List Nat := if s.length = 1 then 1 :: s else s
/-- See `rowShape`. -/
def colShape (s : List Nat) : List Nat := if s.length = 1 then s ++ [1] else s

theorem expandForMatmul_shapes (a b : View) : ∃ a' b' sq, expandForMatmul a b = some (a', b', sq) ∧
    a'.shape = rowShape a.shape ∧ b'.shape = colShape b.shape := by
  have e0 : a.expandDims 0 = some (a.viewWith 0 (1 :: a.shape) ((a.item : Int) :: a.strides)) := by
    simp [View.expandDims]
  unfold expandForMatmul
  by_cases ha : a.shape.length = 1
  · by_cases hb : b.shape.length = 1
    · have e1 : b.expandDims 1 = some (b.viewWith 0 (b.shape.insertIdx 1 1) (b.strides.insertIdx 1 (b.item : Int))) := by
        simp [View.expandDims, hb]
      rw [if_pos ⟨ha, hb⟩, e0, e1]
      refine ⟨_, _, _, rfl, by simp [View.viewWith, rowShape, ha], ?_⟩
      obtain ⟨x, hx⟩ := List.length_eq_one_iff.1 hb
      simp [View.viewWith, colShape, hx]
    · rw [if_neg (fun h => hb h.2), if_pos ha, e0]
      exact ⟨_, _, _, rfl, by simp [View.viewWith, rowShape, ha], by simp [colShape, hb]⟩
  · rw [if_neg (fun h => ha h.1), if_neg ha]
    by_cases hb : b.shape.length = 1
    · have e1 : b.expandDims 1 = some (b.viewWith 0 (b.shape.insertIdx 1 1) (b.strides.insertIdx 1 (b.item : Int))) := by
        simp [View.expandDims, hb]
      rw [if_pos hb, e1]
      refine ⟨_, _, _, rfl, by simp [rowShape, ha], ?_⟩
      obtain ⟨x, hx⟩ := List.length_eq_one_iff.1 hb
      simp [View.viewWith, colShape, hx]
    · rw [if_neg hb]
      exact ⟨_, _, _, rfl, by simp [rowShape, ha], by simp [colShape, hb]⟩

/-- C42: `matmul` accepts exactly the operands NumPy accepts: the inner dimensions agree and the
others broadcast. -/
theorem C42_matmul_accepts_iff [NonUnitalNonAssocSemiring α] (out : DType) (a b : Held α) :
    (matmul out a b).isSome ↔ ∃ L1 L2 loop m n p, rowShape a.view.shape = L1 ++ [m, n] ∧
      colShape b.view.shape = L2 ++ [n, p] ∧ IsBroadcastAll [L1, L2] loop := by
  obtain ⟨a', b', sq, h, h1, h2⟩ := expandForMatmul_shapes a.view b.view
  have e : (matmul out a b).isSome = (resolveDims matmulSig [a'.shape, b'.shape]).isSome := by
    unfold matmul matmulWith gufuncCall
    rw [h]
    simp only [Option.bind_eq_bind, Option.bind_some, List.map_cons, List.map_nil]
    cases resolveDims matmulSig [a'.shape, b'.shape] <;> rfl
  rw [e, C40_resolve_iff, ← h1, ← h2]
  constructor
  · rintro ⟨σ, loops, loop, hl, hs, hb⟩
    simp only [matmulSig, List.length_cons, List.length_nil] at hl
    obtain ⟨L1, L2, rfl⟩ := List.length_eq_two.1 hl
    simp only [matmulSig, List.zipWith_cons_cons, List.zipWith_nil_left, List.map_cons, List.map_nil, List.cons.injEq,
      and_true] at hs
    exact ⟨L1, L2, loop, _, _, _, hs.1, hs.2, hb⟩
  · rintro ⟨L1, L2, loop, m, n, p, hs1, hs2, hb⟩
    exact ⟨mnp m n p, [L1, L2], loop, by rw [hs1, hs2]; exact matmul_resolves m n p hb⟩

/-- C42 (partial): a vector times a stack of matrices, when the result has no other axis of
length 1.  Missing: see `C42_matmul_squeeze_counterexample`. -/
theorem C42_vecmat_partial [NonUnitalNonAssocSemiring α] (out : DType) (hout : out ∈ productDTypes) (a b : Held α)
    (ha : a.view.WF) (hb : b.view.WF) (L : List Nat) (n p : Nat)
    (sa : a.view.shape = [n]) (sb : b.view.shape = L ++ [n, p]) (hL : ∀ d ∈ L, d ≠ 1) (hp : p ≠ 1)
    (hpos : ∀ s ∈ b.view.strides.take L.length, 0 ≤ s) (ia : a.view.item = Rumpy.DType.itemsize out)
    (da : ∀ s ∈ a.view.strides, (Rumpy.DType.itemsize out : Int) ∣ s)
    (db : ∀ s ∈ b.view.strides, (Rumpy.DType.itemsize out : Int) ∣ s) :
    ∃ r, matmul out a b = some r ∧ r.nd.Same ⟨L ++ [p], fun idx => ∑ k ∈ Finset.range n,
      a.nd.get [k] * b.nd.get (idx.take L.length ++ [k, idx.getD L.length 0])⟩ := by
  replace hout := productDTypes_sum hout
  have hb1 : b.view.shape.length ≠ 1 := by rw [sb]; simp
  have ha1 : a.view.shape.length = 1 := by rw [sa]; rfl
  obtain ⟨a', ea, wa, na⟩ := C10_expand_dims a.mem a.view ha 0 (by omega)
  have hst : a'.strides = (a.view.item : Int) :: a.view.strides := by
    unfold View.expandDims at ea
    rw [if_neg (by omega)] at ea
    cases ea
    simp [View.viewWith]
  have hsa : a'.shape = [] ++ [1, n] := by
    have := na.1
    simpa [View.denote, Nd.expandDims, sa] using this
  obtain ⟨arr, h1, h2⟩ := matmul_call (a := ⟨a.mem, a'⟩) (b := b) hout wa hb hsa sb (isBroadcastAll_right L)
    ⟨Or.inl rfl, by simp⟩ ⟨Or.inr rfl, hpos⟩ (by
      intro s hs
      rw [hst, ia] at hs
      rcases List.mem_cons.1 hs with rfl | hs
      · exact dvd_refl _
      · exact da s hs) db
  have h3 := squeeze_one (s := L) (t := [p]) h2 (itemsize_pos hout) 0 rfl (by
    intro d hd
    rcases List.mem_append.1 hd with hd | hd
    · exact hL d hd
    · rw [List.mem_singleton.1 hd]; exact hp) (by simp)
  refine ⟨⟨(Held.of arr (Rumpy.DType.itemsize out) 0).mem, (Held.of arr (Rumpy.DType.itemsize out) 0).view.squeeze⟩, ?_,
    Nd.Same.trans h3 ⟨rfl, fun idx hi => ?_⟩⟩
  · unfold matmul matmulWith expandForMatmul
    rw [if_neg (fun h => hb1 h.2), if_pos ha1, ea]
    simp [h1]
  · have hi : InShape (L ++ [p]) idx := hi
    have htl : (idx.take L.length).length = L.length := by
      rw [List.length_take, hi.length_eq, List.length_append]; omega
    have hsplit := (inShape_append_iff (b := [p]) (j := idx.drop L.length) htl).1 (by rwa [List.take_append_drop])
    obtain ⟨j, hj⟩ := List.length_eq_one_iff.1 hsplit.2.length_eq
    have hjp : j < p := by
      have := hsplit.2
      rw [hj] at this
      exact this.1
    have hgj : idx.getD L.length 0 = j := by
      have := congrArg (fun l => l.getD 0 0) hj
      simpa [List.getD_eq_getElem?_getD] using this
    show (∑ k ∈ Finset.range n, _) = ∑ k ∈ Finset.range n, _
    refine Finset.sum_congr rfl fun k hk => ?_
    have hk := Finset.mem_range.1 hk
    have e1 : (idx.take L.length ++ 0 :: idx.drop L.length).take L.length = idx.take L.length := by
      rw [List.take_append_of_le_length (by omega), List.take_of_length_le (by omega)]
    have e2 : (idx.take L.length ++ 0 :: idx.drop L.length).getD L.length 0 = 0 := by
      simp [List.getD_eq_getElem?_getD, List.getElem?_append_right (Nat.le_of_eq htl), htl]
    have e3 : (idx.take L.length ++ 0 :: idx.drop L.length).getD (L.length + 1) 0 = j := by
      rw [List.getD_eq_getElem?_getD, List.getElem?_append_right (by omega), htl, hj]
      simp
    rw [e1, e2, e3, hgj, coreAt_none hsa hsplit.1 (by simp [InShape, hk]),
      coreAt_self sb hsplit.1 (by simp [InShape, hk, hjp])]
    congr 1
    exact na.2 [0, k] (by show InShape a'.shape _; rw [hsa]; simp [InShape, hk])

/-- C42 (partial): a stack of matrices times a vector, when the result has no other axis of
length 1.  Missing: see `C42_matmul_squeeze_counterexample`. -/
theorem C42_matvec_partial [NonUnitalNonAssocSemiring α] (out : DType) (hout : out ∈ productDTypes) (a b : Held α)
    (ha : a.view.WF) (hb : b.view.WF) (L : List Nat) (m n : Nat)
    (sa : a.view.shape = L ++ [m, n]) (sb : b.view.shape = [n]) (hL : ∀ d ∈ L, d ≠ 1) (hm : m ≠ 1)
    (hpos : ∀ s ∈ a.view.strides.take L.length, 0 ≤ s) (ib : b.view.item = Rumpy.DType.itemsize out)
    (da : ∀ s ∈ a.view.strides, (Rumpy.DType.itemsize out : Int) ∣ s)
    (db : ∀ s ∈ b.view.strides, (Rumpy.DType.itemsize out : Int) ∣ s) :
    ∃ r, matmul out a b = some r ∧ r.nd.Same ⟨L ++ [m], fun idx => ∑ k ∈ Finset.range n, a.nd.get (idx ++ [k]) * b.nd.get [k]⟩ := by
  replace hout := productDTypes_sum hout
  have ha1 : a.view.shape.length ≠ 1 := by rw [sa]; simp
  have hb1 : b.view.shape.length = 1 := by rw [sb]; rfl
  obtain ⟨b', eb, wb, nb⟩ := C10_expand_dims b.mem b.view hb 1 (by omega)
  have hst : ∀ s ∈ b'.strides, s = (b.view.item : Int) ∨ s ∈ b.view.strides := by
    unfold View.expandDims at eb
    rw [if_neg (by omega)] at eb
    cases eb
    intro s hs
    simp only [View.viewWith] at hs
    exact List.eq_or_mem_of_mem_insertIdx hs
  have hsb : b'.shape = [] ++ [n, 1] := by
    have := nb.1
    simpa [View.denote, Nd.expandDims, sb] using this
  obtain ⟨arr, h1, h2⟩ := matmul_call (a := a) (b := ⟨b.mem, b'⟩) hout ha wb sa hsb (isBroadcastAll_left L)
    ⟨Or.inr rfl, hpos⟩ ⟨Or.inl rfl, by simp⟩ da (by
      intro s hs
      rcases hst s hs with rfl | hs
      · rw [ib]
      · exact db s hs)
  have h3 := squeeze_one (s := L ++ [m]) (t := []) h2 (itemsize_pos hout) 0 (by simp [Nd.matmul]) (by
    intro d hd
    rw [List.append_nil] at hd
    rcases List.mem_append.1 hd with hd | hd
    · exact hL d hd
    · rw [List.mem_singleton.1 hd]; exact hm) (by simp)
  refine ⟨⟨(Held.of arr (Rumpy.DType.itemsize out) 0).mem, (Held.of arr (Rumpy.DType.itemsize out) 0).view.squeeze⟩, ?_,
    Nd.Same.trans h3 ⟨by simp, fun idx hi => ?_⟩⟩
  · unfold matmul matmulWith expandForMatmul
    rw [if_neg (fun h => ha1 h.1), if_neg ha1, if_pos hb1, eb]
    simp [h1]
  · have hi : InShape (L ++ [m] ++ []) idx := hi
    rw [List.append_nil] at hi
    have hil := hi.length_eq
    have htl : (idx.take L.length).length = L.length := by
      rw [List.length_take, hil, List.length_append]; omega
    have hsplit := (inShape_append_iff (b := [m]) (j := idx.drop L.length) htl).1 (by rwa [List.take_append_drop])
    obtain ⟨j, hj⟩ := List.length_eq_one_iff.1 hsplit.2.length_eq
    have hjm : j < m := by
      have := hsplit.2
      rw [hj] at this
      exact this.1
    have hidx : idx = idx.take L.length ++ [j] := by rw [← hj, List.take_append_drop]
    have e0 : idx.take (L ++ [m]).length ++ 0 :: idx.drop (L ++ [m]).length = idx.take L.length ++ [j, 0] := by
      rw [← hil, List.take_length, List.drop_length]
      conv_lhs => rw [hidx]
      simp
    show (∑ k ∈ Finset.range n, _) = ∑ k ∈ Finset.range n, _
    refine Finset.sum_congr rfl fun k hk => ?_
    have hk := Finset.mem_range.1 hk
    rw [e0]
    have e1 : (idx.take L.length ++ [j, 0]).take L.length = idx.take L.length := by
      rw [List.take_append_of_le_length (by omega), List.take_of_length_le (by omega)]
    have e2 : (idx.take L.length ++ [j, 0]).getD L.length 0 = j := by
      rw [List.getD_eq_getElem?_getD, List.getElem?_append_right (by omega), htl]
      simp
    have e3 : (idx.take L.length ++ [j, 0]).getD (L.length + 1) 0 = 0 := by
      rw [List.getD_eq_getElem?_getD, List.getElem?_append_right (by omega), htl]
      simp
    rw [e1, e2, e3, coreAt_self sa hsplit.1 (by simp [InShape, hk, hjm]), coreAt_none hsb hsplit.1 (by simp [InShape, hk])]
    congr 1
    · conv_rhs => rw [hidx]
      simp
    · exact nb.2 [k, 0] (by show InShape b'.shape _; rw [hsb]; simp [InShape, hk])

/-- C42 (partial): the product of two vectors is one element, the sum of products.  Missing: the
shape is `(1,)` and not `()`. -/
theorem C42_vecvec_partial [NonUnitalNonAssocSemiring α] (out : DType) (hout : out ∈ productDTypes) (a b : Held α)
    (ha : a.view.WF) (hb : b.view.WF) (n : Nat) (sa : a.view.shape = [n]) (sb : b.view.shape = [n])
    (ia : a.view.item = Rumpy.DType.itemsize out) (ib : b.view.item = Rumpy.DType.itemsize out)
    (da : ∀ s ∈ a.view.strides, (Rumpy.DType.itemsize out : Int) ∣ s)
    (db : ∀ s ∈ b.view.strides, (Rumpy.DType.itemsize out : Int) ∣ s) :
    ∃ r, matmul out a b = some r ∧ r.nd.Same ⟨[1], fun _ => ∑ k ∈ Finset.range n, a.nd.get [k] * b.nd.get [k]⟩ := by
  replace hout := productDTypes_sum hout
  have ha1 : a.view.shape.length = 1 := by rw [sa]; rfl
  have hb1 : b.view.shape.length = 1 := by rw [sb]; rfl
  obtain ⟨a', ea, wa, na⟩ := C10_expand_dims a.mem a.view ha 0 (by omega)
  obtain ⟨b', eb, wb, nb⟩ := C10_expand_dims b.mem b.view hb 1 (by omega)
  have hsta : ∀ s ∈ a'.strides, s = (a.view.item : Int) ∨ s ∈ a.view.strides := by
    have ea := ea
    unfold View.expandDims at ea
    rw [if_neg (by omega)] at ea
    cases ea
    intro s hs
    simp only [View.viewWith] at hs
    exact List.eq_or_mem_of_mem_insertIdx hs
  have hstb : ∀ s ∈ b'.strides, s = (b.view.item : Int) ∨ s ∈ b.view.strides := by
    have eb := eb
    unfold View.expandDims at eb
    rw [if_neg (by omega)] at eb
    cases eb
    intro s hs
    simp only [View.viewWith] at hs
    exact List.eq_or_mem_of_mem_insertIdx hs
  have hsa : a'.shape = [] ++ [1, n] := by
    have := na.1
    simpa [View.denote, Nd.expandDims, sa] using this
  have hsb : b'.shape = [] ++ [n, 1] := by
    have := nb.1
    simpa [View.denote, Nd.expandDims, sb] using this
  obtain ⟨arr, h1, h2⟩ := matmul_call (a := ⟨a.mem, a'⟩) (b := ⟨b.mem, b'⟩) hout wa wb hsa hsb (isBroadcastAll_left [])
    ⟨Or.inl rfl, by simp⟩ ⟨Or.inl rfl, by simp⟩
    (fun s hs => (hsta s hs).elim (fun e => by rw [e, ia]) (da s))
    (fun s hs => (hstb s hs).elim (fun e => by rw [e, ib]) (db s))
  have hsh : (Held.of arr (Rumpy.DType.itemsize out) 0).view.shape = [1, 1] := h2.1
  obtain ⟨q1, q2⟩ := C10_squeeze_all_ones (Held.of arr (Rumpy.DType.itemsize out) 0).mem
    (Held.of arr (Rumpy.DType.itemsize out) 0).view (by rw [hsh]; simp)
  refine ⟨⟨(Held.of arr (Rumpy.DType.itemsize out) 0).mem, (Held.of arr (Rumpy.DType.itemsize out) 0).view.squeeze⟩, ?_, q1,
    fun idx hi => ?_⟩
  · unfold matmul matmulWith expandForMatmul
    rw [if_pos ⟨ha1, hb1⟩, ea, eb]
    simp [h1]
  · have hi : InShape (Held.of arr (Rumpy.DType.itemsize out) 0).view.squeeze.shape idx := hi
    rw [q1] at hi
    have hidx : idx = [0] := by
      obtain ⟨x, rfl⟩ := List.length_eq_one_iff.1 hi.length_eq
      have := hi.1
      congr 1
      omega
    subst hidx
    refine Eq.trans q2 ?_
    rw [hsh]
    have h3 := (h2.denote (itemsize_pos hout) 0).2 [0, 0]
    refine Eq.trans (h3 ?_) ?_
    · show InShape (Held.of arr (Rumpy.DType.itemsize out) 0).view.shape _
      rw [hsh]; simp [InShape]
    · show (∑ k ∈ Finset.range n, _) = ∑ k ∈ Finset.range n, _
      refine Finset.sum_congr rfl fun k hk => ?_
      have hk := Finset.mem_range.1 hk
      simp only [List.length_nil, List.take_zero, List.getD_cons_zero, List.getD_cons_succ]
      rw [coreAt_none hsa (by simp [InShape]) (by simp [InShape, hk]), coreAt_none hsb (by simp [InShape]) (by simp [InShape, hk])]
      congr 1
      · exact na.2 [0, k] (by show InShape a'.shape _; rw [hsa]; simp [InShape, hk])
      · exact nb.2 [k, 0] (by show InShape b'.shape _; rw [hsb]; simp [InShape, hk])

/-- A small matrix and a small stack meet the hypotheses of the theorems above. -/
example : (fun (a b : Held Int) => a.view.WF ∧ b.view.WF ∧ a.view.shape = [] ++ [2, 3] ∧ b.view.shape = [4] ++ [3, 2] ∧
    LoopAligned a.view [] [4] ∧ LoopAligned b.view [4] [4] ∧ (∀ s ∈ a.view.strides, (8 : Int) ∣ s) ∧
    (∀ s ∈ b.view.strides, (8 : Int) ∣ s) ∧ IsBroadcastAll [[], [4]] [4] ∧ matPath .i64 = .sum)
    ⟨fun x => x, (View.fresh [3, 2] 8).transpose⟩ (Held.of ⟨[4, 3, 2], List.range 24 |>.map Int.ofNat⟩ 8 0) := by
  refine ⟨View.WF.viewWith rfl, View.WF.fresh _ _, rfl, rfl, ⟨Or.inl rfl, by simp⟩, ⟨Or.inr rfl, by decide⟩, by decide,
    by decide, isBroadcastAll_right [4], rfl⟩

/-- C42: `matmul` of bool arrays gives, at each position of the broadcast loop, whether some term of the
sum of products is true. -/
theorem C42_matmul_bool (a b : Held (BitVec 8)) (ha : a.view.WF) (hb : b.view.WF) (L1 L2 loop : List Nat) (m n p : Nat)
    (sa : a.view.shape = L1 ++ [m, n]) (sb : b.view.shape = L2 ++ [n, p]) (hbc : IsBroadcastAll [L1, L2] loop)
    (ala : LoopAligned a.view L1 loop) (alb : LoopAligned b.view L2 loop) :
    ∃ r, matmulBools a b = some r ∧ r.nd.shape = loop ++ [m, p] ∧
      ∀ l i j, InShape loop l → i < m → j < p →
        (r.nd.get (l ++ [i, j]) = 1 ∨ r.nd.get (l ++ [i, j]) = 0) ∧
        (r.nd.get (l ++ [i, j]) = 1 ↔ ∃ k < n, (a.nd.coreAt loop [m, n] l).get [i, k] ≠ 0 ∧ (b.nd.coreAt loop [n, p] l).get [k, j] ≠ 0) := by
  obtain ⟨arr, h1, h2⟩ := matmul_gufunc (kernel := matmulBool) (item := 1) Nat.one_pos (zero := 0) ha hb sa sb hbc ala alb
    (fun x y => if (List.range n).any (fun k : Nat => x k != 0 && y k != 0) then 1 else 0)
    (fun x x' y y' hx hy => by
      have : (List.range n).any (fun k : Nat => x k != 0 && y k != 0) = (List.range n).any (fun k : Nat => x' k != 0 && y' k != 0) := by
        rw [Bool.eq_iff_iff, List.any_eq_true, List.any_eq_true]
        refine exists_congr fun k => and_congr_right fun hk => ?_
        rw [hx k (List.mem_range.1 hk), hy k (List.mem_range.1 hk)]
      rw [this])
    (fun x y w sx sy _ _ _ => by
      unfold matmulBool
      simp only [sx, sy, List.getD_cons_zero, List.getD_cons_succ, indices_two, List.map_flatMap, List.map_map, Function.comp_def]
      refine List.flatMap_congr fun i _ => List.map_congr_left fun j _ => ?_
      simp only [addr_two, Held.nd, View.denote])
  have hd := h2.denote Nat.one_pos 0
  refine ⟨Held.of arr 1 0, ?_, hd.1, fun l i j hl hi hj => ?_⟩
  · unfold matmulBools matmulWith
    rw [expandForMatmul_two (by rw [sa]; simp) (by rw [sb]; simp)]
    simp only [Option.bind_eq_bind, Option.bind_some]
    rw [h1]
    rfl
  · have hll := hl.length_eq
    have hin : InShape (loop ++ [m, p]) (l ++ [i, j]) := (inShape_append_iff hll).2 ⟨hl, by simp [InShape, hi, hj]⟩
    have hv := hd.2 (l ++ [i, j]) (by rw [hd.1]; exact hin)
    have e1 : (l ++ [i, j]).take loop.length = l := by rw [← hll, List.take_left]
    have e2 : (l ++ [i, j]).getD loop.length 0 = i := by
      rw [List.getD_eq_getElem?_getD, List.getElem?_append_right (by omega), hll]; simp
    have e3 : (l ++ [i, j]).getD (loop.length + 1) 0 = j := by
      rw [List.getD_eq_getElem?_getD, List.getElem?_append_right (by omega), hll]; simp
    dsimp only at hv
    rw [e1, e2, e3] at hv
    show (((arr.view 1).denote (arr.mem 1 0)).get _ = 1 ∨ ((arr.view 1).denote (arr.mem 1 0)).get _ = 0) ∧
      (((arr.view 1).denote (arr.mem 1 0)).get _ = 1 ↔ _)
    rw [hv]
    by_cases hc : (List.range n).any (fun k : Nat => (a.nd.coreAt loop [m, n] l).get [i, k] != 0 && (b.nd.coreAt loop [n, p] l).get [k, j] != 0) = true
    · rw [if_pos hc]
      refine ⟨Or.inl rfl, iff_of_true rfl ?_⟩
      obtain ⟨k, hk, h⟩ := List.any_eq_true.1 hc
      simp only [Bool.and_eq_true, bne_iff_ne] at h
      exact ⟨k, List.mem_range.1 hk, h⟩
    · rw [if_neg hc]
      refine ⟨Or.inr rfl, iff_of_false (by decide) ?_⟩
      rintro ⟨k, hk, h⟩
      exact hc (List.any_eq_true.2 ⟨k, List.mem_range.2 hk, by simpa using h⟩)

/-! ### What is missing -/

/-- C42, negated: a result dtype without a branch (float16, the small and unsigned integers) gives
zeros, whatever the operands. -/
theorem C42_matmul_zeros_counterexample [NonUnitalNonAssocSemiring α] (out : DType)
    (h : out ∉ DType.bool :: productDTypes) (a b r : Held α) (hr : matmul out a b = some r) (idx : List Nat) : r.nd.get idx = 0 := by
  replace h : matPath out = .zeros := by
    cases out <;> first | rfl | simp [productDTypes] at h
  unfold matmul matmulWith gufuncCall at hr
  simp only [Option.bind_eq_bind, Option.bind_eq_some_iff, Option.some.injEq] at hr
  obtain ⟨⟨a', b', sq⟩, _, arr, ⟨d, _, rfl⟩, rfl⟩ := hr
  have hz : ∀ x, (Held.of (⟨d.outputShape 0, List.replicate (Rumpy.sizeOf (d.outputShape 0)) (0 : α)⟩ : Arr α)
      (Rumpy.DType.itemsize out) 0).mem x = 0 := by
    intro x
    simp only [Held.of, Arr.mem, List.getD_eq_getElem?_getD, List.getElem?_replicate]
    split <;> rfl
  have hk : ∀ (c : List (Held α)) (v : View), matmulKernel out c v = [] := by
    intro c v
    unfold matmulKernel
    rw [h]
  have hf : ∀ l : List (List Nat), (l.flatMap fun _ => ([] : List (Int × α))) = [] := fun l => by simp
  simp only [hk, hf, List.map_nil, writes_nil]
  cases sq
  · exact hz _
  · exact hz _

example : DType.f16 ∉ DType.bool :: productDTypes ∧ DType.i16 ∉ DType.bool :: productDTypes ∧
    DType.u64 ∉ DType.bool :: productDTypes := by decide

/-- What `gufunc_call` stores for a matrix product. -/
theorem matmul_raw {kernel : List (Held α) → View → List (Int × α)} {a b : Held α} {item : Nat} {zero : α}
    {L1 L2 loop : List Nat} {m n p : Nat} (sa : a.view.shape = L1 ++ [m, n]) (sb : b.view.shape = L2 ++ [n, p])
    (hbc : IsBroadcastAll [L1, L2] loop) :
    gufuncCall matmulSig kernel [a, b] item zero = some ⟨loop ++ [m, p],
      writes (((odometerAll loop).flatMap fun l => kernel (inputCores [a, b] [L1.length, L2.length] l)
        ((View.fresh (loop ++ [m, p]) item).gufuncSubarray l loop.length)).map fun s => ((s.1 / (item : Int)).toNat, s.2))
        (List.replicate (Rumpy.sizeOf (loop ++ [m, p])) zero)⟩ := by
  have hr := matmul_resolves m n p hbc
  rw [← sa, ← sb] at hr
  have e := resolveDims_eq hr
  unfold gufuncCall
  simp only [List.map_cons, List.map_nil]
  rw [e]
  have h3 := matmul_outs m n p
  simp only [List.map_cons, List.map_nil] at h3
  simp only [Option.bind_eq_bind, Option.bind_some, GuDims.outputShape, matmulSig, List.map_cons, List.map_nil, List.getD_cons_zero]
  simp only [matmulSig] at h3
  rw [h3]

/-- Little-endian bytes read as a signed integer of `w` bytes. -/
def leRead (bytes : List (BitVec 8)) (w : Nat) (addr : Int) : Int :=
  ((((bytes.drop addr.toNat).take w).reverse.foldl (fun (n : Nat) b => n * 256 + b.toNat) 0 : Nat) : Int).bmod (2 ^ (8 * w))

/-- C42, negated: operands of different dtypes are all read as the result dtype.  The int32 row `[1, 0]`
times the int64 column `[1, 1]` is 1, and the code gives 2. -/
theorem C42_matmul_mixed_counterexample :
    let bytes : List (BitVec 8) := [1, 0, 0, 0, 0, 0, 0, 0]
    let a := (⟨leRead bytes 4, View.fresh [1, 2] 4⟩ : Held Int)
    let read := (⟨leRead bytes 8, View.fresh [1, 2] 4⟩ : Held Int)
    let b : Held Int := Held.of ⟨[2, 1], [1, 1]⟩ 8 0
    a.nd.toList = [1, 0] ∧ b.nd.toList = [1, 1] ∧ ∃ r, matmul .i64 read b = some r ∧ r.nd.toList = [2] := by
  intro bytes a read b
  refine ⟨by decide +kernel, by decide +kernel, ?_⟩
  have h := matmul_raw (kernel := matmulKernel .i64) (a := read) (b := b) (item := 8) (zero := 0) (L1 := []) (L2 := [])
    (loop := []) (m := 1) (n := 2) (p := 1) rfl rfl (isBroadcastAll_left [])
  unfold matmul matmulWith
  rw [expandForMatmul_two (by decide) (by decide)]
  simp only [Option.bind_eq_bind, Option.bind_some]
  rw [show Rumpy.DType.itemsize .i64 = 8 from rfl, h]
  exact ⟨_, rfl, by decide +kernel⟩

/-- C42, negated: a product with a vector loses all axes of length 1: a stack of shape `(2, 1, 1)` times a vector
of shape `(1,)` has shape `(2, 1)` in NumPy and `(2,)` here, and the product of two vectors has shape `(1,)`, not `()`. -/
theorem C42_matmul_squeeze_counterexample :
    (∃ r, matmul .i64 (Held.of ⟨[2, 1, 1], [3, 4]⟩ 8 0 : Held Int) (Held.of ⟨[1], [5]⟩ 8 0) = some r ∧
      r.nd.shape = [2] ∧ r.nd.toList = [15, 20]) ∧
    (∃ r, matmul .i64 (Held.of ⟨[2], [3, 4]⟩ 8 0 : Held Int) (Held.of ⟨[2], [5, 6]⟩ 8 0) = some r ∧
      r.nd.shape = [1] ∧ r.nd.toList = [39]) := by
  constructor
  · have h := matmul_raw (kernel := matmulKernel .i64) (a := (Held.of ⟨[2, 1, 1], [3, 4]⟩ 8 0 : Held Int))
      (b := ⟨(Held.of ⟨[1], [5]⟩ 8 0 : Held Int).mem, (View.fresh [1] 8).viewWith 0 [1, 1] [8, 8]⟩) (item := 8) (zero := 0) (L1 := [2]) (L2 := [])
      (loop := [2]) (m := 1) (n := 1) (p := 1) rfl rfl (isBroadcastAll_left [2])
    unfold matmul matmulWith
    rw [show expandForMatmul (Held.of ⟨[2, 1, 1], [3, 4]⟩ 8 0 : Held Int).view (Held.of ⟨[1], [5]⟩ 8 0 : Held Int).view
      = some ((Held.of ⟨[2, 1, 1], [3, 4]⟩ 8 0 : Held Int).view, (View.fresh [1] 8).viewWith 0 [1, 1] [8, 8], true) by decide +kernel]
    simp only [Option.bind_eq_bind, Option.bind_some]
    rw [show Rumpy.DType.itemsize .i64 = 8 from rfl, h]
    exact ⟨_, rfl, by decide +kernel⟩
  · have h := matmul_raw (kernel := matmulKernel .i64)
      (a := ⟨(Held.of ⟨[2], [3, 4]⟩ 8 0 : Held Int).mem, (View.fresh [2] 8).viewWith 0 [1, 2] [8, 8]⟩)
      (b := ⟨(Held.of ⟨[2], [5, 6]⟩ 8 0 : Held Int).mem, (View.fresh [2] 8).viewWith 0 [2, 1] [8, 8]⟩) (item := 8) (zero := 0) (L1 := []) (L2 := [])
      (loop := []) (m := 1) (n := 2) (p := 1) rfl rfl (isBroadcastAll_left [])
    unfold matmul matmulWith
    rw [show expandForMatmul (Held.of ⟨[2], [3, 4]⟩ 8 0 : Held Int).view (Held.of ⟨[2], [5, 6]⟩ 8 0 : Held Int).view
      = some ((View.fresh [2] 8).viewWith 0 [1, 2] [8, 8], (View.fresh [2] 8).viewWith 0 [2, 1] [8, 8], true) by decide +kernel]
    simp only [Option.bind_eq_bind, Option.bind_some]
    rw [show Rumpy.DType.itemsize .i64 = 8 from rfl, h]
    exact ⟨_, rfl, by decide +kernel⟩

end Props
