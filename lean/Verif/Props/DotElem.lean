import Verif.Model.DotElem
import Verif.Lemmas.Select
import Verif.Props.Arith

/-!
# C113: `dot` of vectors and scalars for every dtype
-/

namespace Props
open Spec Rumpy

/-- The exact inner product of two lists. -/
def dotWhole (ms ns : List Int) : Int := (List.zipWith (· * ·) ms ns).sum

/-- The sum of the magnitudes of the products. -/
def dotSize (ms ns : List Int) : Nat := ((List.zipWith (· * ·) ms ns).map Int.natAbs).sum

/-- `t` is what adding the products one after the other to `s` gives, when each product and each sum is rounded to a double. -/
inductive Adds : Flt ℚ → List (Flt ℚ × Flt ℚ) → Flt ℚ → Prop
  | nil (s : Flt ℚ) : Adds s [] s
  | cons {s w s' t : Flt ℚ} {x y : Flt ℚ} {r : List (Flt ℚ × Flt ℚ)} (hm : IsArith 53 (-1074) 971 .mul x y w)
      (ha : IsArith 53 (-1074) 971 .add s w s') (ht : Adds s' r t) : Adds s ((x, y) :: r) t

theorem adds_foldl (l : List (Flt ℚ × Flt ℚ)) (s : Flt ℚ) : Adds s l (l.foldl dotStep s) := by
  induction l generalizing s with
  | nil => exact .nil s
  | cons xy r ih =>
    exact .cons (kernel_isArith (by norm_num) (by norm_num) false (op := .mul) (o := .mul) rfl (by decide) xy.1 xy.2)
      (kernel_isArith (by norm_num) (by norm_num) false (op := .add) (o := .add) rfl (by decide) s _) (ih _)

theorem isFlt_foldl (l : List (Flt ℚ × Flt ℚ)) (s : Flt ℚ) (hs : IsFlt 53 (-1074) 971 s) : IsFlt 53 (-1074) 971 (l.foldl dotStep s) := by
  induction l generalizing s with
  | nil => exact hs
  | cons xy r ih =>
    refine ih _ ?_
    unfold dotStep
    generalize fltMul 53 (-1074) 971 xy.1 xy.2 = w
    cases s <;> cases w <;> first | trivial | exact roundBin_isFlt (by norm_num) (by norm_num) _

theorem dot_exact (ms ns : List Int) (s : Int) (h : s.natAbs + dotSize ms ns ≤ 2 ^ 53) :
    (List.zipWith (fun m n : Int => ((Flt.num (m : ℚ), Flt.num (n : ℚ)) : Flt ℚ × Flt ℚ)) ms ns).foldl dotStep (.num (s : ℚ)) =
      .num ((s + dotWhole ms ns : Int) : ℚ) := by
  induction ms generalizing ns s with
  | nil => simp [dotWhole]
  | cons m ms ih =>
    cases ns with
    | nil => simp [dotWhole]
    | cons n ns =>
      have hd : dotSize (m :: ms) (n :: ns) = (m * n).natAbs + dotSize ms ns := by simp [dotSize]
      have hw : dotWhole (m :: ms) (n :: ns) = m * n + dotWhole ms ns := by simp [dotWhole]
      rw [hd] at h
      have h1 : (m * n).natAbs ≤ 2 ^ 53 := by omega
      have h2 : (s + m * n).natAbs ≤ 2 ^ 53 := by omega
      have e : dotStep (.num (s : ℚ)) (.num (m : ℚ), .num (n : ℚ)) = .num ((s + m * n : Int) : ℚ) := by
        have e1 : roundBin 53 (-1074) 971 ((m : ℚ) * n) = .num ((m : ℚ) * n) := by
          have := isFloat_small h1
          push_cast at this
          exact roundBin_exact this
        have e2 : roundBin 53 (-1074) 971 ((s : ℚ) + m * n) = .num ((s : ℚ) + m * n) := by
          have := isFloat_small h2
          push_cast at this
          exact roundBin_exact this
        simp only [dotStep, fltMul, e1, fltAdd, e2]
        push_cast
        rfl
      rw [List.zipWith_cons_cons, List.foldl_cons, e, ih ns (s + m * n) (by omega), hw, add_assoc]

/-- The pairs that the loop reads. -/
theorem pairs_eq {h g : Held Elem} {n : Nat} (hs : h.view.shape = [n]) (gs : g.view.shape = [n]) :
    ((List.range n).map fun i => (elemF64 h [i], elemF64 g [i])) =
      List.zipWith (fun x y => ((readF64 x).getD (.num 0), (readF64 y).getD (.num 0))) h.nd.toList g.nd.toList := by
  have e : ∀ k : Held Elem, k.view.shape = [n] → k.nd.toList = (List.range n).map fun i => k.nd.get [i] := by
    intro k hk
    unfold Nd.toList
    rw [show k.nd.shape = [n] from hk, indices_singleton, List.map_map]
    rfl
  rw [e h hs, e g gs, List.zipWith_map, List.zipWith_self]
  rfl

theorem dot_eq (pw : Powf) (neg : Bool) (mm : Outcome (DType × Arr Elem)) (a b : DType) {h g : Held Elem} {n : Nat} (hs : h.view.shape = [n])
    (gs : g.view.shape = [n]) :
    dotElem pw neg mm a b h g = .ok (a, ⟨[], [writeF64 a ((List.zipWith (fun x y => ((readF64 x).getD (.num 0), (readF64 y).getD (.num 0)))
      h.nd.toList g.nd.toList).foldl dotStep (.num 0))]⟩) := by
  unfold dotElem
  rw [if_pos (by rw [hs, gs]; exact ⟨rfl, rfl⟩), if_neg (by rw [hs, gs]; simp), ← pairs_eq hs gs, hs]
  rfl

/-- C113: vectors of different lengths have no inner product. -/
theorem C113_lengths (pw : Powf) (neg : Bool) (mm : Outcome (DType × Arr Elem)) (a b : DType) {h g : Held Elem} {m n : Nat}
    (hs : h.view.shape = [m]) (gs : g.view.shape = [n]) : dotElem pw neg mm a b h g = .error ↔ m ≠ n := by
  unfold dotElem
  rw [if_pos (by rw [hs, gs]; exact ⟨rfl, rfl⟩), hs, gs]
  by_cases hmn : m = n
  · subst hmn
    simp
  · simp [hmn]

/-- C113 (partial): the inner product of two integer vectors, of any layouts, is exact, if the magnitudes of the products sum to at most `2^53`
and the result is in the range of the first dtype. Missing: larger integers, and the dtype, which is the first and not the common one. -/
theorem C113_integers_partial (pw : Powf) (neg : Bool) (mm : Outcome (DType × Arr Elem)) {a : DType} (b : DType) (ha : isIntegerKind a = true)
    {lo hi : Int} (hr : a.intRange = some (lo, hi)) {h g : Held Elem} {n : Nat} (hs : h.view.shape = [n]) (gs : g.view.shape = [n])
    {ms ns : List Int} (hm : h.nd.toList = ms.map .int) (hn : g.nd.toList = ns.map .int) (m53 : ∀ m ∈ ms, m.natAbs ≤ 2 ^ 53)
    (n53 : ∀ m ∈ ns, m.natAbs ≤ 2 ^ 53) (hsz : dotSize ms ns ≤ 2 ^ 53) (h1 : lo ≤ dotWhole ms ns) (h2 : dotWhole ms ns ≤ hi) :
    dotElem pw neg mm a b h g = .ok (a, ⟨[], [.int (dotWhole ms ns)]⟩) := by
  rw [dot_eq pw neg mm a b hs gs, hm, hn]
  have e : List.zipWith (fun x y => ((readF64 x).getD (.num 0), (readF64 y).getD (.num 0))) (ms.map .int) (ns.map .int) =
      List.zipWith (fun m n : Int => ((Flt.num (m : ℚ), Flt.num (n : ℚ)) : Flt ℚ × Flt ℚ)) ms ns := by
    rw [List.zipWith_map]
    clear hm hn hsz h1 h2
    induction ms generalizing ns with
    | nil => rfl
    | cons m ms ih =>
      cases ns with
      | nil => rfl
      | cons n ns =>
        rw [List.zipWith_cons_cons, List.zipWith_cons_cons, ih (fun x hx => m53 x (List.mem_cons_of_mem _ hx)) (fun x hx => n53 x (List.mem_cons_of_mem _ hx))]
        have e1 := intToF64_exact (m53 m List.mem_cons_self)
        have e2 := intToF64_exact (n53 n List.mem_cons_self)
        simp only [readF64, e1, e2, Option.getD_some]
  rw [e]
  have := dot_exact ms ns 0 (by simpa using hsz)
  rw [Int.cast_zero, Int.zero_add] at this
  rw [this, writeF64_whole ha hr h1 h2]

/-- C113: the inner product of a float vector and a vector of real numbers that doubles hold: the products are added one after the other in
double precision, and the sum is rounded to the first dtype. -/
theorem C113_floats (pw : Powf) (neg : Bool) (mm : Outcome (DType × Arr Elem)) {a b : DType} (ha : DType.isFloat a = true) (hb : b.Real)
    {p : Nat} {lo hi : Int} (hfm : a.format = some (p, lo, hi)) {h g : Held Elem} {n : Nat} (hs : h.view.shape = [n]) (gs : g.view.shape = [n])
    (ht : Typed a h) (gt : Typed b g) (hsmall : ∀ i, InShape g.view.shape i → ∀ n, g.nd.get i = .int n → n.natAbs ≤ 2 ^ 53) :
    ∃ (us vs : List (Flt ℚ)) (t w : Flt ℚ), h.nd.toList = us.map Elem.flt ∧ g.nd.toList.map Elem.parts = vs.map (fun v => some (v, .num 0)) ∧
      Adds (.num 0) (us.zip vs) t ∧ IsRounding p lo hi t w ∧ dotElem pw neg mm a b h g = .ok (a, ⟨[], [.flt w]⟩) := by
  have hH : ∀ x ∈ h.nd.toList, ∃ u, x = .flt u := by
    intro x hx
    obtain ⟨i, hi, rfl⟩ := List.mem_map.1 hx
    have := ht i (mem_indices.1 hi)
    generalize h.nd.get i = x at this
    cases x with
    | flt u => exact ⟨u, rfl⟩
    | int n => rcases isFloat_cases ha with rfl | rfl | rfl <;> (obtain ⟨_, _, h0, -⟩ := this; cases h0)
    | _ => rcases isFloat_cases ha with rfl | rfl | rfl <;> exact this.elim
  have hG : ∀ x ∈ g.nd.toList, ∃ u, readF64 x = some u ∧ x.parts = some (u, .num 0) := by
    intro x hx
    obtain ⟨i, hi, rfl⟩ := List.mem_map.1 hx
    obtain ⟨u, e1, e2, -⟩ := readF64_real hb (gt i (mem_indices.1 hi)) (hsmall i (mem_indices.1 hi))
    exact ⟨u, e1, e2⟩
  obtain ⟨us, hus⟩ : ∃ us : List (Flt ℚ), h.nd.toList = us.map Elem.flt := by
    generalize h.nd.toList = l at hH
    induction l with
    | nil => exact ⟨[], rfl⟩
    | cons x r ih =>
      obtain ⟨us, e⟩ := ih fun y hy => hH y (List.mem_cons_of_mem _ hy)
      obtain ⟨u, rfl⟩ := hH x List.mem_cons_self
      exact ⟨u :: us, by rw [e]; rfl⟩
  obtain ⟨vs, hv1, hv2⟩ : ∃ vs : List (Flt ℚ), g.nd.toList.map readF64 = vs.map some ∧ g.nd.toList.map Elem.parts = vs.map (fun v => some (v, .num 0)) := by
    generalize g.nd.toList = l at hG
    induction l with
    | nil => exact ⟨[], rfl, rfl⟩
    | cons x r ih =>
      obtain ⟨vs, e1, e2⟩ := ih fun y hy => hG y (List.mem_cons_of_mem _ hy)
      obtain ⟨v, f1, f2⟩ := hG x List.mem_cons_self
      exact ⟨v :: vs, by rw [List.map_cons, e1, f1]; rfl, by rw [List.map_cons, e2, f2]; rfl⟩
  have hp : List.zipWith (fun x y => ((readF64 x).getD (.num 0), (readF64 y).getD (.num 0))) h.nd.toList g.nd.toList = us.zip vs := by
    have e1 : List.zipWith (fun x y => ((readF64 x).getD (.num 0), (readF64 y).getD (.num 0))) h.nd.toList g.nd.toList =
        ((h.nd.toList.map readF64).map (·.getD (.num 0))).zip ((g.nd.toList.map readF64).map (·.getD (.num 0))) := by
      rw [List.map_map, List.map_map, List.zip, List.zipWith_map]
      rfl
    rw [e1, hus, hv1]
    simp only [List.map_map]
    congr 1
    · exact List.map_id us
    · exact List.map_id vs
  rw [dot_eq pw neg mm a b hs gs, hp]
  have hacc := isFlt_foldl (us.zip vs) (.num 0) (isFloat_zero (by norm_num))
  have hadds := adds_foldl (us.zip vs) (.num 0)
  generalize (us.zip vs).foldl dotStep (.num 0) = t at hacc hadds
  rcases isFloat_cases ha with rfl | rfl | rfl <;> cases hfm
  · exact ⟨us, vs, t, _, hus, hv2, hadds, toFormat_rounding (by norm_num) (by norm_num) t, rfl⟩
  · exact ⟨us, vs, t, _, hus, hv2, hadds, toFormat_rounding (by norm_num) (by norm_num) t, rfl⟩
  · exact ⟨us, vs, t, t, hus, hv2, hadds, isRounding_self hacc, rfl⟩

/-- C113 (partial): a 0-d integer array of the dtype of the other operand multiplies each of its integers, on either side, modulo the size of
the dtype. Missing: scalars beyond `2^53`; a scalar of another dtype is converted to that of the array. -/
theorem C113_scalar_integers_partial (pw : Powf) (neg : Bool) (mm : Outcome (DType × Arr Elem)) {d e : DType} (hd : isIntegerKind d = true)
    {lo hi : Int} (hr : d.intRange = some (lo, hi)) {h s : Held Elem} (hw : h.view.WF) (ht : Typed d h) (hs : h.view.shape ≠ [])
    (s0 : s.view.shape = []) {n : Int} (hn : s.nd.get [] = .int n) (h1 : lo ≤ n) (h2 : n ≤ hi) (h53 : n.natAbs ≤ 2 ^ 53) :
    ∃ q, dotElem pw neg mm e d s h = .ok (d, q) ∧ dotElem pw neg mm d e h s = .ok (d, q) ∧ q.shape = h.view.shape ∧
      ∀ i, InShape h.view.shape i → ∃ m k, h.nd.get i = .int m ∧ q.at? i = some (.int k) ∧ lo ≤ k ∧ k ≤ hi ∧ (hi - lo + 1) ∣ k - m * n ∧
        (lo ≤ m * n → m * n ≤ hi → k = m * n) := by
  obtain ⟨q, q', e1, -, e3, -, e5⟩ := C96_scalar_integers_partial pw neg (op := .mul) rfl hd hr hw ht hs h1 h2 h53
  have hread : elemF64 s [] = .num (n : ℚ) := by
    have e : s.mem (s.view.addr []) = .int n := hn
    simp only [elemF64, e, readF64, intToF64_exact h53, Option.getD_some]
  have hsc : scalarOp pw neg .mul d h (.float (.num (n : ℚ))) = .ok (d, q) := by
    rw [← e1]
    have p1 := pyF64_value (s := .int n) (x := .num (n : ℚ)) ⟨h53, rfl⟩
    simp only [scalarOp, p1]
    rfl
  have l0 : s.view.shape.length = 0 := by rw [s0]; rfl
  have lh : ¬ h.view.shape.length = 0 := fun hc => hs (List.length_eq_zero_iff.1 hc)
  refine ⟨q, ?_, ?_, e3, fun i hi => ?_⟩
  · unfold dotElem
    rw [if_neg (by rw [l0]; simp), if_pos l0, hread, hsc]
  · unfold dotElem
    rw [if_neg (by rw [l0]; simp), if_neg lh, if_pos l0, hread, hsc]
  · obtain ⟨m, k, -, f1, f2, f3, f4, f5, f6, -⟩ := e5 i hi
    exact ⟨m, k, f1, f2, f3, f4, f5, f6⟩

/-- C113 (partial): a 0-d array of real numbers multiplies each number of a float array, on either side, after rounding to its format. Missing:
integer scalars beyond `2^53`, and the dtype: it is that of the array and not the common one. -/
theorem C113_scalar_floats_partial (pw : Powf) (neg : Bool) (mm : Outcome (DType × Arr Elem)) {d e : DType} (hd : DType.isFloat d = true)
    {p : Nat} {lo hi : Int} (hfm : d.format = some (p, lo, hi)) {h s : Held Elem} (hw : h.view.WF) (ht : Typed d h) (hs : h.view.shape ≠ [])
    (s0 : s.view.shape = []) (he : e.Real) (hx : (s.nd.get []).OfType e) (hsmall : ∀ n, s.nd.get [] = .int n → n.natAbs ≤ 2 ^ 53) :
    ∃ q x x', (s.nd.get []).parts = some (x, .num 0) ∧ IsRounding p lo hi x x' ∧ dotElem pw neg mm e d s h = .ok (d, q) ∧
      dotElem pw neg mm d e h s = .ok (d, q) ∧ q.shape = h.view.shape ∧
      ∀ i, InShape h.view.shape i → ∃ u w, h.nd.get i = .flt u ∧ q.at? i = some (.flt w) ∧ IsArith p lo hi .mul u x' w := by
  obtain ⟨x, r1, r2, r3⟩ := readF64_real he hx hsmall
  obtain ⟨q, q', x', e0, e1, -, e3, -, e5⟩ := C96_scalar_floats_partial pw neg (op := .mul) (by decide) hd hfm hw ht hs
    (s := .float x) (x := x) ⟨rfl, r3⟩
  have hread : elemF64 s [] = x := by
    have e : readF64 (s.mem (s.view.addr [])) = some x := r1
    simp only [elemF64, e, Option.getD_some]
  have l0 : s.view.shape.length = 0 := by rw [s0]; rfl
  have lh : ¬ h.view.shape.length = 0 := fun hc => hs (List.length_eq_zero_iff.1 hc)
  refine ⟨q, x, x', r2, e0, ?_, ?_, e3, fun i hi => ?_⟩
  · unfold dotElem
    rw [if_neg (by rw [l0]; simp), if_pos l0, hread, e1]
  · unfold dotElem
    rw [if_neg (by rw [l0]; simp), if_neg lh, if_pos l0, hread, e1]
  · obtain ⟨u, w, -, f1, f2, f3, -⟩ := e5 i hi
    exact ⟨u, w, f1, f2, f3⟩

/-! ### The hypotheses are met -/

example : dotElem noPow false .error .i32 .u8 (stored .i32 [3] [.int 2, .int (-3), .int 5]) (stored .u8 [3] [.int 7, .int 1, .int 0]) =
    .ok (.i32, ⟨[], [.int 11]⟩) :=
  C113_integers_partial noPow false .error .u8 (a := .i32) rfl rfl (n := 3) rfl rfl (ms := [2, -3, 5]) (ns := [7, 1, 0]) rfl rfl (by decide)
    (by decide) (by decide) (by decide) (by decide)

example : dotElem noPow false .error .f32 .i8 (stored .f32 [2] [.flt (.num (1 / 2)), .flt (.num 3)]) (stored .i8 [2] [.int 3, .int (-1)]) =
    .ok (.f32, ⟨[], [.flt (.num (-3 / 2))]⟩) := by decide +kernel

example : dotElem noPow false .error .i8 .i8 (stored .i8 [] [.int 3]) (stored .i8 [2] [.int 5, .int 100]) = .ok (.i8, ⟨[2], [.int 15, .int 44]⟩) ∧
    dotElem noPow false .error .f32 .f64 (stored .f32 [2] [.flt (.num 1), .flt (.num 3)]) (stored .f64 [] [.flt (.num (1 / 2))]) =
      .ok (.f32, ⟨[2], [.flt (.num (1 / 2)), .flt (.num (3 / 2))]⟩) := by decide +kernel

/-! ### Where the answers differ from NumPy's -/

/-- C113: the result has the first dtype, so `dot([1], [0.5])` of an int64 and a float64 vector is 0, whereas in the other order it is 0.5. -/
theorem C113_dtype_counterexample :
    dotElem noPow false .error .i64 .f64 (stored .i64 [1] [.int 1]) (stored .f64 [1] [.flt (.num (1 / 2))]) = .ok (.i64, ⟨[], [.int 0]⟩) ∧
      dotElem noPow false .error .f64 .i64 (stored .f64 [1] [.flt (.num (1 / 2))]) (stored .i64 [1] [.int 1]) =
        .ok (.f64, ⟨[], [.flt (.num (1 / 2))]⟩) ∧
      dotElem noPow false .error .f64 .i64 (stored .f64 [] [.flt (.num (1 / 2))]) (stored .i64 [1] [.int 4]) = .ok (.i64, ⟨[1], [.int 0]⟩) := by
  decide +kernel

/-- C113: integers saturate, where NumPy wraps around, and are rounded beyond `2^53`. -/
theorem C113_integers_counterexample :
    dotElem noPow false .error .i8 .i8 (stored .i8 [1] [.int 100]) (stored .i8 [1] [.int 2]) = .ok (.i8, ⟨[], [.int 127]⟩) ∧
      dotElem noPow false .error .i64 .i64 (stored .i64 [1] [.int (2 ^ 53 + 1)]) (stored .i64 [1] [.int 1]) =
        .ok (.i64, ⟨[], [.int (2 ^ 53)]⟩) := by decide +kernel

/-- C113: the inner product of complex vectors of equal length is always 0. -/
theorem C113_complex_counterexample (pw : Powf) (neg : Bool) (mm : Outcome (DType × Arr Elem)) {a b : DType} (ha : a = .c64 ∨ a = .c128)
    {h g : Held Elem} {n : Nat} (hs : h.view.shape = [n]) (gs : g.view.shape = [n]) (ht : Typed a h) (gt : Typed a g) :
    dotElem pw neg mm a b h g = .ok (a, ⟨[], [.cpx (.num 0) (.num 0)]⟩) := by
  have key : ∀ k : Held Elem, Typed a k → ∀ x ∈ k.nd.toList, readF64 x = none := by
    intro k hk x hx
    obtain ⟨i, hi, rfl⟩ := List.mem_map.1 hx
    have := hk i (mem_indices.1 hi)
    generalize k.nd.get i = x at this
    cases x with
    | cpx u v => rfl
    | int n => rcases ha with rfl | rfl <;> (obtain ⟨_, _, h0, -⟩ := this; cases h0)
    | _ => rcases ha with rfl | rfl <;> exact this.elim
  rw [dot_eq pw neg mm a b hs gs]
  have hz : ∀ l l' : List Elem, (∀ x ∈ l, readF64 x = none) → (∀ x ∈ l', readF64 x = none) →
      (List.zipWith (fun x y => ((readF64 x).getD (.num 0), (readF64 y).getD (.num 0))) l l').foldl dotStep (.num 0) = .num 0 := by
    intro l
    induction l with
    | nil => intros; rfl
    | cons x r ih =>
      intro l' h1 h2
      cases l' with
      | nil => rfl
      | cons y r' =>
        have e : dotStep (.num 0) (.num 0, .num 0) = .num 0 := by decide +kernel
        rw [List.zipWith_cons_cons, List.foldl_cons, h1 x List.mem_cons_self, h2 y List.mem_cons_self]
        show List.foldl dotStep (dotStep (.num 0) (.num 0, .num 0)) _ = _
        rw [e]
        exact ih r' (fun z hz => h1 z (List.mem_cons_of_mem _ hz)) (fun z hz => h2 z (List.mem_cons_of_mem _ hz))
  rw [hz _ _ (key h ht) (key g gt)]
  rcases ha with rfl | rfl
  · have e : writeF64 .c64 (.num 0) = .cpx (.num 0) (.num 0) := by decide +kernel
    rw [e]
  · rfl

end Props
