import Verif.Lemmas.SearchElem
import Verif.Props.MixedCompare

/-!
# C111: `searchsorted` for arrays of two dtypes, Python numbers and sides
-/

namespace Props
open Spec Rumpy

/-- An element that the conversion to the common dtype `d` of the search does not change: `d` holds every element of its dtype `a`, or it is
not an integer beyond `2^53`. -/
def ExactIn (a d : DType) (x : Elem) : Prop := Spec.Fits a d ∨ ∀ n, x = .int n → n.natAbs ≤ 2 ^ 53

/-- `p` is where the value `x` belongs among sorted places, before (left) or after (right) its equals. -/
def Belongs (left : Bool) (pl : List (WithBot (WithTop ℚ))) (x : Elem) (k : Nat) : Prop :=
  ∃ p, x.place = some p ∧ if left then InsertLeft pl p k else InsertRight pl p k

theorem astype_shape (a b : DType) (h : Held Elem) : (astype a b h).shape = h.view.shape := by
  unfold astype copyArr castArr mapUnaryFallback
  dsimp only
  split_ifs <;> rfl

theorem broadcastsTo_self (s : List Nat) : BroadcastsTo s s := ⟨le_refl _, fun _ _ => Or.inr rfl⟩

/-- C111 (partial): the positions found among the sorted elements of one dtype for the elements of another, provided no element is NaN and
every one is exact in the common dtype.  Missing: integers beyond `2^53` that meet floats or the other signedness, NaN, complex numbers; see
the counterexamples. -/
theorem C111_arrays_partial {a b : DType} (ha : a.Real) (hb : b.Real) {h g : Held Elem} (hw : h.view.WF) (hwg : g.view.WF) (ht : Typed a h)
    (htg : Typed b g) {n : Nat} (hs : h.view.shape = [n]) (hx : ∀ i, InShape h.view.shape i → ExactIn a (promote a b) (h.nd.get i))
    (hxg : ∀ i, InShape g.view.shape i → ExactIn b (promote a b) (g.nd.get i)) {pl : List (WithBot (WithTop ℚ))}
    (hpl : h.nd.toList.map Elem.place = pl.map some) (hsort : pl.Pairwise (· ≤ ·))
    (hv : ∀ i, InShape g.view.shape i → (g.nd.get i).place ≠ none) (left : Bool) :
    ∃ pos : List Nat → Nat, ∃ r, searchElems a b h g left = some r ∧ r.Is ⟨g.view.shape, pos⟩ ∧
      ∀ i, InShape g.view.shape i → Belongs left pl (g.nd.get i) (pos i) := by
  have hdr : (promote a b).Real := (common_table a (mem_realTypes ha) b (mem_realTypes hb)).2.1
  obtain ⟨w1, s1, g1⟩ := operand_get a (promote a b) hw (fun _ hc => absurd hc (by rw [(nottime_of_real ha).1]; decide)) (itemsize_real hdr)
  obtain ⟨w2, s2, g2⟩ := operand_get b (promote a b) hwg (fun _ hc => absurd hc (by rw [(nottime_of_real hb).1]; decide)) (itemsize_real hdr)
  unfold searchElems
  dsimp only at *
  generalize (if a ≠ promote a b then recast a (promote a b) h else h) = h' at *
  generalize (if b ≠ promote a b then recast b (promote a b) g else g) = g' at *
  have get1 : ∀ i, InShape h.view.shape i → h'.nd.get i = castElem a (promote a b) (h.nd.get i) := by
    intro i hi
    have e := g1 h.view.shape (broadcastsTo_self _) i hi
    have e' : (h.nd.broadcast h.view.shape).get i = h.nd.get i := bcast_self (a := h.nd) rfl hi
    rwa [bcast_self (a := h'.nd) s1 hi, e'] at e
  have get2 : ∀ i, InShape g.view.shape i → g'.nd.get i = castElem b (promote a b) (g.nd.get i) := by
    intro i hi
    have e := g2 g.view.shape (broadcastsTo_self _) i hi
    have e' : (g.nd.broadcast g.view.shape).get i = g.nd.get i := bcast_self (a := g.nd) rfl hi
    rwa [bcast_self (a := g'.nd) s2 hi, e'] at e
  have k1 : ∀ i, InShape h.view.shape i → ∃ u, Kept (promote a b) u (h'.nd.get i) ∧ (h'.nd.get i).place = (h.nd.get i).place := by
    intro i hi
    obtain ⟨u, p1, p2⟩ := cast_kept ha hb (Or.inl rfl) (ht i hi) (hx i hi)
    rw [get1 i hi]
    exact ⟨u, p2, by rw [kept_place p2, place_parts p1 ha (ht i hi)]⟩
  have k2 : ∀ i, InShape g.view.shape i → ∃ u, Kept (promote a b) u (g'.nd.get i) ∧ (g'.nd.get i).place = (g.nd.get i).place := by
    intro i hi
    obtain ⟨u, p1, p2⟩ := cast_kept hb ha (Or.inr rfl) (htg i hi) (hxg i hi)
    rw [get2 i hi]
    exact ⟨u, p2, by rw [kept_place p2, place_parts p1 hb (htg i hi)]⟩
  have hpl' : h'.nd.toList.map Elem.place = pl.map some := by
    rw [← hpl]
    simp only [Nd.toList, List.map_map]
    have e : h'.nd.shape = h.nd.shape := s1
    rw [e]
    apply List.map_congr_left
    intro i hi
    exact (k1 i (mem_indices.1 hi)).choose_spec.2
  obtain ⟨pos, r, r1, r2, r3⟩ := search_core (d := promote a b) w1 (s1.trans hs)
    (fun i hi => (k1 i (s1 ▸ hi)).imp fun _ h => h.1) (fun i hi => (k2 i (s2 ▸ hi)).imp fun _ h => h.1) hpl' hsort
    (fun i hi => by obtain ⟨u, -, e⟩ := k2 i (s2 ▸ hi); rw [e]; exact hv i (s2 ▸ hi)) left
  refine ⟨pos, r, r1, s2 ▸ r2, fun i hi => ?_⟩
  obtain ⟨p, p1, p2⟩ := r3 i (s2 ▸ hi)
  obtain ⟨u, -, e⟩ := k2 i hi
  exact ⟨p, e ▸ p1, p2⟩

/-- The answers of the function and of the method for an array are those of the search, except that the method takes an array of one element
for a number. -/
theorem C111_array_answers (a b : DType) (h g : Held Elem) (side : String) {r : Arr Nat} (hr : searchElems a b h g (sideLeft side) = some r) :
    searchFn a h (.array b g) side = .ok (.array r) ∧
      (size g.view.shape ≠ 1 → searchMethod a h (.array b g) side = .ok (.array r)) := by
  constructor
  · simp only [searchFn, hr]
  · intro hne
    have hne' : ¬ Rumpy.sizeOf g.view.shape = 1 := by rw [sizeOf_eq]; exact hne
    simp only [searchMethod, searchNumber, if_neg hne', hr]

/-- C111: `side="right"` inserts after equal elements, every other string before them. -/
theorem C111_sides (side : String) : sideLeft side = false ↔ side = "right" := by simp [sideLeft]

/-- C111: only one-dimensional arrays can be searched. -/
theorem C111_not_1d (a : DType) {h : Held Elem} (hd : h.view.shape.length ≠ 1) (v : SearchArg) (side : String) :
    searchFn a h v side = .error ∧ searchMethod a h v side = .error := by
  have key : ∀ b g left, searchElems a b h g left = none := by
    intro b g left
    apply C25_searchsorted_error
    by_cases hc : a ≠ promote a b
    · rw [if_pos hc]
      have e : (recast a (promote a b) h).view.shape = h.view.shape := astype_shape _ _ _
      rw [e]; exact hd
    · rw [if_neg hc]; exact hd
  constructor
  · cases v with
    | array b g => simp only [searchFn, key]
    | number s =>
      simp only [searchFn]
      cases pyF64 s with
      | none => rfl
      | some x => simp only [Option.bind_some, key]
  · unfold searchMethod
    cases searchNumber v with
    | some x => simp only [key]
    | none =>
      cases v with
      | array b g => simp only [key]
      | number s => rfl

/-- C111 (partial): a Python number is found where its value belongs among the sorted elements, provided the integers are at most `2^53` in
magnitude and nothing is NaN: the method answers the position, the function an array of the shape `(1,)` that holds it. -/
theorem C111_number_partial {a : DType} (ha : a.Real) {h : Held Elem} (hw : h.view.WF) (ht : Typed a h) {n : Nat} (hs : h.view.shape = [n])
    (hx : ∀ i, InShape h.view.shape i → ∀ n, h.nd.get i = .int n → n.natAbs ≤ 2 ^ 53) {pl : List (WithBot (WithTop ℚ))}
    (hpl : h.nd.toList.map Elem.place = pl.map some) (hsort : pl.Pairwise (· ≤ ·)) {s : PyScalar} {x : Flt ℚ} (hv : s.Value x)
    (hnan : x.place ≠ none) (side : String) :
    ∃ k, searchMethod a h (.number s) side = .ok (.int k) ∧ searchFn a h (.number s) side = .ok (.array ⟨[1], [k]⟩) ∧
      Belongs (sideLeft side) pl (.flt x) k := by
  have hxf : IsFlt 53 (-1074) 971 x := by
    cases s with
    | int n => obtain ⟨h1, rfl⟩ := hv; exact isFloat_small h1
    | float y => obtain ⟨rfl, h⟩ := hv; exact h
    | complex y z => exact hv.elim
  obtain ⟨w, sh, hget⟩ := fullOne_get (d := .f64) trivial x (s := [1]) (by simp)
  have hone : ∀ i, InShape (fullOne .f64 x).view.shape i → (fullOne .f64 x).nd.get i = .flt x := by
    intro i hi
    rw [sh] at hi
    have e := hget i hi
    rw [bcast_self (a := (fullOne .f64 x).nd) sh hi] at e
    rw [e]
    rfl
  obtain ⟨pos, r, h1, h2, h3⟩ := C111_arrays_partial ha (b := .f64) trivial hw w ht (fullOne_typed (d := .f64) trivial hxf) hs
    (fun i hi => Or.inr (hx i hi)) (fun i hi => Or.inr fun n hn => by rw [hone i hi] at hn; cases hn) hpl hsort
    (fun i hi => by rw [hone i hi]; exact hnan) (sideLeft side)
  have hin : InShape (fullOne .f64 x).view.shape [0] := by rw [sh]; exact ⟨Nat.one_pos, trivial⟩
  have hr : r = ⟨[1], [pos [0]]⟩ := by
    obtain ⟨e1, e2⟩ := h2
    dsimp only at e1 e2
    rw [sh] at e1 e2
    cases r
    dsimp only at e1 e2
    subst e1
    congr 1
  have hb := h3 [0] hin
  rw [hone _ hin] at hb
  refine ⟨pos [0], ?_, ?_, hb⟩
  · simp only [searchMethod, searchNumber, pyF64_value hv, h1, hr]
    rfl
  · simp only [searchFn, pyF64_value hv, Option.bind_some, h1, hr]

/-! ### The hypotheses are met -/

/-- `searchsorted` of `[1, 3, 3, 7]` (int16) for `[3.0, 8.5]` (float32). -/
example : searchFn .i16 (stored .i16 [4] [.int 1, .int 3, .int 3, .int 7]) (.array .f32 (stored .f32 [2] [.flt (.num 3), .flt (.num (17 / 2))])) "left" =
    .ok (.array ⟨[2], [1, 4]⟩) := by decide +kernel

example : ∃ pos : List Nat → Nat, ∃ r,
    searchElems .i16 .f32 (stored .i16 [3] [.int 1, .int 3, .int 7]) (stored .f32 [1] [.flt (.num 3)]) true = some r ∧ r.Is ⟨[1], pos⟩ ∧
      ∀ i, InShape [1] i → Belongs true [((1 : ℚ) : WithTop ℚ), ((3 : ℚ) : WithTop ℚ), ((7 : ℚ) : WithTop ℚ)]
        ((stored .f32 [1] [.flt (.num 3)]).nd.get i) (pos i) := by
  refine C111_arrays_partial (a := .i16) (b := .f32) trivial trivial (held_of_wf _ _ _) (held_of_wf _ _ _) ?_ ?_ rfl
    (fun i hi => Or.inl ((fits_iff (real_numeric (a := .i16) trivial) (real_numeric (a := .f32) trivial)).2 (by decide +kernel))) (fun i hi => Or.inl ((fits_iff (real_numeric (a := .f32) trivial) (real_numeric (a := .f32) trivial)).2 (by decide +kernel)))
    rfl ?_ ?_ true
  · intro i hi
    have hi' : InShape [3] i := hi
    rcases mem_indices.2 hi' with _ | ⟨_, _ | ⟨_, _ | ⟨_, h⟩⟩⟩
    · exact ⟨-32768, 32767, rfl, by decide, by decide⟩
    · exact ⟨-32768, 32767, rfl, by decide, by decide⟩
    · exact ⟨-32768, 32767, rfl, by decide, by decide⟩
    · cases h
  · intro i hi
    have hi' : InShape [1] i := hi
    rcases mem_indices.2 hi' with _ | ⟨_, h⟩
    · exact ⟨3, 0, by norm_num, by norm_num, by norm_num, by norm_num⟩
    · cases h
  · simp only [List.pairwise_cons, List.mem_cons, List.not_mem_nil, or_false, forall_eq_or_imp, forall_eq, WithBot.coe_le_coe, WithTop.coe_le_coe]
    norm_num
  · intro i hi
    have hi' : InShape [1] i := hi
    rcases mem_indices.2 hi' with _ | ⟨_, h⟩
    · exact fun h => nomatch h
    · cases h

/-! ### Where the answers differ from NumPy's -/

/-- C111: the function answers an array of the shape `(1,)` for a number, where NumPy answers an integer; the method answers an integer for an
array of one element, where NumPy answers an array; any other side than `"right"` is taken for `"left"`, where NumPy raises ValueError. -/
theorem C111_answers_counterexample :
    searchFn .i64 (stored .i64 [2] [.int 1, .int 3]) (.number (.int 2)) "left" = .ok (.array ⟨[1], [1]⟩) ∧
      searchMethod .i64 (stored .i64 [2] [.int 1, .int 3]) (.array .i64 (stored .i64 [1] [.int 2])) "left" = .ok (.int 1) ∧
      searchFn .i64 (stored .i64 [2] [.int 1, .int 3]) (.number (.int 1)) "rihgt" = .ok (.array ⟨[1], [0]⟩) := by decide +kernel

/-- C111: a Python integer is rounded to a double, and the elements too: `2^53 + 1` is found before `2^53`; so is the int64 `2^53 + 1` in a
one-element array given to the method. NumPy answers 1. -/
theorem C111_large_counterexample :
    searchMethod .i64 (stored .i64 [1] [.int (2 ^ 53)]) (.number (.int (2 ^ 53 + 1))) "left" = .ok (.int 0) ∧
      searchMethod .i64 (stored .i64 [1] [.int (2 ^ 53)]) (.array .i64 (stored .i64 [1] [.int (2 ^ 53 + 1)])) "left" = .ok (.int 0) ∧
      searchFn .i64 (stored .i64 [1] [.int (2 ^ 53)]) (.array .i64 (stored .i64 [1] [.int (2 ^ 53 + 1)])) "left" = .ok (.array ⟨[1], [1]⟩) := by
  decide +kernel

/-- C111: NaN is equal to everything, so it is found at the front, where NumPy puts it at the end; complex numbers are ordered by magnitude, so
`1` is found before `-2`, where NumPy answers 1. -/
theorem C111_order_counterexample :
    searchFn .f64 (stored .f64 [2] [.flt (.num 1), .flt (.num 2)]) (.number (.float .nan)) "left" = .ok (.array ⟨[1], [0]⟩) ∧
      searchFn .c128 (stored .c128 [1] [.cpx (.num (-2)) (.num 0)]) (.array .c128 (stored .c128 [1] [.cpx (.num 1) (.num 0)])) "left" =
        .ok (.array ⟨[1], [0]⟩) := by decide +kernel

end Props
