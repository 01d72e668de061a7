import Verif.Lemmas.MixedCompare
import Verif.Props.Datetime
/-!
# C104: comparisons of arrays of different dtypes and with Python numbers
-/

namespace Props
open Spec Rumpy

/-- What the operator says about the values of two elements that are real numbers. -/
def _root_.Spec.Cmp.HoldsElem (op : Cmp) (x y : Elem) : Prop :=
  ∃ u v, x.parts = some (u, .num 0) ∧ y.parts = some (v, .num 0) ∧ op.HoldsFlt u v

/-- `u'` is `u` rounded to a double, and a number if `u` is one. -/
def IsDouble (u u' : Flt ℚ) : Prop := IsRounding 53 (-1074) 971 u u' ∧ ((∃ q, u = .num q) → ∃ q, u' = .num q)

/-! ### Arrays -/

theorem dispatch_array (op : Cmp) (a b : DType) (h g : Held Elem) :
    compareDispatch op a h (.array b g) = match compareArrays op a b h g with
      | some r => .ok r
      | none => .error := rfl

/-- What is compared: the values themselves, or, if the common dtype cannot hold them, the values rounded to doubles. -/
theorem cmp_real (op : Cmp) {a b : DType} (ha : a.Real) (hb : b.Real) {x y : Elem} (hx : x.OfType a) (hy : y.OfType b) :
    ∃ u v u' v', x.parts = some (u, .num 0) ∧ y.parts = some (v, .num 0) ∧
      (cmpElem (promote a b) op (castElem a (promote a b) x) (castElem b (promote a b) y) = true ↔ op.HoldsFlt u' v') ∧
      (u' = u ∧ v' = v ∨ (¬ Fits a (promote a b) ∨ ¬ Fits b (promote a b)) ∧ IsDouble u u' ∧ IsDouble v v' ∧ (u = v → u' = v')) := by
  obtain ⟨hc, hr, -, -⟩ := common_table a (mem_realTypes ha) b (mem_realTypes hb)
  have fa := fits_iff (real_numeric ha) (real_numeric hr)
  have fb := fits_iff (real_numeric hb) (real_numeric hr)
  rcases hc with ⟨h1, rfl, rfl⟩ | ⟨hri, h1, h2⟩ | ⟨hfl, h1, h2⟩
  · cases x <;> first | exact hx.elim | (obtain ⟨_, _, h, _⟩ := hx; cases h; done) | skip
    cases y <;> first | exact hy.elim | (obtain ⟨_, _, h, _⟩ := hy; cases h; done) | skip
    refine ⟨_, _, _, _, rfl, rfl, ?_, Or.inl ⟨rfl, rfl⟩⟩
    exact cmpFlt_iff op _ _
  · obtain ⟨n, p1, c1⟩ := cast_common_int ha hri h1 hx
    obtain ⟨m, p2, c2⟩ := cast_common_int hb hri h2 hy
    refine ⟨_, _, _, _, p1, p2, ?_, Or.inl ⟨rfl, rfl⟩⟩
    rw [c1, c2, holdsFlt_num, holds_cast]
    exact cmpWhole_iff op n m
  · obtain ⟨u, p1⟩ := parts_real ha hx
    obtain ⟨v, p2⟩ := parts_real hb hy
    obtain ⟨p, lo, hi, hfm⟩ : ∃ p lo hi, (promote a b).format = some (p, lo, hi) := by
      rcases isFloat_cases hfl with h | h | h <;> rw [h] <;> exact ⟨_, _, _, rfl⟩
    refine ⟨u, v, toFormat p lo hi u, toFormat p lo hi v, p1, p2, ?_, ?_⟩
    · rw [cast_common_float ha hfl hfm h1 hx p1, cast_common_float hb hfl hfm h2 hy p2]
      exact cmpFlt_iff op _ _
    · have keep : ∀ {c : DType} {z : Elem} {w : Flt ℚ}, c.Real → fitsTable c (promote a b) = true → z.OfType c → z.parts = some (w, .num 0) →
          toFormat p lo hi w = w := by
        intro c z w hc hf hz hw
        have := isFlt_of_fits hc hfl hf hfm hz hw
        cases w <;> first | rfl | exact roundBin_exact this
      by_cases hboth : fitsTable a (promote a b) = true ∧ fitsTable b (promote a b) = true
      · exact Or.inl ⟨keep ha hboth.1 hx p1, keep hb hboth.2 hy p2⟩
      · refine Or.inr ?_
        have h64 : promote a b = .f64 := by
          rcases h1 with h1 | h1
          · rcases h2 with h2 | h2
            · exact absurd ⟨h1, h2⟩ hboth
            · exact h2.2
          · exact h1.2
        rw [h64] at hfm
        cases hfm
        have dbl : ∀ {c : DType} {z : Elem} {w : Flt ℚ}, c.Real → fitsTable c (promote a b) = true ∨ (c = .i64 ∨ c = .u64) ∧ promote a b = .f64 →
            z.OfType c → z.parts = some (w, .num 0) → IsDouble w (toFormat 53 (-1074) 971 w) := by
          intro c z w hc hf hz hw
          refine ⟨toFormat_rounding (by norm_num) (by norm_num) w, ?_⟩
          rintro ⟨q, rfl⟩
          rcases hf with hf | ⟨hc64, -⟩
          · rw [keep hc hf hz hw]
            exact ⟨q, rfl⟩
          · have : ∃ n : Int, z = .int n ∧ n.natAbs < 2 ^ 65 := by
              rcases hc64 with rfl | rfl
              all_goals
                cases z <;> first | exact hz.elim | skip
                obtain ⟨l, g, hr, h1, h2⟩ := hz
                cases hr
                exact ⟨_, rfl, by omega⟩
            obtain ⟨n, rfl, hn⟩ := this
            cases hw
            exact ⟨_, intToF64_round hn⟩
        refine ⟨?_, dbl ha h1 hx p1, dbl hb h2 hy p2, fun h => by rw [h]⟩
        rw [fa, fb]
        by_contra hcon
        rw [not_or, not_not, not_not] at hcon
        exact hboth hcon

/-- C104: arrays of bools, integers and floats are compared exactly when their shapes broadcast. -/
theorem C104_accepts (op : Cmp) {a b : DType} (ha : a.Real) (hb : b.Real) {h g : Held Elem} (hw : h.view.WF) (gw : g.view.WF) :
    (∃ r, compareDispatch op a h (.array b g) = .ok r) ↔ ∃ out, IsBroadcast h.view.shape g.view.shape out := by
  obtain ⟨hc, hr, t1, t2⟩ := common_table a (mem_realTypes ha) b (mem_realTypes hb)
  have key := (compareArrays_is op a b hw gw (fun _ h => by rw [t1] at h; cases h) (fun _ h => by rw [t2] at h; cases h) (itemsize_real hr)).1
  rw [← key, dispatch_array]
  cases compareArrays op a b h g <;> simp

/-- The comparison of two arrays, element by element. -/
theorem compare_get (op : Cmp) {a b : DType} (ha : a.Real) (hb : b.Real) {h g : Held Elem} (hw : h.view.WF) (gw : g.view.WF) {out : List Nat}
    (ho : IsBroadcast h.view.shape g.view.shape out) :
    ∃ r, compareArrays op a b h g = some r ∧ r.shape = out ∧ r.data.length = size out ∧ ∀ i, InShape out i →
      r.at? i = some (cmpElem (promote a b) op (castElem a (promote a b) ((h.nd.broadcast out).get i))
        (castElem b (promote a b) ((g.nd.broadcast out).get i))) := by
  obtain ⟨hc, hr, t1, t2⟩ := common_table a (mem_realTypes ha) b (mem_realTypes hb)
  obtain ⟨r, h1, h2⟩ := (compareArrays_is op a b hw gw (fun _ h => by rw [t1] at h; cases h) (fun _ h => by rw [t2] at h; cases h)
    (itemsize_real hr)).2 out ho
  obtain ⟨q1, q2, q3⟩ := Arr.is_iff.1 h2
  exact ⟨r, h1, q1, q2, q3⟩

/-- C104: if the common dtype can hold the values of both dtypes, the numbers themselves are compared. -/
theorem C104_exact (op : Cmp) {a b : DType} (ha : a.Real) (hb : b.Real) (fa : Fits a (promote a b)) (fb : Fits b (promote a b))
    {h g : Held Elem} (hw : h.view.WF) (gw : g.view.WF) (ht : Typed a h) (gt : Typed b g) {out : List Nat}
    (ho : IsBroadcast h.view.shape g.view.shape out) :
    ∃ r, compareDispatch op a h (.array b g) = .ok r ∧
      Tells r out fun i => op.HoldsElem ((h.nd.broadcast out).get i) ((g.nd.broadcast out).get i) := by
  obtain ⟨r, h1, h2, h3, h4⟩ := compare_get op ha hb hw gw ho
  obtain ⟨b1, b2⟩ := broadcastsTo_of ho
  refine ⟨r, by rw [dispatch_array, h1], h2, h3, fun i hi => ⟨_, h4 i hi, ?_⟩⟩
  obtain ⟨u, v, u', v', p1, p2, hiff, hcase⟩ := cmp_real op ha hb (typed_broadcast ht b1 hi) (typed_broadcast gt b2 hi)
  rw [hiff]
  rcases hcase with ⟨rfl, rfl⟩ | ⟨hn, -⟩
  · constructor
    · intro hh
      exact ⟨_, _, p1, p2, hh⟩
    · rintro ⟨u, v, q1, q2, hh⟩
      rw [p1] at q1
      rw [p2] at q2
      cases q1
      cases q2
      exact hh
  · rcases hn with hn | hn
    · exact absurd fa hn
    · exact absurd fb hn

/-- C104: the common dtype can hold both, unless an operand has 64-bit integers and the common dtype is float64. -/
theorem C104_which {a b : DType} (ha : a.Real) (hb : b.Real) :
    Fits a (promote a b) ∧ Fits b (promote a b) ∨ (a = .i64 ∨ a = .u64 ∨ b = .i64 ∨ b = .u64) ∧ promote a b = .f64 := by
  obtain ⟨-, hr, -, -⟩ := common_table a (mem_realTypes ha) b (mem_realTypes hb)
  rw [fits_iff (real_numeric ha) (real_numeric hr), fits_iff (real_numeric hb) (real_numeric hr)]
  have key : ∀ a ∈ realTypes, ∀ b ∈ realTypes, fitsTable a (promote a b) = true ∧ fitsTable b (promote a b) = true ∨
      (a = .i64 ∨ a = .u64 ∨ b = .i64 ∨ b = .u64) ∧ promote a b = .f64 := by decide +kernel
  exact key a (mem_realTypes ha) b (mem_realTypes hb)

example : Fits .i64 (promote .i64 .u32) ∧ Fits .u32 (promote .i64 .u32) :=
  ⟨(fits_iff (by decide) (by decide)).2 (by decide +kernel), (fits_iff (by decide) (by decide)).2 (by decide +kernel)⟩

/-! ### Rounding keeps the order -/

theorem round_le {u v u' v' : Flt ℚ} (hu : IsDouble u u') (hv : IsDouble v v') (he : u = v → u' = v') (h : Cmp.le.HoldsFlt u v) :
    Cmp.le.HoldsFlt u' v' := by
  obtain ⟨r1, n1⟩ := hu
  obtain ⟨r2, n2⟩ := hv
  cases u with
  | nan => cases v <;> cases h
  | negInf =>
    have : u' = .negInf := r1.symm
    subst this
    cases v with
    | nan => cases h
    | negInf => have : v' = .negInf := r2.symm; subst this; simp [Cmp.HoldsFlt, Flt.place, Cmp.Holds]
    | posInf => have : v' = .posInf := r2.symm; subst this; simp [Cmp.HoldsFlt, Flt.place, Cmp.Holds]
    | num s => obtain ⟨s', rfl⟩ := n2 ⟨_, rfl⟩; simp [Cmp.HoldsFlt, Flt.place, Cmp.Holds]
  | posInf =>
    cases v with
    | posInf => rw [he rfl]; have : v' = .posInf := r2.symm; subst this; simp [Cmp.HoldsFlt, Flt.place, Cmp.Holds]
    | nan => cases h
    | negInf => simp [Cmp.HoldsFlt, Flt.place, Cmp.Holds] at h
    | num s => simp [Cmp.HoldsFlt, Flt.place, Cmp.Holds] at h
  | num q =>
    obtain ⟨q', rfl⟩ := n1 ⟨_, rfl⟩
    cases v with
    | nan => cases h
    | negInf => simp [Cmp.HoldsFlt, Flt.place, Cmp.Holds] at h
    | posInf =>
      have : v' = .posInf := r2.symm
      subst this
      rw [Cmp.HoldsFlt]
      exact WithBot.coe_le_coe.2 le_top
    | num s =>
      obtain ⟨s', rfl⟩ := n2 ⟨_, rfl⟩
      rw [holdsFlt_num] at h ⊢
      have h' : q ≤ s := h
      show q' ≤ s'
      rcases h'.eq_or_lt with rfl | hlt
      · have := he rfl
        injection this with this
        exact this.le
      · by_contra hc
        rw [not_le] at hc
        have e1 := r1.2 s' r2.1
        have e2 := r2.2 q' r1.1
        rcases abs_cases (q - q') with ⟨a1, a2⟩ | ⟨a1, a2⟩ <;> rcases abs_cases (q - s') with ⟨b1, b2⟩ | ⟨b1, b2⟩ <;>
          rcases abs_cases (s - s') with ⟨c1, c2⟩ | ⟨c1, c2⟩ <;> rcases abs_cases (s - q') with ⟨d1, d2⟩ | ⟨d1, d2⟩ <;>
          rw [a1, b1] at e1 <;> rw [c1, d1] at e2 <;> linarith

theorem round_nan {u u' : Flt ℚ} (hu : IsDouble u u') : u.place = none ↔ u'.place = none := by
  cases u with
  | num q => obtain ⟨r, rfl⟩ := hu.2 ⟨_, rfl⟩; simp [Flt.place]
  | nan => rw [show u' = .nan from hu.1.symm]
  | negInf => rw [show u' = .negInf from hu.1.symm]
  | posInf => rw [show u' = .posInf from hu.1.symm]

theorem holdsFlt_some {op : Cmp} {x y : Flt ℚ} (hop : op ≠ .ne) (h : op.HoldsFlt x y) :
    ∃ p q, x.place = some p ∧ y.place = some q ∧ op.Holds p q := by
  unfold Cmp.HoldsFlt at h
  cases hx : x.place with
  | none => rw [hx] at h; exact absurd h hop
  | some p =>
    cases hy : y.place with
    | none => rw [hx, hy] at h; exact absurd h hop
    | some q => rw [hx, hy] at h; exact ⟨p, q, rfl, rfl, h⟩

theorem holdsFlt_of {op : Cmp} {x y : Flt ℚ} {p q} (hx : x.place = some p) (hy : y.place = some q) (h : op.Holds p q) : op.HoldsFlt x y := by
  unfold Cmp.HoldsFlt
  rw [hx, hy]
  exact h

/-- An operator that is false of equal values is never wrongly true; the others are never wrongly false. -/
theorem round_cmp (op : Cmp) {u v u' v' : Flt ℚ} (hu : IsDouble u u') (hv : IsDouble v v') (he : u = v → u' = v') :
    (op = .lt ∨ op = .gt ∨ op = .ne → op.HoldsFlt u' v' → op.HoldsFlt u v) ∧
      (op = .le ∨ op = .ge ∨ op = .eq → op.HoldsFlt u v → op.HoldsFlt u' v') := by
  have le1 : ∀ {p q p' q'}, u.place = some p → v.place = some q → u'.place = some p' → v'.place = some q' → p ≤ q → p' ≤ q' := by
    intro p q p' q' h1 h2 h3 h4 h
    obtain ⟨_, _, e1, e2, hh⟩ := holdsFlt_some (by decide) (round_le hu hv he (holdsFlt_of h1 h2 h))
    rw [h3] at e1
    rw [h4] at e2
    cases e1
    cases e2
    exact hh
  have le2 : ∀ {p q p' q'}, u.place = some p → v.place = some q → u'.place = some p' → v'.place = some q' → q ≤ p → q' ≤ p' := by
    intro p q p' q' h1 h2 h3 h4 h
    obtain ⟨_, _, e1, e2, hh⟩ := holdsFlt_some (by decide) (round_le hv hu (fun h => (he h.symm).symm) (holdsFlt_of h2 h1 h))
    rw [h4] at e1
    rw [h3] at e2
    cases e1
    cases e2
    exact hh
  have n1 := round_nan hu
  have n2 := round_nan hv
  cases h1 : u.place with
  | none =>
    have h3 := n1.1 h1
    unfold Cmp.HoldsFlt
    rw [h1, h3]
    exact ⟨fun _ h => h, fun _ h => h⟩
  | some p =>
    cases h2 : v.place with
    | none =>
      have h4 := n2.1 h2
      unfold Cmp.HoldsFlt
      rw [h1, h2, h4]
      refine ⟨fun _ h => ?_, fun h h' => ?_⟩
      · cases hh : u'.place <;> rw [hh] at h <;> exact h
      · subst h'
        rcases h with h | h | h <;> cases h
    | some q =>
      cases h3 : u'.place with
      | none => rw [n1.2 h3] at h1; cases h1
      | some p' =>
        cases h4 : v'.place with
        | none => rw [n2.2 h4] at h2; cases h2
        | some q' =>
          have m1 := le1 h1 h2 h3 h4
          have m2 := le2 h1 h2 h3 h4
          unfold Cmp.HoldsFlt
          rw [h1, h2, h3, h4]
          refine ⟨fun hop h => ?_, fun hop h => ?_⟩
          · rcases hop with rfl | rfl | rfl
            · exact not_le.1 fun hc => absurd (m2 hc) (not_le.2 h)
            · exact not_le.1 fun hc => absurd (m1 hc) (not_le.2 h)
            · exact fun hc => h (le_antisymm (m1 hc.le) (m2 hc.ge))
          · rcases hop with rfl | rfl | rfl
            · exact m1 h
            · exact m2 h
            · exact le_antisymm (m1 (le_of_eq h)) (m2 (le_of_eq (Eq.symm h)))

/-- C104 (partial): for all bools, integers and floats, `<`, `>` and `!=` are only true of elements they hold of, and `<=`, `>=` and `==` are
true of all elements they hold of. Missing: the converses, which fail for large 64-bit integers. -/
theorem C104_order_partial (op : Cmp) {a b : DType} (ha : a.Real) (hb : b.Real) {h g : Held Elem} (hw : h.view.WF) (gw : g.view.WF)
    (ht : Typed a h) (gt : Typed b g) {out : List Nat} (ho : IsBroadcast h.view.shape g.view.shape out) :
    ∃ r, compareDispatch op a h (.array b g) = .ok r ∧ r.shape = out ∧ r.data.length = size out ∧ ∀ i, InShape out i → ∃ t, r.at? i = some t ∧
      (op = .lt ∨ op = .gt ∨ op = .ne → t = true → op.HoldsElem ((h.nd.broadcast out).get i) ((g.nd.broadcast out).get i)) ∧
      (op = .le ∨ op = .ge ∨ op = .eq → op.HoldsElem ((h.nd.broadcast out).get i) ((g.nd.broadcast out).get i) → t = true) := by
  obtain ⟨r, h1, h2, h3, h4⟩ := compare_get op ha hb hw gw ho
  obtain ⟨b1, b2⟩ := broadcastsTo_of ho
  refine ⟨r, by rw [dispatch_array, h1], h2, h3, fun i hi => ⟨_, h4 i hi, ?_⟩⟩
  obtain ⟨u, v, u', v', p1, p2, hiff, hcase⟩ := cmp_real op ha hb (typed_broadcast ht b1 hi) (typed_broadcast gt b2 hi)
  rw [hiff]
  have hel : op.HoldsElem ((h.nd.broadcast out).get i) ((g.nd.broadcast out).get i) ↔ op.HoldsFlt u v := by
    constructor
    · rintro ⟨u, v, q1, q2, hh⟩
      rw [p1] at q1
      rw [p2] at q2
      cases q1
      cases q2
      exact hh
    · intro hh
      exact ⟨_, _, p1, p2, hh⟩
  rw [hel]
  rcases hcase with ⟨rfl, rfl⟩ | ⟨-, d1, d2, he⟩
  · exact ⟨fun _ h => h, fun _ h => h⟩
  · exact round_cmp op d1 d2 he

example : Typed .i64 (stored .i64 [1] [.int (2 ^ 53 + 1)]) ∧ Typed .f64 (stored .f64 [2] [.flt (.num (1 / 2)), .flt .nan]) ∧
    IsBroadcast (stored .i64 [1] [.int (2 ^ 53 + 1)]).view.shape (stored .f64 [2] [.flt (.num (1 / 2)), .flt .nan]).view.shape [2] := by
  refine ⟨?_, ?_, isBroadcast_one' (by decide)⟩
  · rintro (_ | ⟨i, _ | _⟩) h <;> first | exact h.elim | skip
    · have : i = 0 := by have := h.1; omega
      subst this
      exact ⟨_, _, rfl, by decide, by decide⟩
    · exact h.2.elim
  · rintro (_ | ⟨i, _ | _⟩) h <;> first | exact h.elim | skip
    · have : i = 0 ∨ i = 1 := by have : i < 2 := h.1; omega
      rcases this with rfl | rfl
      · exact ⟨1, -1, by norm_num, by norm_num, by norm_num, by norm_num⟩
      · trivial
    · exact h.2.elim

/-- C104: `2^53 + 1` is neither larger than the double `2^53` nor different from it, and the same holds of an int64 and a uint64. -/
theorem C104_order_counterexample :
    (compareArrays .gt .i64 .f64 (stored .i64 [1] [.int (2 ^ 53 + 1)]) (stored .f64 [1] [.flt (.num (2 ^ 53))])).map Arr.data = some [false] ∧
      (compareArrays .eq .i64 .u64 (stored .i64 [1] [.int (2 ^ 53 + 1)]) (stored .u64 [1] [.int (2 ^ 53)])).map Arr.data = some [true] ∧
      Cmp.gt.HoldsElem (.int (2 ^ 53 + 1)) (.flt (.num (2 ^ 53))) ∧ ¬ Cmp.eq.HoldsElem (.int (2 ^ 53 + 1)) (.int (2 ^ 53)) := by
  refine ⟨by decide +kernel, by decide +kernel, ⟨_, _, rfl, rfl, ?_⟩, ?_⟩
  · rw [holdsFlt_num]
    show ((2 : ℚ) ^ 53) < ((2 ^ 53 + 1 : Int) : ℚ)
    norm_num
  · rintro ⟨u, v, h1, h2, h3⟩
    cases h1
    cases h2
    rw [holdsFlt_num, holds_cast] at h3
    exact absurd (show (2 ^ 53 + 1 : Int) = 2 ^ 53 from h3) (by norm_num)

/-! ### Python numbers -/

/-- C104 (partial): an array and a Python number compare as their values do, provided the integers are at most `2^53` in magnitude and the
array has an axis. Missing: larger integers, and arrays without axes, whose result has the shape `(1,)`. -/
theorem C104_number_partial (op : Cmp) {a : DType} (ha : a.Real) {h : Held Elem} (hw : h.view.WF) (ht : Typed a h) (hs : h.view.shape ≠ [])
    (hsmall : ∀ i, InShape h.view.shape i → ∀ n, h.nd.get i = .int n → n.natAbs ≤ 2 ^ 53) {s : PyScalar} {x : Flt ℚ} (hx : s.Value x) :
    ∃ r, compareDispatch op a h (.number s) = .ok r ∧ Tells r h.view.shape fun i => op.HoldsElem (h.nd.get i) (.flt x) := by
  have hxf : IsFlt 53 (-1074) 971 x := by
    cases s with
    | int n => obtain ⟨h1, rfl⟩ := hx; exact isFloat_small h1
    | float y => obtain ⟨rfl, h⟩ := hx; exact h
    | complex y z => exact hx.elim
  obtain ⟨w, sh, hget⟩ := fullOne_get (d := .f64) trivial x hs
  have ho : IsBroadcast h.view.shape (fullOne .f64 x).view.shape h.view.shape := by rw [sh]; exact isBroadcast_one hs
  obtain ⟨r, h1, h2, h3, h4⟩ := compare_get op ha (b := .f64) trivial hw w ho
  have hp : promote a .f64 = .f64 ∧ (fitsTable a .f64 = true ∨ (a = .i64 ∨ a = .u64) ∧ DType.f64 = .f64) := by
    cases a <;> first | exact ha.elim | decide +kernel
  refine ⟨r, ?_, h2, h3, fun i hi => ⟨_, h4 i hi, ?_⟩⟩
  · show (match pyF64 s with
      | none => .error
      | some x => match compareArrays op a .f64 h (fullOne .f64 x) with
        | some r => .ok r
        | none => .panic : Outcome (Arr Bool)) = _
    rw [pyF64_value hx]
    dsimp only
    rw [h1]
  · rw [hget i hi, hp.1, castElem_self]
    have e : (h.nd.broadcast h.view.shape).get i = h.nd.get i := bcast_self (a := h.nd) rfl hi
    rw [e]
    obtain ⟨u, r1, p1, f1⟩ := readF64_real ha (ht i hi) (hsmall i hi)
    rw [cast_common_float ha rfl rfl hp.2 (ht i hi) p1]
    have eu : toFormat 53 (-1074) 971 u = u := by
      cases u <;> first | rfl | exact roundBin_exact f1
    rw [eu]
    show cmpFlt op u x = true ↔ _
    rw [cmpFlt_iff]
    constructor
    · intro hh
      exact ⟨_, _, p1, rfl, hh⟩
    · rintro ⟨u', v', q1, q2, hh⟩
      rw [p1] at q1
      cases q1
      cases q2
      exact hh

/-- C104: a 0-d array compared with a number has the shape `(1,)`; `2^63 - 1 == 2.0^63` is true of an int64, and an array cannot be compared
with a large Python integer or with `None`. -/
theorem C104_number_counterexample :
    (∃ r, compareDispatch .lt .f64 (stored .f64 [] [.flt (.num 1)]) (.number (.int 2)) = .ok r ∧ r.shape = [1]) ∧
      (∃ r, compareDispatch .eq .i64 (stored .i64 [1] [.int (2 ^ 63 - 1)]) (.number (.float (.num (2 ^ 63)))) = .ok r ∧ r.data = [true]) ∧
      compareDispatch .lt .f64 (stored .f64 [1] [.flt (.num 1)]) (.number (.int (2 ^ 1024))) = .error ∧
      compareDispatch .eq .f64 (stored .f64 [1] [.flt (.num 1)]) .other = .error :=
  ⟨⟨⟨[1], [true]⟩, by decide +kernel, rfl⟩, ⟨⟨[1], [true]⟩, by decide +kernel, rfl⟩, by decide +kernel, rfl⟩

/-! ### Dates -/

theorem convert_finer {u w : TimeUnit} {a b v : Int} (ha : nanos u = some a) (hb : nanos w = some b) (h : b ≤ a)
    (hv : -2 ^ 63 < v) (hr1 : -2 ^ 63 < v * (a / b)) (hr2 : v * (a / b) < 2 ^ 63) : convertDatetime v u w = v * (a / b) :=
  floorsTo_unique (C30_finer ha hb h hv hr1 hr2).1 (floorsTo_finer ha hb h)

/-- C104 (partial): dates (or durations) in units of fixed length compare as points in time if the left operand has the finer unit and the
right one fits into it. Missing: the other order of the units, NaT, months and years. -/
theorem C104_dates_partial (op : Cmp) {u w : TimeUnit} {a b : DType} (hab : a = .datetime u ∧ b = .datetime w ∨ a = .timedelta u ∧ b = .timedelta w)
    {x y : Int} (hx : nanos u = some x) (hy : nanos w = some y) (hxy : x ≤ y) {h g : Held Elem} (hw : h.view.WF) (gw : g.view.WF)
    (gal : AlignedAs b g.view) {ns ms : List Nat → Int} (hn : ∀ i, InShape h.view.shape i → h.nd.get i = .int (ns i))
    (gm : ∀ i, InShape g.view.shape i → g.nd.get i = .int (ms i) ∧ -2 ^ 63 < ms i ∧ -2 ^ 63 < ms i * (y / x) ∧ ms i * (y / x) < 2 ^ 63)
    {out : List Nat} (ho : IsBroadcast h.view.shape g.view.shape out) :
    ∃ r, compareDispatch op a h (.array b g) = .ok r ∧
      Tells r out fun i => ∃ n m : Int, (h.nd.broadcast out).get i = .int n ∧ (g.nd.broadcast out).get i = .int m ∧ op.Holds (n * x) (m * y) := by
  have hp : promote a b = a := by
    rcases hab with ⟨rfl, rfl⟩ | ⟨rfl, rfl⟩
    · unfold promote
      simp [DType.isComplex, DType.isDatetime]
    · unfold promote promoteInts
      simp [DType.isComplex, DType.isDatetime, DType.isFloat, DType.isSigned, DType.isUnsigned, DType.priority]
  have hsz : 0 < DType.itemsize a := by rcases hab with ⟨rfl, rfl⟩ | ⟨rfl, rfl⟩ <;> exact Nat.succ_pos 7
  obtain ⟨b1, b2⟩ := broadcastsTo_of ho
  obtain ⟨r, h1, h2⟩ := (compareArrays_is op a b hw gw (by rw [hp]; exact fun h => absurd rfl h) (fun _ _ => gal) (by rw [hp]; exact hsz)).2 out ho
  refine ⟨r, by rw [dispatch_array, h1], tells_of_is h2 fun i hi => ?_⟩
  obtain ⟨j, hj, e1⟩ := broadcast_mem b1 hi
  obtain ⟨k, hk, e2⟩ := broadcast_mem b2 hi
  obtain ⟨m1, m2, m3, m4⟩ := gm k hk
  rw [e1, e2, hn j hj, m1, hp, castElem_self]
  obtain ⟨⟨q, rfl⟩, hpos⟩ := nanos_dvd hy hx hxy
  rw [Int.mul_ediv_cancel_left _ (by omega)] at m3 m4
  have hc : castElem b a (.int (ms k)) = .int (ms k * q) := by
    have hconv := convert_finer hy hx hxy m2 (by rwa [Int.mul_ediv_cancel_left _ (by omega)]) (by rwa [Int.mul_ediv_cancel_left _ (by omega)])
    rw [Int.mul_ediv_cancel_left _ (by omega)] at hconv
    unfold castElem
    split
    · rename_i he
      have huw : u = w := by
        rcases hab with ⟨rfl, rfl⟩ | ⟨rfl, rfl⟩ <;> injection he with he <;> exact he.symm
      subst huw
      rw [hx] at hy
      injection hy with hy
      have : q = 1 := Int.eq_of_mul_eq_mul_left (a := x) (by omega) (by omega)
      rw [this, Int.mul_one]
    · rcases hab with ⟨rfl, rfl⟩ | ⟨rfl, rfl⟩
      · show Elem.int (convertDatetime _ _ _) = _
        rw [hconv]
      · show Elem.int (convertDatetime _ _ _) = _
        rw [hconv]
  rw [hc]
  show cmpWhole op _ _ = true ↔ _
  rw [cmpWhole_iff]
  have key : op.Holds (ns j) (ms k * q) ↔ op.Holds (ns j * x) (ms k * (x * q)) := by
    have e : ms k * (x * q) = ms k * q * x := by rw [Int.mul_comm x q, Int.mul_assoc]
    rw [e]
    cases op <;> simp only [Cmp.Holds]
    · exact (Int.mul_lt_mul_right (by omega)).symm
    · exact (Int.mul_lt_mul_right (by omega)).symm
    · exact (Int.mul_le_mul_right (by omega)).symm
    · exact (Int.mul_le_mul_right (by omega)).symm
    · exact (Int.mul_eq_mul_right_iff (by omega)).symm
    · exact not_congr (Int.mul_eq_mul_right_iff (by omega)).symm
  rw [key]
  constructor
  · intro hh
    exact ⟨_, _, rfl, rfl, hh⟩
  · rintro ⟨n, m, q1, q2, hh⟩
    cases q1
    cases q2
    exact hh

example : (compareArrays .lt (.datetime .h) (.datetime .D) (stored (.datetime .h) [2] [.int 23, .int 25]) (stored (.datetime .D) [1] [.int 1])).map
    Arr.data = some [true, false] := by decide +kernel

/-- C104: 6 o'clock on the second day equals that day, but not with the operands swapped; NaT equals NaT; one second is not less than 1999
milliseconds. -/
theorem C104_dates_counterexample :
    (compareArrays .eq (.datetime .D) (.datetime .h) (stored (.datetime .D) [1] [.int 1]) (stored (.datetime .h) [1] [.int 30])).map Arr.data = some [true] ∧
      (compareArrays .eq (.datetime .h) (.datetime .D) (stored (.datetime .h) [1] [.int 30]) (stored (.datetime .D) [1] [.int 1])).map Arr.data =
        some [false] ∧
      (compareArrays .eq (.datetime .D) (.datetime .D) (stored (.datetime .D) [1] [.int NaT]) (stored (.datetime .D) [1] [.int NaT])).map Arr.data =
        some [true] ∧
      (compareArrays .lt (.timedelta .s) (.timedelta .ms) (stored (.timedelta .s) [1] [.int 1]) (stored (.timedelta .ms) [1] [.int 1999])).map Arr.data =
        some [false] := by
  decide +kernel

/-! ### Complex numbers -/

/-- C104 (partial): complex arrays of one dtype are equal where both parts are equal. Missing: arrays of different complex dtypes, and the
order of complex numbers. -/
theorem C104_complex_equal_partial {d : DType} (hd : d = .c64 ∨ d = .c128) {h g : Held Elem} (hw : h.view.WF) (gw : g.view.WF) (ht : Typed d h)
    (gt : Typed d g) {out : List Nat} (ho : IsBroadcast h.view.shape g.view.shape out) :
    ∃ r, compareDispatch .eq d h (.array d g) = .ok r ∧ Tells r out fun i => ∃ x y u v, (h.nd.broadcast out).get i = .cpx x y ∧
      (g.nd.broadcast out).get i = .cpx u v ∧ Cmp.eq.HoldsFlt x u ∧ Cmp.eq.HoldsFlt y v := by
  have hsz : 0 < DType.itemsize (promote d d) := by rcases hd with rfl | rfl <;> decide
  obtain ⟨b1, b2⟩ := broadcastsTo_of ho
  have hal : ∀ v : View, d ≠ promote d d → bothTime d (promote d d) = true → AlignedAs d v := by
    intro v hne
    rw [C28_idem] at hne
    exact absurd rfl hne
  obtain ⟨r, h1, h2⟩ := (compareArrays_is .eq d d hw gw (hal _) (hal _) hsz).2 out ho
  refine ⟨r, by rw [dispatch_array, h1], tells_of_is h2 fun i hi => ?_⟩
  have cpx : ∀ {z : Elem}, z.OfType d → ∃ x y, z = .cpx x y := by
    intro z hz
    rcases hd with rfl | rfl
    all_goals
      cases z <;> first | exact hz.elim | exact ⟨_, _, rfl⟩ | skip
      obtain ⟨_, _, h0, _⟩ := hz
      cases h0
  obtain ⟨x, y, e1⟩ := cpx (typed_broadcast ht b1 hi)
  obtain ⟨u, v, e2⟩ := cpx (typed_broadcast gt b2 hi)
  rw [e1, e2, C28_idem, castElem_self, castElem_self]
  have e : cmpElem d .eq (.cpx x y) (.cpx u v) = (fltEq x u && fltEq y v) := by
    rcases hd with rfl | rfl <;> rfl
  rw [e, Bool.and_eq_true]
  have k1 : fltEq x u = true ↔ _ := cmpFlt_iff .eq x u
  have k2 : fltEq y v = true ↔ _ := cmpFlt_iff .eq y v
  rw [k1, k2]
  constructor
  · intro hh
    exact ⟨_, _, _, _, rfl, rfl, hh⟩
  · rintro ⟨_, _, _, _, q1, q2, hh⟩
    cases q1
    cases q2
    exact hh

/-- C104: a complex64 array compared with a complex128 array is read as zeros, and so is a string compared with a number. -/
theorem C104_complex_counterexample :
    (compareArrays .eq .c64 .c128 (stored .c64 [1] [.cpx (.num 1) (.num 2)]) (stored .c128 [1] [.cpx (.num 1) (.num 2)])).map Arr.data = some [false] ∧
      (compareArrays .eq .c64 .c128 (stored .c64 [1] [.cpx (.num 1) (.num 2)]) (stored .c128 [1] [.cpx (.num 0) (.num 0)])).map Arr.data = some [true] ∧
      (compareArrays .eq (.str 1) .i64 (stored (.str 1) [1] [.text ['7']]) (stored .i64 [1] [.int 0])).map Arr.data = some [true] := by
  decide +kernel

end Props
