import Verif.Spec.Totals
import Verif.Model.Totals
import Verif.Lemmas.TotalValues
/-!
# C102: sum, prod, max, min and mean of an array of any number dtype
-/

namespace Props
open Spec Rumpy

/-! ### Kernels by dtype -/

theorem int_step {op : Total} {d : DType} (hd : isIntegerKind d = true) {lo hi : Int} (hr : d.intRange = some (lo, hi)) (a b : Int) :
    totalStep op d (.int a) (.int b) = .int (totalInt lo hi op a b) ∧ totalAcc op d (.int a) (.int b) = .int (totalInt lo hi op a b) := by
  cases d <;> first | (cases hd; done) | (cases hr; cases op <;> exact ⟨rfl, rfl⟩)

/-- Where a fold of integers starts. -/
def startInt (lo hi : Int) : Total → Int
  | .sum => 0
  | .prod => 1
  | .max => lo
  | .min => hi

theorem int_init {op : Total} {d : DType} (hd : isIntegerKind d = true) {lo hi : Int} (hr : d.intRange = some (lo, hi)) :
    totalInit op d = .int (startInt lo hi op) ∧
      totalAccInit op d = .int (startInt lo hi op) ∧ lo ≤ 0 ∧ 1 ≤ hi ∧ d ≠ .bool := by
  cases d <;> first | (cases hd; done) | (cases hr; cases op <;> exact ⟨rfl, rfl, by decide, by decide, by decide⟩)

theorem float_step {d : DType} (hd : DType.isFloat d = true) {p : Nat} {lo hi : Int} (hf : d.format = some (p, lo, hi)) (x y : Flt ℚ)
    (hx : IsFlt p lo hi x) (hy : IsFlt p lo hi y) :
    totalStep .sum d (.flt x) (.flt y) = .flt (fltAdd p lo hi x y) ∧ totalAcc .sum d (.flt x) (.flt y) = .flt (fltAdd p lo hi x y) := by
  rcases isFloat_cases hd with rfl | rfl | rfl <;> cases hf
  · have := C93_half_arithmetic false .add (by decide) x y hx hy
    have e : totalHalf .sum x y = fltAdd 11 (-24) 5 x y := this
    exact ⟨congrArg Elem.flt e, congrArg Elem.flt e⟩
  · exact ⟨rfl, rfl⟩
  · exact ⟨rfl, rfl⟩

theorem float_init {op : Total} {d : DType} (hd : DType.isFloat d = true) :
    totalInit op d = .flt (match op with | .sum => .num 0 | .prod => .num 1 | .max => .negInf | .min => .posInf) ∧
      totalAccInit op d = totalInit op d ∧ d ≠ .bool := by
  rcases isFloat_cases hd with rfl | rfl | rfl <;> cases op <;> exact ⟨rfl, rfl, by decide⟩

theorem float_format {d : DType} (hd : DType.isFloat d = true) : ∃ p lo hi, d.format = some (p, lo, hi) ∧ 0 < p ∧ lo ≤ hi ∧ lo ≤ 0 ∧ 0 ≤ hi := by
  rcases isFloat_cases hd with rfl | rfl | rfl
  · exact ⟨11, -24, 5, rfl, by decide, by decide, by decide, by decide⟩
  · exact ⟨24, -149, 104, rfl, by decide, by decide, by decide, by decide⟩
  · exact ⟨53, -1074, 971, rfl, by decide, by decide, by decide, by decide⟩

/-- What is read of a float result. -/
theorem storeTotal_float {d : DType} (hd : DType.isFloat d = true) {p : Nat} {lo hi : Int} (hf : d.format = some (p, lo, hi)) {x : Flt ℚ}
    (hx : IsFlt p lo hi x) : storeTotal d (.flt x) = .flt x := isFlt_writeF64 hd hf hx

/-- What is read of an integer result. -/
theorem storeTotal_int {d : DType} (hd : isIntegerKind d = true) {lo hi : Int} (hr : d.intRange = some (lo, hi)) {t : Int} (h1 : lo ≤ t)
    (h2 : t ≤ hi) (hb : t.natAbs ≤ 2 ^ 53) : storeTotal d (.int t) = .int t := by
  unfold storeTotal
  dsimp only
  rw [readF64_whole (x := .int t) (m := t) rfl hb]
  exact writeF64_whole hd hr h1 h2

theorem dvd_eq {m a b lo hi : Int} (hm : m = hi - lo + 1) (h : m ∣ a - b) (a1 : lo ≤ a) (a2 : a ≤ hi) (b1 : lo ≤ b) (b2 : b ≤ hi) : a = b := by
  obtain ⟨k, hk⟩ := h
  have : k = 0 := by
    by_contra hk0
    rcases Int.lt_or_gt_of_ne hk0 with h | h <;> nlinarith
  subst this
  omega

/-! ### Integers -/

/-- C102 (partial): the sum and the product of an integer array are exact when they fit the dtype of the array and 53 bits, for every
memory layout.  Missing: totals that do not fit, see the counterexamples (NumPy sums in 64 bits). -/
theorem C102_integers_partial {op : Total} {f : List Int → Int} (hf : op.whole = some f) {d : DType} (hd : isIntegerKind d = true) {lo hi : Int}
    (hr : d.intRange = some (lo, hi)) {h : Held Elem} (hw : h.view.WF) {ns : List Int} (hn : h.nd.toList = ns.map Elem.int)
    (h1 : lo ≤ f ns) (h2 : f ns ≤ hi) (hb : (f ns).natAbs ≤ 2 ^ 53) : total op d h = .num (f ns) := by
  obtain ⟨e1, e2, l0, l1, hnb⟩ := int_init (op := op) hd hr
  have hall : ∀ x ∈ h.nd.toList, ∃ n, x = Elem.int n := by
    rw [hn]; intro x hx
    obtain ⟨n, -, rfl⟩ := List.mem_map.1 hx
    exact ⟨n, rfl⟩
  have hfe : startInt lo hi op = f [] := by
    cases op <;> cases hf <;> rfl
  unfold total
  rcases totalAll_folded op d hw with ⟨-, x, hx, he⟩ | hx
  · obtain ⟨t, rfl, h3, h4, h5⟩ := folded_whole hf ⟨l0, l1⟩ (fun a b => (int_step hd hr a b).1) (e1.trans (congrArg Elem.int hfe)) hx hall
    rw [hn, wholeOf_map] at h3
    have ht : t = f ns := dvd_eq rfl h3 h4 h5 h1 h2
    subst ht
    rw [he, storeTotal_int hd hr h1 h2 hb, readF64_whole (x := .int (f ns)) (m := f ns) rfl hb]
    rfl
  · obtain ⟨t, ht', h3, h4, h5⟩ := folded_whole hf ⟨l0, l1⟩ (fun a b => (int_step hd hr a b).2) (e2.trans (congrArg Elem.int hfe)) hx hall
    rw [hn, wholeOf_map] at h3
    have ht : t = f ns := dvd_eq rfl h3 h4 h5 h1 h2
    subst ht
    rw [ht', readF64_whole (x := .int (f ns)) (m := f ns) rfl hb]
    rfl

example : total .sum .i8 (stored .i8 [2, 2] [.int 100, .int (-100), .int 7, .int 120]) = .num 127 ∧
    total .prod .u16 (stored .u16 [3] [.int 5, .int 6, .int 7]) = .num 210 := by
  refine ⟨by decide +kernel, by decide +kernel⟩

/-- C102: the sum of the `int8` numbers 100 and 100 is −56; NumPy adds in `int64`.  The product of 16 and 16 in `int8` is 0. -/
theorem C102_small_integers_counterexample :
    total .sum .i8 (stored .i8 [2] [.int 100, .int 100]) = .num (-56) ∧ Total.whole .sum = some List.sum ∧ [(100 : Int), 100].sum = 200 ∧
      total .prod .i8 (stored .i8 [2] [.int 16, .int 16]) = .num 0 := by
  refine ⟨by decide +kernel, rfl, by decide, by decide +kernel⟩

/-- C102 (partial): the greatest and the least element of a non-empty integer array of numbers of 53 bits. Missing: larger numbers, and
the empty array, see the counterexamples. -/
theorem C102_integer_extremes_partial {op : Total} (hop : op = .max ∨ op = .min) {d : DType} (hd : isIntegerKind d = true) {h : Held Elem}
    (hw : h.view.WF) (ht : Typed d h) {ns : List Int} (hn : h.nd.toList = ns.map Elem.int) (hne : ns ≠ [])
    (hb : ∀ n ∈ ns, n.natAbs ≤ 2 ^ 53) :
    ∃ m ∈ ns, total op d h = .num (m : Int) ∧ ∀ n ∈ ns, (op = .max → n ≤ m) ∧ (op = .min → m ≤ n) := by
  obtain ⟨lo, hi, hr, -⟩ := int_kind hd
  obtain ⟨e1, e2, l0, l1, hnb⟩ := int_init (op := op) hd hr
  have hrange : ∀ n ∈ ns, lo ≤ n ∧ n ≤ hi := by
    intro n hm
    have : Elem.int n ∈ h.nd.toList := by rw [hn]; exact List.mem_map.2 ⟨n, hm, rfl⟩
    obtain ⟨i, hi', he⟩ := List.mem_map.1 this
    obtain ⟨n', h1, h2⟩ := ofType_int hd (ht i (mem_indices.1 hi')) hr
    rw [he] at h1
    cases h1
    exact h2
  have main : ∀ (c : Elem → Elem → Elem) (e : Elem), (∀ a b, c (.int a) (.int b) = .int (totalInt lo hi op a b)) →
      e = .int (startInt lo hi op) → ∀ {k x}, Folded c e k h.nd.toList x →
      ∃ m ∈ ns, x = .int m ∧ ∀ n ∈ ns, (op = .max → n ≤ m) ∧ (op = .min → m ≤ n) := by
    intro c e hc he k x hx
    have := folded_extreme (D := fun x => ∃ n, x = Elem.int n) (G := fun x => ∃ n, x = Elem.int n)
      (R := fun x y => ∀ m n, x = Elem.int m → y = Elem.int n → (op = .max → m ≤ n) ∧ (op = .min → n ≤ m)) (fun _ h => h) ?_ ⟨_, he⟩ ?_ hx ?_
    · obtain ⟨⟨m, rfl⟩, h2, h3⟩ := this
      have hle : ∀ n ∈ ns, (op = .max → n ≤ m) ∧ (op = .min → m ≤ n) := fun n hm =>
        h3 (.int n) (by rw [hn]; exact List.mem_map.2 ⟨n, hm, rfl⟩) ⟨n, rfl⟩ n m rfl rfl
      refine ⟨m, ?_, rfl, hle⟩
      rcases h2 with h2 | h2
      · rw [he] at h2
        obtain ⟨n, l, rfl⟩ := List.exists_cons_of_ne_nil hne
        have := hle n (by simp)
        have hrn := hrange n (by simp)
        injection h2 with h2
        rcases hop with rfl | rfl
        · have : m = n := by
            have := this.1 rfl
            simp only [startInt] at h2
            omega
          rw [this]; simp
        · have : m = n := by
            have := this.2 rfl
            simp only [startInt] at h2
            omega
          rw [this]; simp
      · rw [hn] at h2
        obtain ⟨m', hm', he'⟩ := List.mem_map.1 h2
        cases he'
        exact hm'
    · rintro a b c ⟨n, rfl⟩ h1 h2 m k rfl rfl
      have a1 := h1 m n rfl rfl
      have a2 := h2 n k rfl rfl
      exact ⟨fun h => (a1.1 h).trans (a2.1 h), fun h => (a2.2 h).trans (a1.2 h)⟩
    · rintro _ _ ⟨a, rfl⟩ ⟨b, rfl⟩
      rw [hc]
      rcases hop with rfl | rfl
      · simp only [totalInt]
        by_cases hlt : a < b
        · rw [if_pos hlt]
          exact ⟨.inr ⟨rfl, _, rfl⟩, fun m n h1 h2 => by cases h1; cases h2; exact ⟨fun _ => by omega, fun h => (nomatch h)⟩,
            fun _ m n h1 h2 => by cases h1; cases h2; exact ⟨fun _ => by omega, fun h => (nomatch h)⟩⟩
        · rw [if_neg hlt]
          exact ⟨.inl rfl, fun m n h1 h2 => by cases h1; cases h2; exact ⟨fun _ => by omega, fun h => (nomatch h)⟩,
            fun _ m n h1 h2 => by cases h1; cases h2; exact ⟨fun _ => by omega, fun h => (nomatch h)⟩⟩
      · simp only [totalInt]
        by_cases hlt : b < a
        · rw [if_pos hlt]
          exact ⟨.inr ⟨rfl, _, rfl⟩, fun m n h1 h2 => by cases h1; cases h2; exact ⟨fun h => (nomatch h), fun _ => by omega⟩,
            fun _ m n h1 h2 => by cases h1; cases h2; exact ⟨fun h => (nomatch h), fun _ => by omega⟩⟩
        · rw [if_neg hlt]
          exact ⟨.inl rfl, fun m n h1 h2 => by cases h1; cases h2; exact ⟨fun h => (nomatch h), fun _ => by omega⟩,
            fun _ m n h1 h2 => by cases h1; cases h2; exact ⟨fun h => (nomatch h), fun _ => by omega⟩⟩
    · rw [hn]; intro x hx
      obtain ⟨n, -, rfl⟩ := List.mem_map.1 hx
      exact ⟨n, rfl⟩
  unfold total
  rcases totalAll_folded op d hw with ⟨-, x, hx, he⟩ | hx
  · obtain ⟨m, hm, rfl, h3⟩ := main _ _ (fun a b => (int_step hd hr a b).1) e1 hx
    refine ⟨m, hm, ?_, h3⟩
    rw [he, storeTotal_int hd hr (hrange m hm).1 (hrange m hm).2 (hb m hm), readF64_whole (x := .int m) (m := m) rfl (hb m hm)]
    rfl
  · obtain ⟨m, hm, he, h3⟩ := main _ _ (fun a b => (int_step hd hr a b).2) e2 hx
    refine ⟨m, hm, ?_, h3⟩
    rw [he, readF64_whole (x := .int m) (m := m) rfl (hb m hm)]
    rfl

example : total .max .i64 (stored .i64 [2, 2] [.int (-9), .int (-3), .int (-4), .int (-5)]) = .num (-3) ∧
    total .min .u8 (stored .u8 [9] ((List.range 9).map fun (n : Nat) => .int (n + 3 : Nat))) = .num 3 := by
  refine ⟨by decide +kernel, by decide +kernel⟩

/-- C102: the maximum of an empty array is not refused: it is −128 for `int8`, minus infinity for a float array. -/
theorem C102_empty_counterexample :
    total .max .i8 (stored .i8 [0] []) = .num (-128) ∧ total .max .f64 (stored .f64 [0] []) = .negInf ∧
      total .min .u8 (stored .u8 [0, 3] []) = .num 255 := by
  refine ⟨by decide +kernel, by decide +kernel, by decide +kernel⟩

/-! ### Bools -/

theorem folded_bool {op : Total} {k : Nat} {l : List Elem} {a : Elem} (h : Folded (totalAcc op .bool) (totalAccInit op .bool) k l a) :
    (∀ x ∈ l, ∃ b, x = Elem.bool b) → ∃ b, a = .bool b ∧
      (b = true ↔ if op = .sum ∨ op = .max then Elem.bool true ∈ l else Elem.bool false ∉ l) := by
  have ini : totalAccInit op .bool = .bool (op = .prod || op = .min) := by cases op <;> rfl
  have key : ∀ s t : Bool, totalAcc op .bool (.bool s) (.bool t) = .bool (if op = .sum ∨ op = .max then s || t else s && t) := by
    cases op <;> decide
  induction h with
  | nil =>
    intro _
    refine ⟨_, ini, ?_⟩
    cases op <;> simp
  | @step k l a x _ ih =>
    intro hx
    obtain ⟨s, rfl, hs⟩ := ih fun y hy => hx y (List.mem_append_left _ hy)
    obtain ⟨t, rfl⟩ := hx x (by simp)
    refine ⟨_, key s t, ?_⟩
    by_cases ho : op = .sum ∨ op = .max
    · simp only [if_pos ho] at hs ⊢
      rw [Bool.or_eq_true, hs]; cases t <;> simp
    · simp only [if_neg ho] at hs ⊢
      rw [Bool.and_eq_true, hs]; cases t <;> simp
  | @join k l l' a b _ _ ih ih' =>
    intro hx
    obtain ⟨s, rfl, hs⟩ := ih fun y hy => hx y (List.mem_append_left _ hy)
    obtain ⟨t, rfl, ht⟩ := ih' fun y hy => hx y (List.mem_append_right _ hy)
    refine ⟨_, key s t, ?_⟩
    by_cases ho : op = .sum ∨ op = .max
    · simp only [if_pos ho] at hs ht ⊢
      rw [Bool.or_eq_true, hs, ht]; simp
    · simp only [if_neg ho] at hs ht ⊢
      rw [Bool.and_eq_true, hs, ht]; simp
  | @perm k l l' a hp _ ih =>
    intro hx
    obtain ⟨s, rfl, hs⟩ := ih fun y hy => hx y (hp.mem_iff.1 hy)
    refine ⟨s, rfl, ?_⟩
    rw [hs]
    simp only [hp.mem_iff]
  | le _ _ ih => exact ih

theorem total_bool (op : Total) {h : Held Elem} (hw : h.view.WF) {bs : List Bool} (hb : h.nd.toList = bs.map Elem.bool) :
    total op .bool h = .num (if (if op = .sum ∨ op = .max then true ∈ bs else false ∉ bs) then 1 else 0) := by
  have hall : ∀ x ∈ h.nd.toList, ∃ b, x = Elem.bool b := by
    rw [hb]; intro x hx
    obtain ⟨n, -, rfl⟩ := List.mem_map.1 hx
    exact ⟨n, rfl⟩
  rcases totalAll_folded op .bool hw with ⟨hn, -⟩ | hx
  · exact absurd rfl hn
  · obtain ⟨b, h1, h2⟩ := folded_bool hx hall
    rw [hb] at h2
    have e : ∀ t : Bool, Elem.bool t ∈ bs.map Elem.bool ↔ t ∈ bs := by intro t; simp
    simp only [e] at h2
    unfold total
    rw [h1]
    show Flt.num (if b then (1 : ℚ) else 0) = _
    by_cases hc : if op = .sum ∨ op = .max then true ∈ bs else false ∉ bs
    · rw [if_pos hc, h2.2 hc]; rfl
    · rw [if_neg hc, if_neg (by rw [h2]; exact hc)]

/-- C102 (partial): of a bool array, the product is 1 when all are true, else 0; the maximum of a non-empty array is 1 when one is
true, the minimum 1 when all are; the sum is the number of true elements, if there is at most one.  Missing: the sum of more. -/
theorem C102_bool_partial {h : Held Elem} (hw : h.view.WF) {bs : List Bool} (hb : h.nd.toList = bs.map Elem.bool) :
    total .prod .bool h = .num (bs.map fun b => if b then (1 : ℚ) else 0).prod ∧
      (bs ≠ [] → total .max .bool h = .num (if true ∈ bs then 1 else 0) ∧ total .min .bool h = .num (if false ∈ bs then 0 else 1)) ∧
      (bs.count true ≤ 1 → total .sum .bool h = .num (bs.count true : Nat)) := by
  refine ⟨?_, fun _ => ⟨?_, ?_⟩, fun hc => ?_⟩
  · rw [total_bool .prod hw hb]
    congr 1
    clear hb
    induction bs with
    | nil => simp
    | cons b l ih => cases b <;> simp at ih ⊢ ; exact ih
  · rw [total_bool .max hw hb]; simp
  · rw [total_bool .min hw hb]
    by_cases hf : false ∈ bs <;> simp [hf]
  · rw [total_bool .sum hw hb]
    by_cases ht : true ∈ bs
    · have : bs.count true = 1 := by have := List.count_pos_iff.2 ht; omega
      simp [ht, this]
    · have : bs.count true = 0 := List.count_eq_zero.2 ht
      simp [ht, this]

example : total .prod .bool (stored .bool [2] [.bool true, .bool false]) = .num 0 ∧
    total .max .bool (stored .bool [2] [.bool true, .bool false]) = .num 1 ∧
    total .sum .bool (stored .bool [3] [.bool false, .bool true, .bool false]) = .num 1 := by
  refine ⟨by decide +kernel, by decide +kernel, by decide +kernel⟩

/-- C102: the sum of a bool array is not the number of true elements: it is 1 for every number of them but none. -/
theorem C102_bool_sum_counterexample :
    (∀ (h : Held Elem), h.view.WF → ∀ bs : List Bool, h.nd.toList = bs.map Elem.bool → true ∈ bs → total .sum .bool h = .num 1) ∧
      total .sum .bool (stored .bool [3] [.bool true, .bool false, .bool true]) = .num 1 :=
  ⟨fun h hw bs hb ht => by rw [total_bool .sum hw hb]; simp [ht], by decide +kernel⟩

/-! ### Floats -/

/-- C102: when nothing overflows, the sum of a float array of `n` elements differs from the exact sum by at most
`(1 + 2^-p)^n - 1` times the sum of the absolute values, for every memory layout and every float dtype (`p` bits). -/
theorem C102_float_sum {d : DType} (hd : DType.isFloat d = true) {p : Nat} {lo hi : Int} (hf : d.format = some (p, lo, hi)) {h : Held Elem}
    (hw : h.view.WF) (ht : Typed d h) {xs : List ℚ} (hx : h.nd.toList = xs.map fun x => Elem.flt (.num x))
    (hb : (1 + (2 : ℚ)⁻¹ ^ p) ^ xs.length * absSum xs ≤ topOf p hi) :
    ∃ q, total .sum d h = .num q ∧ |q - exactSum xs| ≤ ((1 + (2 : ℚ)⁻¹ ^ p) ^ xs.length - 1) * absSum xs := by
  obtain ⟨p', lo', hi', hf', hp, hlh, -⟩ := float_format hd
  rw [hf] at hf'
  cases hf'
  obtain ⟨e1, e2, hnb⟩ := float_init (op := .sum) hd
  have hlen : size h.view.shape = xs.length := by
    have := congrArg List.length hx
    rw [length_toList, List.length_map] at this
    exact this
  have hnum : h.nd.toList.map numOf = xs := by
    rw [hx, List.map_map]
    exact (List.map_congr_left fun _ _ => rfl).trans (List.map_id _)
  have hall : ∀ x ∈ h.nd.toList, ∃ q, x = Elem.flt (.num q) ∧ IsFloat p lo hi q := by
    intro x hm
    have hm' := hm
    rw [hx] at hm'
    obtain ⟨q, -, rfl⟩ := List.mem_map.1 hm'
    refine ⟨q, rfl, ?_⟩
    obtain ⟨i, hi', he⟩ := List.mem_map.1 hm
    have := ht i (mem_indices.1 hi')
    rw [he] at this
    rcases isFloat_cases hd with rfl | rfl | rfl <;> cases hf <;> exact this
  unfold total
  rcases totalAll_folded .sum d hw with ⟨-, x, hx', he⟩ | hx'
  · rw [e1, hlen] at hx'
    obtain ⟨q, rfl, h2, h3⟩ := folded_sum hp hlh (fun x y h1 h2 => (float_step hd hf x y h1 h2).1) hx' hall (by rw [hnum]; exact hb)
    rw [hnum] at h3
    refine ⟨q, ?_, h3⟩
    rw [he, storeTotal_float hd hf (x := .num q) h2]
    rfl
  · rw [e2, e1, hlen] at hx'
    obtain ⟨q, h1, h2, h3⟩ := folded_sum hp hlh (fun x y h1 h2 => (float_step hd hf x y h1 h2).2) hx' hall (by rw [hnum]; exact hb)
    rw [hnum] at h3
    refine ⟨q, ?_, h3⟩
    rw [h1]
    rfl

/-- C102: the sum of a float array is exact when all elements are multiples of one power of two and the absolute values add up to
less than `2^p` of them; for instance whole numbers in `float64` with absolute sum below `2^53`. -/
theorem C102_float_sum_exact {d : DType} (hd : DType.isFloat d = true) {p : Nat} {lo hi g : Int} (hf : d.format = some (p, lo, hi))
    (hg : lo ≤ g) (hg' : g ≤ hi) {h : Held Elem} (hw : h.view.WF) {xs : List ℚ} (hx : h.nd.toList = xs.map fun x => Elem.flt (.num x))
    (hm : ∀ x ∈ xs, ∃ n : Int, x = n * (2 : ℚ) ^ g) (hb : absSum xs < 2 ^ p * 2 ^ g) : total .sum d h = .num (exactSum xs) := by
  obtain ⟨e1, e2, hnb⟩ := float_init (op := .sum) hd
  have hnum : h.nd.toList.map numOf = xs := by
    rw [hx, List.map_map]
    exact (List.map_congr_left fun _ _ => rfl).trans (List.map_id _)
  have hall : ∀ x ∈ h.nd.toList, ∃ n : Int, x = Elem.flt (.num (n * (2 : ℚ) ^ g)) := by
    rw [hx]
    intro x hm'
    obtain ⟨q, hq, rfl⟩ := List.mem_map.1 hm'
    obtain ⟨n, rfl⟩ := hm q hq
    exact ⟨n, rfl⟩
  have hfl : ∀ n : Int, exactSum xs = n * (2 : ℚ) ^ g → IsFloat p lo hi (exactSum xs) := by
    intro n hn
    have := abs_exactSum xs
    rw [hn]
    exact isFloat_of_multiple hg hg' (by rw [← hn]; exact this.trans_lt hb)
  unfold total
  rcases totalAll_folded .sum d hw with ⟨-, x, hx', he⟩ | hx'
  · rw [e1] at hx'
    obtain ⟨rfl, n, hn⟩ := folded_sum_exact hg hg' (fun x y h1 h2 => (float_step hd hf x y h1 h2).1) hx' hall (by rw [hnum]; exact hb)
    rw [hnum] at hn he
    rw [he, storeTotal_float hd hf (x := .num (exactSum xs)) (hfl n hn)]
    rfl
  · rw [e2, e1] at hx'
    obtain ⟨h1, -⟩ := folded_sum_exact hg hg' (fun x y h1 h2 => (float_step hd hf x y h1 h2).2) hx' hall (by rw [hnum]; exact hb)
    rw [h1, hnum]
    rfl

example : total .sum .f32 (stored .f32 [3] [.flt (.num 16777216), .flt (.num 1), .flt (.num 1)]) = .num 16777216 ∧
    total .sum .f16 (stored .f16 [3] [.flt (.num (1 / 2)), .flt (.num 3), .flt (.num (-1 / 4))]) = .num (13 / 4) ∧
    absSum [1 / 2, 3, -1 / 4] < 2 ^ 11 * 2 ^ (-2 : Int) ∧ (1 + (2 : ℚ)⁻¹ ^ 24) ^ 3 * absSum [16777216, 1, 1] ≤ topOf 24 104 := by
  refine ⟨by decide +kernel, by decide +kernel, by decide +kernel, by decide +kernel⟩

theorem le_refl_flt {x : Flt ℚ} (h : x ≠ .nan) : Cmp.le.HoldsFlt x x := by
  cases x <;> first | exact absurd rfl h | exact le_refl _

theorem le_trans_flt {x y z : Flt ℚ} (hy : y ≠ .nan) (h1 : Cmp.le.HoldsFlt x y) (h2 : Cmp.le.HoldsFlt y z) : Cmp.le.HoldsFlt x z := by
  unfold Cmp.HoldsFlt at *
  revert h1 h2
  cases hx : x.place <;> cases hy' : y.place <;> cases hz : z.place <;> simp only [Cmp.Holds] <;> intro h1 h2
  all_goals first | exact h1.trans h2 | (exact absurd h1 (by decide)) | (exact absurd h2 (by decide))

theorem le_of_lt_flt {x y : Flt ℚ} (h : fltLt x y = true) : Cmp.le.HoldsFlt x y := by
  obtain ⟨p, q, h1, h2, h3⟩ := (fltLt_iff x y).1 h
  unfold Cmp.HoldsFlt
  rw [h1, h2]
  exact h3.le

theorem le_of_not_lt_flt {x y : Flt ℚ} (hx : x ≠ .nan) (hy : y ≠ .nan) (h : ¬ fltLt x y = true) : Cmp.le.HoldsFlt y x := by
  have px : ∃ p, x.place = some p := by cases x <;> first | exact absurd rfl hx | exact ⟨_, rfl⟩
  have py : ∃ p, y.place = some p := by cases y <;> first | exact absurd rfl hy | exact ⟨_, rfl⟩
  obtain ⟨p, hp⟩ := px
  obtain ⟨q, hq⟩ := py
  unfold Cmp.HoldsFlt
  rw [hp, hq]
  exact not_lt.1 fun hlt => h ((fltLt_iff x y).2 ⟨p, q, hp, hq, hlt⟩)

/-- The better of two floats as the kernels choose it. -/
def pick (op : Total) (a b : Flt ℚ) : Flt ℚ := if (if op = .max then fltLt a b else fltLt b a) then b else a

theorem extreme_step {op : Total} (hop : op = .max ∨ op = .min) {d : DType} (hd : DType.isFloat d = true) (a b : Flt ℚ) (ha : a ≠ .nan) :
    totalStep op d (.flt a) (.flt b) = .flt (pick op a b) ∧ totalAcc op d (.flt a) (.flt b) = .flt (pick op a b) := by
  have hn : fltIsNan a = false := by cases a <;> first | exact absurd rfl ha | rfl
  have e1 : totalStep op d (.flt a) (.flt b) = .flt (pick op a b) := by
    rcases isFloat_cases hd with rfl | rfl | rfl <;> rcases hop with rfl | rfl <;> rfl
  refine ⟨e1, ?_⟩
  have e2 : totalAcc op d (.flt a) (.flt b) = .flt (if op = .max then fltMax a b else fltMin a b) := by
    rcases hop with rfl | rfl <;> rfl
  rw [e2]
  congr 1
  cases b with
  | nan => rcases hop with rfl | rfl <;> cases a <;> first | exact absurd rfl ha | rfl
  | _ => rcases hop with rfl | rfl <;> cases a <;> first | exact absurd rfl ha | rfl

theorem folded_float_extreme {op : Total} (hop : op = .max ∨ op = .min) {c : Elem → Elem → Elem} {e : Elem}
    (hc : ∀ a b, a ≠ .nan → c (.flt a) (.flt b) = .flt (pick op a b)) (he : e = .flt (if op = .max then .negInf else .posInf)) {k : Nat}
    {xs : List (Flt ℚ)} {x : Elem} (h : Folded c e k (xs.map Elem.flt) x) :
    ∃ m, x = .flt m ∧ m ≠ .nan ∧ (m = (if op = .max then .negInf else .posInf) ∨ m ∈ xs) ∧
      ∀ y ∈ xs, y ≠ .nan → (op = .max → Cmp.le.HoldsFlt y m) ∧ (op = .min → Cmp.le.HoldsFlt m y) := by
  have hini : (if op = .max then Flt.negInf else Flt.posInf : Flt ℚ) ≠ .nan := by split <;> exact fun h => nomatch h
  have := folded_extreme (D := fun x => ∃ n, x = Elem.flt n) (G := fun x => ∃ n, x = Elem.flt n ∧ n ≠ .nan)
    (R := fun x y => ∀ m n, x = Elem.flt m → y = Elem.flt n → (op = .max → Cmp.le.HoldsFlt m n) ∧ (op = .min → Cmp.le.HoldsFlt n m))
    (fun _ ⟨n, h, _⟩ => ⟨n, h⟩) ?_ ⟨_, he, hini⟩ ?_ h ?_
  · obtain ⟨⟨m, rfl, hm⟩, h2, h3⟩ := this
    refine ⟨m, rfl, hm, ?_, fun y hy hyn => h3 (.flt y) (List.mem_map.2 ⟨y, hy, rfl⟩) ⟨y, rfl, hyn⟩ y m rfl rfl⟩
    rcases h2 with h2 | h2
    · rw [he] at h2
      exact .inl (Elem.flt.inj h2)
    · obtain ⟨m', hm', he'⟩ := List.mem_map.1 h2
      cases he'
      exact .inr hm'
  · rintro a b c ⟨n, rfl, hn⟩ h1 h2 m k rfl rfl
    have a1 := h1 m n rfl rfl
    have a2 := h2 n k rfl rfl
    exact ⟨fun h => le_trans_flt hn (a1.1 h) (a2.1 h), fun h => le_trans_flt hn (a2.2 h) (a1.2 h)⟩
  · rintro _ _ ⟨a, rfl, ha⟩ ⟨b, rfl⟩
    rw [hc a b ha]
    unfold pick
    rcases hop with rfl | rfl
    · simp only [if_true]
      by_cases hlt : fltLt a b = true
      · have hb : b ≠ .nan := by rintro rfl; cases a <;> cases hlt
        rw [if_pos hlt]
        exact ⟨.inr ⟨rfl, b, rfl, hb⟩, fun m n h1 h2 => by cases h1; cases h2; exact ⟨fun _ => le_of_lt_flt hlt, fun h => (nomatch h)⟩,
          fun _ m n h1 h2 => by cases h1; cases h2; exact ⟨fun _ => le_refl_flt hb, fun h => (nomatch h)⟩⟩
      · rw [if_neg hlt]
        exact ⟨.inl rfl, fun m n h1 h2 => by cases h1; cases h2; exact ⟨fun _ => le_refl_flt ha, fun h => (nomatch h)⟩,
          fun ⟨b', hb1, hb2⟩ m n h1 h2 => by
            cases h1; cases h2; cases hb1
            exact ⟨fun _ => le_of_not_lt_flt ha hb2 hlt, fun h => (nomatch h)⟩⟩
    · simp only [show ¬ Total.min = Total.max from by decide, if_false]
      by_cases hlt : fltLt b a = true
      · have hb : b ≠ .nan := by rintro rfl; cases hlt
        rw [if_pos hlt]
        exact ⟨.inr ⟨rfl, b, rfl, hb⟩, fun m n h1 h2 => by cases h1; cases h2; exact ⟨fun h => (nomatch h), fun _ => le_of_lt_flt hlt⟩,
          fun _ m n h1 h2 => by cases h1; cases h2; exact ⟨fun h => (nomatch h), fun _ => le_refl_flt hb⟩⟩
      · rw [if_neg hlt]
        exact ⟨.inl rfl, fun m n h1 h2 => by cases h1; cases h2; exact ⟨fun h => (nomatch h), fun _ => le_refl_flt ha⟩,
          fun ⟨b', hb1, hb2⟩ m n h1 h2 => by
            cases h1; cases h2; cases hb1
            exact ⟨fun h => (nomatch h), fun _ => le_of_not_lt_flt hb2 ha hlt⟩⟩
  · intro x hx
    obtain ⟨n, -, rfl⟩ := List.mem_map.1 hx
    exact ⟨n, rfl⟩

theorem extreme_of {op : Total} (hop : op = .max ∨ op = .min) {xs : List (Flt ℚ)} (hne : ∃ x ∈ xs, x ≠ .nan) {m : Flt ℚ} (hm : m ≠ .nan)
    (h2 : m = (if op = .max then .negInf else .posInf) ∨ m ∈ xs)
    (h3 : ∀ y ∈ xs, y ≠ .nan → (op = .max → Cmp.le.HoldsFlt y m) ∧ (op = .min → Cmp.le.HoldsFlt m y)) :
    IsExtreme op (xs.filter fun x => x ≠ .nan) m := by
  refine ⟨List.mem_filter.2 ⟨?_, by simpa using hm⟩, fun x hx => h3 x (List.mem_filter.1 hx).1 (by simpa using (List.mem_filter.1 hx).2)⟩
  rcases h2 with rfl | h2
  · obtain ⟨y, hy, hn⟩ := hne
    have h := h3 y hy hn
    rcases hop with rfl | rfl
    · have h := h.1 rfl
      cases y with
      | nan => exact absurd rfl hn
      | negInf => exact hy
      | num q => exact absurd h (by simp [Cmp.HoldsFlt, Flt.place, Cmp.Holds])
      | posInf => exact absurd h (by simp [Cmp.HoldsFlt, Flt.place, Cmp.Holds])
    · have h := h.2 rfl
      cases y with
      | nan => exact absurd rfl hn
      | posInf => exact hy
      | num q => exact absurd h (by simp [Cmp.HoldsFlt, Flt.place, Cmp.Holds])
      | negInf => exact absurd h (by simp [Cmp.HoldsFlt, Flt.place, Cmp.Holds])
  · exact h2

/-- What the maximum and the minimum of a float array are: those of the elements that are not NaN. -/
theorem total_float_extreme {op : Total} (hop : op = .max ∨ op = .min) {d : DType} (hd : DType.isFloat d = true) {h : Held Elem}
    (hw : h.view.WF) (ht : Typed d h) {xs : List (Flt ℚ)} (hx : h.nd.toList = xs.map Elem.flt) (hne : ∃ x ∈ xs, x ≠ .nan) :
    IsExtreme op (xs.filter fun x => x ≠ .nan) (total op d h) := by
  obtain ⟨p, lo, hi, hf, -⟩ := float_format hd
  obtain ⟨e1, e2, hnb⟩ := float_init (op := op) hd
  have hini : ∀ {e : Elem}, e = totalInit op d → e = .flt (if op = .max then .negInf else .posInf) := by
    rintro _ rfl
    rw [e1]
    rcases hop with rfl | rfl <;> rfl
  unfold total
  rcases totalAll_folded op d hw with ⟨-, x, hx', he⟩ | hx'
  · rw [hx] at hx'
    obtain ⟨m, rfl, h1, h2, h3⟩ := folded_float_extreme hop (fun a b ha => (extreme_step hop hd a b ha).1) (hini rfl) hx'
    have := extreme_of hop hne h1 h2 h3
    have hm : m ∈ xs := (List.mem_filter.1 this.1).1
    have hty : IsFlt p lo hi m := by
      have : Elem.flt m ∈ h.nd.toList := by rw [hx]; exact List.mem_map.2 ⟨m, hm, rfl⟩
      obtain ⟨i, hi', he'⟩ := List.mem_map.1 this
      have := ht i (mem_indices.1 hi')
      rw [he'] at this
      rcases isFloat_cases hd with rfl | rfl | rfl <;> cases hf <;> exact this
    rw [he, storeTotal_float hd hf hty]
    exact this
  · rw [hx] at hx'
    obtain ⟨m, he, h1, h2, h3⟩ := folded_float_extreme hop (fun a b ha => (extreme_step hop hd a b ha).2) (hini e2) hx'
    rw [he]
    exact extreme_of hop hne h1 h2 h3

/-- C102 (partial): the maximum and the minimum of a non-empty float array without NaN, for every memory layout.  Missing: with a NaN
the result should be NaN, and the empty array should be refused; see the counterexamples. -/
theorem C102_float_extremes_partial {op : Total} (hop : op = .max ∨ op = .min) {d : DType} (hd : DType.isFloat d = true) {h : Held Elem}
    (hw : h.view.WF) (ht : Typed d h) {xs : List (Flt ℚ)} (hx : h.nd.toList = xs.map Elem.flt) (hne : xs ≠ []) (hn : Flt.nan ∉ xs) :
    IsExtreme op xs (total op d h) := by
  have hnn : ∀ x ∈ xs, x ≠ Flt.nan := fun x hx h => hn (h ▸ hx)
  obtain ⟨x, l, rfl⟩ := List.exists_cons_of_ne_nil hne
  have := total_float_extreme hop hd hw ht hx ⟨x, by simp, hnn x (by simp)⟩
  rwa [List.filter_eq_self.2 (by simpa using hnn)] at this

example : total .max .f16 (stored .f16 [2, 2] [.flt (.num 1), .flt .negInf, .flt (.num (5 / 2)), .flt (.num 2)]) = .num (5 / 2) ∧
    total .min .f32 (stored .f32 [3] [.flt (.num 1), .flt .posInf, .flt (.num (-1))]) = .num (-1) := by
  refine ⟨by decide +kernel, by decide +kernel⟩

/-- C102: a NaN is not seen by the maximum and the minimum: they are those of the other elements (NumPy gives NaN). -/
theorem C102_nan_counterexample :
    (∀ (op : Total), op = .max ∨ op = .min → ∀ (d : DType), DType.isFloat d = true → ∀ h : Held Elem, h.view.WF → Typed d h →
      ∀ xs : List (Flt ℚ), h.nd.toList = xs.map Elem.flt → (∃ x ∈ xs, x ≠ .nan) → total op d h ≠ .nan) ∧
    total .max .f64 (stored .f64 [3] [.flt (.num 1), .flt .nan, .flt (.num 2)]) = .num 2 ∧
    total .max .f64 (stored .f64 [1] [.flt .nan]) = .negInf := by
  refine ⟨fun op hop d hd h hw ht xs hx hne he => ?_, by decide +kernel, by decide +kernel⟩
  have := (total_float_extreme hop hd hw ht hx hne).1
  rw [he] at this
  simp at this

/-! ### Complex numbers -/

/-- C102: the sum, the product, the maximum and the minimum of every complex array are 0: the result is read as a float64, and complex
numbers are not. -/
theorem C102_complex_counterexample {d : DType} (hd : d = .c64 ∨ d = .c128) (op : Total) {h : Held Elem} (hw : h.view.WF)
    (ht : Typed d h) : total op d h = .num 0 := by
  have step : ∀ a b u v, ∃ x y, totalStep op d (.cpx a b) (.cpx u v) = .cpx x y := by
    intro a b u v
    have : ∀ (p : Nat) (lo hi : Int), ∃ x y, totalCpx p lo hi op a b u v = .cpx x y := by
      intro p lo hi
      unfold totalCpx
      cases op <;> dsimp only
      · exact ⟨_, _, rfl⟩
      · exact ⟨_, _, rfl⟩
      · split <;> exact ⟨_, _, rfl⟩
      · split <;> exact ⟨_, _, rfl⟩
    unfold totalStep
    dsimp only
    split <;> exact this _ _ _
  have acc : ∀ a b u v, totalAcc op d (.cpx a b) (.cpx u v) = totalStep op d (.cpx a b) (.cpx u v) := by
    intro a b u v; cases op <;> rfl
  have fold : ∀ {c : Elem → Elem → Elem} {e : Elem}, (∃ x y, e = .cpx x y) → (∀ a b u v, ∃ x y, c (.cpx a b) (.cpx u v) = .cpx x y) →
      ∀ {k l a}, Folded c e k l a → (∀ x ∈ l, ∃ u v, x = Elem.cpx u v) → ∃ u v, a = Elem.cpx u v := by
    intro c e he hc k l a hf
    induction hf with
    | nil => exact fun _ => he
    | @step k l a x _ ih =>
      intro hx
      obtain ⟨s, t, rfl⟩ := ih fun y hy => hx y (List.mem_append_left _ hy)
      obtain ⟨u, v, rfl⟩ := hx x (by simp)
      exact hc _ _ _ _
    | @join k l l' a b _ _ ih ih' =>
      intro hx
      obtain ⟨s, t, rfl⟩ := ih fun y hy => hx y (List.mem_append_left _ hy)
      obtain ⟨u, v, rfl⟩ := ih' fun y hy => hx y (List.mem_append_right _ hy)
      exact hc _ _ _ _
    | @perm k l l' a hp _ ih => exact fun hx => ih fun y hy => hx y (hp.mem_iff.1 hy)
    | le _ _ ih => exact ih
  have hall : ∀ x ∈ h.nd.toList, ∃ u v, x = Elem.cpx u v := by
    intro x hx
    obtain ⟨i, hi, rfl⟩ := List.mem_map.1 hx
    have := ht i (mem_indices.1 hi)
    revert this
    generalize h.nd.get i = z
    intro hz
    cases z with
    | cpx u v => exact ⟨u, v, rfl⟩
    | _ => rcases hd with rfl | rfl <;> first | exact hz.elim | (obtain ⟨_, _, hc, _⟩ := hz; cases hc; done)
  have hini : (∃ x y, totalInit op d = .cpx x y) ∧ ∃ x y, totalAccInit op d = .cpx x y := by
    rcases hd with rfl | rfl <;> cases op <;> exact ⟨⟨_, _, rfl⟩, ⟨_, _, rfl⟩⟩
  unfold total
  rcases totalAll_folded op d hw with ⟨-, x, hx', he⟩ | hx'
  · obtain ⟨u, v, rfl⟩ := fold hini.1 step hx' hall
    rw [he]
    rfl
  · obtain ⟨u, v, he⟩ := fold hini.2 (fun a b u v => by rw [acc]; exact step a b u v) hx' hall
    rw [he]
    rfl

example : total .sum .c128 (stored .c128 [2] [.cpx (.num 1) (.num 2), .cpx (.num 3) (.num 4)]) = .num 0 := by decide +kernel

/-! ### Along an axis -/

/-- C102 (partial): sums and products of an integer array along an axis are exact where they fit the dtype.  Missing: those that
do not. -/
theorem C102_axis_integers_partial {op : Total} {f : List Int → Int} (hf : op.whole = some f) {d : DType} (hd : isIntegerKind d = true)
    {lo hi : Int} (hr : d.intRange = some (lo, hi)) {h : Held Elem} (hw : h.view.WF) {axis : Nat} (hax : axis < h.view.shape.length)
    {ns : List Nat → List Int} (hn : ∀ i, InShape (h.view.shape.eraseIdx axis) i → laneOf h.nd axis i = (ns i).map Elem.int)
    (hfit : ∀ i, InShape (h.view.shape.eraseIdx axis) i → lo ≤ f (ns i) ∧ f (ns i) ≤ hi) :
    (totalAxis op d h axis).data = (indices (h.view.shape.eraseIdx axis)).map (fun i => Elem.int (f (ns i))) ∧
      (totalAxis op d h axis).shape = if (h.view.shape.eraseIdx axis).isEmpty then [1] else h.view.shape.eraseIdx axis := by
  obtain ⟨e1, e2, l0, l1, hnb⟩ := int_init (op := op) hd hr
  have hfe : startInt lo hi op = f [] := by cases op <;> cases hf <;> rfl
  unfold totalAxis
  rw [if_neg hnb]
  refine ⟨?_, reduceAxis_shape _ _ _ _ _ _⟩
  obtain ⟨g, hg, hgi⟩ := reduceAxis_folded (totalStep op d) (totalInit op d) h.mem hw hax (zeroElem d)
  rw [hg]
  apply List.map_congr_left
  intro i hi'
  have hi' := mem_indices.1 hi'
  have hl := hgi i hi'
  have hlane : laneOf (h.view.denote h.mem) axis i = (ns i).map Elem.int := hn i hi'
  rw [hlane] at hl
  obtain ⟨t, ht, h3, h4, h5⟩ := folded_whole hf ⟨l0, l1⟩ (fun a b => (int_step hd hr a b).1) (e1.trans (congrArg Elem.int hfe)) hl
    (fun x hx => by obtain ⟨n, -, rfl⟩ := List.mem_map.1 hx; exact ⟨n, rfl⟩)
  rw [wholeOf_map] at h3
  rw [ht, dvd_eq rfl h3 h4 h5 (hfit i hi').1 (hfit i hi').2]

example : totalAxis .sum .u8 (stored .u8 [2, 3] [.int 1, .int 2, .int 3, .int 4, .int 5, .int 6]) 1 = ⟨[2], [.int 6, .int 15]⟩ ∧
    totalAxis .prod .i16 (stored .i16 [2, 3] [.int 1, .int 2, .int 3, .int 4, .int 5, .int 6]) 0 = ⟨[3], [.int 4, .int 10, .int 18]⟩ := by
  refine ⟨by decide +kernel, by decide +kernel⟩

/-- C102: float sums along an axis have the error bound of the whole sum in every lane, unless something overflows. -/
theorem C102_axis_float_sum {d : DType} (hd : DType.isFloat d = true) {p : Nat} {lo hi : Int} (hf : d.format = some (p, lo, hi)) {h : Held Elem}
    (hw : h.view.WF) (ht : Typed d h) {axis : Nat} (hax : axis < h.view.shape.length) {xs : List Nat → List ℚ}
    (hx : ∀ i, InShape (h.view.shape.eraseIdx axis) i → laneOf h.nd axis i = (xs i).map fun x => Elem.flt (.num x))
    (hb : ∀ i, InShape (h.view.shape.eraseIdx axis) i → (1 + (2 : ℚ)⁻¹ ^ p) ^ (h.view.shape.getD axis 0) * absSum (xs i) ≤ topOf p hi) :
    ∃ q : List Nat → ℚ, (totalAxis .sum d h axis).data = (indices (h.view.shape.eraseIdx axis)).map (fun i => Elem.flt (.num (q i))) ∧
      ∀ i, InShape (h.view.shape.eraseIdx axis) i →
        |q i - exactSum (xs i)| ≤ ((1 + (2 : ℚ)⁻¹ ^ p) ^ (h.view.shape.getD axis 0) - 1) * absSum (xs i) := by
  obtain ⟨p', lo', hi', hf', hp, hlh, -⟩ := float_format hd
  rw [hf] at hf'
  cases hf'
  obtain ⟨e1, e2, hnb⟩ := float_init (op := .sum) hd
  unfold totalAxis
  rw [if_neg hnb]
  obtain ⟨g, hg, hgi⟩ := reduceAxis_folded (totalStep .sum d) (totalInit .sum d) h.mem hw hax (zeroElem d)
  have key : ∀ i, InShape (h.view.shape.eraseIdx axis) i → ∃ q, g i = .flt (.num q) ∧
      |q - exactSum (xs i)| ≤ ((1 + (2 : ℚ)⁻¹ ^ p) ^ (h.view.shape.getD axis 0) - 1) * absSum (xs i) := by
    intro i hi'
    have hl := hgi i hi'
    have hlane : laneOf (h.view.denote h.mem) axis i = (xs i).map fun x => Elem.flt (.num x) := hx i hi'
    have hnum : (laneOf (h.view.denote h.mem) axis i).map numOf = xs i := by
      rw [hlane, List.map_map]
      exact (List.map_congr_left fun _ _ => rfl).trans (List.map_id _)
    have hall : ∀ x ∈ laneOf (h.view.denote h.mem) axis i, ∃ q, x = Elem.flt (.num q) ∧ IsFloat p lo hi q := by
      intro x hm
      have hm' := hm
      rw [hlane] at hm'
      obtain ⟨q, -, rfl⟩ := List.mem_map.1 hm'
      refine ⟨q, rfl, ?_⟩
      obtain ⟨j, hj, he⟩ := List.mem_map.1 hm
      have := ht (i.insertIdx axis j) (inShape_insertIdx hax hi' (List.mem_range.1 hj))
      have he' : h.nd.get (i.insertIdx axis j) = Elem.flt (.num q) := he
      rw [he'] at this
      rcases isFloat_cases hd with rfl | rfl | rfl <;> cases hf <;> exact this
    rw [e1] at hl
    obtain ⟨q, h1, h2, h3⟩ := folded_sum hp hlh (fun x y h1 h2 => (float_step hd hf x y h1 h2).1) hl hall (by rw [hnum]; exact hb i hi')
    rw [hnum] at h3
    exact ⟨q, h1, h3⟩
  refine ⟨fun i => numOf (g i), ?_, ?_⟩
  · rw [hg]
    apply List.map_congr_left
    intro i hi'
    obtain ⟨q, h1, -⟩ := key i (mem_indices.1 hi')
    show g i = .flt (.num (numOf (g i)))
    rw [h1]; rfl
  · intro i hi'
    obtain ⟨q, h1, h2⟩ := key i hi'
    show |numOf (g i) - _| ≤ _
    rw [h1]; exact h2

example : totalAxis .sum .f16 (stored .f16 [2, 2] [.flt (.num 2048), .flt (.num 1), .flt (.num (1 / 2)), .flt (.num 1)]) 1 =
    ⟨[2], [.flt (.num 2048), .flt (.num (3 / 2))]⟩ := by decide +kernel

/-! ### Means -/

/-- C102 (partial): the mean of an integer array whose sum fits its dtype and 53 bits is the exact mean, rounded once.  Missing: sums
that do not fit, bools and the rounding of float sums. -/
theorem C102_mean_integers_partial {d : DType} (hd : isIntegerKind d = true) {lo hi : Int} (hr : d.intRange = some (lo, hi)) {h : Held Elem}
    (hw : h.view.WF) {ns : List Int} (hn : h.nd.toList = ns.map Elem.int) (hne : ns ≠ []) (hlen : ns.length ≤ 2 ^ 53) (h1 : lo ≤ ns.sum)
    (h2 : ns.sum ≤ hi) (hb : ns.sum.natAbs ≤ 2 ^ 53) :
    IsRounding 53 (-1074) 971 (.num ((ns.sum : ℚ) / ns.length)) (totalMean d h) := by
  have hlen' : size h.view.shape = ns.length := by
    have := congrArg List.length hn
    rw [length_toList, List.length_map] at this
    exact this
  have h0 : ns.length ≠ 0 := fun h => hne (List.length_eq_zero_iff.1 h)
  unfold totalMean
  rw [sizeOf_eq, hlen', if_neg h0, C102_integers_partial (op := .sum) rfl hd hr hw hn h1 h2 hb,
    intToF64_exact (x := (ns.length : Int)) (by simpa using hlen)]
  have hq : ((ns.length : Int) : ℚ) ≠ 0 := by exact_mod_cast h0
  unfold fltDiv
  dsimp only
  rw [if_neg hq]
  have := toFormat_rounding (p := 53) (lo := -1074) (hi := 971) (by decide) (by decide) (.num ((ns.sum : ℚ) / ns.length))
  exact_mod_cast this

example : totalMean .i32 (stored .i32 [3] [.int 1, .int 2, .int 4]) = roundBin 53 (-1074) 971 (7 / 3) := by decide +kernel

/-- C102: the mean of an `int8` array whose sum is out of range, and the mean of a bool array, are wrong; an empty array has mean NaN
as in NumPy. -/
theorem C102_mean_counterexample :
    totalMean .i8 (stored .i8 [2] [.int 100, .int 100]) = .num (-28) ∧
      totalMean .bool (stored .bool [2] [.bool true, .bool true]) = .num (1 / 2) ∧ totalMean .f64 (stored .f64 [0] []) = .nan := by
  refine ⟨by decide +kernel, by decide +kernel, by decide +kernel⟩

/-- C102 (partial): the mean along an axis of an integer array of two or more dimensions is float64, and in every lane whose sum fits it
is the quotient of the sum (rounded to 53 bits) and the length, rounded, provided that the length itself fits the dtype.  Missing:
sums and lengths that do not fit. -/
theorem C102_mean_axis_partial {d : DType} (hd : isIntegerKind d = true) {lo hi : Int} (hr : d.intRange = some (lo, hi)) {h : Held Elem}
    (hw : h.view.WF) {axis : Nat} (hax : axis < h.view.shape.length) (hrank : h.view.shape.eraseIdx axis ≠ [])
    {ns : List Nat → List Int} (hn : ∀ i, InShape (h.view.shape.eraseIdx axis) i → laneOf h.nd axis i = (ns i).map Elem.int)
    (hfit : ∀ i, InShape (h.view.shape.eraseIdx axis) i → lo ≤ (ns i).sum ∧ (ns i).sum ≤ hi) (h0 : h.view.shape.getD axis 0 ≠ 0)
    (hlen : (h.view.shape.getD axis 0 : Int) ≤ hi) (hlen' : h.view.shape.getD axis 0 ≤ 2 ^ 53) :
    ∃ q, totalMeanAxis d h axis = .ok (.f64, q) ∧ q.shape = h.view.shape.eraseIdx axis ∧ ∀ i, InShape (h.view.shape.eraseIdx axis) i → ∃ u w,
      IsRounding 53 (-1074) 971 (.num ((ns i).sum : ℚ)) (.num u) ∧ q.at? i = some (.flt w) ∧
      IsRounding 53 (-1074) 971 (.num (u / (h.view.shape.getD axis 0 : Nat))) w := by
  have hdr : d.Real := by cases d <;> first | (cases hd; done) | trivial
  obtain ⟨e1, e2, l0, l1, hnb⟩ := int_init (op := .sum) hd hr
  obtain ⟨t1, t2⟩ := C102_axis_integers_partial (op := .sum) rfl hd hr hw hax hn hfit
  rw [if_neg (by simpa [List.isEmpty_iff] using hrank)] at t2
  have his : (totalAxis .sum d h axis).Is ⟨h.view.shape.eraseIdx axis, fun i => Elem.int (ns i).sum⟩ := ⟨t2, t1⟩
  have hnd := held_of_is his (itemsize_real hdr) (zeroElem d)
  have hsh : (Held.of (totalAxis .sum d h axis) (DType.itemsize d) (zeroElem d)).view.shape = h.view.shape.eraseIdx axis := t2
  have hget : ∀ i, InShape (h.view.shape.eraseIdx axis) i →
      (Held.of (totalAxis .sum d h axis) (DType.itemsize d) (zeroElem d)).nd.get i = .int (ns i).sum := fun i hi =>
    hnd.2 i (by rw [show (Held.of (totalAxis .sum d h axis) (DType.itemsize d) (zeroElem d)).nd.shape = _ from hsh]; exact hi)
  have hty : Typed d (Held.of (totalAxis .sum d h axis) (DType.itemsize d) (zeroElem d)) := by
    intro i hi
    rw [hsh] at hi
    rw [hget i hi]
    obtain ⟨f1, f2⟩ := hfit i hi
    cases d <;> first | (cases hd; done) | (cases hr; exact ⟨_, _, rfl, f1, f2⟩)
  have hpy : pyF64 (.int (h.view.shape.getD axis 0 : Nat)) = some (.num (intToF64 (h.view.shape.getD axis 0 : Nat))) := by
    rw [pyF64_value (s := .int (h.view.shape.getD axis 0 : Nat)) (x := .num (((h.view.shape.getD axis 0 : Nat) : Int) : ℚ)) ⟨by simpa using hlen', rfl⟩,
      intToF64_exact (x := ((h.view.shape.getD axis 0 : Nat) : Int)) (by simpa using hlen')]
  have heq : totalMeanAxis d h axis = scalarOp ⟨fun x _ => x, fun x _ => x⟩ false .div d
      (Held.of (totalAxis .sum d h axis) (DType.itemsize d) (zeroElem d)) (.int (h.view.shape.getD axis 0 : Nat)) := by
    unfold scalarOp
    rw [hpy]
    rfl
  obtain ⟨q, q1, q2, q3⟩ := C96_scalar_division_partial ⟨fun x _ => x, fun x _ => x⟩ false hd hr (held_of_wf _ _ _) hty (by rw [hsh]; exact hrank)
    (n := (h.view.shape.getD axis 0 : Nat)) (by omega) hlen (by simpa using hlen') (by exact_mod_cast h0)
  rw [hsh] at q2 q3
  refine ⟨q, heq.trans q1, q2, fun i hi => ?_⟩
  obtain ⟨m, u, w, r1, r2, r3, r4⟩ := q3 i hi
  rw [hget i hi] at r1
  cases r1
  exact ⟨u, w, r2, r3, by exact_mod_cast r4⟩

example : totalMeanAxis .u8 (stored .u8 [2, 4] [.int 1, .int 2, .int 3, .int 4, .int 5, .int 6, .int 7, .int 8]) 1 =
    .ok (.f64, ⟨[2], [.flt (.num (5 / 2)), .flt (.num (13 / 2))]⟩) := by decide +kernel

/-- C102: along an axis longer than the largest number of the dtype the sum is divided by that number: the mean of an `int8` row of one
127 and 253 zeros is 1, not 1/2. -/
theorem C102_mean_axis_counterexample :
    totalMeanAxis .i8 (stored .i8 [1, 254] (.int 127 :: List.replicate 253 (.int 0))) 1 = .ok (.f64, ⟨[1], [.flt (.num 1)]⟩) := by
  decide +kernel

end Props
