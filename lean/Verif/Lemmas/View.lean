import Verif.Lemmas.Layout
import Verif.Model.View
import Verif.Spec.View
import Mathlib.Data.List.Perm.Basic
import Mathlib.Data.List.GetD
import Mathlib.Algebra.BigOperators.Group.List.Basic
import Mathlib.Tactic.Linarith
/-!
# Lemmas about the view operations
-/

namespace Spec

theorem IsSliceLen.unique {start stop step : Int} {n m : Nat}
    (h : IsSliceLen start stop step n) (h' : IsSliceLen start stop step m) : n = m := by
  apply Nat.le_antisymm
  · by_contra hc
    have := (h m).1 (by omega)
    exact absurd ((h' m).2 this) (by omega)
  · by_contra hc
    have := (h' n).1 (by omega)
    exact absurd ((h n).2 this) (by omega)

theorem inShape_iff_getD {s idx : List Nat} :
    InShape s idx ↔ idx.length = s.length ∧ ∀ k, k < s.length → idx.getD k 0 < s.getD k 0 := by
  induction s generalizing idx with
  | nil => simp
  | cons n s ih =>
    cases idx with
    | nil => simp [InShape]
    | cons i idx =>
      simp only [InShape, ih, List.length_cons]
      constructor
      · rintro ⟨h, h1, h2⟩
        refine ⟨by omega, fun k hk => ?_⟩
        cases k with
        | zero => simpa using h
        | succ k => simpa using h2 k (by omega)
      · rintro ⟨h1, h2⟩
        refine ⟨by simpa using h2 0 (by omega), by omega, fun k hk => ?_⟩
        simpa using h2 (k + 1) (by omega)

theorem getD_reverse_lt {l : List Nat} {k : Nat} (h : k < l.length) :
    l.reverse.getD k 0 = l.getD (l.length - 1 - k) 0 := by
  have h2 : l.length - 1 - k < l.length := by omega
  simp [List.getD, h, List.getElem?_eq_getElem h2]

theorem inShape_reverse {s idx : List Nat} : InShape s.reverse idx ↔ InShape s idx.reverse := by
  rw [inShape_iff_getD, inShape_iff_getD]
  simp only [List.length_reverse]
  constructor
  · rintro ⟨h1, h2⟩
    refine ⟨h1, fun k hk => ?_⟩
    have := h2 (s.length - 1 - k) (by omega)
    rw [getD_reverse_lt (by omega)] at this
    rw [getD_reverse_lt (by omega), h1]
    convert this using 2; omega
  · rintro ⟨h1, h2⟩
    refine ⟨h1, fun k hk => ?_⟩
    have := h2 (s.length - 1 - k) (by omega)
    rw [getD_reverse_lt (by omega), h1] at this
    rw [getD_reverse_lt (by omega)]
    convert this using 2; omega

theorem inShape_set {s : List Nat} {axis n : Nat} {idx : List Nat} (hax : axis < s.length) :
    InShape (s.set axis n) idx ↔
      idx.length = s.length ∧ idx.getD axis 0 < n ∧
        ∀ k, k < s.length → k ≠ axis → idx.getD k 0 < s.getD k 0 := by
  rw [inShape_iff_getD]
  simp only [List.length_set]
  constructor
  · rintro ⟨h1, h2⟩
    refine ⟨h1, ?_, fun k hk hne => ?_⟩
    · simpa [List.getD, List.getElem?_set, hax] using h2 axis hax
    · simpa [List.getD, List.getElem?_set, hax, Ne.symm hne] using h2 k hk
  · rintro ⟨h1, h2, h3⟩
    refine ⟨h1, fun k hk => ?_⟩
    by_cases hne : k = axis
    · subst hne
      simpa [List.getD, List.getElem?_set, hax] using h2
    · simpa [List.getD, List.getElem?_set, hax, Ne.symm hne] using h3 k hk hne

theorem getD_modify_self {l : List Nat} {k : Nat} {f : Nat → Nat} (h : k < l.length) :
    (l.modify k f).getD k 0 = f (l.getD k 0) := by
  simp [List.getD, List.getElem?_modify, h]

theorem getD_modify_ne {l : List Nat} {k j : Nat} {f : Nat → Nat} (h : k ≠ j) :
    (l.modify k f).getD j 0 = l.getD j 0 := by
  simp [List.getD, List.getElem?_modify, h]

/-- Replacing the coordinate of one axis by one in range keeps the index in shape. -/
theorem inShape_modify {s : List Nat} {axis n : Nat} {idx : List Nat} {f : Nat → Nat}
    (hax : axis < s.length) (h : InShape (s.set axis n) idx)
    (hf : ∀ k, k < n → f k < s.getD axis 0) : InShape s (idx.modify axis f) := by
  rw [inShape_set hax] at h
  obtain ⟨h1, h2, h3⟩ := h
  rw [inShape_iff_getD]
  refine ⟨by simpa using h1, fun k hk => ?_⟩
  by_cases hne : axis = k
  · subst hne
    rw [getD_modify_self (by omega)]
    exact hf _ h2
  · rw [getD_modify_ne hne]
    exact h3 k hk (Ne.symm hne)

end Spec

namespace Rumpy
open Spec

/-- A view whose strides match its shape and whose flags are truthful. -/
structure View.WF (v : View) : Prop where
  len : v.strides.length = v.shape.length
  c : v.cFlag = true → isCContiguous v.shape v.strides v.item = true
  f : v.fFlag = true → isFContiguous v.shape v.strides v.item = true

theorem View.WF.viewWith {v : View} {d : Int} {sh : List Nat} {st : List Int}
    (h : st.length = sh.length) : (v.viewWith d sh st).WF :=
  ⟨h, id, id⟩

theorem isCContiguous_cStrides (shape : List Nat) (item : Nat) :
    isCContiguous shape (cStrides shape item) item = true := by
  unfold isCContiguous
  rcases hr : isCAux item shape (cStrides shape item) with e | b
  · rfl
  · cases b with
    | true => rfl
    | false =>
      by_cases hp : 0 < size shape
      · obtain ⟨idx, hi, hne⟩ := isCAux_done_false (cStrides_length shape item) hr hp
        exact absurd (byteOffset_cStrides item shape idx hi.length_eq) hne
      · exfalso
        -- an empty shape cannot be refused with its own strides
        have key : ∀ s : List Nat, ∀ b, isCAux item s (cStrides s item) = .done b → b = true := by
          intro s
          induction s with
          | nil => intro b h; simp [isCAux] at h
          | cons n s ih =>
            intro b h
            rw [cStrides_cons] at h
            simp only [isCAux] at h
            rcases hr : isCAux item s (cStrides s item) with e | b'
            · rw [hr] at h
              have := (isCAux_run (cStrides_length s item) hr).1
              simp only [contigStep] at h
              split at h
              · simpa using h.symm
              · split at h
                · rename_i h1
                  exact absurd this.symm h1.2
                · simp at h
            · rw [hr] at h
              simp only [contigStep] at h
              have := ih b' hr
              simp at h; rw [← h]; exact this
        exact Bool.noConfusion (key shape false hr)

theorem View.WF.fresh (shape : List Nat) (item : Nat) : (View.fresh shape item).WF :=
  ⟨cStrides_length shape item, fun _ => isCContiguous_cStrides shape item,
    fun h => Bool.noConfusion h⟩

/-! ### Slices -/

theorem sliceLen_spec {start stop step : Int} (hs : step ≠ 0) :
    IsSliceLen start stop step (View.sliceLen start stop step) := by
  intro k
  unfold View.sliceLen
  by_cases hp : step > 0
  · simp only [hp, if_true]
    by_cases hss : stop > start
    · simp only [hss, if_true]
      rw [Int.tdiv_eq_ediv_of_nonneg (by omega), Int.lt_toNat, ← Int.add_one_le_iff,
        Int.le_ediv_iff_mul_le hp]
      have : ((k : Int) + 1) * step = k * step + step := by ring
      omega
    · simp only [hss, if_false]
      have : 0 ≤ (k : Int) * step := by positivity
      simp only [Int.toNat_zero, Nat.not_lt_zero, false_iff]
      omega
  · simp only [hp, if_false]
    by_cases hss : start > stop
    · simp only [hss, if_true]
      rw [Int.tdiv_eq_ediv_of_nonneg (by omega), Int.lt_toNat, ← Int.add_one_le_iff,
        Int.le_ediv_iff_mul_le (by omega)]
      have : ((k : Int) + 1) * -step = -(k * step) - step := by ring
      omega
    · simp only [hss, if_false]
      have : 0 ≤ (k : Int) * (-step) := mul_nonneg (by positivity) (by omega)
      have e : (k : Int) * (-step) = -(k * step) := by ring
      simp only [Int.toNat_zero, Nat.not_lt_zero, false_iff]
      omega

/-- Positions selected by a slice with Python-normalised bounds are inside the axis. -/
theorem slice_positions {len : Nat} {i j : Option Int} {step : Int} {n : Nat} (hs : step ≠ 0)
    (hn : IsSliceLen (sliceStart len i step) (sliceStop len j step) step n) {k : Nat} (hk : k < n) :
    0 ≤ sliceStart len i step + k * step ∧ sliceStart len i step + k * step < len := by
  have h := (hn k).1 hk
  by_cases hp : step > 0
  · simp only [hp, if_true] at h
    have h0 : 0 ≤ sliceStart len i step := by
      unfold sliceStart; cases i <;> simp [hp]
    have h1 : sliceStop len j step ≤ len := by
      unfold sliceStop; cases j <;> simp [hp]
    have : 0 ≤ (k : Int) * step := by positivity
    omega
  · simp only [hp, if_false] at h
    have h0 : sliceStart len i step < len := by
      unfold sliceStart
      cases i with
      | none => simp only [hp, if_false]; omega
      | some i => simp only [hp, if_false]; omega
    have h1 : -1 ≤ sliceStop len j step := by
      unfold sliceStop
      cases j with
      | none => simp only [hp, if_false]; omega
      | some i => simp only [hp, if_false]; omega
    have : 0 ≤ (k : Int) * (-step) := mul_nonneg (by positivity) (by omega)
    have e : (k : Int) * (-step) = -(k * step) := by ring
    omega

theorem byteOffset_slice {step start : Int} : ∀ {axis : Nat} {idx : List Nat} {sts : List Int} {st : Int},
    sts[axis]? = some st → axis < idx.length → 0 ≤ start + (idx.getD axis 0 : Nat) * step →
    byteOffset (idx.modify axis fun k => (start + k * step).toNat) sts
      = start * st + byteOffset idx (sts.set axis (st * step))
  | 0, i :: idx, s :: sts, st, h, _, h0 => by
    simp only [List.getElem?_cons_zero, Option.some.injEq] at h
    subst h
    simp only [List.getD_cons_zero] at h0
    simp only [List.modify_zero_cons, byteOffset, List.set_cons_zero, Int.toNat_of_nonneg h0]
    ring
  | axis + 1, i :: idx, s :: sts, st, h, hl, h0 => by
    have := byteOffset_slice (step := step) (start := start) (axis := axis) (idx := idx) (sts := sts) (st := st)
      (by simpa using h) (by simpa using hl) (by simpa using h0)
    simp only [List.modify_succ_cons, byteOffset, List.set_cons_succ, this]
    ring
  | _, [], _, _, _, h, _ => by simp at h
  | 0, _ :: _, [], _, h, _, _ => by simp at h
  | _ + 1, _ :: _, [], _, h, _, _ => by simp at h

/-- `slice_axis` reads the right elements whenever `start * |stride| = start * stride`. -/
theorem sliceAxis_denote (mem : Int → α) {v : View} {axis len : Nat} {st start stop step : Int}
    (hs : step ≠ 0) (hlen : v.shape[axis]? = some len) (hst : v.strides[axis]? = some st)
    (hpos : 0 ≤ st ∨ start = 0)
    (hin : ∀ k, k < View.sliceLen start stop step → 0 ≤ start + (k : Int) * step) :
    ∃ v', v.sliceAxis axis start stop step = some v' ∧
      v'.shape = v.shape.set axis (View.sliceLen start stop step) ∧
      v'.strides = v.strides.set axis (st * step) ∧ v'.item = v.item ∧
      (v.strides.length = v.shape.length → v'.WF) ∧
      (v'.denote mem).Same ((v.denote mem).slice axis start step (View.sliceLen start stop step)) ∧
      ∀ idx, InShape v'.shape idx →
        v'.addr idx = v.addr (idx.modify axis fun k => (start + k * step).toNat) := by
  have hax : axis < v.shape.length := by
    rw [List.getElem?_eq_some_iff] at hlen; exact hlen.1
  have hadr : ∀ idx, InShape (v.shape.set axis (View.sliceLen start stop step)) idx →
      (v.viewWith (start * (st.natAbs : Int))
        (v.shape.set axis (View.sliceLen start stop step)) (v.strides.set axis (st * step))).addr idx
        = v.addr (idx.modify axis fun k => (start + k * step).toNat) := by
    intro idx hi
    rw [inShape_set hax] at hi
    obtain ⟨h1, h2, _⟩ := hi
    simp only [View.addr, View.viewWith]
    rw [byteOffset_slice hst (by omega) (hin _ h2)]
    rcases hpos with hp | hp
    · rw [Int.natAbs_of_nonneg hp]; ring
    · subst hp; ring
  refine ⟨v.viewWith (start * (st.natAbs : Int))
        (v.shape.set axis (View.sliceLen start stop step)) (v.strides.set axis (st * step)),
    ?_, rfl, rfl, rfl, ?_, ⟨rfl, fun idx hi => ?_⟩, hadr⟩
  · simp only [View.sliceAxis, hst, hlen]
    rw [if_neg (by simp [hs])]
  · intro hl; exact View.WF.viewWith (by simp [hl])
  · exact congrArg mem (hadr idx hi)

/-! ### Sums -/

theorem byteOffset_append : ∀ {a : List Nat} {sa : List Int} (b : List Nat) (sb : List Int),
    a.length = sa.length → byteOffset (a ++ b) (sa ++ sb) = byteOffset a sa + byteOffset b sb
  | [], [], b, sb, _ => by simp [byteOffset]
  | i :: a, s :: sa, b, sb, h => by
    simp [byteOffset, byteOffset_append b sb (by simpa using h : a.length = sa.length), Int.add_assoc]

theorem byteOffset_reverse : ∀ {a : List Nat} {sa : List Int}, a.length = sa.length →
    byteOffset a.reverse sa.reverse = byteOffset a sa
  | [], [], _ => rfl
  | i :: a, s :: sa, h => by
    have hl : a.length = sa.length := by simpa using h
    rw [List.reverse_cons, List.reverse_cons, byteOffset_append _ _ (by simpa using hl),
      byteOffset_reverse hl]
    simp [byteOffset]; ring

theorem byteOffset_eq_sum : ∀ {n : Nat} {a : List Nat} {sa : List Int}, a.length = n → sa.length = n →
    byteOffset a sa = ((List.range n).map fun k => ((a.getD k 0 : Nat) : Int) * sa.getD k 0).sum
  | 0, [], [], _, _ => rfl
  | n + 1, i :: a, s :: sa, h, h' => by
    have := byteOffset_eq_sum (n := n) (a := a) (sa := sa) (by simpa using h) (by simpa using h')
    rw [List.range_succ_eq_map]
    simp [byteOffset, this, List.map_map, Function.comp_def]

theorem mapM_getElem? {l : List β} {axes : List Nat} (d : β) (h : ∀ a ∈ axes, a < l.length) :
    axes.mapM (fun a => l[a]?) = some (axes.map fun a => l.getD a d) := by
  induction axes with
  | nil => rfl
  | cons a axes ih =>
    have ha : a < l.length := h a (by simp)
    rw [List.mapM_cons, ih (fun x hx => h x (by simp [hx]))]
    simp [List.getElem?_eq_getElem ha, List.getD_eq_getElem _ _ ha]

/-- `axes` is a permutation of the axes of an `n`-dimensional array. -/
theorem perm_range_facts {axes : List Nat} {n : Nat} (h : axes.Perm (List.range n)) :
    axes.length = n ∧ (∀ a ∈ axes, a < n) ∧ axes.Nodup ∧ ∀ k, k < n → k ∈ axes := by
  refine ⟨by simpa using h.length_eq, fun a ha => ?_, h.nodup_iff.2 List.nodup_range, fun k hk => ?_⟩
  · exact List.mem_range.1 (h.mem_iff.1 ha)
  · exact h.mem_iff.2 (List.mem_range.2 hk)

theorem map_getD_range {l : List β} (d : β) {n : Nat} (h : l.length = n) :
    (List.range n).map (fun k => l.getD k d) = l := by
  apply List.ext_getElem
  · simp [h]
  · intro i h1 h2
    simp [List.getD, List.getElem?_eq_getElem h2]

theorem byteOffset_perm {axes : List Nat} {n : Nat} (h : axes.Perm (List.range n))
    {idx : List Nat} {sts : List Int} (hi : idx.length = n) (hs : sts.length = n) :
    byteOffset idx (axes.map fun a => sts.getD a 0)
      = byteOffset ((List.range n).map fun k => idx.getD (axes.idxOf k) 0) sts := by
  obtain ⟨hl, hlt, hnd, hmem⟩ := perm_range_facts h
  rw [byteOffset_eq_sum (n := n) hi (by simp [hl]), byteOffset_eq_sum (n := n) (by simp) hs]
  have e2 : ((List.range n).map fun k => (((List.map (fun k => idx.getD (axes.idxOf k) 0) (List.range n)).getD k 0 : Nat) : Int) * sts.getD k 0)
      = (List.range n).map fun k => ((idx.getD (axes.idxOf k) 0 : Nat) : Int) * sts.getD k 0 := by
    apply List.map_congr_left
    intro k hk
    rw [List.mem_range] at hk
    rw [List.getD_eq_getElem _ _ (by simpa using hk)]
    simp
  rw [e2, ← (h.map fun k => ((idx.getD (axes.idxOf k) 0 : Nat) : Int) * sts.getD k 0).sum_eq]
  congr 1
  apply List.ext_getElem
  · simp [hl]
  · intro i h1 h2
    have hi' : i < axes.length := by simpa using h2
    simp only [List.getElem_map, List.getElem_range]
    rw [List.Nodup.idxOf_getElem hnd i hi']
    congr 1
    rw [List.getD_eq_getElem _ _ (by simpa using hi')]
    simp

/-! ### Shape inference -/

theorem resolveLoop_spec : ∀ (ds : List Int) (i : Nat) (neg : Option Nat) (p : Nat) (r : Option Nat × Nat),
    resolveLoop ds i neg p = some r →
    (∀ d ∈ ds, -1 ≤ d) ∧
    ((-1 ∉ ds ∧ r = (neg, p * size (ds.map Int.toNat))) ∨
     (neg = none ∧ ∃ a b, ds = a ++ -1 :: b ∧ -1 ∉ a ∧ -1 ∉ b ∧
        r = (some (i + a.length), p * size (a.map Int.toNat) * size (b.map Int.toNat))))
  | [], i, neg, p, r, h => by
    simp only [resolveLoop, Option.some.injEq] at h
    subst h
    simp [size]
  | d :: ds, i, neg, p, r, h => by
    simp only [resolveLoop] at h
    split at h
    · simp at h
    · rename_i hd
      split at h
      · rename_i hd1
        subst hd1
        split at h
        · simp at h
        · rename_i hn
          have hn' : neg = none := by cases neg <;> simp_all
          obtain ⟨h1, h2⟩ := resolveLoop_spec ds (i + 1) (some i) p r h
          refine ⟨by intro d hd; rcases List.mem_cons.1 hd with rfl | hd; · omega
                     · exact h1 d hd, ?_⟩
          rcases h2 with ⟨h3, h4⟩ | ⟨h3, _⟩
          · refine Or.inr ⟨hn', [], ds, rfl, by simp, h3, ?_⟩
            simp [h4, size]
          · simp at h3
      · rename_i hd1
        obtain ⟨h1, h2⟩ := resolveLoop_spec ds (i + 1) neg _ r h
        refine ⟨by intro d' hd'; rcases List.mem_cons.1 hd' with rfl | hd'; · omega
                   · exact h1 d' hd', ?_⟩
        rcases h2 with ⟨h3, h4⟩ | ⟨h3, a, b, rfl, ha, hb, h4⟩
        · refine Or.inl ⟨by simp [h3, Ne.symm hd1], ?_⟩
          simp [h4, size, Nat.mul_assoc]
        · refine Or.inr ⟨h3, d :: a, b, rfl, by simp [ha, Ne.symm hd1], hb, ?_⟩
          simp [h4, size, Nat.mul_assoc]; omega

end Rumpy
