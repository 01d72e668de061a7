import Verif.Model.SearchElem
import Verif.Lemmas.ArgOrder
import Verif.Lemmas.MixedCompare
import Verif.Props.Search

/-!
# Lemmas: `searchsorted` for arrays of two dtypes
-/

namespace Rumpy
open Spec Props

/-- The elements that the search reads. -/
theorem stride_addr {a : View} (hw : a.WF) {n : Nat} (hs : a.shape = [n]) {i : Nat} (hi : i < n) :
    a.offset + i * (if a.cFlag then (a.item : Int) else a.strides.getD 0 0) = a.addr [i] := by
  have hin : InShape a.shape [i] := by rw [hs]; exact ⟨hi, trivial⟩
  unfold View.addr
  congr 1
  by_cases hc : a.cFlag = true
  · rw [isC_sound hw.len (hw.c hc) hin, hs]
    simp [hc, rank, size, Int.mul_comm]
  · have hl := hw.len
    rw [hs] at hl
    obtain ⟨st, hst⟩ := List.length_eq_one_iff.1 hl
    simp [hc, hst, byteOffset]

/-- Only the comparisons of elements of the two arrays matter. -/
theorem searchsorted_congr {α β : Type} {cmp : α → α → Ordering} {cmp' : β → β → Ordering} {mem : Int → α} {mem' : Int → β} {a : View} (hw : a.WF)
    {n : Nat} (hs : a.shape = [n]) {v : Nd α} {v' : Nd β} (hv : v'.shape = v.shape)
    (h : ∀ i idx, InShape a.shape i → InShape v.shape idx → cmp (mem (a.addr i)) (v.get idx) = cmp' (mem' (a.addr i)) (v'.get idx)) (left : Bool) :
    searchsorted cmp mem a v left = searchsorted cmp' mem' a v' left := by
  have hsz : Rumpy.sizeOf a.shape = n := by rw [sizeOf_eq, hs]; simp [size]
  have hl : ¬ a.shape.length ≠ 1 := by simp [hs]
  simp only [searchsorted, if_neg hl]
  unfold Nd.toList
  rw [hv, hsz, List.map_map, List.map_map]
  congr 2
  apply List.map_congr_left
  intro idx hidx
  apply bsearch_congr
  intro i hi
  rw [stride_addr hw hs hi, h [i] idx (by rw [hs]; exact ⟨hi, trivial⟩) (mem_indices.1 hidx)]

theorem fltOrd_place {x y : Flt ℚ} {p q : WithBot (WithTop ℚ)} (hx : x.place = some p) (hy : y.place = some q) : fltOrd x y = compare p q := by
  unfold fltOrd
  by_cases h1 : p < q
  · rw [if_pos ((fltLt_iff x y).2 ⟨p, q, hx, hy, h1⟩), compare_lt_iff_lt.2 h1]
  · have e1 : fltLt x y = false := by
      rw [Bool.eq_false_iff]
      intro hc
      obtain ⟨p', q', hx', hy', hlt⟩ := (fltLt_iff x y).1 hc
      rw [hx] at hx'; rw [hy] at hy'
      cases hx'; cases hy'
      exact h1 hlt
    rw [e1, if_neg (by decide)]
    by_cases h2 : q < p
    · rw [if_pos ((fltLt_iff y x).2 ⟨q, p, hy, hx, h2⟩), compare_gt_iff_gt.2 h2]
    · have e2 : fltLt y x = false := by
        rw [Bool.eq_false_iff]
        intro hc
        obtain ⟨p', q', hx', hy', hlt⟩ := (fltLt_iff y x).1 hc
        rw [hx] at hy'; rw [hy] at hx'
        cases hx'; cases hy'
        exact h2 hlt
      rw [e2, if_neg (by decide)]
      have : p = q := le_antisymm (not_lt.1 h2) (not_lt.1 h1)
      exact (compare_eq_iff_eq.2 this).symm

/-- An element in a common dtype that can hold it. -/
inductive Kept (d : DType) (u : Flt ℚ) : Elem → Prop
  | bool (c : Bool) (hd : d = .bool) (hu : u = .num (if c then 1 else 0)) : Kept d u (.bool c)
  | int (n : Int) (hd : isIntegerKind d = true) (hu : u = .num n) : Kept d u (.int n)
  | flt (hd : DType.isFloat d = true) : Kept d u (.flt u)

theorem ordElem_kept {d : DType} {u v : Flt ℚ} {x y : Elem} (hx : Kept d u x) (hy : Kept d v y) {p q : WithBot (WithTop ℚ)}
    (hp : u.place = some p) (hq : v.place = some q) : ordElem d x y = compare p q := by
  cases hx with
  | bool c hd hu =>
    subst hd
    cases hy with
    | bool c' hd' hv =>
      rw [← fltOrd_place hp hq, hu, hv]
      cases c <;> cases c' <;> decide
    | int n hd' hv => cases hd'
    | flt hd' => cases hd'
  | int n hd hu =>
    cases hy with
    | bool c' hd' hv => subst hd'; cases hd
    | int m hd' hv =>
      subst hu; subst hv
      rw [← fltOrd_place hp hq]
      show compare n m = _
      unfold fltOrd
      rcases lt_trichotomy n m with h | h | h
      · rw [compare_lt_iff_lt.2 h, if_pos]
        show decide ((n : ℚ) < m) = true
        simpa using h
      · subst h
        rw [compare_eq_iff_eq.2 rfl, if_neg, if_neg] <;> simp [fltLt]
      · rw [compare_gt_iff_gt.2 h, if_neg, if_pos]
        · show decide ((m : ℚ) < n) = true
          simpa using h
        · show ¬ decide ((n : ℚ) < m) = true
          simpa using le_of_lt h
    | flt hd' => cases d <;> first | (cases hd; done) | (cases hd'; done)
  | flt hd =>
    cases hy with
    | bool c' hd' hv => subst hd'; cases hd
    | int n hd' hv => cases d <;> first | (cases hd; done) | (cases hd'; done)
    | flt hd' => exact fltOrd_place hp hq

/-- The conversion keeps an element if the common dtype can hold all elements of its dtype, or if it is not an integer beyond 2^53. -/
theorem cast_kept {a b d : DType} (ha : a.Real) (hb : b.Real) (hd : d = promote a b ∨ d = promote b a) {x : Elem} (hx : x.OfType a)
    (hfit : Fits a d ∨ ∀ n, x = .int n → n.natAbs ≤ 2 ^ 53) : ∃ u, x.parts = some (u, .num 0) ∧ Kept d u (castElem a d x) := by
  have key : ((d = .bool ∧ a = .bool) ∨ (isIntegerKind d = true ∧ fitsTable a d = true) ∨
      (DType.isFloat d = true ∧ (fitsTable a d = true ∨ (a = .i64 ∨ a = .u64) ∧ d = .f64))) ∧ d.Real := by
    rcases hd with rfl | rfl
    · obtain ⟨h1, h2, -, -⟩ := common_table a (mem_realTypes ha) b (mem_realTypes hb)
      refine ⟨?_, h2⟩
      rcases h1 with ⟨h1, h3, -⟩ | ⟨h1, h3, -⟩ | ⟨h1, h3, -⟩
      · exact Or.inl ⟨h1, h3⟩
      · exact Or.inr (Or.inl ⟨h1, h3⟩)
      · exact Or.inr (Or.inr ⟨h1, h3⟩)
    · obtain ⟨h1, h2, -, -⟩ := common_table b (mem_realTypes hb) a (mem_realTypes ha)
      refine ⟨?_, h2⟩
      rcases h1 with ⟨h1, -, h3⟩ | ⟨h1, -, h3⟩ | ⟨h1, -, h3⟩
      · exact Or.inl ⟨h1, h3⟩
      · exact Or.inr (Or.inl ⟨h1, h3⟩)
      · exact Or.inr (Or.inr ⟨h1, h3⟩)
  obtain ⟨key, hdr⟩ := key
  rcases key with ⟨rfl, rfl⟩ | ⟨h1, h2⟩ | ⟨h1, h2⟩
  · cases x <;> first | exact hx.elim | skip
    · next c => exact ⟨_, rfl, .bool c rfl rfl⟩
    · obtain ⟨lo, hi, h0, -⟩ := hx
      cases h0
  · obtain ⟨n, e1, e2⟩ := cast_common_int ha h1 h2 hx
    exact ⟨_, e1, e2 ▸ .int n h1 rfl⟩
  · have hparts : ∃ u, x.parts = some (u, .num 0) := by
      cases x with
      | bool c => exact ⟨_, rfl⟩
      | int n => exact ⟨_, rfl⟩
      | flt u => exact ⟨_, rfl⟩
      | cpx u v => cases a <;> first | exact ha.elim | exact hx.elim
      | text t => cases a <;> first | exact ha.elim | exact hx.elim
    obtain ⟨u, hu⟩ := hparts
    obtain ⟨p, lo, hi, hfm⟩ : ∃ p lo hi, d.format = some (p, lo, hi) := by
      rcases isFloat_cases h1 with rfl | rfl | rfl <;> exact ⟨_, _, _, rfl⟩
    refine ⟨u, hu, ?_⟩
    rw [cast_common_float ha h1 hfm h2 hx hu]
    have e : toFormat p lo hi u = u := by
      by_cases hft : fitsTable a d = true
      · have hisf := isFlt_of_fits ha h1 hft hfm hx hu
        cases u <;> first | rfl | exact roundBin_exact hisf
      · rcases hfit with hf | hsmall
        · exact absurd ((fits_iff (real_numeric ha) (real_numeric hdr)).1 hf) hft
        · rcases h2 with h2 | ⟨-, rfl⟩
          · exact absurd h2 hft
          · cases hfm
            obtain ⟨u', -, e2, e3⟩ := readF64_real ha hx hsmall
            rw [hu] at e2
            cases e2
            cases u <;> first | rfl | exact roundBin_exact e3
    rw [e]
    exact .flt h1

theorem place_parts {x : Elem} {u : Flt ℚ} (h : x.parts = some (u, .num 0)) {a : DType} (ha : a.Real) (hx : x.OfType a) : x.place = u.place := by
  cases x with
  | bool c => cases h; rfl
  | int n => cases h; rfl
  | flt v => cases h; rfl
  | cpx v w => cases a <;> first | exact ha.elim | exact hx.elim
  | text t => cases a <;> first | exact ha.elim | exact hx.elim

theorem kept_place {d : DType} {u : Flt ℚ} {x : Elem} (h : Kept d u x) : x.place = u.place := by
  cases h with
  | bool c hd hu => subst hu; rfl
  | int n hd hu => subst hu; rfl
  | flt hd => rfl

/-- The search among elements of a common dtype. -/
theorem search_core {d : DType} {h g : Held Elem} (hw : h.view.WF) {n : Nat} (hs : h.view.shape = [n])
    (hh : ∀ i, InShape h.view.shape i → ∃ u, Kept d u (h.nd.get i)) (hg : ∀ i, InShape g.view.shape i → ∃ u, Kept d u (g.nd.get i))
    {pl : List (WithBot (WithTop ℚ))} (hpl : h.nd.toList.map Elem.place = pl.map some) (hsort : pl.Pairwise (· ≤ ·))
    (hv : ∀ i, InShape g.view.shape i → (g.nd.get i).place ≠ none) (left : Bool) :
    ∃ pos : List Nat → Nat, ∃ r, searchsorted (ordElem d) h.mem h.view g.nd left = some r ∧ r.Is ⟨g.view.shape, pos⟩ ∧
      ∀ i, InShape g.view.shape i → ∃ p, (g.nd.get i).place = some p ∧
        if left then InsertLeft pl p (pos i) else InsertRight pl p (pos i) := by
  let f : Elem → WithBot (WithTop ℚ) := fun x => x.place.getD ⊥
  have hplace : ∀ i, InShape h.view.shape i → ∃ p, (h.nd.get i).place = some p := by
    intro i hi
    have hm : (h.nd.get i).place ∈ pl.map some := by
      rw [← hpl]
      exact List.mem_map_of_mem (List.mem_map_of_mem (mem_indices.2 hi))
    obtain ⟨p, -, hp⟩ := List.mem_map.1 hm
    exact ⟨p, hp.symm⟩
  have hlist : (h.view.denote fun q => f (h.mem q)).toList = pl := by
    have e1 : (h.view.denote fun q => f (h.mem q)).toList = (h.nd.toList.map Elem.place).map fun o => o.getD ⊥ := by
      simp only [Nd.toList, List.map_map]
      rfl
    rw [e1, hpl, List.map_map]
    exact List.map_id pl
  obtain ⟨pos, r, h1, h2, h3⟩ := C25_searchsorted (fun q => f (h.mem q)) h.view hw hs (by rw [hlist]; exact hsort)
    (⟨g.view.shape, fun i => f (g.nd.get i)⟩ : Nd _) left
  refine ⟨pos, r, ?_, h2, fun i hi => ?_⟩
  · rw [← h1]
    refine searchsorted_congr (cmp := ordElem d) (cmp' := compare) (mem := h.mem) (mem' := fun q => f (h.mem q)) (v := g.nd)
      (v' := ⟨g.view.shape, fun i => f (g.nd.get i)⟩) hw hs rfl (fun i idx hi hidx => ?_) left
    obtain ⟨u, hu⟩ := hh i hi
    obtain ⟨v, hvk⟩ := hg idx hidx
    obtain ⟨p, hp⟩ := hplace i hi
    obtain ⟨q, hq⟩ := Option.ne_none_iff_exists'.1 (hv idx hidx)
    have e := ordElem_kept hu hvk (p := p) (q := q) (by rw [← kept_place hu]; exact hp) (by rw [← kept_place hvk]; exact hq)
    have e1 : f (h.mem (h.view.addr i)) = p := by
      show Option.getD (Elem.place (h.nd.get i)) ⊥ = p
      rw [hp]; rfl
    have e2 : f (g.nd.get idx) = q := by
      show Option.getD (Elem.place (g.nd.get idx)) ⊥ = q
      rw [hq]; rfl
    show ordElem d (h.nd.get i) (g.nd.get idx) = compare (f (h.mem (h.view.addr i))) (f (g.nd.get idx))
    rw [e, e1, e2]
  · obtain ⟨q, hq⟩ := Option.ne_none_iff_exists'.1 (hv i hi)
    refine ⟨q, hq, ?_⟩
    have := h3 i
    rw [hlist] at this
    have e2 : f (g.nd.get i) = q := by
      show Option.getD (Elem.place (g.nd.get i)) ⊥ = q
      rw [hq]; rfl
    dsimp only at this
    rw [e2] at this
    exact this

end Rumpy
