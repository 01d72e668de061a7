import Verif.Spec.ArgOrder
import Verif.Model.ArgOrder
import Verif.Lemmas.ArgReduce
import Verif.Lemmas.Compare
import Verif.Lemmas.Select

/-!
# Lemmas: argmax and argmin of floats that are not NaN
-/

namespace Rumpy

open Spec

/-- The float at a place. -/
def atPlace : WithBot (WithTop ℚ) → Flt ℚ
  | none => .negInf
  | some none => .posInf
  | some (some q) => .num q

theorem place_atPlace (p : WithBot (WithTop ℚ)) : (atPlace p).place = some p := by
  rcases p with _ | _ | q <;> rfl

theorem atPlace_of {u : Flt ℚ} {p : WithBot (WithTop ℚ)} (h : u.place = some p) : u = atPlace p := by
  cases u <;> simp only [Flt.place, Option.some.injEq, reduceCtorEq] at h <;> subst h <;> rfl

theorem fltLt_atPlace (p q : WithBot (WithTop ℚ)) : fltLt (atPlace p) (atPlace q) = decide (p < q) := by
  rw [Bool.eq_iff_iff, fltLt_iff, decide_eq_true_iff]
  simp [place_atPlace]

theorem argScan_map {α β : Type} (f : β → α) {gt : α → α → Bool} {gt' : β → β → Bool} (hgt : ∀ a b, gt (f a) (f b) = gt' a b)
    {d : Nat → α} {d' : Nat → β} : ∀ (js : List Nat) (s : β × Nat), (∀ j ∈ js, d j = f (d' j)) →
    (argScan gt d js (f s.1, s.2)).2 = (argScan gt' d' js s).2 := by
  intro js
  induction js with
  | nil => exact fun _ _ => rfl
  | cons j js ih =>
    intro s h
    have hj := h j List.mem_cons_self
    have ht : ∀ k ∈ js, d k = f (d' k) := fun k hk => h k (List.mem_cons_of_mem _ hk)
    unfold argScan
    rw [List.foldl_cons, List.foldl_cons]
    dsimp only
    rw [hj, hgt]
    by_cases hc : gt' (d' j) s.1 = true
    · rw [if_pos hc, if_pos hc]
      exact ih (d' j, j) ht
    · rw [if_neg hc, if_neg hc]
      exact ih s ht

theorem argContiguous_map {α β : Type} (f : β → α) {gt : α → α → Bool} {gt' : β → β → Bool} (hgt : ∀ a b, gt (f a) (f b) = gt' a b)
    {d : Nat → α} {d' : Nat → β} {n : Nat} (h : ∀ j < n, d j = f (d' j)) : argContiguous gt d n = argContiguous gt' d' n := by
  unfold argContiguous
  by_cases hn : n = 0
  · rw [if_pos hn, if_pos hn]
  · rw [if_neg hn, if_neg hn, h 0 (by omega)]
    refine argScan_map f hgt _ (d' 0, 0) fun j hj => h j ?_
    rw [List.mem_range'_1] at hj
    omega

/-- The search in terms of the elements in row-major order. -/
theorem argFull_scan {α : Type} (typed : Bool) (gt : α → α → Bool) (init : α) (mem : Int → α) {v : View} (hw : v.WF)
    (hn : size v.shape ≠ 0) (d : Nat → α) (hd : ∀ i p, v.addrs[i]? = some p → mem p = d i) :
    argFull typed gt init mem v =
      if typed && v.cFlag then argContiguous gt d (size v.shape) else (argScan gt d (List.range (size v.shape)) (init, 0)).2 := by
  have hlen : v.addrs.length = size v.shape := by rw [addrs_eq hw]; simp [length_indices]
  unfold argFull
  rw [sizeOf_eq, if_neg hn]
  split
  · next hc =>
    have hc : v.cFlag = true := by simp at hc; exact hc.2
    apply argContiguous_congr
    intro i hi
    obtain ⟨idx, hidx, rfl⟩ := exists_rank hi
    rw [← cFlag_addr hw hc hidx]
    apply hd
    rw [addrs_eq hw, List.getElem?_map, indices_getElem?_rank hidx]
    rfl
  · rw [argStrided_eq gt init mem d hd, hlen]

/-- If no element is NaN, the search finds the first place that is best by `key`. -/
theorem argFull_places {κ : Type} [LinearOrder κ] (key : WithBot (WithTop ℚ) → κ) {gt : Flt ℚ → Flt ℚ → Bool}
    (hgt : ∀ p q, gt (atPlace p) (atPlace q) = gtKey key p q) (typed : Bool) {init : Flt ℚ} (mem : Int → Flt ℚ) {v : View} (hw : v.WF)
    (hn : size v.shape ≠ 0) {ps : List (WithBot (WithTop ℚ))} (hp : (v.denote mem).toList.map Flt.place = ps.map some)
    {b : WithBot (WithTop ℚ)} (hb : init.place = some b) (hlow : ∀ p ∈ ps, key b ≤ key p) :
    FirstMax (ps.map key) (argFull typed gt init mem v) := by
  have hlen : ps.length = size v.shape := by
    have := congrArg List.length hp
    rw [List.length_map, List.length_map] at this
    rw [← this]
    unfold Nd.toList
    rw [List.length_map, length_indices]
    rfl
  have hd : ∀ i p, v.addrs[i]? = some p → mem p = atPlace (ps.getD i b) := by
    intro i p h
    have h1 : (v.denote mem).toList[i]? = some (mem p) := by rw [← addrs_map hw, List.getElem?_map, h]; rfl
    have h2 : ((v.denote mem).toList.map Flt.place)[i]? = some (mem p).place := by rw [List.getElem?_map, h1]; rfl
    rw [hp, List.getElem?_map] at h2
    cases h3 : ps[i]? with
    | none => rw [h3] at h2; cases h2
    | some q =>
      rw [h3] at h2
      have h4 : (mem p).place = some q := by
        have := Option.some.inj h2
        exact this.symm
      rw [atPlace_of h4]
      simp [h3]
  have hlist : ps.map key = (List.range (size v.shape)).map fun i => key (ps.getD i b) := by
    apply List.ext_getElem?
    intro k
    by_cases hk : k < ps.length
    · simp [hk, ← hlen]
    · simp [← hlen, hk]
  rw [argFull_scan typed gt init mem hw hn _ hd, hlist]
  split
  · rw [argContiguous_map atPlace hgt (d' := fun i => ps.getD i b) fun j _ => rfl]
    exact argContiguous_firstMax key _ hn
  · rw [atPlace_of hb, argScan_map atPlace hgt (d' := fun i => ps.getD i b) _ (b, 0) fun j _ => rfl]
    refine argScan_firstMax key _ _ ?_ hn
    have : 0 < ps.length := by omega
    have h0 : ps.getD 0 b ∈ ps := by
      rw [List.getD_eq_getElem _ _ this]
      exact List.getElem_mem this
    exact hlow _ h0

/-- The same for one lane. -/
theorem argContiguous_places {κ : Type} [LinearOrder κ] (key : WithBot (WithTop ℚ) → κ) {gt : Flt ℚ → Flt ℚ → Bool}
    (hgt : ∀ p q, gt (atPlace p) (atPlace q) = gtKey key p q) {d : Nat → Flt ℚ} {n : Nat} (hn : n ≠ 0) {ps : List (WithBot (WithTop ℚ))}
    (hp : (List.range n).map (fun j => (d j).place) = ps.map some) : FirstMax (ps.map key) (argContiguous gt d n) := by
  have hlen : ps.length = n := by
    have := congrArg List.length hp
    simpa using this.symm
  have hd : ∀ j < n, d j = atPlace (ps.getD j ⊥) := by
    intro j hj
    apply atPlace_of
    have := congrArg (·[j]?) hp
    simp [hj, hlen] at this
    simp [hj, hlen, this]
  rw [argContiguous_map atPlace hgt (d' := fun i => ps.getD i ⊥) hd]
  have hlist : ps.map key = (List.range n).map fun i => key (ps.getD i ⊥) := by
    apply List.ext_getElem?
    intro k
    by_cases hk : k < ps.length
    · simp [hk, ← hlen]
    · simp [← hlen, hk]
  rw [hlist]
  exact argContiguous_firstMax key _ hn

end Rumpy
