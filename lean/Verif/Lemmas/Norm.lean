import Verif.Model.Norm
import Verif.Lemmas.Linalg
import Verif.Lemmas.Svd
import Verif.Props.Reduce
import Verif.Props.Elementwise
import Mathlib.Algebra.Order.Field.Basic
import Mathlib.Algebra.BigOperators.Group.List.Basic
/-!
# Lemmas about norms
-/

namespace Rumpy
open Spec

section
variable {K : Type} [Field K] [LinearOrder K]

theorem denote_map {β : Type} (f : K → β) (mem : Int → K) (v : View) :
    (v.denote fun p => f (mem p)).toList = (v.denote mem).toList.map f := by
  unfold Nd.toList
  rw [List.map_map]
  rfl

theorem maxAll_spec {h : Held K} (hw : h.view.WF) (hne : size h.view.shape ≠ 0) :
    maxAll h ∈ h.nd.toList ∧ ∀ x ∈ h.nd.toList, x ≤ maxAll h := by
  obtain ⟨h1, h2⟩ := Props.C16_max (fun x : WithBot K => x) (fun _ _ e => e) ⊥ (fun a => bot_le) (fun p => ((h.mem p : K) : WithBot K)) h.view hw hne
  rw [denote_map (fun x : K => (x : WithBot K))] at h1 h2
  obtain ⟨x, hx, hx'⟩ := List.mem_map.1 h1
  have e : maxAll h = x := by unfold maxAll; rw [← hx']; rfl
  rw [e]
  refine ⟨hx, fun y hy => ?_⟩
  have := h2 _ (List.mem_map_of_mem hy)
  rw [← hx'] at this
  exact WithBot.coe_le_coe.1 this

theorem minAll_spec {h : Held K} (hw : h.view.WF) (hne : size h.view.shape ≠ 0) :
    minAll h ∈ h.nd.toList ∧ ∀ x ∈ h.nd.toList, minAll h ≤ x := by
  obtain ⟨h1, h2⟩ := Props.C16_min (fun x : WithTop K => x) (fun _ _ e => e) ⊤ (fun a => le_top) (fun p => ((h.mem p : K) : WithTop K)) h.view hw hne
  rw [denote_map (fun x : K => (x : WithTop K))] at h1 h2
  obtain ⟨x, hx, hx'⟩ := List.mem_map.1 h1
  have e : minAll h = x := by unfold minAll; rw [← hx']; rfl
  rw [e]
  refine ⟨hx, fun y hy => ?_⟩
  have := h2 _ (List.mem_map_of_mem hy)
  rw [← hx'] at this
  exact WithTop.coe_le_coe.1 this

theorem foldl_add_sum' (l : List K) : ∀ x : K, l.foldl (fun x y => x + y) x = x + l.sum := by
  induction l with
  | nil => simp
  | cons y l ih => intro x; rw [List.foldl_cons, ih, List.sum_cons, add_assoc]

theorem sumAll_eq {h : Held K} (hw : h.view.WF) : sumAll h = h.nd.toList.sum := by
  unfold sumAll
  rw [Props.C16_reduce_all (fun x y : K => x + y) 0 add_assoc add_comm zero_add h.mem h.view hw, foldl_add_sum', zero_add]
  rfl

theorem absArr_wf (a : Held K) : (absArr a).view.WF := View.WF.fresh _ _

theorem absArr_same {a : Held K} (hw : a.view.WF) (hi : 0 < a.view.item) :
    (absArr a).nd.Same ⟨a.view.shape, fun idx => |a.nd.get idx|⟩ :=
  Arr.Is.denote (Props.C15_unary (fun x => |x|) a.mem a.view hw 0).1 hi 0

theorem absArr_shape {a : Held K} (hw : a.view.WF) : (absArr a).view.shape = a.view.shape :=
  (Props.C15_unary (fun x => |x|) a.mem a.view hw 0).1.1

theorem absArr_toList {a : Held K} (hw : a.view.WF) (hi : 0 < a.view.item) : (absArr a).nd.toList = a.nd.toList.map fun x => |x| := by
  rw [Nd.Same.toList (absArr_same hw hi)]
  unfold Nd.toList
  rw [List.map_map]
  rfl

theorem sumAxis_wf (a : Held K) (axis : Nat) : (sumAxis a axis).view.WF := View.WF.fresh _ _

theorem sumAxis_same {a : Held K} (hw : a.view.WF) (hi : 0 < a.view.item) {axis : Nat} (hax : axis < a.view.shape.length)
    (h2 : 2 ≤ a.view.shape.length) :
    (sumAxis a axis).nd.Same (Props.axisReduce (fun x y : K => x + y) 0 a.nd axis) :=
  Arr.Is.denote (Props.C18_reduce_axis (fun x y : K => x + y) 0 add_assoc add_comm zero_add a.mem a.view hw axis hax h2 0) hi 0

theorem countNonzero_eq {a : Held K} (hw : a.view.WF) (hne : size a.view.shape ≠ 0) :
    countNonzero a = a.nd.toList.countP fun x => decide (x ≠ 0) := by
  have key : ∀ (l : List Int) (c : Nat), l.foldl (fun count p => if a.mem p ≠ 0 then count + 1 else count) c =
      c + (l.map a.mem).countP fun x => decide (x ≠ 0) := by
    intro l
    induction l with
    | nil => simp
    | cons p l ih =>
      intro c
      rw [List.foldl_cons, ih, List.map_cons, List.countP_cons]
      by_cases h : a.mem p = 0
      · simp [h]
      · simp [h]; omega
  unfold countNonzero
  rw [sizeOf_eq, if_neg hne, key, addrs_map hw, Nat.zero_add]
  rfl

theorem countAbove_eq (tol : K) (s : List K) : countAbove tol s = s.countP fun x => decide (tol < x) := by
  have key : ∀ (l : List K) (c : Nat), l.foldl (fun r x => if x > tol then r + 1 else r) c =
      c + l.countP fun x => decide (tol < x) := by
    intro l
    induction l with
    | nil => simp
    | cons p l ih =>
      intro c
      rw [List.foldl_cons, ih, List.countP_cons]
      by_cases h : tol < p
      · simp [h]; omega
      · simp [h]
  unfold countAbove
  rw [key, Nat.zero_add]

/-- Counting the positions of a list whose element has a property. -/
theorem card_positions (s : List K) (p : K → Prop) [DecidablePred p] {k : Nat} (hk : s.length = k) :
    Fintype.card {i : Fin k // p (s.getD i 0)} = s.countP fun x => decide (p x) := by
  subst hk
  rw [Fintype.card_subtype, Finset.card_filter, ← sum_map_range (fun i => if p (s.getD i 0) then 1 else 0)]
  have e : (List.range s.length).map (fun i => if p (s.getD i 0) then 1 else 0) = s.map fun x => if p x then 1 else 0 := by
    apply List.ext_getElem
    · simp
    · intro i h1 h2
      simp only [List.length_map] at h2
      rw [List.getElem_map, List.getElem_map, List.getElem_range, List.getD_eq_getElem _ _ h2]
  rw [e]
  clear e
  induction s with
  | nil => rfl
  | cons x s ih => rw [List.map_cons, List.sum_cons, ih, List.countP_cons]; by_cases h : p x <;> simp [h]; omega

theorem foldl_if_add (p : Nat → Prop) [DecidablePred p] (f : Nat → K) (n : Nat) :
    (List.range n).foldl (fun acc l => if p l then acc + f l else acc) 0 = ∑ l : Fin n, if p l then f l else 0 := by
  rw [← sum_map_range (fun l => if p l then f l else 0)]
  have key : ∀ (l : List Nat) (c : K), l.foldl (fun acc l => if p l then acc + f l else acc) c =
      c + (l.map fun l => if p l then f l else 0).sum := by
    intro l
    induction l with
    | nil => simp
    | cons x l ih =>
      intro c
      rw [List.foldl_cons, ih, List.map_cons, List.sum_cons]
      by_cases h : p x
      · simp [h, add_assoc]
      · simp [h]
  rw [key, zero_add]

theorem foldl_add_fin (f : Nat → K) (n : Nat) : (List.range n).foldl (fun acc l => acc + f l) 0 = ∑ l : Fin n, f l := by
  rw [← sum_map_range f, ← List.foldl_map (f := f) (g := fun x y => x + y), foldl_add_sum', zero_add]

variable [IsStrictOrderedRing K]

/-- A cutoff that separates the zero singular values from the others. -/
def Separates (cutoff : K) (s : List K) : Prop := 0 ≤ cutoff ∧ ∀ x ∈ s, x ≠ 0 → cutoff < x

theorem Separates.iff {cutoff : K} {s : List K} (h : Separates cutoff s) (hn : ∀ x ∈ s, 0 ≤ x) {x : K} (hx : x ∈ s) :
    cutoff < |x| ↔ x ≠ 0 := by
  rw [abs_of_nonneg (hn x hx)]
  exact ⟨fun hlt e => by rw [e] at hlt; exact absurd h.1 (not_le.2 hlt), h.2 x hx⟩

theorem sv_mem {m n : Nat} {A : Nat → Nat → K} {d : Svd K} (h : IsSvd m n A d) (l : Fin (min m n)) : d.s.getD l 0 ∈ d.s := by
  have hl : (l : Nat) < d.s.length := by rw [h.count]; exact l.2
  rw [List.getD_eq_getElem _ _ hl]
  exact List.getElem_mem hl

theorem pinvEntry_eq {m n : Nat} {A : Nat → Nat → K} {d : Svd K} (h : IsSvd m n A d) {cutoff : K} (hc : Separates cutoff d.s) :
    gridMatrix n m (pinvEntry d cutoff) = svdPinv m n d := by
  funext i j
  show pinvEntry d cutoff i j = _
  unfold pinvEntry svdPinv
  rw [foldl_if_add (fun l => |d.s.getD l 0| > cutoff) (fun l => d.v i l * (1 / d.s.getD l 0) * d.u j l), h.count, Matrix.mul_apply]
  refine Finset.sum_congr rfl fun l _ => ?_
  rw [Matrix.mul_diagonal]
  show _ = d.v i l * invSv d (min m n) l * d.u j l
  have := hc.iff h.nonneg (sv_mem h l)
  unfold invSv
  show _ = d.v i l * (if d.s.getD l 0 = 0 then 0 else 1 / d.s.getD l 0) * d.u j l
  by_cases h0 : d.s.getD l 0 = 0
  · rw [if_pos h0, if_neg (fun hh => this.1 hh h0)]; simp
  · rw [if_neg h0, if_pos (this.2 h0)]

theorem lstsqEntry_eq {m n : Nat} {A : Nat → Nat → K} {d : Svd K} (h : IsSvd m n A d) {cutoff : K} (hc : Separates cutoff d.s)
    (b : Nat → K) (i : Fin n) :
    lstsqEntry d cutoff m b i = (svdPinv m n d).mulVec (fun j : Fin m => b j) i := by
  unfold lstsqEntry svdPinv
  dsimp only
  rw [foldl_add_fin, h.count, ← Matrix.mulVec_mulVec, ← Matrix.mulVec_mulVec, Matrix.mulVec, dotProduct]
  refine Finset.sum_congr rfl fun l _ => ?_
  show d.v i l * _ = d.v i l * _
  congr 1
  rw [Matrix.mulVec_diagonal, foldl_add_fin (fun j => d.u j l * b j)]
  have := hc.iff h.nonneg (sv_mem h l)
  have e : ((gridMatrix m (min m n) d.u).transpose.mulVec fun j : Fin m => b j) l = ∑ j : Fin m, d.u j l * b j := rfl
  rw [e]
  unfold invSv
  show _ = (if d.s.getD l 0 = 0 then 0 else 1 / d.s.getD l 0) * _
  by_cases h0 : d.s.getD l 0 = 0
  · rw [if_pos h0, if_neg (fun hh => this.1 hh h0), zero_mul]
  · rw [if_neg h0, if_pos (this.2 h0), one_div, div_eq_inv_mul]

/-- The array of solutions: columns of the right-hand side in order. -/
def lstsqNd (oneD : Bool) (n cols : Nat) (entry : Nat → Nat → K) : Nd K :=
  if oneD then ofVec n (entry 0) else ofGrid n cols fun i j => entry j i

omit [IsStrictOrderedRing K] in
theorem lstsqX_is (oneD : Bool) (n cols : Nat) (entry : Nat → Nat → K) (h1 : oneD = true → cols = 1) :
    (lstsqX oneD n cols entry).Is (lstsqNd oneD n cols entry) := by
  cases oneD
  · refine ⟨rfl, ?_⟩
    show writes _ _ = (indices [n, cols]).map _
    apply writes_cover (s := [n, cols]) (fun idx => entry (idx.getD 1 0) (idx.getD 0 0)) (by simp [size])
    · intro w hw
      simp only [List.mem_flatMap, List.mem_map, List.mem_range] at hw
      obtain ⟨j, hj, i, hi, rfl⟩ := hw
      exact ⟨[i, j], inShape_pair hi hj, by simp [rank_two]⟩
    · intro idx hi
      match idx, hi with
      | [i, j], hi =>
        simp only [InShape, and_true] at hi
        simp only [List.mem_flatMap, List.mem_map, List.mem_range]
        exact ⟨j, hi.2, i, hi.1, by simp [rank_two]⟩
  · have := h1 rfl
    subst this
    refine ⟨rfl, ?_⟩
    show writes _ _ = (indices [n]).map _
    apply writes_cover (s := [n]) (fun idx => entry 0 (idx.getD 0 0)) (by simp [size])
    · intro w hw
      simp only [List.mem_flatMap, List.mem_map, List.mem_range] at hw
      obtain ⟨j, hj, i, hi, rfl⟩ := hw
      have : j = 0 := by omega
      subst this
      exact ⟨[i], by simp [InShape, hi], by simp [rank, size]⟩
    · intro idx hi
      match idx, hi with
      | [i], hi =>
        simp only [InShape, and_true] at hi
        simp only [List.mem_flatMap, List.mem_map, List.mem_range]
        exact ⟨0, by omega, i, hi, by simp [rank, size]⟩

end

end Rumpy
