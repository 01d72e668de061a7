import Verif.Spec.Stack
import Verif.Spec.Moments
import Verif.Model.Stack
import Verif.Props.Concat
import Verif.Props.Edit
import Verif.Props.Broadcast
import Verif.Props.Reshape
import Verif.Props.Alloc
/-!
# C92: more axes, stacking and splitting
-/

namespace Props
open Spec Rumpy

/-- An array marked as lying in one piece, in row-major or in column-major order. -/
def Marked (v : View) : Prop := v.cFlag = true ∨ v.fFlag = true

/-- Reshaping is right when the two reading orders agree about where each element goes. -/
theorem reshape_moves (mem : Int → α) {v : View} (hw : v.WF) (hm : Marked v) {nd : Nd α} (src : List Nat → List Nat)
    (hsz : size v.shape = size nd.shape)
    (h : ∀ idx, InShape nd.shape idx → InShape v.shape (src idx) ∧ rank v.shape (src idx) = rank nd.shape idx ∧
      rankF v.shape (src idx) = rankF nd.shape idx ∧ nd.get idx = (v.denote mem).get (src idx)) :
    ∃ v', v.reshape nd.shape = some v' ∧ v'.WF ∧ (v'.denote mem).Same nd := by
  obtain ⟨v', hv⟩ := Option.isSome_iff_exists.1 ((C08_reshape_succeeds_iff v nd.shape).2 ⟨hsz, hm⟩)
  have hsh : v'.shape = nd.shape ∧ v'.WF := by
    unfold View.reshape at hv
    rw [if_neg (by simp only [sizeOf_eq]; omega)] at hv
    split at hv
    · simp at hv
    · simp only [Option.some.injEq] at hv
      subst hv
      refine ⟨rfl, View.WF.viewWith ?_⟩
      split
      · exact cStrides_length _ _
      · exact fStridesLoop_length _ _
  refine ⟨v', hv, hsh.2, hsh.1, fun idx hi => ?_⟩
  have hi : InShape nd.shape idx := hsh.1 ▸ hi
  obtain ⟨h1, h2, h3, h4⟩ := h idx hi
  rw [h4]
  cases hc : v.cFlag with
  | false => exact C08_reshape_fortran mem v v' hw nd.shape hc hv (src idx) idx h1 hi h3
  | true =>
    unfold View.reshape at hv
    rw [if_neg (by simp only [sizeOf_eq]; omega), if_neg (by simp [hc])] at hv
    simp only [hc, if_true, Option.some.injEq] at hv
    subst hv
    simp only [View.denote, View.addr, View.viewWith]
    rw [byteOffset_cStrides v.item nd.shape idx hi.length_eq, isC_sound hw.len (hw.c hc) h1, h2]
    congr 1
    push_cast
    ring

theorem inShape_three {m n k : Nat} {idx : List Nat} (h : InShape [m, n, k] idx) : ∃ i j l, idx = [i, j, l] ∧ i < m ∧ j < n ∧ l < k := by
  match idx, h with
  | [i, j, l], h => exact ⟨i, j, l, rfl, h.1, h.2.1, h.2.2.1⟩

theorem reshape_zero (mem : Int → α) {v : View} (hw : v.WF) (hm : Marked v) (hs : v.shape = []) {nd : Nd α}
    (hn : nd.shape = [1] ∨ nd.shape = [1, 1] ∨ nd.shape = [1, 1, 1]) (hg : ∀ idx, nd.get idx = (v.denote mem).get []) :
    ∃ v', v.reshape nd.shape = some v' ∧ v'.WF ∧ (v'.denote mem).Same nd := by
  refine reshape_moves mem hw hm (fun _ => []) ?_ fun idx hi => ?_
  · rcases hn with h | h | h <;> rw [hs, h] <;> rfl
  · rw [hs]
    refine ⟨trivial, ?_, ?_, hg idx⟩
    · have := rank_lt hi
      have h1 : size nd.shape = 1 := by rcases hn with h | h | h <;> rw [h] <;> rfl
      simp only [rank]; omega
    · rcases hn with h | h | h <;> rw [h] at hi ⊢
      · obtain ⟨k, rfl, hk⟩ := inShape_one hi
        simp [rankF]; omega
      · match idx, hi with
        | [i, j], hi => obtain ⟨a, b, -⟩ := hi; simp [rankF]; omega
      · obtain ⟨i, j, k, rfl, a, b, c⟩ := inShape_three hi
        simp [rankF]; omega

theorem reshape_row (mem : Int → α) {v : View} (hw : v.WF) (hm : Marked v) {n : Nat} (hs : v.shape = [n]) :
    ∃ v', v.reshape [1, n] = some v' ∧ v'.WF ∧ (v'.denote mem).Same ⟨[1, n], fun idx => (v.denote mem).get [idx.getD 1 0]⟩ := by
  refine reshape_moves mem hw hm (nd := ⟨[1, n], fun idx => (v.denote mem).get [idx.getD 1 0]⟩) (fun idx => [idx.getD 1 0]) ?_ fun idx hi => ?_
  · simp [hs, size]
  · match idx, hi with
    | [i, j], hi =>
      obtain ⟨a, b, -⟩ := hi
      have : i = 0 := by omega
      subst this
      rw [hs]
      exact ⟨⟨b, trivial⟩, by simp [rank, size], by simp [rankF], rfl⟩

theorem reshape_column (mem : Int → α) {v : View} (hw : v.WF) (hm : Marked v) {n : Nat} (hs : v.shape = [n]) :
    ∃ v', v.reshape [n, 1] = some v' ∧ v'.WF ∧ (v'.denote mem).Same ⟨[n, 1], fun idx => (v.denote mem).get [idx.getD 0 0]⟩ := by
  refine reshape_moves mem hw hm (nd := ⟨[n, 1], fun idx => (v.denote mem).get [idx.getD 0 0]⟩) (fun idx => [idx.getD 0 0]) ?_ fun idx hi => ?_
  · simp [hs, size]
  · match idx, hi with
    | [i, j], hi =>
      obtain ⟨a, b, -⟩ := hi
      have : j = 0 := by omega
      subst this
      rw [hs]
      exact ⟨⟨a, trivial⟩, by simp [rank, size], by simp [rankF], rfl⟩

theorem reshape_deep_one (mem : Int → α) {v : View} (hw : v.WF) (hm : Marked v) {n : Nat} (hs : v.shape = [n]) :
    ∃ v', v.reshape [1, n, 1] = some v' ∧ v'.WF ∧
      (v'.denote mem).Same ⟨[1, n, 1], fun idx => (v.denote mem).get [idx.getD 1 0]⟩ := by
  refine reshape_moves mem hw hm (nd := ⟨[1, n, 1], fun idx => (v.denote mem).get [idx.getD 1 0]⟩) (fun idx => [idx.getD 1 0]) ?_ fun idx hi => ?_
  · simp [hs, size]
  · obtain ⟨i, j, k, rfl, a, b, c⟩ := inShape_three hi
    have : i = 0 := by omega
    subst this
    have : k = 0 := by omega
    subst this
    rw [hs]
    exact ⟨⟨b, trivial⟩, by simp [rank, size], by simp [rankF], rfl⟩

theorem reshape_deep_two (mem : Int → α) {v : View} (hw : v.WF) (hm : Marked v) {m n : Nat} (hs : v.shape = [m, n]) :
    ∃ v', v.reshape [m, n, 1] = some v' ∧ v'.WF ∧
      (v'.denote mem).Same ⟨[m, n, 1], fun idx => (v.denote mem).get [idx.getD 0 0, idx.getD 1 0]⟩ := by
  refine reshape_moves mem hw hm (nd := ⟨[m, n, 1], fun idx => (v.denote mem).get [idx.getD 0 0, idx.getD 1 0]⟩)
    (fun idx => [idx.getD 0 0, idx.getD 1 0]) ?_ fun idx hi => ?_
  · simp [hs, size]
  · obtain ⟨i, j, k, rfl, a, b, c⟩ := inShape_three hi
    have : k = 0 := by omega
    subst this
    rw [hs]
    exact ⟨⟨a, b, trivial⟩, by simp [rank, size], by simp [rankF], rfl⟩

/-! ### More axes -/

/-- C92, proved part: `atleast_1d`, `atleast_2d` and `atleast_3d` give an array that lies in one piece the axes NumPy gives it
and keep its elements. Missing: other arrays of fewer axes, for which it is false (`C92_atleast_counterexample`). -/
theorem C92_atleast_partial (mem : Int → α) (v : View) (hw : v.WF) (hm : Marked v) :
    ((atleast1d v).denote mem).Same (v.denote mem).atLeast1 ∧ ((atleast2d v).denote mem).Same (v.denote mem).atLeast2 ∧
    ((atleast3d v).denote mem).Same (v.denote mem).atLeast3 := by
  have hd : (v.denote mem).shape = v.shape := rfl
  rcases hs : v.shape with _ | ⟨n, _ | ⟨m, _ | ⟨k, s⟩⟩⟩
  · refine ⟨?_, ?_, ?_⟩
    · obtain ⟨v', h1, -, h3⟩ := reshape_zero mem hw hm hs (nd := ⟨[1], fun _ => (v.denote mem).get []⟩) (Or.inl rfl) fun _ => rfl
      simpa [atleast1d, hs, h1, Nd.atLeast1, hd] using h3
    · obtain ⟨v', h1, -, h3⟩ := reshape_zero mem hw hm hs (nd := ⟨[1, 1], fun _ => (v.denote mem).get []⟩) (Or.inr (Or.inl rfl)) fun _ => rfl
      simpa [atleast2d, hs, h1, Nd.atLeast2, hd] using h3
    · obtain ⟨v', h1, -, h3⟩ := reshape_zero mem hw hm hs (nd := ⟨[1, 1, 1], fun _ => (v.denote mem).get []⟩) (Or.inr (Or.inr rfl)) fun _ => rfl
      simpa [atleast3d, hs, h1, Nd.atLeast3, hd] using h3
  · refine ⟨?_, ?_, ?_⟩
    · simpa [atleast1d, hs, Nd.atLeast1, hd] using Nd.Same.refl (v.denote mem)
    · obtain ⟨v', h1, -, h3⟩ := reshape_row mem hw hm hs
      simpa [atleast2d, hs, sizeOf_eq, size, h1, Nd.atLeast2, hd] using h3
    · obtain ⟨v', h1, -, h3⟩ := reshape_deep_one mem hw hm hs
      simpa [atleast3d, hs, sizeOf_eq, size, h1, Nd.atLeast3, hd] using h3
  · refine ⟨?_, ?_, ?_⟩
    · simpa [atleast1d, hs, Nd.atLeast1, hd] using Nd.Same.refl (v.denote mem)
    · simpa [atleast2d, hs, Nd.atLeast2, hd] using Nd.Same.refl (v.denote mem)
    · obtain ⟨v', h1, -, h3⟩ := reshape_deep_two mem hw hm hs
      simpa [atleast3d, hs, h1, Nd.atLeast3, hd] using h3
  · refine ⟨?_, ?_, ?_⟩
    · simpa [atleast1d, hs, Nd.atLeast1, hd] using Nd.Same.refl (v.denote mem)
    · simpa [atleast2d, hs, Nd.atLeast2, hd] using Nd.Same.refl (v.denote mem)
    · simpa [atleast3d, hs, Nd.atLeast3, hd] using Nd.Same.refl (v.denote mem)

example : (View.fresh [2, 3] 8).transpose.WF ∧ Marked (View.fresh [2, 3] 8).transpose ∧
    (atleast3d (View.fresh [2, 3] 8).transpose).shape = [3, 2, 1] := by
  refine ⟨View.WF.viewWith (by decide), Or.inr (by decide), by decide⟩

/-- Every second element of a vector of four. -/
def everySecond : View := ⟨0, [2], [16], 8, false, false⟩

/-- C92 fails for an array that does not lie in one piece: `atleast_2d(a[::2])` is still a vector, and `atleast_3d` of
`a[:, ::2]` still a matrix. -/
theorem C92_atleast_counterexample :
    (View.fresh [4] 8).sliceAxis 0 0 4 2 = some everySecond ∧ everySecond.WF ∧ (atleast2d everySecond).shape = [2] ∧
    (everySecond.denote id).atLeast2.shape = [1, 2] ∧
    ((View.fresh [2, 4] 8).sliceAxis 1 0 4 2).map (fun v => (v.shape, (atleast3d v).shape, (v.denote id).atLeast3.shape))
      = some ([2, 2], [2, 2], [2, 2, 1]) :=
  ⟨by decide, ⟨rfl, by decide, by decide⟩, by decide, by decide, by decide⟩

/-! ### Stacking -/

theorem joinable_iff {axis : Nat} {arrs : List (Nd α)} : Joinable axis arrs ↔ CanJoin axis arrs := by
  have hout : ∀ {s : List Nat} {i : Nat}, s.length ≤ i → s.getD i 0 = 0 := by
    intro s i h; simp [List.getD, List.getElem?_eq_none h]
  constructor
  · rintro ⟨first, rest, rfl, hax, h⟩
    have key : ∀ a ∈ first :: rest, a.shape.length = first.shape.length ∧ ∀ i, i ≠ axis → a.shape.getD i 0 = first.shape.getD i 0 := by
      intro a ha
      rcases List.mem_cons.1 ha with rfl | ha
      · exact ⟨rfl, fun _ _ => rfl⟩
      · refine ⟨(h a ha).1, fun i hi => ?_⟩
        by_cases hl : i < first.shape.length
        · exact (h a ha).2 i hl hi
        · rw [hout (by have := (h a ha).1; omega), hout (by omega)]
    refine ⟨by simp, fun a ha => ⟨by rw [(key a ha).1]; exact hax, fun b hb => ⟨by rw [(key a ha).1, (key b hb).1], fun i hi => ?_⟩⟩⟩
    rw [(key a ha).2 i hi, (key b hb).2 i hi]
  · rintro ⟨hne, h⟩
    rcases arrs with _ | ⟨first, rest⟩
    · exact absurd rfl hne
    · refine ⟨first, rest, rfl, (h first (by simp)).1, fun a ha => ?_⟩
      have := (h a (by simp [ha])).2 first (by simp)
      exact ⟨this.1, fun i _ hi => this.2 i hi⟩

/-- What C11 says of `concatenate`, in the words of `IsJoin`. -/
theorem concatenate_join {zero : α} {arrs : List (Nd α)} {axis : Nat} :
    ((concatenate zero arrs axis).isSome ↔ CanJoin axis arrs) ∧
    ∀ r, concatenate zero arrs axis = some r → ∃ nd, r.Is nd ∧ IsJoin axis arrs nd := by
  have hiff : (concatenate zero arrs axis).isSome ↔ CanJoin axis arrs := by rw [C11_concatenate_succeeds_iff, joinable_iff]
  refine ⟨hiff, fun r hr => ?_⟩
  obtain ⟨h1, h2, h3, -⟩ := C11_concatenate zero arrs axis r hr
  obtain ⟨hne, hj⟩ := hiff.1 (by rw [hr]; rfl)
  rcases arrs with _ | ⟨first, rest⟩
  · exact absurd rfl hne
  have hsh := h1 first rfl
  have hax := (hj first (by simp)).1
  refine ⟨⟨r.shape, fun idx => (r.at? idx).getD zero⟩, Arr.is_iff.2 ⟨rfl, h2, fun idx hi => ?_⟩, ?_, fun k a hk => ⟨⟨?_, fun i hi => ?_⟩, fun idx hi => ?_⟩⟩
  · have hl : rank r.shape idx < r.data.length := by rw [h2]; exact rank_lt hi
    simp [Arr.at?, List.getElem?_eq_getElem hl]
  · show r.shape.getD axis 0 = _
    rw [hsh]
    simp [List.getD, hax]
  · show a.shape.length = r.shape.length
    rw [hsh, List.length_set]
    exact ((hj a (List.mem_of_getElem? hk)).2 first (by simp)).1
  · show a.shape.getD i 0 = r.shape.getD i 0
    rw [hsh, ((hj a (List.mem_of_getElem? hk)).2 first (by simp)).2 i hi]
    simp only [List.getD]
    rw [List.getElem?_set_ne (Ne.symm hi)]
  · have := (h3 k a hk idx hi).2
    simp only [joinOffset] at this
    show (r.at? _).getD zero = _
    rw [this]
    rfl

/-- Items that are the same arrays can be joined alike. -/
theorem join_congr {axis : Nat} {γ : Type v} {l : List γ} {f g : γ → Nd α} (h : ∀ x ∈ l, (f x).Same (g x)) :
    (CanJoin axis (l.map f) ↔ CanJoin axis (l.map g)) ∧ ∀ nd, IsJoin axis (l.map f) nd → IsJoin axis (l.map g) nd := by
  have hsum : ∀ m : List γ, (∀ x ∈ m, x ∈ l) →
      ((m.map f).map fun a => a.shape.getD axis 0).sum = ((m.map g).map fun a => a.shape.getD axis 0).sum := by
    intro m hm
    rw [List.map_map, List.map_map]
    congr 1
    exact List.map_congr_left fun x hx => by simp only [Function.comp, (h x (hm x hx)).1]
  constructor
  · unfold CanJoin
    simp only [ne_eq, List.map_eq_nil_iff, List.forall_mem_map]
    refine and_congr_right fun _ => forall_congr' fun x => forall_congr' fun hx => ?_
    rw [(h x hx).1]
    refine and_congr_right fun _ => forall_congr' fun y => forall_congr' fun hy => ?_
    rw [(h y hy).1]
  · rintro nd ⟨h1, h2⟩
    refine ⟨by rw [h1, hsum l fun _ hx => hx], fun k a hk => ?_⟩
    rw [List.getElem?_map, Option.map_eq_some_iff] at hk
    obtain ⟨x, hx, rfl⟩ := hk
    have hmem := List.mem_of_getElem? hx
    obtain ⟨h3, h4⟩ := h2 k (f x) (by rw [List.getElem?_map, hx]; rfl)
    rw [(h x hmem).1] at h3 h4
    refine ⟨h3, fun idx hi => ?_⟩
    rw [← (h x hmem).2 idx (by rw [(h x hmem).1]; exact hi), ← h4 idx hi, List.map_take.symm, List.map_take.symm,
      hsum (l.take k) fun _ hx => List.mem_of_mem_take hx]

/-- C92, proved part: `vstack` puts vectors below each other as rows and other arrays below each other along their first axis;
it refuses exactly what does not fit. Missing: vectors that do not lie in one piece, for which it is false
(`C92_stack_counterexample`), and single values, which are refused (`C92_stack_scalar_counterexample`). -/
theorem C92_vstack_partial (zero : α) (arrs : List (Held α))
    (h : ∀ a ∈ arrs, a.view.WF ∧ a.view.shape ≠ [] ∧ (a.view.shape.length = 1 → Marked a.view)) :
    ((vstack zero arrs).isSome ↔ CanJoin 0 (arrs.map fun a => a.nd.atLeast2)) ∧
    ∀ r, vstack zero arrs = some r → ∃ nd, r.Is nd ∧ IsJoin 0 (arrs.map fun a => a.nd.atLeast2) nd := by
  have hsame : ∀ a ∈ arrs, ((vstackItem a.view).denote a.mem).Same a.nd.atLeast2 := by
    intro a ha
    obtain ⟨hw, hne, hm⟩ := h a ha
    have hn : a.nd = View.denote a.mem a.view := rfl
    have hd : (View.denote a.mem a.view).shape = a.view.shape := rfl
    rcases hs : a.view.shape with _ | ⟨n, _ | ⟨m, s⟩⟩
    · exact absurd hs hne
    · obtain ⟨v', h1, -, h3⟩ := reshape_row a.mem hw (hm (by rw [hs]; rfl)) hs
      simpa [vstackItem, hs, sizeOf_eq, size, h1, Nd.atLeast2, hn, hd] using h3
    · simpa [vstackItem, hs, Nd.atLeast2, hn, hd] using Nd.Same.refl (View.denote a.mem a.view)
  obtain ⟨j1, j2⟩ := join_congr (axis := 0) hsame
  obtain ⟨c1, c2⟩ := concatenate_join (zero := zero) (arrs := arrs.map fun a => (vstackItem a.view).denote a.mem) (axis := 0)
  unfold vstack
  rcases arrs with _ | ⟨a, arrs⟩
  · simp [CanJoin]
  · rw [if_neg (by simp)]
    exact ⟨c1.trans j1, fun r hr => by obtain ⟨nd, n1, n2⟩ := c2 r hr; exact ⟨nd, n1, j2 nd n2⟩⟩

/-- C92, proved part: `hstack` puts vectors after each other and other arrays beside each other along their second axis, and
refuses exactly what does not fit. Missing: single values, which are refused (`C92_stack_scalar_counterexample`). -/
theorem C92_hstack_partial (zero : α) (arrs : List (Held α)) (h : ∀ a ∈ arrs, a.view.shape ≠ []) :
    ∀ axis, (axis = if (arrs.head?.map fun a => a.nd.shape.length) = some 1 then 0 else 1) →
    ((hstack zero arrs).isSome ↔ CanJoin axis (arrs.map fun a => a.nd.atLeast1)) ∧
    ∀ r, hstack zero arrs = some r → ∃ nd, r.Is nd ∧ IsJoin axis (arrs.map fun a => a.nd.atLeast1) nd := by
  intro axis hax
  have hsame : ∀ a ∈ arrs, a.nd.Same a.nd.atLeast1 := by
    intro a ha
    have hn : a.nd = View.denote a.mem a.view := rfl
    have hd : (View.denote a.mem a.view).shape = a.view.shape := rfl
    rcases hs : a.view.shape with _ | ⟨n, s⟩
    · exact absurd hs (h a ha)
    · simpa [hs, Nd.atLeast1, hn, hd] using Nd.Same.refl (View.denote a.mem a.view)
  obtain ⟨j1, j2⟩ := join_congr (axis := axis) hsame
  obtain ⟨c1, c2⟩ := concatenate_join (zero := zero) (arrs := arrs.map Held.nd) (axis := axis)
  rcases arrs with _ | ⟨a, arrs⟩
  · simp [CanJoin, hstack]
  · have e : hstack zero (a :: arrs) = concatenate zero ((a :: arrs).map Held.nd) axis := by
      rw [hax]
      simp only [hstack, List.head?_cons, Option.map_some, Option.some.injEq]
      rfl
    rw [e]
    exact ⟨c1.trans j1, fun r hr => by obtain ⟨nd, n1, n2⟩ := c2 r hr; exact ⟨nd, n1, j2 nd n2⟩⟩

/-- C92, proved part: `column_stack` puts vectors beside each other as columns and other arrays beside each other along their
second axis. Missing: as for `vstack`. -/
theorem C92_column_stack_partial (zero : α) (arrs : List (Held α))
    (h : ∀ a ∈ arrs, a.view.WF ∧ a.view.shape ≠ [] ∧ (a.view.shape.length = 1 → Marked a.view)) :
    ((columnStack zero arrs).isSome ↔ CanJoin 1 (arrs.map fun a => a.nd.asColumn)) ∧
    ∀ r, columnStack zero arrs = some r → ∃ nd, r.Is nd ∧ IsJoin 1 (arrs.map fun a => a.nd.asColumn) nd := by
  have hsame : ∀ a ∈ arrs, ((columnItem a.view).denote a.mem).Same a.nd.asColumn := by
    intro a ha
    obtain ⟨hw, hne, hm⟩ := h a ha
    have hn : a.nd = View.denote a.mem a.view := rfl
    have hd : (View.denote a.mem a.view).shape = a.view.shape := rfl
    rcases hs : a.view.shape with _ | ⟨n, _ | ⟨m, s⟩⟩
    · exact absurd hs hne
    · obtain ⟨v', h1, -, h3⟩ := reshape_column a.mem hw (hm (by rw [hs]; rfl)) hs
      simpa [columnItem, hs, sizeOf_eq, size, h1, Nd.asColumn, hn, hd] using h3
    · simpa [columnItem, hs, Nd.asColumn, hn, hd] using Nd.Same.refl (View.denote a.mem a.view)
  obtain ⟨j1, j2⟩ := join_congr (axis := 1) hsame
  obtain ⟨c1, c2⟩ := concatenate_join (zero := zero) (arrs := arrs.map fun a => (columnItem a.view).denote a.mem) (axis := 1)
  unfold columnStack
  rcases arrs with _ | ⟨a, arrs⟩
  · simp [CanJoin]
  · rw [if_neg (by simp)]
    exact ⟨c1.trans j1, fun r hr => by obtain ⟨nd, n1, n2⟩ := c2 r hr; exact ⟨nd, n1, j2 nd n2⟩⟩

/-- C92, proved part: `dstack` puts arrays behind each other along their third axis, vectors and matrices having been given one
as `atleast_3d` does. Missing: as for `vstack`, matrices included. -/
theorem C92_dstack_partial (zero : α) (arrs : List (Held α))
    (h : ∀ a ∈ arrs, a.view.WF ∧ a.view.shape ≠ [] ∧ (a.view.shape.length ≤ 2 → Marked a.view)) :
    ((dstack zero arrs).isSome ↔ CanJoin 2 (arrs.map fun a => a.nd.atLeast3)) ∧
    ∀ r, dstack zero arrs = some r → ∃ nd, r.Is nd ∧ IsJoin 2 (arrs.map fun a => a.nd.atLeast3) nd := by
  have hsame : ∀ a ∈ arrs, ((dstackItem a.view).denote a.mem).Same a.nd.atLeast3 := by
    intro a ha
    obtain ⟨hw, hne, hm⟩ := h a ha
    have hn : a.nd = View.denote a.mem a.view := rfl
    have hd : (View.denote a.mem a.view).shape = a.view.shape := rfl
    rcases hs : a.view.shape with _ | ⟨n, _ | ⟨m, _ | ⟨k, s⟩⟩⟩
    · exact absurd hs hne
    · obtain ⟨v', h1, -, h3⟩ := reshape_deep_one a.mem hw (hm (by rw [hs]; simp)) hs
      simpa [dstackItem, hs, sizeOf_eq, size, h1, Nd.atLeast3, hn, hd] using h3
    · obtain ⟨v', h1, -, h3⟩ := reshape_deep_two a.mem hw (hm (by rw [hs]; simp)) hs
      simpa [dstackItem, hs, h1, Nd.atLeast3, hn, hd] using h3
    · simpa [dstackItem, hs, Nd.atLeast3, hn, hd] using Nd.Same.refl (View.denote a.mem a.view)
  obtain ⟨j1, j2⟩ := join_congr (axis := 2) hsame
  obtain ⟨c1, c2⟩ := concatenate_join (zero := zero) (arrs := arrs.map fun a => (dstackItem a.view).denote a.mem) (axis := 2)
  unfold dstack
  rcases arrs with _ | ⟨a, arrs⟩
  · simp [CanJoin]
  · rw [if_neg (by simp)]
    exact ⟨c1.trans j1, fun r hr => by obtain ⟨nd, n1, n2⟩ := c2 r hr; exact ⟨nd, n1, j2 nd n2⟩⟩

/-- A vector `[x, x + 1]` whose elements are the multiples of 8. -/
def pairFrom (x : Int) : Held Int := ⟨fun b => x + b / 8, View.fresh [2] 8⟩

example : (∀ a ∈ [pairFrom 1, pairFrom 5], a.view.WF ∧ a.view.shape ≠ [] ∧ (a.view.shape.length ≤ 2 → Marked a.view)) ∧
    vstack 0 [pairFrom 1, pairFrom 5] = some ⟨[2, 2], [1, 2, 5, 6]⟩ ∧
    hstack 0 [pairFrom 1, pairFrom 5] = some ⟨[4], [1, 2, 5, 6]⟩ ∧
    columnStack 0 [pairFrom 1, pairFrom 5] = some ⟨[2, 2], [1, 5, 2, 6]⟩ ∧
    dstack 0 [pairFrom 1, pairFrom 5] = some ⟨[1, 2, 2], [1, 5, 2, 6]⟩ := by
  refine ⟨fun a ha => ?_, by decide, by decide, by decide, by decide⟩
  simp only [List.mem_cons, List.not_mem_nil, or_false] at ha
  rcases ha with rfl | rfl <;> exact ⟨View.WF.fresh _ _, by decide, fun _ => Or.inl rfl⟩

/-- C92 fails for vectors that do not lie in one piece: with `x = a[::2]`, `vstack([x, x])` must be 2 by 2 but is one vector of
four, and `column_stack([x, x])` and `dstack([x, x])` are refused. -/
theorem C92_stack_counterexample :
    let x : Held Int := ⟨fun b => b / 8, everySecond⟩
    x.view.WF ∧ vstack 0 [x, x] = some ⟨[4], [0, 2, 0, 2]⟩ ∧ CanJoin 0 ([x, x].map fun a => a.nd.atLeast2) ∧
    columnStack 0 [x, x] = none ∧ CanJoin 1 ([x, x].map fun a => a.nd.asColumn) ∧
    dstack 0 [x, x] = none ∧ CanJoin 2 ([x, x].map fun a => a.nd.atLeast3) := by
  have hone : ∀ (axis : Nat) (y : Nd Int), axis < y.shape.length → CanJoin axis [y, y] := by
    intro axis y hy
    refine ⟨by simp, fun a ha => ?_⟩
    simp only [List.mem_cons, List.not_mem_nil, or_false, or_self] at ha
    subst ha
    refine ⟨hy, fun b hb => ?_⟩
    simp only [List.mem_cons, List.not_mem_nil, or_false, or_self] at hb
    subst hb
    exact ⟨rfl, fun _ _ => rfl⟩
  exact ⟨⟨rfl, by decide, by decide⟩, by decide, hone 0 _ (by decide), by decide, hone 1 _ (by decide), by decide,
    hone 2 _ (by decide)⟩

/-- C92 fails for single values: `vstack`, `hstack`, `column_stack` and `dstack` of two of them are refused. -/
theorem C92_stack_scalar_counterexample :
    let x : Held Int := ⟨fun _ => 7, View.fresh [] 8⟩
    vstack 0 [x, x] = none ∧ hstack 0 [x, x] = none ∧ columnStack 0 [x, x] = none ∧ dstack 0 [x, x] = none ∧
    CanJoin 0 ([x, x].map fun a => a.nd.atLeast2) := by
  refine ⟨by decide, by decide, by decide, by decide, by simp, fun a ha => ?_⟩
  simp only [List.map_cons, List.map_nil, List.mem_cons, List.not_mem_nil, or_false, or_self] at ha
  subst ha
  refine ⟨by decide, fun b hb => ?_⟩
  simp only [List.map_cons, List.map_nil, List.mem_cons, List.not_mem_nil, or_false, or_self] at hb
  subst hb
  exact ⟨rfl, fun _ _ => rfl⟩

/-! ### Splitting -/

/-- What it means for `split` to cut an array into equal parts along an axis. -/
def CutsAlong (mem : Int → α) (v : View) (sections axis : Nat) (r : Option (List View)) : Prop :=
  (r.isSome ↔ ∃ len, v.shape[axis]? = some len ∧ 0 < sections ∧ sections ∣ len) ∧
  ∀ ws, r = some ws → ws.length = sections ∧ ∀ (k : Nat) (w : View), ws[k]? = some w →
    (w.denote mem).Same ((v.denote mem).slice axis ((k * (v.shape.getD axis 0 / sections) : Nat) : Int) 1 (v.shape.getD axis 0 / sections))

theorem split_cuts (mem : Int → α) (v : View) (hw : v.WF) (hpos : ∀ st ∈ v.strides, 0 ≤ st) (sections axis : Nat) :
    CutsAlong mem v sections axis (split v sections axis) := by
  refine ⟨C11_split_succeeds_iff v hw sections axis, fun ws h => ?_⟩
  obtain ⟨len, h1, h2, h3⟩ := (C11_split_succeeds_iff v hw sections axis).1 (by rw [h]; rfl)
  obtain ⟨m, rfl⟩ := h3
  have hlt : axis < v.shape.length := (List.getElem?_eq_some_iff.1 h1).1
  have hlt' : axis < v.strides.length := by rw [hw.len]; exact hlt
  have hgd : v.shape.getD axis 0 = sections * m := by simp [List.getD, h1]
  have hdiv : sections * m / sections = m := Nat.mul_div_cancel_left _ h2
  unfold split at h
  rw [h1] at h
  dsimp only at h
  rw [if_neg (by omega), if_neg (by simp), hdiv] at h
  obtain ⟨ws', e1, e2, e3⟩ := C11_split_sections_partial mem v hw axis (sections * m) v.strides[axis] h1
    (List.getElem?_eq_getElem hlt') (hpos _ (List.getElem_mem hlt')) (List.replicate sections m) 0 (by simp)
  rw [Nat.cast_zero, h, Option.some.injEq] at e1
  subst e1
  refine ⟨by simpa using e2, fun k w hk => ?_⟩
  have hkl : k < sections := by
    have := (List.getElem?_eq_some_iff.1 hk).1
    rw [e2, List.length_replicate] at this
    exact this
  have := (e3 k w hk).2
  rw [List.take_replicate, List.sum_replicate, Nat.min_eq_left hkl.le, Nat.zero_add] at this
  rw [hgd, hdiv]
  simpa [List.getD, hkl] using this

/-- C92, proved part: `hsplit`, `vsplit` and `dsplit` cut an array into equal parts along its second, first and third axis
(`hsplit` along the only axis of a vector), and refuse exactly a number of parts that does not divide the length and arrays
that have too few axes. Missing: arrays with a reversed axis (see C11). -/
theorem C92_splits_partial (mem : Int → α) (v : View) (hw : v.WF) (hpos : ∀ st ∈ v.strides, 0 ≤ st) (sections : Nat) :
    CutsAlong mem v sections (if v.shape.length = 1 then 0 else 1) (hsplit v sections) ∧
    (2 ≤ v.shape.length → CutsAlong mem v sections 0 (vsplit v sections)) ∧ (v.shape.length < 2 → vsplit v sections = none) ∧
    (3 ≤ v.shape.length → CutsAlong mem v sections 2 (dsplit v sections)) ∧ (v.shape.length < 3 → dsplit v sections = none) := by
  refine ⟨split_cuts mem v hw hpos sections _, fun h => ?_, fun h => ?_, fun h => ?_, fun h => ?_⟩
  · unfold vsplit
    rw [if_neg (by omega)]
    exact split_cuts mem v hw hpos sections 0
  · unfold vsplit
    rw [if_pos h]
  · unfold dsplit
    rw [if_neg (by omega)]
    exact split_cuts mem v hw hpos sections 2
  · unfold dsplit
    rw [if_pos h]

example : (hsplit (View.fresh [2, 4] 8) 2).map (List.map fun w => (indices w.shape).map w.addr) = some [[0, 8, 32, 40], [16, 24, 48, 56]] ∧
    (vsplit (View.fresh [2, 4] 8) 2).map (List.map fun w => (indices w.shape).map w.addr) = some [[0, 8, 16, 24], [32, 40, 48, 56]] := by
  decide

/-! ### broadcast_arrays -/

theorem broadcastShapes_of_target {a b t : List Nat} (ha : BroadcastsTo a t) (hb : BroadcastsTo b t) :
    ∃ r, broadcastShapes a b = some r := by
  obtain ⟨r, hr, hf⟩ := exists_shape (max a.length b.length) (fun k => if dimR a k = 1 then dimR b k else dimR a k)
  refine ⟨r, broadcastShapes_iff.2 ⟨hr, fun k hk => ?_⟩⟩
  rw [hf k (by omega)]
  have h1 : dimR a k = 1 ∨ dimR a k = dimR t k := by
    by_cases h : k < a.length
    · exact ha.2 k h
    · exact Or.inl (dimR_of_le (by omega))
  have h2 : dimR b k = 1 ∨ dimR b k = dimR t k := by
    by_cases h : k < b.length
    · exact hb.2 k h
    · exact Or.inl (dimR_of_le (by omega))
  unfold DimBroadcast
  split <;> omega

/-- `t` is the least shape to which all the shapes can be broadcast. -/
def IsCommon (shapes : List (List Nat)) (t : List Nat) : Prop :=
  (∀ s ∈ shapes, BroadcastsTo s t) ∧ ∀ u, (∀ s ∈ shapes, BroadcastsTo s u) → BroadcastsTo t u

theorem broadcastsTo_trans {a b c : List Nat} (h1 : BroadcastsTo a b) (h2 : BroadcastsTo b c) : BroadcastsTo a c := by
  refine ⟨h1.1.trans h2.1, fun k hk => ?_⟩
  rcases h1.2 k hk with h | h
  · exact Or.inl h
  · rcases h2.2 k (lt_of_lt_of_le hk h1.1) with h' | h'
    · exact Or.inl (h.trans h')
    · exact Or.inr (h.trans h')

theorem commonShape_spec : ∀ (rest : List (List Nat)) (first : List Nat),
    (∀ t, commonShape first rest = some t → IsCommon (first :: rest) t) ∧
    ((∃ u, ∀ s ∈ first :: rest, BroadcastsTo s u) → (commonShape first rest).isSome)
  | [], first => by
    refine ⟨fun t h => ?_, fun _ => rfl⟩
    simp only [commonShape, List.foldlM_nil, Option.pure_def, Option.some.injEq] at h
    subst h
    refine ⟨fun s hs => ?_, fun u hu => hu _ (by simp)⟩
    simp only [List.mem_cons, List.not_mem_nil, or_false] at hs
    subst hs
    exact ⟨le_refl _, fun _ _ => Or.inr rfl⟩
  | b :: rest, first => by
    have e : commonShape first (b :: rest) = (broadcastShapes first b).bind fun r => commonShape r rest := rfl
    constructor
    · intro t h
      rw [e, Option.bind_eq_some_iff] at h
      obtain ⟨r, hr, ht⟩ := h
      obtain ⟨l1, l2, l3⟩ := C09_broadcast_least first b r hr
      obtain ⟨c1, c2⟩ := (commonShape_spec rest r).1 t ht
      have hrt := c1 r (by simp)
      refine ⟨fun s hs => ?_, fun u hu => c2 u fun s hs => ?_⟩
      · simp only [List.mem_cons] at hs
        rcases hs with rfl | rfl | hs
        · exact broadcastsTo_trans l1 hrt
        · exact broadcastsTo_trans l2 hrt
        · exact c1 s (by simp [hs])
      · simp only [List.mem_cons] at hs
        rcases hs with rfl | hs
        · exact l3 u (hu _ (by simp)) (hu _ (by simp))
        · exact hu s (by simp [hs])
    · rintro ⟨u, hu⟩
      obtain ⟨r, hr⟩ := broadcastShapes_of_target (hu first (by simp)) (hu b (by simp))
      rw [e, hr]
      obtain ⟨-, -, l3⟩ := C09_broadcast_least first b r hr
      refine (commonShape_spec rest r).2 ⟨u, fun s hs => ?_⟩
      simp only [List.mem_cons] at hs
      rcases hs with rfl | hs
      · exact l3 u (hu _ (by simp)) (hu _ (by simp))
      · exact hu s (by simp [hs])

theorem mapM_broadcast (mem : View → Int → α) (t : List Nat) : ∀ (vs : List View), (∀ v ∈ vs, v.WF ∧ BroadcastsTo v.shape t) →
    ∃ ws : List View, vs.mapM (fun v => v.broadcastTo t) = some ws ∧ ws.length = vs.length ∧
      ∀ (k : Nat) (v : View), vs[k]? = some v → ∃ w : View, ws[k]? = some w ∧ w.WF ∧ (w.denote (mem v)).Same ((v.denote (mem v)).broadcast t)
  | [], _ => ⟨[], rfl, rfl, fun k v h => by simp at h⟩
  | v :: vs, h => by
    obtain ⟨hw, hb⟩ := h v (by simp)
    obtain ⟨w, e⟩ := Option.isSome_iff_exists.1 ((C09_broadcast_to_succeeds_iff v hw t).2 hb)
    obtain ⟨ws, e1, e2, e3⟩ := mapM_broadcast mem t vs fun v hv => h v (by simp [hv])
    refine ⟨w :: ws, by rw [List.mapM_cons, e, e1]; rfl, by simp [e2], fun k u hk => ?_⟩
    cases k with
    | zero =>
      simp only [List.getElem?_cons_zero, Option.some.injEq] at hk
      subst hk
      exact ⟨w, rfl, C09_broadcast_to (mem v) v w hw t e⟩
    | succ k => exact e3 k u (by simpa using hk)

/-- C92: `broadcast_arrays` succeeds exactly when some shape fits all the arrays, and then gives views of all of them at the
least such shape. -/
theorem C92_broadcast_arrays (mem : View → Int → α) (vs : List View) (hw : ∀ v ∈ vs, v.WF) :
    ((broadcastArrays vs).isSome ↔ ∃ u, ∀ v ∈ vs, BroadcastsTo v.shape u) ∧
    ∀ ws : List View, broadcastArrays vs = some ws → ws.length = vs.length ∧
      (vs ≠ [] → ∃ t, IsCommon (vs.map View.shape) t ∧
        ∀ (k : Nat) (v : View), vs[k]? = some v → ∃ w : View, ws[k]? = some w ∧ w.WF ∧ (w.denote (mem v)).Same ((v.denote (mem v)).broadcast t)) := by
  rcases vs with _ | ⟨first, rest⟩
  · refine ⟨⟨fun _ => ⟨[], by simp⟩, fun _ => rfl⟩, fun ws h => ?_⟩
    simp only [broadcastArrays, Option.some.injEq] at h
    subst h
    exact ⟨rfl, fun h => absurd rfl h⟩
  · obtain ⟨c1, c2⟩ := commonShape_spec (rest.map View.shape) first.shape
    have hmap : (first :: rest).map View.shape = first.shape :: rest.map View.shape := rfl
    have hgo : ∀ t, commonShape first.shape (rest.map View.shape) = some t → ∀ v ∈ first :: rest, v.WF ∧ BroadcastsTo v.shape t :=
      fun t ht v hv => ⟨hw v hv, (c1 t ht).1 _ (by rw [← hmap]; exact List.mem_map_of_mem hv)⟩
    constructor
    · constructor
      · intro h
        obtain ⟨ws, h⟩ := Option.isSome_iff_exists.1 h
        simp only [broadcastArrays, Option.bind_eq_some_iff] at h
        obtain ⟨t, ht, -⟩ := h
        exact ⟨t, fun v hv => (hgo t ht v hv).2⟩
      · rintro ⟨u, hu⟩
        obtain ⟨t, ht⟩ := Option.isSome_iff_exists.1 (c2 ⟨u, fun s hs => by
          rw [← hmap, List.mem_map] at hs
          obtain ⟨v, hv, rfl⟩ := hs
          exact hu v hv⟩)
        obtain ⟨ws, e1, -⟩ := mapM_broadcast mem t (first :: rest) (hgo t ht)
        simp only [broadcastArrays, ht, Option.bind_some, e1, Option.isSome_some]
    · intro ws h
      simp only [broadcastArrays, Option.bind_eq_some_iff] at h
      obtain ⟨t, ht, h⟩ := h
      obtain ⟨ws', e1, e2, e3⟩ := mapM_broadcast mem t (first :: rest) (hgo t ht)
      rw [e1, Option.some.injEq] at h
      subst h
      exact ⟨e2, fun _ => ⟨t, by rw [hmap]; exact c1 t ht, e3⟩⟩

example : (broadcastArrays [View.fresh [3, 1] 8, View.fresh [2] 8]).map (List.map fun w => (indices w.shape).map w.addr)
    = some [[0, 0, 8, 8, 16, 16], [0, 8, 0, 8, 0, 8]] := by decide

/-! ### Negative axes -/

/-- C92: the function `expand_dims` takes an axis of the result, negative axes counting from its end, and refuses all others. -/
theorem C92_expand_dims (mem : Int → α) (v : View) (hw : v.WF) (axis : Int) :
    (∀ k, IsAxis (v.shape.length + 1) axis k → ∃ w, expandDimsFn v axis = some w ∧ (w.denote mem).Same ((v.denote mem).expandDims k)) ∧
    ((∀ k, ¬ IsAxis (v.shape.length + 1) axis k) → expandDimsFn v axis = none) := by
  unfold IsAxis expandDimsFn
  dsimp only
  refine ⟨fun k hk => ?_, fun h => ?_⟩
  · have hax : (if axis < 0 then (v.shape.length : Int) + axis + 1 else axis) = (k : Int) := by split <;> omega
    rw [hax, if_neg (by omega), Int.toNat_natCast]
    obtain ⟨w, h1, -, h3⟩ := C10_expand_dims mem v hw k (by omega)
    exact ⟨w, h1, h3⟩
  · obtain ⟨m, hm⟩ : ∃ m : Int, m = if axis < 0 then (v.shape.length : Int) + axis + 1 else axis := ⟨_, rfl⟩
    rw [← hm]
    by_cases hn : m < 0
    · rw [if_pos hn]
    · rw [if_neg hn]
      refine C10_expand_dims_error v _ ?_
      by_contra hc
      exact h m.toNat (by split at hm <;> omega)

example : (expandDimsFn (View.fresh [2, 3] 8) (-1)).map View.shape = some [2, 3, 1] ∧
    expandDimsFn (View.fresh [2, 3] 8) (-4) = none := by decide

/-- C92, proved part: the function `flip` with an axis takes an axis of the array, negative axes counting from the end, reverses
it, and refuses all others. Missing: axes that are reversed already (see C07). -/
theorem C92_flip_partial (mem : Int → α) (v : View) (hw : v.WF) (hpos : ∀ st ∈ v.strides, 0 ≤ st) (axis : Int) :
    (∀ k, IsAxis v.shape.length axis k → ∃ w, flipFn v axis = some w ∧ (w.denote mem).Same ((v.denote mem).flip k)) ∧
    ((∀ k, ¬ IsAxis v.shape.length axis k) → flipFn v axis = none) := by
  unfold IsAxis flipFn
  dsimp only
  refine ⟨fun k hk => ?_, fun h => ?_⟩
  · have hax : (if axis < 0 then (v.shape.length : Int) + axis else axis) = (k : Int) := by split <;> omega
    rw [hax, if_neg (by omega), Int.toNat_natCast]
    have hlt' : k < v.strides.length := by rw [hw.len]; omega
    obtain ⟨w, h1, -, h3, -⟩ := C07_flip_partial mem v hw k v.strides[k] (by omega) (List.getElem?_eq_getElem hlt')
      (hpos _ (List.getElem_mem hlt'))
    exact ⟨w, h1, h3⟩
  · obtain ⟨m, hm⟩ : ∃ m : Int, m = if axis < 0 then (v.shape.length : Int) + axis else axis := ⟨_, rfl⟩
    rw [← hm]
    by_cases hn : m < 0
    · rw [if_pos hn]
    · rw [if_neg hn]
      have hk : v.shape.length ≤ m.toNat := by
        by_contra hc
        exact h m.toNat (by split at hm <;> omega)
      unfold View.flip
      rw [List.getElem?_eq_none hk]

example : (flipFn (View.fresh [2, 3] 8) (-1)).map (fun w => (indices w.shape).map w.addr) = some [16, 8, 0, 40, 32, 24] := by decide

/-! ### The function reshape -/

/-- The product of the positive ones among the lengths. -/
def positivePart (l : List Nat) : Nat := size (l.filter (0 < ·))

theorem positivePart_cons (n : Nat) (l : List Nat) : positivePart (n :: l) = (if n = 0 then 1 else n) * positivePart l := by
  unfold positivePart
  by_cases h : n = 0
  · subst h; simp
  · rw [if_neg h, List.filter_cons_of_pos (by simpa using Nat.pos_of_ne_zero h), size]

theorem positivePart_pos : ∀ l : List Nat, 0 < positivePart l
  | [] => by decide
  | n :: l => by
    rw [positivePart_cons]
    refine Nat.mul_pos ?_ (positivePart_pos l)
    split <;> omega

theorem le_positivePart {n : Nat} : ∀ {l : List Nat}, n ∈ l → n ≤ positivePart l
  | m :: l, h => by
    rw [positivePart_cons]
    have h1 := positivePart_pos l
    rcases List.mem_cons.1 h with rfl | h
    · refine le_trans ?_ (Nat.le_mul_of_pos_right _ h1)
      split <;> omega
    · refine le_trans (le_positivePart h) (Nat.le_mul_of_pos_left _ ?_)
      split <;> omega

theorem size_positivePart : ∀ l : List Nat, size l = if 0 ∈ l then 0 else positivePart l
  | [] => by decide
  | n :: l => by
    rw [size, size_positivePart l, positivePart_cons]
    by_cases h : n = 0
    · subst h; simp
    · by_cases h' : 0 ∈ l
      · simp [h']
      · simp [h, h', Ne.symm h]

theorem size_le_positivePart (l : List Nat) : size l ≤ positivePart l := by
  rw [size_positivePart]
  split <;> omega

theorem productU_exact {checked : Bool} : ∀ {s : List Nat} {acc : Nat}, acc * positivePart s < 2 ^ 64 →
    productU checked acc s = some (acc * size s)
  | [], acc, _ => by simp [productU, size]
  | n :: s, acc, h => by
    rw [positivePart_cons, ← Nat.mul_assoc] at h
    have hp := positivePart_pos s
    have hn : acc * n ≤ acc * (if n = 0 then 1 else n) := Nat.mul_le_mul_left _ (by split <;> omega)
    have h1 : acc * n * positivePart s < 2 ^ 64 := lt_of_le_of_lt (Nat.mul_le_mul_right _ hn) h
    have h2 : acc * n < 2 ^ 64 := lt_of_le_of_lt (Nat.le_mul_of_pos_right _ hp) h1
    have hm : mulU checked acc n = some (acc * n) := by unfold mulU; rw [if_pos h2]
    rw [productU, hm, Option.bind_some, productU_exact h1, size, Nat.mul_assoc]

theorem productI_exact {checked : Bool} : ∀ {s acc : _}, acc * positivePart s < 2 ^ 63 →
    productI checked (acc : Nat) (s.map fun n : Nat => (n : Int)) = some ((acc * size s : Nat) : Int)
  | [], acc, _ => by simp [productI, size]
  | n :: s, acc, h => by
    rw [positivePart_cons, ← Nat.mul_assoc] at h
    have hp := positivePart_pos s
    have hn : acc * n ≤ acc * (if n = 0 then 1 else n) := Nat.mul_le_mul_left _ (by split <;> omega)
    have h1 : acc * n * positivePart s < 2 ^ 63 := lt_of_le_of_lt (Nat.mul_le_mul_right _ hn) h
    have h2 : acc * n < 2 ^ 63 := lt_of_le_of_lt (Nat.le_mul_of_pos_right _ hp) h1
    have hm : mulI checked (acc : Int) (n : Int) = some ((acc * n : Nat) : Int) := by
      unfold mulI
      have h3 : ((acc * n : Nat) : Int) < 2 ^ 63 := by exact_mod_cast h2
      rw [← Int.natCast_mul, if_pos ⟨by omega, h3⟩]
    rw [List.map_cons, productI, hm, Option.bind_some, productI_exact h1, size, Nat.mul_assoc]

theorem castU_nat {n : Nat} (h : n < 2 ^ 63) : castU (n : Int) = n := by
  unfold castU
  omega

/-- A list of integers without negative ones is a list of naturals. -/
theorem exists_nats : ∀ {l : List Int}, (∀ d ∈ l, 0 ≤ d) → ∃ s : List Nat, l = s.map fun n : Nat => (n : Int)
  | [], _ => ⟨[], rfl⟩
  | d :: l, h => by
    obtain ⟨s, rfl⟩ := exists_nats (l := l) fun x hx => h x (by simp [hx])
    obtain ⟨n, rfl⟩ := Int.eq_ofNat_of_zero_le (h d (by simp))
    exact ⟨n :: s, rfl⟩

theorem isResolved_nats {s t : List Nat} {n : Nat} :
    IsResolved (s.map fun n : Nat => (n : Int)) n t ↔ t = s ∧ size s = n := by
  have hc : (s.map fun n : Nat => (n : Int)).count (-1) = 0 := by
    rw [List.count_eq_zero]
    intro h
    obtain ⟨x, -, hx⟩ := List.mem_map.1 h
    omega
  constructor
  · rintro ⟨h1, h2, h3, -⟩
    have : t = s := by
      refine List.ext_getElem (by simpa using h1) fun k hk hk' => ?_
      have := h3 k (by simpa using hk')
      simp only [List.getD, List.getElem?_map, List.getElem?_eq_getElem hk, List.getElem?_eq_getElem hk', Option.map_some,
        Option.getD_some] at this
      omega
    exact ⟨this, this ▸ h2⟩
  · rintro ⟨rfl, h⟩
    refine ⟨by simp, h, fun k hk => Or.inr ?_, Or.inl hc⟩
    have hk' : k < t.length := by simpa using hk
    simp [List.getD, hk']

theorem isResolved_one {a b t : List Nat} {n : Nat} :
    IsResolved ((a.map fun n : Nat => (n : Int)) ++ -1 :: b.map fun n : Nat => (n : Int)) n t ↔
      ∃ d, t = a ++ d :: b ∧ d * size (a ++ b) = n ∧ 0 ∉ a ++ b := by
  have hc : ∀ s : List Nat, (s.map fun n : Nat => (n : Int)).count (-1) = 0 := by
    intro s
    rw [List.count_eq_zero]
    intro h
    obtain ⟨x, -, hx⟩ := List.mem_map.1 h
    omega
  have hzero : (0 : Int) ∉ ((a.map fun n : Nat => (n : Int)) ++ -1 :: b.map fun n : Nat => (n : Int)) ↔ 0 ∉ a ++ b := by
    simp
  have hsz : ∀ d, size (a ++ d :: b) = d * size (a ++ b) := by
    intro d
    rw [size_append, size_append, size]
    ring
  have hcount : ((a.map fun n : Nat => (n : Int)) ++ -1 :: b.map fun n : Nat => (n : Int)).count (-1) = 1 := by
    rw [List.count_append, List.count_cons, hc, hc]
    simp
  constructor
  · rintro ⟨h1, h2, h3, h4⟩
    have h4 := h4.resolve_left (by omega)
    have hl : t.length = a.length + 1 + b.length := by simp at h1; omega
    have ht : t = a ++ t.getD a.length 0 :: b := by
      refine List.ext_getElem (by simp; omega) fun k hk hk' => ?_
      have := h3 k (by simp; omega)
      rcases Nat.lt_trichotomy k a.length with hka | hka | hka
      · rw [List.getElem_append_left hka]
        simp only [List.getD, List.getElem?_append_left (show k < (a.map fun n : Nat => (n : Int)).length by simpa using hka),
          List.getElem?_map, List.getElem?_eq_getElem hk, List.getElem?_eq_getElem hka, Option.map_some, Option.getD_some] at this
        omega
      · subst hka
        simp [List.getD, hk]
      · obtain ⟨m, rfl⟩ : ∃ m, k = a.length + 1 + m := ⟨k - a.length - 1, by omega⟩
        have hm : m < b.length := by omega
        have e1 : ((a.map fun n : Nat => (n : Int)) ++ -1 :: b.map fun n : Nat => (n : Int))[a.length + 1 + m]? = some ((b[m] : Nat) : Int) := by
          rw [List.getElem?_append_right (by simp; omega)]
          have : a.length + 1 + m - (a.map fun n : Nat => (n : Int)).length = m + 1 := by simp; omega
          rw [this, List.getElem?_cons_succ, List.getElem?_map, List.getElem?_eq_getElem hm]
          rfl
        have e2 : (a ++ t.getD a.length 0 :: b)[a.length + 1 + m]? = some b[m] := by
          rw [List.getElem?_append_right (by omega)]
          have : a.length + 1 + m - a.length = m + 1 := by omega
          rw [this, List.getElem?_cons_succ, List.getElem?_eq_getElem hm]
        rw [List.getElem?_eq_getElem hk', Option.some.injEq] at e2
        rw [e2]
        simp only [List.getD, e1, List.getElem?_eq_getElem hk, Option.getD_some] at this
        omega
    exact ⟨t.getD a.length 0, ht, by rw [← hsz, ← ht, h2], hzero.1 h4.2⟩
  · rintro ⟨d, rfl, h2, h3⟩
    refine ⟨by simp, by rw [hsz, h2], fun k hk => ?_, Or.inr ⟨hcount, hzero.2 h3⟩⟩
    simp only [List.getD]
    rcases Nat.lt_trichotomy k a.length with hka | hka | hka
    · right
      rw [List.getElem?_append_left (by simpa using hka), List.getElem?_append_left hka]
      simp [hka]
    · left
      subst hka
      rw [List.getElem?_append_right (by simp)]
      simp
    · right
      obtain ⟨m, rfl⟩ : ∃ m, k = a.length + 1 + m := ⟨k - a.length - 1, by omega⟩
      have hm : m < b.length := by simp at hk; omega
      rw [List.getElem?_append_right (by simp; omega), List.getElem?_append_right (by omega)]
      have e1 : a.length + 1 + m - (a.map fun n : Nat => (n : Int)).length = m + 1 := by simp; omega
      have e2 : a.length + 1 + m - a.length = m + 1 := by omega
      rw [e1, e2, List.getElem?_cons_succ, List.getElem?_cons_succ, List.getElem?_map, List.getElem?_eq_getElem hm]
      rfl

/-- C92, proved part: the function `reshape` of a C-contiguous array finds the shape that is meant, with at most one length left
open, and keeps the elements in reading order; it refuses exactly the shapes that do not fit. Missing: lengths below `-1`, for
which it is false (`C92_reshape_counterexample`), lengths whose product passes `2 ^ 63` (see C91), and arrays that are not
C-contiguous (see C08). -/
theorem C92_reshape_partial (checked : Bool) (mem : Int → α) (v : View) (hw : v.WF) (hc : v.cFlag = true)
    (hsz : size v.shape < 2 ^ 63) (dims : List Int) (hd : ∀ d ∈ dims, -1 ≤ d)
    (hb : size ((dims.filter (0 < ·)).map Int.toNat) < 2 ^ 63) :
    ((∃ w, reshapeFn checked v dims = .ok w) ↔ ∃ s, IsResolved dims (size v.shape) s) ∧
    (reshapeFn checked v dims = .error ↔ ¬ ∃ s, IsResolved dims (size v.shape) s) ∧
    ∀ w, reshapeFn checked v dims = .ok w →
      IsResolved dims (size v.shape) w.shape ∧ (w.denote mem).toList = (v.denote mem).toList := by
  have hpart : ∀ s : List Nat, size (((s.map fun n : Nat => (n : Int)).filter (0 < ·)).map Int.toNat) = positivePart s := by
    intro s
    unfold positivePart
    congr 1
    induction s with
    | nil => rfl
    | cons n s ih =>
      by_cases h : 0 < n
      · rw [List.map_cons, List.filter_cons_of_pos (by simpa using h), List.filter_cons_of_pos (by simpa using h), List.map_cons, ih,
          Int.toNat_natCast]
      · rw [List.map_cons, List.filter_cons_of_neg (by simpa using h), List.filter_cons_of_neg (by simpa using h), ih]
  have hkeep : ∀ s : List Nat, size v.shape = size s → ((v.viewWith 0 s (cStrides s v.item)).denote mem).toList = (v.denote mem).toList := by
    intro s hs
    refine (C08_reshape_partial mem v (v.viewWith 0 s (cStrides s v.item)) hw s hc ?_).2.2
    simp [View.reshape, sizeOf_eq, hs, hc]
  by_cases hneg : (-1 : Int) ∈ dims
  · obtain ⟨x, y, rfl, hx⟩ := List.eq_append_cons_of_mem hneg
    by_cases hy : (-1 : Int) ∈ y
    · have hcount : 1 < (x ++ -1 :: y).count (-1) := by
        rw [List.count_append, List.count_cons]
        have := List.count_pos_iff.2 hy
        simp
        omega
      have e : reshapeFn checked v (x ++ -1 :: y) = .error := by
        unfold reshapeFn reshapeFnShape
        rw [if_pos hcount]
      have hno : ¬ ∃ s, IsResolved (x ++ -1 :: y) (size v.shape) s := by
        rintro ⟨s, -, -, -, h | h⟩ <;> omega
      rw [e]
      exact ⟨⟨fun ⟨w, h⟩ => by simp at h, fun h => absurd h hno⟩, ⟨fun _ => hno, fun _ => rfl⟩, fun w h => by simp at h⟩
    · have hnn : ∀ l : List Int, -1 ∉ l → (∀ d ∈ l, -1 ≤ d) → ∀ d ∈ l, 0 ≤ d := by
        intro l h1 h2 d hd'
        rcases eq_or_lt_of_le (h2 d hd') with h | h
        · exact absurd (h ▸ hd') h1
        · omega
      obtain ⟨a, rfl⟩ := exists_nats (hnn x hx fun d hd' => hd d (by simp [hd']))
      obtain ⟨b, rfl⟩ := exists_nats (hnn y hy fun d hd' => hd d (by simp [hd']))
      have hcount : ((a.map fun n : Nat => (n : Int)) ++ -1 :: b.map fun n : Nat => (n : Int)).count (-1) = 1 := by
        rw [List.count_append, List.count_cons, List.count_eq_zero.2 hx, List.count_eq_zero.2 hy]
        simp
      have hfil : ((a.map fun n : Nat => (n : Int)) ++ -1 :: b.map fun n : Nat => (n : Int)).filter (· ≠ -1)
          = (a ++ b).map fun n : Nat => (n : Int) := by
        rw [List.filter_append, List.filter_cons_of_neg (by simp), List.map_append]
        congr 1
        · exact List.filter_eq_self.2 fun d hd' => by
            obtain ⟨n, -, rfl⟩ := List.mem_map.1 hd'
            simp
        · exact List.filter_eq_self.2 fun d hd' => by
            obtain ⟨n, -, rfl⟩ := List.mem_map.1 hd'
            simp
      have hb : positivePart (a ++ b) < 2 ^ 63 := by
        rw [← hpart, List.map_append, List.filter_append]
        rw [List.filter_append, List.filter_cons_of_neg (by simp)] at hb
        exact hb
      have hprod : productI checked 1 ((a ++ b).map fun n : Nat => (n : Int)) = some ((size (a ++ b) : Nat) : Int) := by
        have := productI_exact (checked := checked) (s := a ++ b) (acc := 1) (by rw [Nat.one_mul]; exact hb)
        rw [Nat.one_mul] at this
        exact this
      have hmap : ((a.map fun n : Nat => (n : Int)) ++ -1 :: b.map fun n : Nat => (n : Int)).map
          (fun d => if d = -1 then size v.shape / size (a ++ b) else castU d) = a ++ (size v.shape / size (a ++ b)) :: b := by
        have hs : ∀ l : List Nat, (∀ n ∈ l, n ∈ a ++ b) → (l.map fun n : Nat => (n : Int)).map
            (fun d => if d = -1 then size v.shape / size (a ++ b) else castU d) = l := by
          intro l hl
          rw [List.map_map]
          conv_rhs => rw [← List.map_id l]
          refine List.map_congr_left fun n hn => ?_
          simp only [Function.comp, id]
          rw [if_neg (by omega), castU_nat (lt_of_le_of_lt (le_positivePart (hl n hn)) hb)]
        rw [List.map_append, List.map_cons, hs a fun n hn => by simp [hn], hs b fun n hn => by simp [hn], if_pos rfl]
      have hshape : reshapeFnShape checked (size v.shape) ((a.map fun n : Nat => (n : Int)) ++ -1 :: b.map fun n : Nat => (n : Int)) =
          if size (a ++ b) = 0 ∨ size v.shape % size (a ++ b) ≠ 0 then .error else .ok (a ++ (size v.shape / size (a ++ b)) :: b) := by
        unfold reshapeFnShape
        rw [hcount, if_neg (by decide), if_pos rfl, hfil, hprod]
        dsimp only
        rw [Int.toNat_natCast, hmap]
        by_cases h0 : size (a ++ b) = 0
        · rw [if_pos (Or.inl (by omega)), if_pos (Or.inl h0)]
        · by_cases h1 : size v.shape % size (a ++ b) ≠ 0
          · rw [if_pos (Or.inr h1), if_pos (Or.inr h1)]
          · rw [if_neg (by rintro (h | h); · omega
                           · exact h1 h), if_neg (by rintro (h | h); · exact h0 h
                                                     · exact h1 h)]
      have hzero : 0 ∉ a ++ b ↔ size (a ++ b) ≠ 0 := by
        rw [size_positivePart]
        have := positivePart_pos (a ++ b)
        by_cases h : 0 ∈ a ++ b
        · rw [if_pos h]; exact ⟨fun h' => absurd h h', fun h' => absurd rfl h'⟩
        · rw [if_neg h]; exact ⟨fun _ => by omega, fun _ => h⟩
      have hins : ∀ d, size (a ++ d :: b) = d * size (a ++ b) := by
        intro d
        rw [size_append, size_append, size]
        ring
      simp only [isResolved_one]
      by_cases hbad : size (a ++ b) = 0 ∨ size v.shape % size (a ++ b) ≠ 0
      · have e : reshapeFn checked v ((a.map fun n : Nat => (n : Int)) ++ -1 :: b.map fun n : Nat => (n : Int)) = .error := by
          unfold reshapeFn
          rw [sizeOf_eq, hshape, if_pos hbad]
        have hno : ¬ ∃ s : List Nat, ∃ d, s = a ++ d :: b ∧ d * size (a ++ b) = size v.shape ∧ 0 ∉ a ++ b := by
          rintro ⟨s, d, -, h2, h3⟩
          rcases hbad with h | h
          · exact hzero.1 h3 h
          · rw [← h2] at h
            exact h (Nat.mul_mod_left _ _)
        rw [e]
        exact ⟨⟨fun ⟨w, h⟩ => by simp at h, fun h => absurd h hno⟩, ⟨fun _ => hno, fun _ => rfl⟩, fun w h => by simp at h⟩
      · have hbad' := hbad
        push Not at hbad
        obtain ⟨hb0, hb1⟩ := hbad
        have hdm : size v.shape / size (a ++ b) * size (a ++ b) = size v.shape := Nat.div_mul_cancel (Nat.dvd_of_mod_eq_zero hb1)
        have hpp : positivePart (a ++ (size v.shape / size (a ++ b)) :: b) < 2 ^ 64 := by
          have hperm : positivePart (a ++ (size v.shape / size (a ++ b)) :: b)
              = (if size v.shape / size (a ++ b) = 0 then 1 else size v.shape / size (a ++ b)) * positivePart (a ++ b) := by
            have happ : ∀ l m : List Nat, positivePart (l ++ m) = positivePart l * positivePart m := by
              intro l m
              unfold positivePart
              rw [List.filter_append, size_append]
            rw [happ, happ, positivePart_cons]
            ring
          have hsp : positivePart (a ++ b) = size (a ++ b) := by rw [size_positivePart, if_neg (hzero.2 hb0)]
          rw [hperm]
          split
          · omega
          · rw [hsp, hdm]; omega
        have e : reshapeFn checked v ((a.map fun n : Nat => (n : Int)) ++ -1 :: b.map fun n : Nat => (n : Int)) =
            .ok (v.viewWith 0 (a ++ (size v.shape / size (a ++ b)) :: b) (cStrides (a ++ (size v.shape / size (a ++ b)) :: b) v.item)) := by
          unfold reshapeFn
          rw [sizeOf_eq, hshape, if_neg hbad']
          dsimp only
          rw [productU_exact (by rw [Nat.one_mul]; exact hpp)]
          dsimp only
          rw [Nat.one_mul, hins, hdm, if_neg (by simp)]
        have hyes : ∃ d, a ++ (size v.shape / size (a ++ b)) :: b = a ++ d :: b ∧ d * size (a ++ b) = size v.shape ∧ 0 ∉ a ++ b :=
          ⟨_, rfl, hdm, hzero.2 hb0⟩
        rw [e]
        refine ⟨⟨fun _ => ⟨_, hyes⟩, fun _ => ⟨_, rfl⟩⟩, ⟨fun h => by simp at h, fun h => absurd ⟨_, hyes⟩ h⟩, fun w h => ?_⟩
        simp only [Outcome.ok.injEq] at h
        subst h
        exact ⟨hyes, hkeep _ (by rw [hins, hdm])⟩
  · obtain ⟨s, rfl⟩ := exists_nats (l := dims) fun d hd' => by
      have := hd d hd'
      rcases eq_or_lt_of_le this with h | h
      · exact absurd (h ▸ hd') hneg
      · omega
    rw [hpart] at hb
    have hcount : (s.map fun n : Nat => (n : Int)).count (-1) = 0 := List.count_eq_zero.2 hneg
    have hcast : (s.map fun n : Nat => (n : Int)).map castU = s := by
      rw [List.map_map]
      conv_rhs => rw [← List.map_id s]
      exact List.map_congr_left fun n hn => castU_nat (lt_of_le_of_lt (le_positivePart hn) hb)
    have e : reshapeFn checked v (s.map fun n : Nat => (n : Int)) =
        if size v.shape ≠ size s then .error else .ok (v.viewWith 0 s (cStrides s v.item)) := by
      unfold reshapeFn reshapeFnShape
      rw [hcount, if_neg (by decide), if_neg (by decide), hcast]
      dsimp only
      rw [productU_exact (by rw [Nat.one_mul]; omega)]
      simp only [Nat.one_mul, sizeOf_eq]
    simp only [isResolved_nats]
    rw [e]
    by_cases hs : size v.shape = size s
    · rw [if_neg (by simpa using hs)]
      refine ⟨⟨fun _ => ⟨s, rfl, hs.symm⟩, fun _ => ⟨_, rfl⟩⟩, ⟨fun h => by simp at h, fun h => absurd ⟨s, rfl, hs.symm⟩ h⟩, fun w h => ?_⟩
      simp only [Outcome.ok.injEq] at h
      subst h
      exact ⟨⟨rfl, hs.symm⟩, hkeep s hs⟩
    · rw [if_pos hs]
      refine ⟨⟨fun ⟨w, h⟩ => by simp at h, fun ⟨t, _, h⟩ => absurd h.symm hs⟩, ⟨fun _ ⟨t, _, h⟩ => absurd h.symm hs, fun _ => rfl⟩, fun w h => by simp at h⟩

example : (View.fresh [6] 8).WF ∧ reshapeFn true (View.fresh [6] 8) [2, -1] = .ok ⟨0, [2, 3], [24, 8], 8, true, false⟩ ∧
    reshapeFn true (View.fresh [6] 8) [4, -1] = .error ∧ reshapeFn true (View.fresh [0] 8) [0, -1] = .error :=
  ⟨View.WF.fresh _ _, by decide +kernel, by decide +kernel, by decide +kernel⟩

/-- C92 fails for lengths below `-1`: in a release build `reshape(a, (-2, -3))` of six elements is accepted, because the casts of
`-2` and `-3` multiply to six modulo `2 ^ 64`, and the result has `2 ^ 64 - 2` rows; `(-2, -3, -1)` is accepted too. -/
theorem C92_reshape_counterexample :
    (∃ w, reshapeFn false (View.fresh [6] 8) [-2, -3] = .ok w ∧ w.shape = [2 ^ 64 - 2, 2 ^ 64 - 3]) ∧
    (∃ w, reshapeFn false (View.fresh [6] 8) [-2, -3, -1] = .ok w ∧ w.shape = [2 ^ 64 - 2, 2 ^ 64 - 3, 1]) ∧
    reshapeFn true (View.fresh [6] 8) [-2, -3] = .panic ∧
    (∀ s, ¬ IsResolved [-2, -3] 6 s) := by
  refine ⟨⟨_, rfl, by decide +kernel⟩, ⟨_, rfl, by decide +kernel⟩, by decide +kernel, ?_⟩
  rintro s ⟨-, -, h, -⟩
  have := h 0 (by decide)
  simp only [List.getD_cons_zero] at this
  omega

end Props
