import Verif.Model.Moments
import Verif.Lemmas.Cumulative
import Verif.Lemmas.Reduce
import Verif.Props.Reduce
import Verif.Props.Elementwise
import Verif.Lemmas.Gufunc
import Verif.Props.Broadcast
import Verif.Props.EinsumPair
import Mathlib.Data.List.GetD
import Mathlib.Data.List.Perm.Basic
import Mathlib.Algebra.BigOperators.Ring.List
import Mathlib.Tactic.Ring
import Mathlib.Tactic.FieldSimp
/-! # Lemmas for means, moments and several axes -/

namespace Rumpy
open Spec Props

/-! ### Leaving out coordinates -/

theorem filter_zipIdx_ge (p : Nat → Bool) : ∀ (l : List β) (o : Nat), (∀ k, o ≤ k → p k = true) →
    ((l.zipIdx o).filter fun x => p x.2).map (·.1) = l
  | [], _, _ => rfl
  | a :: l, o, h => by
    rw [List.zipIdx_cons, List.filter_cons, if_pos (h o le_rfl), List.map_cons,
      filter_zipIdx_ge p l (o + 1) fun k hk => h k (by omega)]

theorem filter_zipIdx_congr (p q : Nat → Bool) : ∀ (l : List β) (o : Nat), (∀ k, o ≤ k → k < o + l.length → p k = q k) →
    ((l.zipIdx o).filter fun x => p x.2) = ((l.zipIdx o).filter fun x => q x.2)
  | [], _, _ => rfl
  | a :: l, o, h => by
    rw [List.zipIdx_cons, List.filter_cons, List.filter_cons, h o le_rfl (by simp),
      filter_zipIdx_congr p q l (o + 1) fun k h1 h2 => h k (by omega) (by simp; omega)]

/-- The highest axis can be left out first. -/
theorem dropAt_cons {ax : Nat} {rest : List Nat} {l : List β} (hax : ax < l.length) (hr : ∀ k ∈ rest, k < ax) :
    dropAt (ax :: rest) l = dropAt rest (l.eraseIdx ax) := by
  unfold dropAt
  have h1 : l = l.take ax ++ l[ax] :: l.drop (ax + 1) := by
    rw [List.cons_getElem_drop_succ, List.take_append_drop]
  have h2 : l.eraseIdx ax = l.take ax ++ l.drop (ax + 1) := List.eraseIdx_eq_take_drop_succ ..
  have hlen : (l.take ax).length = ax := by rw [List.length_take]; omega
  rw [h2]
  conv_lhs => rw [h1]
  rw [List.zipIdx_append, List.zipIdx_append, List.filter_append, List.filter_append, List.map_append, List.map_append, hlen]
  congr 1
  · congr 1
    have := filter_zipIdx_congr (fun k => decide (k ∉ ax :: rest)) (fun k => decide (k ∉ rest)) (l.take ax) 0 (by
      intro k _ hk
      rw [hlen] at hk
      have : k ≠ ax := by omega
      simp [this])
    exact this
  · rw [List.zipIdx_cons, List.filter_cons, if_neg (by simp)]
    rw [filter_zipIdx_ge (fun k => decide (k ∉ ax :: rest)), filter_zipIdx_ge (fun k => decide (k ∉ rest))]
    · intro k hk
      have : k ∉ rest := fun hm => by have := hr k hm; omega
      simpa using this
    · intro k hk
      have : k ∉ rest := fun hm => by have := hr k hm; omega
      have h3 : k ≠ ax := by omega
      simp [this, h3]

theorem dropAt_nil (l : List β) : dropAt [] l = l := by
  unfold dropAt
  exact filter_zipIdx_ge (fun k => decide (k ∉ [])) l 0 (by simp)

theorem dropAt_perm {p q : List Nat} (h : p.Perm q) (l : List β) : dropAt p l = dropAt q l := by
  unfold dropAt
  simp only [h.mem_iff]

theorem over_perm {p q : List Nat} (h : p.Perm q) (a : Nd α) (idx : List Nat) : a.over p idx = a.over q idx := by
  unfold Nd.over
  simp only [dropAt_perm h]

theorem over_nil (a : Nd α) {idx : List Nat} (hi : InShape a.shape idx) : a.over [] idx = [a.get idx] := by
  unfold Nd.over
  simp only [dropAt_nil]
  rw [List.filter_eq]
  have : (indices a.shape).count idx = 1 := List.count_eq_one_of_mem (indices_nodup _) (mem_indices.2 hi)
  rw [this]; rfl

/-- The elements over several axes, axis by axis. -/
theorem over_cons_perm {ax : Nat} {rest : List Nat} (a : Nd α) (hax : ax < a.shape.length) (hr : ∀ k ∈ rest, k < ax) (idx : List Nat) :
    (a.over (ax :: rest) idx).Perm
      (((indices (a.shape.eraseIdx ax)).filter fun j => dropAt rest j = idx).flatMap fun j =>
        (List.range (a.shape.getD ax 0)).map fun k => a.get (j.insertIdx ax k)) := by
  unfold Nd.over
  have e : (((indices (a.shape.eraseIdx ax)).filter fun j => dropAt rest j = idx).flatMap fun j =>
        (List.range (a.shape.getD ax 0)).map fun k => a.get (j.insertIdx ax k)) =
      (((indices (a.shape.eraseIdx ax)).filter fun j => dropAt rest j = idx).flatMap fun j =>
        (List.range (a.shape.getD ax 0)).map fun k => j.insertIdx ax k).map a.get := by
    rw [List.map_flatMap]
    simp only [List.map_map]
    rfl
  rw [e]
  apply List.Perm.map
  have hl : ∀ j, InShape (a.shape.eraseIdx ax) j → ax ≤ j.length := by
    intro j hj
    have := hj.length_eq
    rw [List.length_eraseIdx, if_pos hax] at this
    omega
  rw [List.perm_ext_iff_of_nodup]
  · intro i
    simp only [List.mem_filter, List.mem_flatMap, List.mem_map, List.mem_range, mem_indices, decide_eq_true_eq]
    constructor
    · rintro ⟨h1, h2⟩
      have hil : ax < i.length := by rw [h1.length_eq]; exact hax
      refine ⟨i.eraseIdx ax, ⟨inShape_eraseIdx ax h1, ?_⟩, i.getD ax 0, inShape_getD h1 hax, ?_⟩
      · rw [← h2, dropAt_cons hil hr]
      · rw [insertIdx_eraseIdx_set _ hil]
        rw [List.getD_eq_getElem _ _ hil, List.set_getElem_self]
    · rintro ⟨j, ⟨h1, h2⟩, k, hk, rfl⟩
      have hin := inShape_insertIdx hax h1 hk
      refine ⟨hin, ?_⟩
      rw [dropAt_cons (by rw [hin.length_eq]; exact hax) hr, eraseIdx_insertIdx_self _ _ _ (hl j h1), h2]
  · exact (indices_nodup _).filter _
  · rw [List.nodup_flatMap]
    refine ⟨?_, ?_⟩
    · intro j hj
      rw [List.mem_filter, mem_indices] at hj
      refine List.Nodup.map_on ?_ List.nodup_range
      intro x _ y _ hxy
      have h1 := getD_insertIdx_self j ax x (hl j hj.1)
      rw [hxy, getD_insertIdx_self j ax y (hl j hj.1)] at h1
      exact h1.symm
    · have hnd : ((indices (a.shape.eraseIdx ax)).filter fun j => dropAt rest j = idx).Nodup := (indices_nodup _).filter _
      refine List.Nodup.pairwise_of_forall_ne hnd ?_
      intro j hj j' hj' hne
      rw [List.mem_filter, mem_indices] at hj hj'
      intro i hi hi'
      rw [List.mem_map] at hi hi'
      obtain ⟨x, _, rfl⟩ := hi
      obtain ⟨y, _, hy⟩ := hi'
      apply hne
      have := congrArg (fun l => l.eraseIdx ax) hy
      rw [eraseIdx_insertIdx_self _ _ _ (hl j hj.1), eraseIdx_insertIdx_self _ _ _ (hl j' hj'.1)] at this
      exact this.symm

/-- Over one axis: the lane. -/
theorem over_one_perm {ax : Nat} (a : Nd α) (hax : ax < a.shape.length) {idx : List Nat} (hi : InShape (a.shape.eraseIdx ax) idx) :
    (a.over [ax] idx).Perm ((List.range (a.shape.getD ax 0)).map fun k => a.get (idx.insertIdx ax k)) := by
  have h := over_cons_perm (rest := []) a hax (by simp) idx
  refine h.trans ?_
  simp only [dropAt_nil]
  rw [List.filter_eq, List.count_eq_one_of_mem (indices_nodup _) (mem_indices.2 hi)]
  simp

theorem dropAt_one {ax : Nat} {l : List β} (hax : ax < l.length) : dropAt [ax] l = l.eraseIdx ax := by
  rw [dropAt_cons hax (by simp), dropAt_nil]

theorem over_congr {a b : Nd α} (h : a.Same b) (axes idx : List Nat) : a.over axes idx = b.over axes idx := by
  unfold Nd.over
  rw [← h.1]
  apply List.map_congr_left
  intro i hi
  rw [List.mem_filter, mem_indices] at hi
  exact h.2 i hi.1

/-! ### Folds -/

theorem foldl_start {op : α → α → α} {e : α} (assoc : ∀ a b c, op (op a b) c = op a (op b c)) (comm : ∀ a b, op a b = op b a)
    (ident : ∀ a, op e a = a) : ∀ (l : List α) (a : α), l.foldl op a = op a (l.foldl op e)
  | [], a => by rw [List.foldl_nil, List.foldl_nil, comm, ident]
  | x :: l, a => by
    rw [List.foldl_cons, List.foldl_cons, ident, foldl_start assoc comm ident l (op a x), foldl_start assoc comm ident l x, assoc]

theorem foldl_flatMap_op {op : α → α → α} {e : α} (assoc : ∀ a b c, op (op a b) c = op a (op b c)) (comm : ∀ a b, op a b = op b a)
    (ident : ∀ a, op e a = a) (f : β → List α) : ∀ (l : List β), (l.flatMap f).foldl op e = (l.map fun j => (f j).foldl op e).foldl op e
  | [] => rfl
  | x :: l => by
    rw [List.flatMap_cons, List.foldl_append, List.map_cons, List.foldl_cons, ident, foldl_start assoc comm ident,
      foldl_flatMap_op assoc comm ident f l, ← foldl_start assoc comm ident]

theorem perm_foldl {op : α → α → α} (assoc : ∀ a b c, op (op a b) c = op a (op b c)) (comm : ∀ a b, op a b = op b a) {l m : List α}
    (h : l.Perm m) (e : α) : l.foldl op e = m.foldl op e := by
  refine h.foldl_eq' ?_ e
  intro x _ y _ z
  rw [assoc, assoc, comm x y]

theorem foldl_add_eq_sum [AddCommMonoid K] (l : List K) : l.foldl (· + ·) 0 = l.sum := by
  rw [List.sum_eq_foldl]

theorem foldl_add_map [AddCommMonoid K] (f : β → K) (l : List β) : l.foldl (fun s x => s + f x) 0 = (l.map f).sum := by
  rw [List.sum_eq_foldl, List.foldl_map]

theorem sum_map_div [Field K] (f : β → K) (c : K) (l : List β) : (l.map fun x => f x / c).sum = (l.map f).sum / c := by
  simp only [div_eq_mul_inv]
  rw [List.sum_map_mul_right]

theorem meanOf_perm [Field K] {l m : List K} (h : l.Perm m) : meanOf l = meanOf m := by
  unfold meanOf
  rw [h.sum_eq, h.length_eq]

theorem momentOf_perm [Field K] (k : Nat) {l m : List K} (h : l.Perm m) : momentOf k l = momentOf k m := by
  unfold momentOf
  rw [meanOf_perm h]
  exact meanOf_perm (h.map _)

/-! ### Broadcasting helpers -/

theorem isBroadcast_one {s : List Nat} (hs : s ≠ []) : IsBroadcast s [1] s := by
  have : 0 < s.length := List.length_pos_iff.2 hs
  refine ⟨by simp; omega, ?_⟩
  intro k _
  refine Or.inr (Or.inr ⟨?_, rfl⟩)
  unfold dimR
  split
  · next h =>
    have : k = 0 := by simpa using h
    subst this; rfl
  · rfl

theorem isBroadcast_set {s : List Nat} {ax : Nat} (hax : ax < s.length) : IsBroadcast s (s.set ax 1) s := by
  refine ⟨by simp, ?_⟩
  intro k hk
  unfold DimBroadcast dimR
  rw [List.length_set, if_pos hk]
  by_cases h : s.length - 1 - k = ax
  · right; right
    rw [h]
    simp [List.getD_eq_getElem?_getD, hax]
  · left
    rw [List.getD_eq_getElem?_getD, List.getD_eq_getElem?_getD, List.getElem?_set_ne (Ne.symm h)]
    rw [if_pos hk]
    exact ⟨rfl, rfl⟩

theorem zipWith_set_one : ∀ {s i : List Nat} (ax : Nat), InShape s i →
    List.zipWith (fun d i => if d = 1 then 0 else i) (s.set ax 1) i = i.set ax 0
  | [], [], ax, _ => by simp
  | n :: s, k :: i, 0, h => by
    rw [List.set_cons_zero, List.zipWith_cons_cons, if_pos rfl, zipWith_bc_self h.2, List.set_cons_zero]
  | n :: s, k :: i, ax + 1, h => by
    rw [List.set_cons_succ, List.zipWith_cons_cons, zipWith_set_one ax h.2, List.set_cons_succ]
    congr 1
    have := h.1
    split <;> omega

theorem bcast_set_get {a : Nd α} {s i : List Nat} {ax : Nat} (ha : a.shape = s.set ax 1) (hi : InShape s i) :
    (a.broadcast s).get i = a.get (i.set ax 0) := by
  show a.get _ = _
  rw [ha, List.length_set, Nat.sub_self, List.drop_zero, zipWith_set_one ax hi]

theorem bcast_self {a : Nd α} {i : List Nat} {s : List Nat} (ha : a.shape = s) (hi : InShape s i) : (a.broadcast s).get i = a.get i := by
  show a.get _ = _
  rw [ha, Nat.sub_self, List.drop_zero, zipWith_bc_self hi]

theorem bcast_one_get {a : Nd α} {s i : List Nat} (ha : a.shape = [1]) (hs : s ≠ []) (hi : InShape s i) :
    (a.broadcast s).get i = a.get [0] := by
  show a.get _ = _
  rw [ha]
  have h1 : 0 < i.length := by rw [hi.length_eq]; exact List.length_pos_iff.2 hs
  have h2 : (i.drop (s.length - [1].length)).length = 1 := by
    rw [List.length_drop, hi.length_eq]
    have : 0 < s.length := List.length_pos_iff.2 hs
    simp; omega
  obtain ⟨x, hx⟩ := List.length_eq_one_iff.1 h2
  rw [hx]; rfl

theorem oneOf_is (x : α) : (oneOf x).Is ⟨[1], fun _ => x⟩ := ⟨rfl, rfl⟩

theorem held_of_wf (a : Arr α) (item : Nat) (zero : α) : (Held.of a item zero).view.WF := View.WF.fresh _ _

/-- A binary operation of arrays with known contents. -/
theorem binaryOp_is (typed : Bool) (f : α → β → γ) {h : Held α} {g : Held β} (hw : h.view.WF) (gw : g.view.WF) {out : List Nat}
    (ho : IsBroadcast h.view.shape g.view.shape out) (zero : γ) :
    ∃ r, binaryOp typed f h.mem g.mem h.view g.view zero = some r ∧
      r.Is ⟨out, fun i => f ((h.nd.broadcast out).get i) ((g.nd.broadcast out).get i)⟩ := by
  obtain ⟨r, hr⟩ := Option.isSome_iff_exists.1 ((C15_binary_succeeds_iff typed f h.mem g.mem h.view g.view hw gw zero).2 ⟨out, ho⟩)
  exact ⟨r, hr, C15_binary typed f h.mem g.mem h.view g.view hw gw zero r out ho hr⟩

/-- Dividing an array by a stored number. -/
theorem binaryOp_one (typed : Bool) (f : α → β → γ) {r : Arr α} {nd : Nd α} (hr : r.Is nd) (hs : nd.shape ≠ []) {item : Nat} (hi : 0 < item)
    (za : α) (x : β) (zb : β) (zero : γ) :
    ∃ q, binaryOp typed f (Held.of r item za).mem (Held.of (oneOf x) item zb).mem (Held.of r item za).view (Held.of (oneOf x) item zb).view zero = some q ∧
      q.Is ⟨nd.shape, fun i => f (nd.get i) x⟩ := by
  have hsh : (Held.of r item za).view.shape = nd.shape := hr.1
  have hd := hr.denote hi za
  have hx := (oneOf_is x).denote hi zb
  obtain ⟨q, h1, h2⟩ := binaryOp_is typed f (held_of_wf r item za) (held_of_wf (oneOf x) item zb) (out := nd.shape)
    (by rw [hsh]; exact isBroadcast_one hs) zero
  refine ⟨q, h1, h2.congr ⟨rfl, ?_⟩⟩
  intro i hi'
  have hi' : InShape nd.shape i := hi'
  dsimp only
  rw [bcast_self (a := (Held.of r item za).nd) hsh hi', bcast_one_get (a := (Held.of (oneOf x) item zb).nd) rfl hs hi']
  have e1 : (Held.of r item za).nd.get i = nd.get i := hd.2 i (by
    show InShape r.shape i
    rw [hr.1]; exact hi')
  have e2 : (Held.of (oneOf x) item zb).nd.get [0] = x := hx.2 [0] ⟨Nat.one_pos, trivial⟩
  rw [e1, e2]

/-! ### Axis arguments -/

theorem checkedAxis_iff {ndim k : Nat} {a : Int} : checkedAxis ndim a = some k ↔ IsAxis ndim a k := by
  unfold checkedAxis IsAxis
  dsimp only
  constructor
  · intro h
    by_cases ha : a < 0
    · rw [if_pos ha] at h
      split at h
      · exact absurd h (by simp)
      · have h := Option.some.inj h
        omega
    · rw [if_neg ha] at h
      split at h
      · exact absurd h (by simp)
      · have h := Option.some.inj h
        omega
  · rintro ⟨h1, h2⟩
    rw [if_neg (by split <;> omega)]
    congr 1
    split <;> omega

theorem mapM_checked {ndim : Nat} : ∀ {l : List Int} {ks : List Nat}, l.mapM (checkedAxis ndim) = some ks ↔ List.Forall₂ (IsAxis ndim) l ks
  | [], ks => by
    rw [List.mapM_nil]
    constructor
    · intro h; cases h; exact .nil
    · intro h; cases h; rfl
  | a :: l, ks => by
    rw [List.mapM_cons]
    constructor
    · intro h
      rw [Option.bind_eq_bind, Option.bind_eq_some_iff] at h
      obtain ⟨k, hk, h⟩ := h
      rw [Option.bind_eq_bind, Option.bind_eq_some_iff] at h
      obtain ⟨ks', hks, h⟩ := h
      cases h
      exact .cons (checkedAxis_iff.1 hk) (mapM_checked.1 hks)
    · intro h
      cases h with
      | cons h1 h2 => rw [checkedAxis_iff.2 h1, mapM_checked.2 h2]; rfl

/-! ### One axis after another -/

/-- The lanes of an array along an axis, reduced. -/
def lanes (F : List α → β) (a : Nd α) (ax : Nat) : Nd β :=
  { shape := a.shape.eraseIdx ax, get := fun idx => F ((List.range (a.shape.getD ax 0)).map fun k => a.get (idx.insertIdx ax k)) }

/-- What the induction over the axes needs of a reduction `F` and the code that reduces one axis. -/
structure StepOk (F : List α → α) (P : Nat → Prop) (code : Held α → Nat → Option (Arr α)) : Prop where
  perm : ∀ {l m : List α}, l.Perm m → F l = F m
  one : ∀ l, F [F l] = F l
  flat : ∀ (l : List (List Nat)) (f : List Nat → List α) (n : Nat), (∀ j ∈ l, (f j).length = n) → F (l.flatMap f) = F (l.map fun j => F (f j))
  step : ∀ (h : Held α) (ax : Nat), h.view.WF → 0 < h.view.item → ax < h.view.shape.length → 2 ≤ h.view.shape.length →
    P (h.view.shape.getD ax 0) → ∃ r, code h ax = some r ∧ r.Is (lanes F h.nd ax)
  last : ∀ (h : Held α) (n : Nat), h.view.WF → 0 < h.view.item → h.view.shape = [n] → P n →
    ∃ r, code h 0 = some r ∧ r.Is ⟨[1], fun _ => F ((List.range n).map fun k => h.nd.get [k])⟩

theorem lanes_collapse {F : List α → α} (perm : ∀ {l m : List α}, l.Perm m → F l = F m)
    (flat : ∀ (l : List (List Nat)) (f : List Nat → List α) (n : Nat), (∀ j ∈ l, (f j).length = n) → F (l.flatMap f) = F (l.map fun j => F (f j)))
    (a : Nd α) {ax : Nat} {rest : List Nat} (hax : ax < a.shape.length) (hr : ∀ k ∈ rest, k < ax) (idx : List Nat) :
    F ((lanes F a ax).over rest idx) = F (a.over (ax :: rest) idx) := by
  rw [perm (over_cons_perm a hax hr idx), flat _ _ (a.shape.getD ax 0) (by simp)]
  rfl

theorem collapse_congr (F : List α → β) {a b : Nd α} (h : a.Same b) (axes : List Nat) : (a.collapse F axes).Same (b.collapse F axes) := by
  refine ⟨by unfold Nd.collapse; rw [h.1], ?_⟩
  intro idx _
  show F _ = F _
  rw [over_congr h]

theorem held_of_is {r : Arr α} {nd : Nd α} (h : r.Is nd) {item : Nat} (hitem : 0 < item) (zero : α) : (Held.of r item zero).nd.Same nd :=
  h.denote hitem zero

theorem foldlM_axes {F : List α → α} {P : Nat → Prop} {step : Held α → Nat → Option (Arr α)} (ok : StepOk F P step) {item : Nat} (hitem : 0 < item)
    (zero : α) : ∀ (axes : List Nat) (h : Held α), h.view.WF → 0 < h.view.item → axes.Pairwise (· > ·) → (∀ k ∈ axes, k < h.view.shape.length) →
    axes.length < h.view.shape.length → (∀ n ∈ h.view.shape, P n) →
    (axes = [] → ∀ i, InShape h.view.shape i → F [h.nd.get i] = h.nd.get i) →
    ∃ r, axes.foldlM (fun r ax => (step r ax).map fun a => Held.of a item zero) h = some r ∧ r.view.WF ∧ r.nd.Same (h.nd.collapse F axes)
  | [], h, hw, _, _, _, _, _, hone => by
    refine ⟨h, rfl, hw, ?_, ?_⟩
    · show h.view.shape = dropAt [] h.view.shape
      rw [dropAt_nil]
    · intro idx hi
      show _ = F (h.nd.over [] idx)
      rw [over_nil _ hi, hone rfl idx hi]
  | ax :: rest, h, hw, hi, hp, hlt, hlen, hP, _ => by
    rw [List.length_cons] at hlen
    have hax := hlt ax List.mem_cons_self
    have hr : ∀ k ∈ rest, k < ax := fun k hk => (List.pairwise_cons.1 hp).1 k hk
    obtain ⟨a, ha, his⟩ := ok.step h ax hw hi hax (by omega) (hP _ (by
      rw [List.getD_eq_getElem _ _ hax]; exact List.getElem_mem _))
    have hsame := held_of_is his hitem zero
    have hsh : (Held.of a item zero).view.shape = h.view.shape.eraseIdx ax := his.1
    have hl : (h.view.shape.eraseIdx ax).length = h.view.shape.length - 1 := by rw [List.length_eraseIdx, if_pos hax]
    obtain ⟨r, h1, h2, h3⟩ := foldlM_axes ok hitem zero rest (Held.of a item zero) (held_of_wf _ _ _) hitem (List.pairwise_cons.1 hp).2
      (by intro k hk; rw [hsh, hl]; have := hr k hk; omega) (by rw [hsh, hl]; omega)
      (by rw [hsh]; intro n hn; exact hP n (List.mem_of_mem_eraseIdx hn))
      (by intro _ i hi; rw [hsame.2 i hi]; exact ok.one _)
    refine ⟨r, ?_, h2, ?_⟩
    · rw [List.foldlM_cons, ha]
      exact h1
    · have h4 := h3.trans (collapse_congr F hsame rest)
      refine ⟨?_, ?_⟩
      · rw [h4.1]
        show dropAt rest (h.view.shape.eraseIdx ax) = dropAt (ax :: rest) h.view.shape
        rw [dropAt_cons hax hr]
      · intro idx hidx
        rw [h4.2 idx hidx]
        exact lanes_collapse ok.perm ok.flat h.nd hax hr idx

theorem foldlM_all {F : List α → α} {P : Nat → Prop} {step : Held α → Nat → Option (Arr α)} (ok : StepOk F P step) {item : Nat} (hitem : 0 < item)
    (zero : α) : ∀ (axes : List Nat) (h : Held α), axes ≠ [] → h.view.WF → 0 < h.view.item → axes.Pairwise (· > ·) →
    (∀ k ∈ axes, k < h.view.shape.length) → axes.length = h.view.shape.length → (∀ n ∈ h.view.shape, P n) →
    ∃ r, axes.foldlM (fun r ax => (step r ax).map fun a => Held.of a item zero) h = some r ∧ r.view.WF ∧
      r.nd.Same ⟨[1], fun _ => F (h.nd.over axes [])⟩
  | [], h, h0, _, _, _, _, _, _ => absurd rfl h0
  | [ax], h, _, hw, hi, hp, hlt, hlen, hP => by
    obtain ⟨n, hn⟩ := List.length_eq_one_iff.1 hlen.symm
    have hax : ax = 0 := by have := hlt ax (by simp); rw [hn] at this; simpa using this
    subst hax
    obtain ⟨a, ha, his⟩ := ok.last h n hw hi hn (hP n (by rw [hn]; simp))
    refine ⟨Held.of a item zero, ?_, held_of_wf _ _ _, ?_⟩
    · rw [List.foldlM_cons, ha]; rfl
    · have h1 := held_of_is his hitem zero
      refine ⟨h1.1, ?_⟩
      intro idx hidx
      rw [h1.2 idx hidx]
      show F _ = F _
      have h2 := over_one_perm (ax := 0) h.nd (by show 0 < h.view.shape.length; rw [hn]; simp) (idx := []) (by
        show InShape (h.view.shape.eraseIdx 0) []
        rw [hn]; trivial)
      rw [ok.perm h2]
      show _ = F ((List.range (h.view.shape.getD 0 0)).map fun k => h.nd.get ([].insertIdx 0 k))
      rw [hn]; rfl
  | ax :: b :: rest', h, _, hw, hi, hp, hlt, hlen, hP => by
    have hlen' := hlen
    rw [List.length_cons, List.length_cons] at hlen'
    have hax := hlt ax List.mem_cons_self
    have hr : ∀ k ∈ b :: rest', k < ax := fun k hk => (List.pairwise_cons.1 hp).1 k hk
    obtain ⟨a, ha, his⟩ := ok.step h ax hw hi hax (by omega) (hP _ (by
      rw [List.getD_eq_getElem _ _ hax]; exact List.getElem_mem _))
    have hsame := held_of_is his hitem zero
    have hsh : (Held.of a item zero).view.shape = h.view.shape.eraseIdx ax := his.1
    have hl : (h.view.shape.eraseIdx ax).length = h.view.shape.length - 1 := by rw [List.length_eraseIdx, if_pos hax]
    obtain ⟨r, h1, h2, h3⟩ := foldlM_all ok hitem zero (b :: rest') (Held.of a item zero) (by simp) (held_of_wf _ _ _) hitem
      (List.pairwise_cons.1 hp).2
      (by intro k hk; rw [hsh, hl]; have := hr k hk; omega) (by rw [hsh, hl, List.length_cons]; omega)
      (by rw [hsh]; intro n hn; exact hP n (List.mem_of_mem_eraseIdx hn))
    refine ⟨r, ?_, h2, h3.1, ?_⟩
    · rw [List.foldlM_cons, ha]
      exact h1
    · intro idx hidx
      rw [h3.2 idx hidx]
      show F ((Held.of a item zero).nd.over (b :: rest') []) = _
      rw [over_congr hsame, lanes_collapse ok.perm ok.flat h.nd hax hr]

theorem sorted_axes {axes : List Nat} (hn : axes.Nodup) : (axes.insertionSort (· ≥ ·)).Pairwise (· > ·) := by
  have h1 : (axes.insertionSort (· ≥ ·)).Pairwise (· ≥ ·) := List.pairwise_insertionSort _ _
  have h2 : (axes.insertionSort (· ≥ ·)).Nodup := (List.perm_insertionSort _ _).nodup_iff.2 hn
  exact (h1.and h2).imp fun h => by omega

/-- Several distinct axes, some axis left. -/
theorem reduceAxes_ok {F : List α → α} {P : Nat → Prop} {step : Held α → Nat → Option (Arr α)} (ok : StepOk F P step) {item : Nat} (hitem : 0 < item)
    (zero : α) {h : Held α} (hw : h.view.WF) (hi : 0 < h.view.item) {axes : List Nat} (h0 : axes ≠ []) (hn : axes.Nodup) (hlt : ∀ k ∈ axes, k < h.view.shape.length)
    (hlen : axes.length < h.view.shape.length) (hP : ∀ n ∈ h.view.shape, P n) :
    ∃ r, reduceAxes step item zero h axes = some r ∧ r.view.WF ∧ r.nd.Same (h.nd.collapse F axes) := by
  have hp := List.perm_insertionSort (· ≥ ·) axes
  obtain ⟨r, h1, h2, h3⟩ := foldlM_axes ok hitem zero (axes.insertionSort (· ≥ ·)) h hw hi (sorted_axes hn)
    (fun k hk => hlt k (hp.mem_iff.1 hk)) (by rw [hp.length_eq]; exact hlen) hP (by
      intro he; exact absurd (List.length_eq_zero_iff.1 (by rw [← hp.length_eq, he]; rfl)) h0)
  refine ⟨r, h1, h2, h3.trans ⟨dropAt_perm hp _, ?_⟩⟩
  intro idx _
  show F _ = F _
  rw [over_perm hp]

theorem dropAt_all {axes : List Nat} {l : List β} (h : ∀ k, k < l.length → k ∈ axes) : dropAt axes l = [] := by
  unfold dropAt
  rw [List.map_eq_nil_iff, List.filter_eq_nil_iff]
  intro p hp
  have := List.mem_zipIdx hp
  simpa using h p.2 (by omega)

theorem over_all {axes : List Nat} (a : Nd α) (h : ∀ k, k < a.shape.length → k ∈ axes) : a.over axes [] = a.toList := by
  unfold Nd.over Nd.toList
  congr 1
  rw [List.filter_eq_self]
  intro i hi
  rw [mem_indices] at hi
  simpa using dropAt_all (l := i) (by rw [hi.length_eq]; exact h)

theorem mem_of_full {axes : List Nat} {n : Nat} (hn : axes.Nodup) (hlt : ∀ k ∈ axes, k < n) (hlen : axes.length = n) : ∀ k, k < n → k ∈ axes := by
  intro k hk
  have hsub : axes ⊆ List.range n := fun x hx => List.mem_range.2 (hlt x hx)
  have hp : axes.Perm (List.range n) := (List.subperm_of_subset hn hsub).perm_of_length_le (by rw [List.length_range, hlen])
  exact hp.mem_iff.2 (List.mem_range.2 hk)

/-- All the axes. -/
theorem reduceAxes_all {F : List α → α} {P : Nat → Prop} {step : Held α → Nat → Option (Arr α)} (ok : StepOk F P step) {item : Nat} (hitem : 0 < item)
    (zero : α) {h : Held α} (hw : h.view.WF) (hi : 0 < h.view.item) {axes : List Nat} (h0 : axes ≠ []) (hn : axes.Nodup)
    (hlt : ∀ k ∈ axes, k < h.view.shape.length) (hlen : axes.length = h.view.shape.length) (hP : ∀ n ∈ h.view.shape, P n) :
    ∃ r, reduceAxes step item zero h axes = some r ∧ r.view.WF ∧ r.nd.Same ⟨[1], fun _ => F h.nd.toList⟩ := by
  have hp := List.perm_insertionSort (· ≥ ·) axes
  obtain ⟨r, h1, h2, h3⟩ := foldlM_all ok hitem zero (axes.insertionSort (· ≥ ·)) h (by
      intro he; apply h0; have := hp.length_eq; rw [he] at this; exact List.length_eq_zero_iff.1 this.symm) hw hi (sorted_axes hn)
    (fun k hk => hlt k (hp.mem_iff.1 hk)) (by rw [hp.length_eq]; exact hlen) hP
  refine ⟨r, h1, h2, h3.1, ?_⟩
  intro idx hidx
  rw [h3.2 idx hidx]
  show F _ = F _
  rw [over_perm hp, over_all h.nd (mem_of_full hn hlt hlen)]

/-! ### The two instances -/

theorem axisReduce_eq (op : α → α → α) (e : α) (a : Nd α) (ax : Nat) : axisReduce op e a ax = lanes (fun l => l.foldl op e) a ax := rfl

theorem axisReduce_vec_list (op : α → α → α) (e : α) (a : Nd α) {n : Nat} (ha : a.shape = [n]) :
    (axisReduce op e a 0).toList = [((List.range n).map fun k => a.get [k]).foldl op e] := by
  unfold Nd.toList axisReduce
  dsimp only
  rw [ha]
  show ((indices []).map _) = _
  rw [show indices [] = [[]] from rfl]
  rfl

theorem reduceStep_ok {α : Type} {op : α → α → α} {e : α} (assoc : ∀ a b c, op (op a b) c = op a (op b c)) (comm : ∀ a b, op a b = op b a)
    (ident : ∀ a, op e a = a) : StepOk (fun l => l.foldl op e) (fun _ => True) (reduceStep op e) where
  perm h := perm_foldl assoc comm h e
  one l := ident _
  flat l f _ _ := foldl_flatMap_op assoc comm ident f l
  step h ax hw _ hax h2 _ := by
    refine ⟨reduceAxis op e h.mem h.view ax e, ?_, ?_⟩
    · unfold reduceStep; rw [if_pos hax]
    · exact C18_reduce_axis op e assoc comm ident h.mem h.view hw ax hax h2 e
  last h n hw _ hn _ := by
    have hax : 0 < h.view.shape.length := by rw [hn]; simp
    obtain ⟨h1, -, h3⟩ := C18_reduce_axis_partial op e assoc comm ident h.mem h.view hw 0 hax e
    refine ⟨reduceAxis op e h.mem h.view 0 e, ?_, h3 (by rw [hn]; rfl), ?_⟩
    · unfold reduceStep; rw [if_pos hax]
    · rw [h1, axisReduce_vec_list op e (h.view.denote h.mem) hn]
      rfl

theorem sum_flatMap_list [AddCommMonoid K] (f : β → List K) : ∀ (l : List β), (l.flatMap f).sum = (l.map fun j => (f j).sum).sum
  | [] => rfl
  | x :: l => by rw [List.flatMap_cons, List.sum_append, List.map_cons, List.sum_cons, sum_flatMap_list f l]

theorem length_flatMap_const (f : β → List γ) (n : Nat) : ∀ (l : List β), (∀ j ∈ l, (f j).length = n) → (l.flatMap f).length = l.length * n
  | [], _ => by simp
  | x :: l, h => by
    rw [List.flatMap_cons, List.length_append, length_flatMap_const f n l fun j hj => h j (List.mem_cons_of_mem _ hj), h x List.mem_cons_self,
      List.length_cons]
    ring

theorem meanOf_flatMap [Field K] (f : β → List K) (n : Nat) (l : List β) (h : ∀ j ∈ l, (f j).length = n) :
    meanOf (l.flatMap f) = meanOf (l.map fun j => meanOf (f j)) := by
  have e : (l.map fun j => meanOf (f j)) = l.map fun j => (f j).sum / (n : K) := by
    apply List.map_congr_left
    intro j hj
    show (f j).sum / _ = _
    rw [h j hj]
  rw [e]
  unfold meanOf
  rw [sum_map_div, sum_flatMap_list, length_flatMap_const f n l h, List.length_map, div_div, Nat.cast_mul, mul_comm]

theorem meanStep_step {K : Type} [Field K] (typed : Bool) (h : Held K) (ax : Nat) (hw : h.view.WF) (hi : 0 < h.view.item)
    {F : Arr K} {nd : Nd K} (hr : reduceStep (· + ·) 0 h ax = some F) (his : F.Is nd) (hs : nd.shape ≠ []) :
    ∃ r, meanStep typed h ax = some r ∧ r.Is ⟨nd.shape, fun i => nd.get i / ((h.view.shape.getD ax 0 : Nat) : K)⟩ := by
  obtain ⟨q, h1, h2⟩ := binaryOp_one typed (fun a b : K => a / b) his hs hi 0 ((h.view.shape.getD ax 0 : Nat) : K) 0 0
  refine ⟨q, ?_, h2⟩
  unfold meanStep meanAxis
  rw [hr]
  exact h1

theorem meanStep_ok {K : Type} [Field K] (typed : Bool) : StepOk (α := K) meanOf (fun n => n ≠ 0) (meanStep typed) where
  perm h := meanOf_perm h
  one x := by simp [meanOf]
  flat l f n h := meanOf_flatMap f n l h
  step h ax hw hi hax h2 _ := by
    obtain ⟨a, ha, his⟩ := (reduceStep_ok (op := fun a b : K => a + b) (e := 0) add_assoc add_comm zero_add).step h ax hw hi hax h2 trivial
    have hsh : (lanes (fun l : List K => l.foldl (fun a b => a + b) 0) h.nd ax).shape = h.view.shape.eraseIdx ax := rfl
    obtain ⟨r, h3, h4⟩ := meanStep_step typed h ax hw hi ha his (by
      rw [hsh]
      intro he
      have : (h.view.shape.eraseIdx ax).length = 0 := by rw [he]; rfl
      rw [List.length_eraseIdx, if_pos hax] at this
      omega)
    refine ⟨r, h3, h4.congr ⟨rfl, ?_⟩⟩
    intro i _
    show _ / _ = meanOf _
    unfold meanOf
    rw [List.length_map, List.length_range]
    show List.foldl _ _ _ / _ = _
    rw [foldl_add_eq_sum]
    rfl
  last h n hw hi hn _ := by
    obtain ⟨a, ha, his⟩ := (reduceStep_ok (op := fun a b : K => a + b) (e := 0) add_assoc add_comm zero_add).last h n hw hi hn trivial
    obtain ⟨r, h3, h4⟩ := meanStep_step typed h 0 hw hi ha his (by simp)
    refine ⟨r, h3, h4.congr ⟨rfl, ?_⟩⟩
    intro i _
    show _ / _ = meanOf _
    unfold meanOf
    rw [List.length_map, List.length_range, hn]
    show List.foldl _ _ _ / _ = _
    rw [foldl_add_eq_sum]
    rfl

/-! ### Moments along an axis -/

theorem momentAxis_is {K : Type} [Field K] (typed : Bool) (k : Nat) (h : Held K) (ax : Nat) (hw : h.view.WF) (hi : 0 < h.view.item)
    (hax : ax < h.view.shape.length) (h2 : 2 ≤ h.view.shape.length) (hn : h.view.shape.getD ax 0 ≠ 0) :
    ∃ r, momentAxis typed k h ax = some r ∧ r.Is (lanes (momentOf k) h.nd ax) := by
  obtain ⟨m, hm, mis⟩ := (meanStep_ok (K := K) typed).step h ax hw hi hax h2 hn
  have hsne : h.view.shape ≠ [] := by intro he; rw [he] at hax; simp at hax
  have hel : (h.view.shape.eraseIdx ax).length = h.view.shape.length - 1 := by rw [List.length_eraseIdx, if_pos hax]
  have hmsh : (m.view h.view.item).shape = h.view.shape.eraseIdx ax := mis.1
  obtain ⟨mv, hmv, mvw, mvs⟩ := C10_expand_dims (m.mem h.view.item 0) (m.view h.view.item) (View.WF.fresh _ _) ax (by rw [hmsh, hel]; omega)
  have hmd := mis.denote hi 0
  have hmvsh : mv.shape = h.view.shape.set ax 1 := by
    have h1 : mv.shape = (m.view h.view.item).shape.insertIdx ax 1 := mvs.1
    rw [h1, hmsh, insertIdx_eraseIdx_set _ hax]
  obtain ⟨d, hd, dis⟩ := binaryOp_is typed (fun a b : K => a - b) (h := h) (g := ⟨m.mem h.view.item 0, mv⟩) hw mvw (out := h.view.shape)
    (by show IsBroadcast h.view.shape mv.shape _; rw [hmvsh]; exact isBroadcast_set hax) 0
  let lane := fun j : List Nat => (List.range (h.view.shape.getD ax 0)).map fun k => h.nd.get (j.insertIdx ax k)
  have dis : d.Is ⟨h.view.shape, fun i => h.nd.get i - meanOf (lane (i.eraseIdx ax))⟩ := by
    refine dis.congr ⟨rfl, ?_⟩
    intro i hin
    have hin : InShape h.view.shape i := hin
    have hil : ax < i.length := by rw [hin.length_eq]; exact hax
    dsimp only
    rw [bcast_self (a := h.nd) (s := h.view.shape) rfl hin, bcast_set_get (a := (Held.mk (m.mem h.view.item 0) mv).nd) hmvsh hin]
    congr 1
    have hin0 : InShape (h.view.shape.set ax 1) (i.set ax 0) := by
      rw [← insertIdx_eraseIdx_set _ hax, ← insertIdx_eraseIdx_set _ hil]
      refine inShape_insertIdx (s := (h.view.shape.eraseIdx ax).insertIdx ax 1) ?_ ?_ ?_
      · rw [insertIdx_eraseIdx_set _ hax, List.length_set]; exact hax
      · rw [eraseIdx_insertIdx_self _ _ _ (by rw [hel]; omega)]
        exact inShape_eraseIdx ax hin
      · rw [getD_insertIdx_self _ _ _ (by rw [hel]; omega)]
        exact Nat.one_pos
    have h3 := mvs.2 (i.set ax 0) (by show InShape mv.shape _; rw [hmvsh]; exact hin0)
    refine h3.trans ?_
    show ((m.view h.view.item).denote (m.mem h.view.item 0)).get ((i.set ax 0).eraseIdx ax) = _
    have he : (i.set ax 0).eraseIdx ax = i.eraseIdx ax := by
      rw [← insertIdx_eraseIdx_set _ hil, eraseIdx_insertIdx_self]
      rw [List.length_eraseIdx, if_pos hil]; omega
    rw [he, hmd.2 _ (by show InShape (m.view h.view.item).shape _; rw [hmsh]; exact inShape_eraseIdx ax hin)]
    rfl
  have hdsh : d.shape = h.view.shape := dis.1
  have hdd := held_of_is dis hi 0
  have hpw : ∃ p, powered typed k (Held.of d h.view.item 0) = some p ∧
      p.Is ⟨h.view.shape, fun i => (h.nd.get i - meanOf (lane (i.eraseIdx ax))) ^ k⟩ := by
    unfold powered
    by_cases hk : k = 2
    · rw [if_pos hk]
      obtain ⟨p, hp, pis⟩ := binaryOp_is typed (fun a b : K => a * b) (h := Held.of d h.view.item 0) (g := Held.of d h.view.item 0)
        (held_of_wf _ _ _) (held_of_wf _ _ _) (out := h.view.shape) (by
          show IsBroadcast d.shape d.shape _
          rw [hdsh]; exact isBroadcast_self _) 0
      refine ⟨p, hp, pis.congr ⟨rfl, ?_⟩⟩
      intro i hin
      have hin : InShape h.view.shape i := hin
      dsimp only
      rw [bcast_self (a := (Held.of d h.view.item 0).nd) hdsh hin, hdd.2 i (by show InShape d.shape i; rw [hdsh]; exact hin), hk]
      dsimp only
      ring
    · rw [if_neg hk]
      obtain ⟨p, hp, pis⟩ := binaryOp_one typed (fun (x _y : K) => x ^ k) dis hsne hi 0 (k : K) 0 0
      exact ⟨p, hp, pis⟩
  obtain ⟨p, hp, pis⟩ := hpw
  have hpsh : (Held.of p h.view.item 0).view.shape = h.view.shape := pis.1
  obtain ⟨s, hs, sis⟩ := (reduceStep_ok (op := fun a b : K => a + b) (e := 0) add_assoc add_comm zero_add).step (Held.of p h.view.item 0) ax
    (held_of_wf _ _ _) hi (by rw [hpsh]; exact hax) (by rw [hpsh]; exact h2) trivial
  have hpd := held_of_is pis hi 0
  obtain ⟨q, hq, qis⟩ := binaryOp_one typed (fun a b : K => a / b) sis (by
      show (Held.of p h.view.item 0).view.shape.eraseIdx ax ≠ []
      rw [hpsh]
      intro he
      rw [he] at hel
      simp at hel; omega) hi 0 ((h.view.shape.getD ax 0 : Nat) : K) 0 0
  refine ⟨q, ?_, qis.congr ⟨?_, ?_⟩⟩
  · unfold momentAxis
    rw [if_pos hax, if_neg hn, hm]
    dsimp only
    rw [hmv]
    dsimp only
    rw [hd]
    dsimp only
    rw [hp]
    dsimp only
    rw [hs]
    exact hq
  · show (Held.of p h.view.item 0).view.shape.eraseIdx ax = h.view.shape.eraseIdx ax
    rw [hpsh]
  · intro j hj
    have hj : InShape (h.view.shape.eraseIdx ax) j := by
      have hj : InShape ((Held.of p h.view.item 0).view.shape.eraseIdx ax) j := hj
      rwa [hpsh] at hj
    have hjl : ax ≤ j.length := by rw [hj.length_eq, hel]; omega
    show List.foldl _ 0 ((List.range ((Held.of p h.view.item 0).view.shape.getD ax 0)).map _) / _ = momentOf k (lane j)
    rw [hpsh, foldl_add_eq_sum]
    unfold momentOf
    show _ = meanOf (((List.range (h.view.shape.getD ax 0)).map fun k => h.nd.get (j.insertIdx ax k)).map _)
    rw [List.map_map]
    unfold meanOf
    rw [List.length_map, List.length_range]
    congr 2
    apply List.map_congr_left
    intro x hx
    rw [List.mem_range] at hx
    have hin := inShape_insertIdx hax hj hx
    rw [hpd.2 _ (by show InShape p.shape _; rw [show p.shape = h.view.shape from pis.1]; exact hin)]
    dsimp only [Function.comp]
    rw [eraseIdx_insertIdx_self _ _ _ hjl]
    have hlane : (lane j).length = h.view.shape.getD ax 0 := by simp [lane]
    show (_ - (lane j).sum / _) ^ k = _
    rw [hlane]
    rw [List.length_map, List.length_range]

end Rumpy
