import Verif.Model.Share
import Verif.Spec.Share
import Verif.Props.Alias
/-!
# C117: `shares_memory` never overlooks a shared element
-/

namespace Props
open Spec Rumpy

/-- C117 (partial): after any program, `shares_memory(x, y)` is true for two arrays that have an element in common by NumPy's rules, and
is true exactly for arrays of the same allocation.  Missing: it is also true for arrays of one allocation that have no element in
common (`C117_disjoint_counterexample`). -/
theorem C117_shares_partial (zero : α) (cs : List (Cmd α)) (h : Heap α) (w : World α) (hrun : Runs zero cs ⟨[], []⟩ h)
    (hm : Meaning cs ⟨[], []⟩ w) {k j : Nat} {a b : Handle} {p q : Obj} (ha : h.var? k = some a) (hb : h.var? j = some b)
    (hp : w.var? k = some p) (hq : w.var? j = some q) :
    (sharesMemory a b = true ↔ p.owner = q.owner) ∧ (p.Overlap q → sharesMemory a b = true) := by
  obtain ⟨L, w', m, r⟩ := runs_rel zero hrun Rel.empty
  obtain rfl := C45_meaning_unique cs w w' hm m
  have ht : Tied L a p := by have := r.var k; rw [ha, hp] at this; exact this
  have hu : Tied L b q := by have := r.var j; rw [hb, hq] at this; exact this
  have e : sharesMemory a b = true ↔ p.owner = q.owner := by
    unfold sharesMemory
    rw [decide_eq_true_iff, ht.1, hu.1]
  exact ⟨e, fun ho => e.2 ho.1⟩

/-- C117.  The answer is exact if one of the arrays has every cell of its allocation and the other one is not empty: so for an array
and the views of it. -/
theorem C117_whole (zero : α) (cs : List (Cmd α)) (h : Heap α) (w : World α) (hrun : Runs zero cs ⟨[], []⟩ h)
    (hm : Meaning cs ⟨[], []⟩ w) {k j : Nat} {a b : Handle} {p q : Obj} (ha : h.var? k = some a) (hb : h.var? j = some b)
    (hp : w.var? k = some p) (hq : w.var? j = some q) (hw : w.Whole p) (hne : size q.cells.shape ≠ 0) :
    sharesMemory a b = true ↔ p.Overlap q := by
  obtain ⟨e1, e2⟩ := C117_shares_partial zero cs h w hrun hm ha hb hp hq
  refine ⟨fun hs => ?_, e2⟩
  have ho := e1.1 hs
  obtain ⟨w', m, hsame⟩ := C45_history_partial zero cs h hrun
  obtain rfl := C45_meaning_unique cs w w' hm m
  obtain ⟨row, hr, hc⟩ := hw
  have hl : (indices q.cells.shape).length ≠ 0 := by rw [length_indices]; exact hne
  obtain ⟨i, hi⟩ := List.exists_mem_of_length_pos (Nat.pos_of_ne_zero hl)
  have hi := mem_indices.1 hi
  obtain ⟨x, -, hx⟩ := ((hsame j).2 b q hb hq).2 i hi
  unfold World.read at hx
  rw [← ho, hr] at hx
  obtain ⟨i', hi', hg⟩ := hc _ (List.getElem?_eq_some_iff.1 hx).1
  exact ⟨ho, i', i, hi', hi, hg⟩

/-- C117.  When the answer is no, a store through one array never shows in the other, now or after any further stores through arrays
that do not share memory with it. -/
theorem C117_no_is_safe (b : Handle) : ∀ (stores : List (Handle × List Nat × α)) (h h' : Heap α),
    (∀ s ∈ stores, sharesMemory s.1 b = false) → stores.foldlM (fun h s => h.setElement s.1 s.2.1 s.2.2) h = some h' →
    ∀ j, h'.getElement b j = h.getElement b j
  | [], h, h', _, e, j => by cases e; rfl
  | s :: stores, h, h', hs, e, j => by
    rw [List.foldlM_cons] at e
    obtain ⟨h1, e1, e2⟩ := Option.bind_eq_some_iff.1 e
    rw [C117_no_is_safe b stores h1 h' (fun t ht => hs t (List.mem_cons_of_mem _ ht)) e2 j]
    refine C45_write_elsewhere h h1 s.1 b s.2.1 j s.2.2 ?_ e1
    have := hs s List.mem_cons_self
    unfold sharesMemory at this
    exact of_decide_eq_false this

/-- C117.  When a store through one array shows in another one, the answer is yes. -/
theorem C117_seen (h h' : Heap α) (a b : Handle) (i j : List Nat) (x : α) (e : h.setElement a i x = some h')
    (hne : h'.getElement b j ≠ h.getElement b j) : sharesMemory a b = true ∧ sharesMemory b a = true := by
  have : a.buf = b.buf := by
    by_contra hab
    exact hne (C45_write_elsewhere h h' a b i j x hab e)
  unfold sharesMemory
  exact ⟨decide_eq_true this, decide_eq_true this.symm⟩

/-- C117.  A copy and the result of an operation share memory with no array that existed before. -/
theorem C117_new (eight typed same : Bool) (f : α → α → α) (h h' : Heap α) (refcnt : Int) (a b c r : Handle) (item : Nat) (zero : α)
    (hc : c.buf < h.mems.length)
    (e : h.copy eight a zero = some (h', r) ∨ h.binaryElided typed same f refcnt a b item zero = some (h', r)) :
    sharesMemory r c = false := by
  have hr : r.buf = h.mems.length := by
    rcases e with e | e
    · exact (C45_copy_fresh eight h h' a r zero e).1
    · exact (C45_elision_never typed same f h h' refcnt a b r item zero e).1
  unfold sharesMemory
  exact decide_eq_false (by omega)

/-! ### `base` -/

theorem countP_pos_vars {p : Handle → Bool} {l : List (Option Handle)} :
    0 < (l.filterMap id).countP p ↔ ∃ (j : Nat) (b : Handle), (l[j]?).join = some b ∧ p b = true := by
  rw [List.countP_pos_iff]
  constructor
  · rintro ⟨b, hb, hp⟩
    obtain ⟨o, ho, hob⟩ := List.mem_filterMap.1 hb
    obtain ⟨j, hj⟩ := List.mem_iff_getElem?.1 ho
    refine ⟨j, b, ?_, hp⟩
    rw [hj]; exact hob
  · rintro ⟨j, b, hj, hp⟩
    refine ⟨b, List.mem_filterMap.2 ⟨some b, List.mem_iff_getElem?.2 ⟨j, ?_⟩, rfl⟩, hp⟩
    exact Option.join_eq_some_iff.1 hj

theorem one_lt_countP_vars {p : Handle → Bool} : ∀ {l : List (Option Handle)} {k : Nat} {a : Handle}, (l[k]?).join = some a → p a = true →
    (1 < (l.filterMap id).countP p ↔ ∃ (j : Nat) (b : Handle), j ≠ k ∧ (l[j]?).join = some b ∧ p b = true)
  | [], k, a, h, _ => by simp at h
  | o :: l, 0, a, h, hp => by
    have ho : o = some a := by simpa using h
    subst ho
    have e : ((some a :: l).filterMap id).countP p = (l.filterMap id).countP p + 1 := by
      simp [List.countP_cons, hp]
    rw [e, Nat.lt_add_left_iff_pos, countP_pos_vars]
    constructor
    · rintro ⟨j, b, hj, hb⟩
      exact ⟨j + 1, b, by omega, by simpa using hj, hb⟩
    · rintro ⟨j, b, hjk, hj, hb⟩
      cases j with
      | zero => exact absurd rfl hjk
      | succ j => exact ⟨j, b, by simpa using hj, hb⟩
  | o :: l, k + 1, a, h, hp => by
    have h' : (l[k]?).join = some a := by simpa using h
    have ih := one_lt_countP_vars h' hp
    have hpos : 0 < (l.filterMap id).countP p := countP_pos_vars.2 ⟨k, a, h', hp⟩
    have lift : (∃ (j : Nat) (b : Handle), j ≠ k ∧ (l[j]?).join = some b ∧ p b = true) → ∃ (j : Nat) (b : Handle), j ≠ k + 1 ∧ ((o :: l)[j]?).join = some b ∧ p b = true := by
      rintro ⟨j, b, hjk, hj, hb⟩
      exact ⟨j + 1, b, by omega, by simpa using hj, hb⟩
    have lower : (∃ b, o = some b ∧ p b = true) ∨ (∃ (j : Nat) (b : Handle), j ≠ k ∧ (l[j]?).join = some b ∧ p b = true) ↔
        ∃ (j : Nat) (b : Handle), j ≠ k + 1 ∧ ((o :: l)[j]?).join = some b ∧ p b = true := by
      constructor
      · rintro (⟨b, rfl, hb⟩ | hr)
        · exact ⟨0, b, by omega, by simp, hb⟩
        · exact lift hr
      · rintro ⟨j, b, hjk, hj, hb⟩
        cases j with
        | zero => exact Or.inl ⟨b, by simpa using hj, hb⟩
        | succ j => exact Or.inr ⟨j, b, by omega, by simpa using hj, hb⟩
    rw [← lower, ← ih]
    cases o with
    | none => simp
    | some c =>
      have e : ((some c :: l).filterMap id).countP p = (l.filterMap id).countP p + (if p c = true then 1 else 0) := by
        simp [List.countP_cons]
      rw [e]
      by_cases hc : p c = true
      · rw [if_pos hc]
        exact ⟨fun _ => Or.inl ⟨c, rfl, hc⟩, fun _ => by omega⟩
      · rw [if_neg hc]
        constructor
        · exact fun h => Or.inr h
        · rintro (⟨b, hb, hpb⟩ | h)
          · cases hb; exact absurd hpb hc
          · exact h

/-- C117.  `x.base` is not `None` exactly if `x` begins after the start of its allocation or another variable shares memory with it; it
is then an array with the same elements as `x`. -/
theorem C117_base (h : Heap α) {k : Nat} {a : Handle} (ha : h.var? k = some a) :
    (h.base a ≠ none ↔ 0 < a.view.offset ∨ ∃ (j : Nat) (b : Handle), j ≠ k ∧ h.var? j = some b ∧ sharesMemory b a = true) ∧
    ∀ r, h.base a = some r → r = a := by
  have hc : 1 < h.strong [] a.buf ↔ ∃ (j : Nat) (b : Handle), j ≠ k ∧ h.var? j = some b ∧ sharesMemory b a = true := by
    unfold Heap.strong
    rw [List.append_nil, one_lt_countP_vars (p := fun x => x.buf == a.buf) ha (by simp)]
    simp only [sharesMemory, beq_iff_eq, decide_eq_true_iff]
    rfl
  unfold Heap.base
  rw [← hc]
  split
  · rename_i hx
    exact ⟨⟨fun _ => hx, fun _ => by simp⟩, fun r hr => (Option.some.inj hr).symm⟩
  · rename_i hx
    exact ⟨⟨fun hn => absurd rfl hn, fun hn => absurd hn hx⟩, fun r hr => by cases hr⟩

/-- C117.  A view has a base as long as the array it was made from is alive. -/
theorem C117_view_has_base (zero : α) {k : Nat} {op : ViewOp} {h h' : Heap α} (e : (Cmd.view k op).run zero h = some h') :
    ∃ v, h'.var? h.vars.length = some v ∧ h'.base v ≠ none := by
  simp only [Cmd.run, Option.bind_eq_bind, Option.bind_eq_some_iff, Option.some.injEq] at e
  obtain ⟨a, ha, v, hv, rfl⟩ := e
  have hk : k < h.vars.length := by
    by_contra hk
    unfold Heap.var? at ha
    rw [List.getElem?_eq_none (by omega)] at ha
    cases ha
  have h1 : (h.push ⟨a.buf, v⟩).var? h.vars.length = some ⟨a.buf, v⟩ := by simp [Heap.push, Heap.var?]
  have h2 : (h.push ⟨a.buf, v⟩).var? k = some a := by
    unfold Heap.push Heap.var?
    rw [List.getElem?_append_left hk]
    exact ha
  exact ⟨_, h1, (C117_base _ h1).1.2 (Or.inr ⟨k, a, by omega, h2, by simp [sharesMemory]⟩)⟩

/-! ### Examples and counterexamples -/

/-- The arrays after a program. -/
def afterCmds (cs : List (Cmd Nat)) : Option (Heap Nat) := cs.foldlM (fun h (c : Cmd Nat) => c.run 0 h) ⟨[], []⟩

/-- `shares_memory` of two variables. -/
def sharesVars (h : Heap Nat) (k j : Nat) : Option Bool := do
  let a ← h.var? k
  let b ← h.var? j
  some (sharesMemory a b)

/-- `a = [1, 2, 3, 4]; v = a[::2]; c = v.copy()`: `a` and `v` share memory, `c` with neither. -/
example : (afterCmds [.create [4] [1, 2, 3, 4] 8, .view 0 (.slice 0 none none 2), .copy 1 true]).map
    (fun h => [sharesVars h 0 1, sharesVars h 0 2, sharesVars h 1 2]) = some [some true, some false, some false] := by decide +kernel

/-- A new array has every cell of its allocation. -/
example : (⟨[[1, 2, 3, 4]], [some ⟨0, ⟨[4], rank [4]⟩⟩]⟩ : World Nat).Whole ⟨0, ⟨[4], rank [4]⟩⟩ :=
  ⟨_, rfl, fun c hc => ⟨[c], ⟨hc, trivial⟩, by simp [rank, Spec.size]⟩⟩

/-- A program and two of its variables that meet the hypotheses of `C117_whole`. -/
example : ∃ (h : Heap Nat) (w : World Nat) (a b : Handle) (p q : Obj),
    Runs 0 [.create [4] [1, 2, 3, 4] 8, .view 0 (.slice 0 none none 2)] ⟨[], []⟩ h ∧
    Meaning [.create [4] [1, 2, 3, 4] 8, .view 0 (.slice 0 none none 2)] ⟨[], []⟩ w ∧ h.var? 0 = some a ∧ h.var? 1 = some b ∧
    w.var? 0 = some p ∧ w.var? 1 = some q ∧ w.Whole p ∧ Spec.size q.cells.shape ≠ 0 :=
  ⟨_, _, _, _, _, _, .cons ⟨rfl, by decide⟩ rfl (.cons (by
      intro a ha
      have : a = ⟨0, View.fresh [4] 8⟩ := (Option.some.inj ha).symm
      subst this
      refine ⟨?_, trivial⟩
      show ∀ st, (View.fresh [4] 8).strides[0]? = some st → 0 ≤ st
      intro st hst
      have : st = 8 := (Option.some.inj hst).symm
      omega) rfl .nil), .cons (.create rfl) (.cons (.view rfl) .nil), rfl, rfl, rfl, rfl,
    ⟨_, rfl, fun c hc => ⟨[c], ⟨hc, trivial⟩, by simp [rank, Spec.size]⟩⟩, by decide +kernel⟩

/-- C117 fails for two views of one array that have no element in common: `shares_memory(a[:2], a[2:])` is true (NumPy: false); and so
it is for an empty array and itself. -/
theorem C117_disjoint_counterexample :
    ((afterCmds [.create [4] [1, 2, 3, 4] 8, .view 0 (.slice 0 none (some 2) 1), .view 0 (.slice 0 (some 2) none 1)]).bind
      fun h => sharesVars h 1 2) = some true ∧
    ¬ (⟨0, ViewOp.spec (.slice 0 none (some 2) 1) ⟨[4], rank [4]⟩⟩ : Obj).Overlap
      ⟨0, ViewOp.spec (.slice 0 (some 2) none 1) ⟨[4], rank [4]⟩⟩ ∧
    ((afterCmds [.create [0] [] 8]).bind fun h => sharesVars h 0 0) = some true ∧ ¬ (⟨0, ⟨[0], rank [0]⟩⟩ : Obj).Overlap ⟨0, ⟨[0], rank [0]⟩⟩ := by
  refine ⟨by decide +kernel, ?_, by decide +kernel, ?_⟩
  · rintro ⟨-, i, j, hi, hj, he⟩
    have all : ∀ i ∈ indices [2], ∀ j ∈ indices [2], (ViewOp.spec (.slice 0 none (some 2) 1) (⟨[4], rank [4]⟩ : Nd Nat)).get i ≠
        (ViewOp.spec (.slice 0 (some 2) none 1) (⟨[4], rank [4]⟩ : Nd Nat)).get j := by decide +kernel
    exact all i (mem_indices.2 hi) j (mem_indices.2 hj) he
  · rintro ⟨-, i, j, hi, -, -⟩
    have hi : i ∈ indices [0] := mem_indices.2 hi
    exact List.not_mem_nil hi

/-- What `base` is for variable `k`: `some false` is `None`. -/
def hasBase (h : Heap Nat) (k : Nat) : Option Bool := (h.var? k).map fun a => (h.base a).isSome

/-- C117 fails for `base`: an array that owns its memory has a base as soon as a view of it exists (NumPy: `None`), and a view that
begins at the start of the array has none once the variable of the array is deleted (NumPy: the array). -/
theorem C117_base_counterexample :
    ((afterCmds [.create [4] [1, 2, 3, 4] 8]).bind fun h => hasBase h 0) = some false ∧
    ((afterCmds [.create [4] [1, 2, 3, 4] 8, .view 0 (.slice 0 none (some 2) 1)]).bind fun h => hasBase h 0) = some true ∧
    ((afterCmds [.create [4] [1, 2, 3, 4] 8, .view 0 (.slice 0 none (some 2) 1), .del 0]).bind fun h => hasBase h 1) = some false := by
  decide +kernel

end Props
