import Verif.Lemmas.Alias
import Verif.Props.Assign
import Verif.Props.ViewPrograms
/-!
# C45: views share elements, copies and results do not
-/

namespace Props
open Spec Rumpy

/-! ### Programs that create, view, write, copy and combine arrays -/

/-- One statement of a program.  Variables are numbered in the order in which they are bound. -/
inductive Cmd (α : Type) where
  /-- a new array -/
  | create (shape : List Nat) (data : List α) (item : Nat)
  /-- `v = ` a view of variable `k` -/
  | view (k : Nat) (op : ViewOp)
  /-- `k[i] = x`, one element -/
  | set (k : Nat) (i : List Nat) (x : α)
  /-- `k[...] = x` -/
  | setAll (k : Nat) (x : α)
  /-- `k.fill(x)` -/
  | fill (k : Nat) (x : α)
  /-- `k[...] = j` -/
  | assign (k j : Nat)
  /-- `c = k.copy()`; `eight` says which copy loop the dtype has -/
  | copy (k : Nat) (eight : Bool)
  /-- `r = f(k, j)`; `typed`, `same` and `item` depend on the dtypes, `refcnt` is the reference
  count the interpreter reports for the Python object of `k` -/
  | binary (k j : Nat) (f : α → α → α) (typed same : Bool) (item : Nat) (refcnt : Int)
  /-- `del k` -/
  | del (k : Nat)

/-- What the code does.  `none` is an error.  Assigning a Python object to itself is a `TypeError`,
because the object is already borrowed. -/
def Cmd.run (zero : α) : Cmd α → Heap α → Option (Heap α)
  | .create shape data item, h =>
    let r := h.alloc ⟨shape, data⟩ item zero
    some (r.1.push r.2)
  | .view k op, h => do
    let a ← h.var? k
    let v ← op.run a.view
    some (h.push ⟨a.buf, v⟩)
  | .set k i x, h => do
    let a ← h.var? k
    h.setElement a i x
  | .setAll k x, h => do
    let a ← h.var? k
    h.fillScalar a x
  | .fill k x, h => do
    let a ← h.var? k
    h.fill a x
  | .assign k j, h => do
    let a ← h.var? k
    let b ← h.var? j
    if k = j then none else h.fillArray a b
  | .copy k eight, h => do
    let a ← h.var? k
    let r ← h.copy eight a zero
    some (r.1.push r.2)
  | .binary k j f typed same item refcnt, h => do
    let a ← h.var? k
    let b ← h.var? j
    let r ← h.binaryElided typed same f refcnt a b item zero
    some (r.1.push r.2)
  | .del k, h => some { h with vars := h.vars.set k none }

/-- What NumPy says the statement means. -/
inductive Cmd.Means : Cmd α → World α → World α → Prop where
  | create {shape data item w} : data.length = size shape → Means (.create shape data item) w (w.alloc shape data)
  | view {k op w o} : w.var? k = some o → Means (.view k op) w (w.bind ⟨o.owner, op.spec o.cells⟩)
  | set {k i x w o} : w.var? k = some o → InShape o.cells.shape i → Means (.set k i x) w (w.store o i x)
  | setAll {k x w o} : w.var? k = some o → Means (.setAll k x) w (w.fill o x)
  | fill {k x w o} : w.var? k = some o → Means (.fill k x) w (w.fill o x)
  | assign {k j w d s} : w.var? k = some d → w.var? j = some s → d.cells.shape = s.cells.shape →
      Means (.assign k j) w (w.assign d s)
  | copy {k eight w o row} : w.var? k = some o → w.values o = some row →
      Means (.copy k eight) w (w.alloc o.cells.shape row)
  | binary {k j f typed same item refcnt w p q r xs ys} : w.var? k = some p → w.var? j = some q →
      IsBroadcast p.cells.shape q.cells.shape r →
      w.values ⟨p.owner, p.cells.broadcast r⟩ = some xs → w.values ⟨q.owner, q.cells.broadcast r⟩ = some ys →
      Means (.binary k j f typed same item refcnt) w (w.alloc r (List.zipWith f xs ys))
  | del {k w} : Means (.del k) w { w with vars := w.vars.set k none }

/-- The statement is used where the code agrees with NumPy: views as in `ViewOp.Plain`, and an
array is not assigned to elements from which it is itself still to be read. -/
def Cmd.Plain : Cmd α → Heap α → Prop
  | .create shape data item, _ => data.length = size shape ∧ 0 < item
  | .view k op, h => ∀ a, h.var? k = some a → op.Plain a.view
  | .assign k j, h => ∀ a b, h.var? k = some a → h.var? j = some b →
      a.buf ≠ b.buf ∨ ∀ i i', InShape a.view.shape i → InShape a.view.shape i' →
        rank a.view.shape i < rank a.view.shape i' → a.view.addr i ≠ b.view.addr i'
  | .binary _ _ _ _ _ item _, _ => 0 < item
  | _, _ => True

/-- A program that runs without an error, every statement of it plain. -/
inductive Runs (zero : α) : List (Cmd α) → Heap α → Heap α → Prop where
  | nil {h} : Runs zero [] h h
  | cons {c cs h h1 h2} : c.Plain h → c.run zero h = some h1 → Runs zero cs h1 h2 → Runs zero (c :: cs) h h2

/-- The same program by NumPy's rules. -/
inductive Meaning : List (Cmd α) → World α → World α → Prop where
  | nil {w} : Meaning [] w w
  | cons {c cs w w1 w2} : c.Means w w1 → Meaning cs w1 w2 → Meaning (c :: cs) w w2

theorem tied_view {L : List (Nat × Nat)} {a : Handle} {o : Obj} (ht : Tied L a o) {op : ViewOp} {v : View}
    (hp : op.Plain a.view) (h : op.run a.view = some v) :
    Tied L ⟨a.buf, v⟩ ⟨o.owner, op.spec o.cells⟩ := by
  obtain ⟨h1, h2, h3, l, h4, h5, h6, h7⟩ := ht
  obtain ⟨e1, e2⟩ := ViewOp.addr_source h2 hp h
  obtain ⟨d1, d2⟩ := ViewOp.dvd h2 hp.1 h (by rw [h5]; exact h6)
  refine ⟨h1, (ViewOp.addrSub h2 hp.1 h).1, ?_, l, h4, by rw [← h5]; exact d1, by rw [← h5]; exact d2, ?_⟩
  · rw [e1]; exact op.spec_shape _ _ h3
  · intro i hi
    obtain ⟨g1, g2⟩ := e2 i hi
    have g3 := h7 _ g1
    dsimp only
    rw [op.spec_get, h3, g2]
    exact g3

theorem tied_broadcast {L : List (Nat × Nat)} {a : Handle} {o : Obj} (ht : Tied L a o) {t : List Nat} {v : View}
    (h : a.view.broadcastTo t = some v) : Tied L ⟨a.buf, v⟩ ⟨o.owner, o.cells.broadcast t⟩ :=
  tied_view ht (op := .broadcastTo t) ⟨trivial, trivial⟩ h

theorem step_rel (zero : α) {c : Cmd α} {L : List (Nat × Nat)} {w : World α} {h h' : Heap α} (hr : Rel L w h)
    (hp : c.Plain h) (hc : c.run zero h = some h') : ∃ L' w', c.Means w w' ∧ Rel L' w' h' := by
  cases c with
  | create shape data item =>
    simp only [Cmd.run, Option.some.injEq] at hc
    subst hc
    exact ⟨_, _, .create hp.1, hr.alloc (r := ⟨shape, data⟩) zero hp.2 hp.1⟩
  | view k op =>
    simp only [Cmd.run, Option.bind_eq_bind, Option.bind_eq_some_iff, Option.some.injEq] at hc
    obtain ⟨a, ha, v, hv, rfl⟩ := hc
    obtain ⟨o, ho, ht⟩ := hr.tied ha
    exact ⟨_, _, .view ho, hr.push (tied_view ht (hp a ha) hv)⟩
  | set k i x =>
    simp only [Cmd.run, Option.bind_eq_bind, Option.bind_eq_some_iff] at hc
    obtain ⟨a, ha, hc⟩ := hc
    obtain ⟨o, ho, ht⟩ := hr.tied ha
    have hi : InShape a.view.shape i := by
      unfold Heap.setElement at hc
      split at hc
      · rename_i hok; exact indexOk_iff.1 hok
      · simp at hc
    obtain ⟨h1, e1, r1, _⟩ := hr.setElement ht hi x
    rw [hc, Option.some.injEq] at e1
    subst e1
    exact ⟨_, _, .set ho (by rw [ht.2.2.1]; exact hi), r1⟩
  | setAll k x =>
    simp only [Cmd.run, Option.bind_eq_bind, Option.bind_eq_some_iff] at hc
    obtain ⟨a, ha, hc⟩ := hc
    obtain ⟨o, ho, ht⟩ := hr.tied ha
    obtain ⟨h1, e1, r1, _⟩ := hr.fillScalar ht x
    rw [hc, Option.some.injEq] at e1
    subst e1
    exact ⟨_, _, .setAll ho, r1⟩
  | fill k x =>
    simp only [Cmd.run, Option.bind_eq_bind, Option.bind_eq_some_iff] at hc
    obtain ⟨a, ha, hc⟩ := hc
    obtain ⟨o, ho, ht⟩ := hr.tied ha
    obtain ⟨h1, e1, r1, _⟩ := hr.fill ht x
    rw [hc, Option.some.injEq] at e1
    subst e1
    exact ⟨_, _, .fill ho, r1⟩
  | assign k j =>
    simp only [Cmd.run, Option.bind_eq_bind, Option.bind_eq_some_iff] at hc
    obtain ⟨a, ha, b, hb, hc⟩ := hc
    split at hc
    · simp at hc
    · obtain ⟨d, hd, hta⟩ := hr.tied ha
      obtain ⟨s, hs, htb⟩ := hr.tied hb
      have hsh : a.view.shape = b.view.shape := by
        by_contra hne
        unfold Heap.fillArray at hc
        rw [if_pos hne] at hc
        simp at hc
      obtain ⟨h1, e1, r1, _⟩ := hr.fillArray hta htb hsh (hp a b ha hb)
      rw [hc, Option.some.injEq] at e1
      subst e1
      exact ⟨_, _, .assign hd hs (by rw [hta.2.2.1, htb.2.2.1]; exact hsh), r1⟩
  | copy k eight =>
    simp only [Cmd.run, Option.bind_eq_bind, Option.bind_eq_some_iff, Option.some.injEq] at hc
    obtain ⟨a, ha, ⟨h1, c⟩, hc, rfl⟩ := hc
    obtain ⟨o, ho, ht⟩ := hr.tied ha
    obtain ⟨h2, c2, row, l, e1, e2, e3⟩ := hr.copy ht eight zero
    rw [hc, Option.some.injEq, Prod.mk.injEq] at e1
    obtain ⟨rfl, rfl⟩ := e1
    exact ⟨_, _, .copy ho e2, e3⟩
  | binary k j f typed same item refcnt =>
    simp only [Cmd.run, Option.bind_eq_bind, Option.bind_eq_some_iff, Option.some.injEq] at hc
    obtain ⟨a, ha, b, hb, r, hc, rfl⟩ := hc
    obtain ⟨p, hpv, hta⟩ := hr.tied ha
    obtain ⟨q, hqv, htb⟩ := hr.tied hb
    have hsh : ∃ shape, broadcastShapes a.view.shape b.view.shape = some shape := by
      unfold Heap.binaryElided at hc
      simp only [Option.bind_eq_bind, Option.bind_eq_some_iff] at hc
      obtain ⟨s, hs, _⟩ := hc
      exact ⟨s, hs⟩
    obtain ⟨shape, hsh⟩ := hsh
    obtain ⟨hla, hlb, _⟩ := C09_broadcast_least _ _ _ hsh
    obtain ⟨a', hba⟩ := Option.isSome_iff_exists.1 ((broadcastTo_isSome hta.2.1).2 hla)
    obtain ⟨b', hbb⟩ := Option.isSome_iff_exists.1 ((broadcastTo_isSome htb.2.1).2 hlb)
    obtain ⟨ma, _, hma, _, _⟩ := hr.get hta
    obtain ⟨mb, _, hmb, _, _⟩ := hr.get htb
    rw [binaryElided_eq typed same f h refcnt a b item zero hta.2.1 htb.2.1 hsh hba hbb hma hmb,
      Option.some.injEq] at hc
    subst hc
    have hxs := hr.values (tied_broadcast hta hba) hma
    have hys := hr.values (tied_broadcast htb hbb) hmb
    have sa := (broadcastTo_addr hta.2.1 hba).2.1
    have sb := (broadcastTo_addr htb.2.1 hbb).2.1
    have hrow : List.zipWith f (a'.denote ma).toList (b'.denote mb).toList
        = (indices shape).map fun i => f (ma (a'.addr i)) (mb (b'.addr i)) := by
      show List.zipWith f ((indices a'.shape).map fun i => ma (a'.addr i))
        ((indices b'.shape).map fun i => mb (b'.addr i)) = _
      rw [sa, sb, List.zipWith_map, List.zipWith_self]
    refine ⟨L ++ [(item, size shape)], w.alloc shape (List.zipWith f (a'.denote ma).toList (b'.denote mb).toList),
      .binary hpv hqv (r := shape) ?_ hxs hys, ?_⟩
    · rw [hta.2.2.1, htb.2.2.1]; exact broadcastShapes_iff.1 hsh
    · rw [hrow]
      exact hr.alloc (r := ⟨shape, _⟩) zero hp (by simp [length_indices])
  | del k =>
    simp only [Cmd.run, Option.some.injEq] at hc
    subst hc
    refine ⟨L, _, .del, ⟨hr.mems, hr.rows, hr.pos, hr.buf, ?_⟩⟩
    have : ∀ {as : List (Option Handle)} {os : List (Option Obj)}, List.Forall₂ (TiedVar L) as os → ∀ k,
        List.Forall₂ (TiedVar L) (as.set k none) (os.set k none) := by
      intro as os hf
      induction hf with
      | nil => intro k; exact .nil
      | cons h hf ih =>
        intro k
        cases k with
        | zero => exact .cons trivial hf
        | succ k => exact .cons h (ih k)
    exact this hr.vars k

/-- The program's arrays and NumPy's are the same: the same variables are bound, with the same
shapes, and every element of every one of them has the same value. -/
def SameArrays (w : World α) (h : Heap α) : Prop :=
  ∀ k, (h.var? k = none ↔ w.var? k = none) ∧
    ∀ a o, h.var? k = some a → w.var? k = some o → a.view.shape = o.cells.shape ∧
      ∀ i, InShape o.cells.shape i → ∃ x, h.getElement a i = some x ∧ w.read o i = some x

theorem runs_rel (zero : α) {cs : List (Cmd α)} {h h' : Heap α} (hrun : Runs zero cs h h') :
    ∀ {L : List (Nat × Nat)} {w : World α}, Rel L w h → ∃ L' w', Meaning cs w w' ∧ Rel L' w' h' := by
  induction hrun with
  | nil => intro L w hr; exact ⟨L, w, .nil, hr⟩
  | cons hp hc _ ih =>
    intro L w hr
    obtain ⟨L1, w1, m1, r1⟩ := step_rel zero hr hp hc
    obtain ⟨L2, w2, m2, r2⟩ := ih r1
    exact ⟨L2, w2, .cons m1 m2, r2⟩

theorem rel_sameArrays {L : List (Nat × Nat)} {w : World α} {h : Heap α} (hr : Rel L w h) : SameArrays w h := by
  intro k
  have hv := hr.var k
  refine ⟨?_, fun a o ha ho => ?_⟩
  · cases ha : h.var? k <;> cases ho : w.var? k <;> simp [ha, ho, TiedVar] at hv ⊢
  · rw [ha, ho] at hv
    have ht : Tied L a o := hv
    refine ⟨ht.2.2.1.symm, fun i hi => hr.read ht (by rw [← ht.2.2.1]; exact hi)⟩

/-- C45, proved part: whatever a program does (any number of arrays, views of views, writes
through any of them, copies, results, in any order), after it every array holds what NumPy's
rules of sharing say.  Missing: the statements excluded by `Cmd.Plain`, see the
counterexamples. -/
theorem C45_history_partial (zero : α) (cs : List (Cmd α)) (h : Heap α) (hrun : Runs zero cs ⟨[], []⟩ h) :
    ∃ w, Meaning cs ⟨[], []⟩ w ∧ SameArrays w h := by
  obtain ⟨L, w, m, r⟩ := runs_rel zero hrun Rel.empty
  exact ⟨w, m, rel_sameArrays r⟩

/-! ### The specification says what it should -/

/-- C45, about the specification: after `d[i] = x`, an element that is the same cell of the same
allocation is `x`, and every other element of every array is what it was. -/
theorem C45_spec_store (w : World α) (d s : Obj) (i j : List Nat) (x y : α) (hy : w.read s j = some y) :
    (w.store d i x).read s j
      = some (if d.owner = s.owner ∧ d.cells.get i = s.cells.get j then x else y) := by
  by_cases h : d.owner = s.owner ∧ d.cells.get i = s.cells.get j
  · rw [if_pos h]
    unfold World.read World.store at *
    simp only [List.getElem?_modify]
    simp only [Option.bind_eq_some_iff] at hy
    obtain ⟨r, h1, h2⟩ := hy
    have := (List.getElem?_eq_some_iff.1 h2).1
    simp [h.1, h1, h.2, this]
  · rw [if_neg h, World.read_store_ne w x (by tauto), hy]

/-- C45, about the specification: two arrays of different allocations have no element in common, and
a new array is the only one of its allocation. -/
theorem C45_spec_alloc (w : World α) (shape : List Nat) (row : List α) :
    (w.alloc shape row).var? w.vars.length = some ⟨w.rows.length, ⟨shape, rank shape⟩⟩ ∧
    ∀ o, o.owner < w.rows.length → ∀ i, (w.alloc shape row).read o i = w.read o i := by
  refine ⟨by simp [World.alloc, World.var?], fun o ho i => ?_⟩
  simp only [World.read, World.alloc, List.getElem?_append_left ho]

/-! ### Results never share memory with operands -/

/-- C45: a binary operation on arrays, whatever the interpreter reports as the reference count of
the operand and however large it is, allocates a new buffer for its result and leaves every
existing buffer as it is: the reuse of a temporary's memory never takes place. -/
theorem C45_elision_never (typed same : Bool) (f : α → α → α) (h h' : Heap α) (refcnt : Int) (a b r : Handle)
    (item : Nat) (zero : α) (e : h.binaryElided typed same f refcnt a b item zero = some (h', r)) :
    r.buf = h.mems.length ∧ h'.vars = h.vars ∧ ∃ m, h'.mems = h.mems ++ [m] := by
  unfold Heap.binaryElided at e
  simp only [Option.bind_eq_bind, Option.bind_eq_some_iff] at e
  obtain ⟨shape, hs, e⟩ := e
  unfold Heap.mapBinaryInplace at e
  simp only [Option.bind_eq_bind, Option.bind_eq_some_iff] at e
  obtain ⟨shape', hs', a', ha, b', hb, ma, hma, mb, hmb, e⟩ := e
  have hal : ∀ arr, h.alloc arr item zero = (h', r) →
      r.buf = h.mems.length ∧ h'.vars = h.vars ∧ ∃ m, h'.mems = h.mems ++ [m] := by
    intro arr he
    unfold Heap.alloc at he
    simp only [Prod.mk.injEq] at he
    obtain ⟨rfl, rfl⟩ := he
    exact ⟨rfl, rfl, _, rfl⟩
  cases he : h.tryElision refcnt a shape same with
  | none =>
    rw [he] at e
    dsimp only at e
    exact hal _ (Option.some.inj e)
  | some o =>
    have := tryElision_eq he
    subst this
    rw [he] at e
    dsimp only at e
    rw [if_neg (strong_ne_one h o a' ⟨b.buf, b'⟩)] at e
    exact hal _ (Option.some.inj e)

/-- C45: a copy is a new buffer, and every existing buffer stays as it is. -/
theorem C45_copy_fresh (eight : Bool) (h h' : Heap α) (a r : Handle) (zero : α)
    (e : h.copy eight a zero = some (h', r)) :
    r.buf = h.mems.length ∧ h'.vars = h.vars ∧ ∃ m, h'.mems = h.mems ++ [m] := by
  unfold Heap.copy at e
  simp only [Option.bind_eq_bind, Option.bind_eq_some_iff, Option.some.injEq] at e
  obtain ⟨m, hm, e⟩ := e
  unfold Heap.alloc at e
  simp only [Prod.mk.injEq] at e
  obtain ⟨rfl, rfl⟩ := e
  exact ⟨rfl, rfl, _, rfl⟩

/-- C45: writing to an array changes no array on another buffer. -/
theorem C45_write_elsewhere (h h' : Heap α) (a b : Handle) (i j : List Nat) (x : α) (hab : a.buf ≠ b.buf)
    (e : h.setElement a i x = some h') : h'.getElement b j = h.getElement b j := by
  unfold Heap.setElement at e
  split at e
  · simp only [Option.some.injEq] at e
    subst e
    unfold Heap.getElement
    simp only [List.getElem?_modify, if_neg hab]
    simp
  · simp at e

/-- C45: writing to the result of an operation never changes an array that existed before it, and
writing to such an array never changes the result. -/
theorem C45_result_independent (typed same : Bool) (f : α → α → α) (h h1 h2 : Heap α) (refcnt : Int)
    (a b r c : Handle) (item : Nat) (zero : α) (hc : c.buf < h.mems.length)
    (e : h.binaryElided typed same f refcnt a b item zero = some (h1, r)) (i j : List Nat) (x : α) :
    (h1.setElement r i x = some h2 → h2.getElement c j = h.getElement c j) ∧
    (h1.setElement c i x = some h2 → h2.getElement r j = h1.getElement r j) := by
  obtain ⟨e1, e2, m, e3⟩ := C45_elision_never typed same f h h1 refcnt a b r item zero e
  refine ⟨fun e => ?_, fun e => C45_write_elsewhere h1 h2 c r i j x (by omega) e⟩
  rw [C45_write_elsewhere h1 h2 r c i j x (by omega) e]
  unfold Heap.getElement
  rw [e3, List.getElem?_append_left hc]

/-! ### Writing through a view -/

/-- C45, proved part: writing element `i` of a view of an array changes exactly the element of the
array that it names (`op.source`, the index map of the specification `ViewOp.spec`), and no other.
The array's own indices name different memory cells.  Missing: operations that are not plain. -/
theorem C45_view_write_partial (h : Heap α) (a : Handle) (hw : a.view.WF) (hs : Separate a.view)
    (hb : a.buf < h.mems.length) (op : ViewOp) (v : View) (hp : op.Plain a.view) (hv : op.run a.view = some v)
    (i : List Nat) (hi : InShape v.shape i) (x : α) :
    ∃ h', h.setElement ⟨a.buf, v⟩ i x = some h' ∧ InShape a.view.shape (op.source a.view.shape i) ∧
      ∀ j, InShape a.view.shape j →
        h'.getElement a j = if j = op.source a.view.shape i then some x else h.getElement a j := by
  obtain ⟨e1, e2⟩ := ViewOp.addr_source hw hp hv
  obtain ⟨g1, g2⟩ := e2 i hi
  refine ⟨{ h with mems := h.mems.modify a.buf fun m => Rumpy.setElement m v i x }, ?_, g1, fun j hj => ?_⟩
  · unfold Heap.setElement
    rw [if_pos (indexOk_iff.2 hi)]
  · unfold Heap.getElement
    rw [if_pos (indexOk_iff.2 hj), if_pos (indexOk_iff.2 hj)]
    simp only [List.getElem?_modify, if_true, List.getElem?_eq_getElem hb]
    simp only [Option.map_eq_map, Option.map_some, Rumpy.setElement, g2]
    by_cases hji : j = op.source a.view.shape i
    · rw [if_pos hji, if_pos (by rw [hji])]
    · rw [if_neg hji, if_neg fun hh => hji (hs _ _ hj g1 hh)]

/-! ### Item assignment -/

/-- The heap after a list of stores through the view `w` of the array `a`, seen through `a`. -/
theorem setAll_through {h : Heap α} {a : Handle} (hs : Separate a.view) (hb : a.buf < h.mems.length)
    {w : View} {src : List Nat → List Nat} (hsrc : ∀ t, InShape w.shape t → InShape a.view.shape (src t) ∧
      w.addr t = a.view.addr (src t)) (x : List Nat → α)
    (hx : ∀ t u, InShape w.shape t → InShape w.shape u → src t = src u → x t = x u) :
    ∃ h', (odometerAll w.shape).foldlM (fun h i => h.setElement ⟨a.buf, w⟩ i (x i)) h = some h' ∧
      h'.vars = h.vars ∧
      (∀ t, InShape w.shape t → h'.getElement a (src t) = some (x t)) ∧
      (∀ j, InShape a.view.shape j → (∀ t, InShape w.shape t → src t ≠ j) → h'.getElement a j = h.getElement a j) ∧
      (∀ b : Handle, b.buf ≠ a.buf → ∀ j, h'.getElement b j = h.getElement b j) := by
  have hm := List.getElem?_eq_getElem hb
  obtain ⟨m', e1, e2, e3⟩ := setAll_mem ⟨a.buf, w⟩ x (indices w.shape) h h.mems[a.buf] hm fun i hi => mem_indices.1 hi
  rw [odometerAll_eq]
  refine ⟨_, e1, rfl, ?_, ?_, ?_⟩
  · intro t ht
    obtain ⟨g1, g2⟩ := hsrc t ht
    unfold Heap.getElement
    rw [if_pos (indexOk_iff.2 g1)]
    simp only [List.getElem?_set_self hb, Option.map_some, Option.some.injEq]
    rw [← g2]
    refine e3 (fun i hi j hj hij => ?_) t (mem_indices.2 ht)
    have hi := mem_indices.1 hi
    have hj := mem_indices.1 hj
    refine hx i j hi hj (hs _ _ (hsrc i hi).1 (hsrc j hj).1 ?_)
    rw [← (hsrc i hi).2, ← (hsrc j hj).2]
    exact hij
  · intro j hj hne
    unfold Heap.getElement
    rw [if_pos (indexOk_iff.2 hj), if_pos (indexOk_iff.2 hj)]
    simp only [List.getElem?_set_self hb, hm, Option.map_some, Option.some.injEq]
    apply e2
    intro t ht hh
    have ht := mem_indices.1 ht
    obtain ⟨g1, g2⟩ := hsrc t ht
    exact hne t ht (hs _ _ g1 hj (g2.symm.trans hh))
  · intro b hbn j
    unfold Heap.getElement
    rw [List.getElem?_set_ne (by simpa using hbn.symm)]

/-- C45, proved part: `a[key] = x` for a tuple of integers and slices that NumPy accepts assigns
`x` to exactly the elements that `a[key]` reads (`Spec.basicIndex`), and changes no other element
of `a` and no other buffer.  Missing: reversed axes (see C04), and keys that NumPy rejects, which
the code may accept (see the counterexample). -/
theorem C45_setitem_scalar_partial (h : Heap α) (a : Handle) (hw : a.view.WF) (hs : Separate a.view)
    (hpos : ∀ st ∈ a.view.strides, 0 ≤ st) (hb : a.buf < h.mems.length) (key : List SetKey) (x : α)
    (s : List Nat) (f : List Nat → List Nat) (hk : basicIndex (key.map SetKey.ix) a.view.shape = some (s, f)) :
    ∃ h', h.setItemScalar a key x = some h' ∧ h'.vars = h.vars ∧
      (∀ i, InShape s i → h'.getElement a (f i) = some x) ∧
      (∀ j, InShape a.view.shape j → (∀ i, InShape s i → f i ≠ j) → h'.getElement a j = h.getElement a j) ∧
      (∀ b : Handle, b.buf ≠ a.buf → ∀ j, h'.getElement b j = h.getElement b j) := by
  obtain ⟨w, news, g, b1, b2, b3, b4, b5, b6, _⟩ := setItemLoop_spec key a.view [] a.view.shape [] a.view.strides s f
    hw rfl rfl rfl hpos hk
  simp only [List.nil_append, List.length_nil] at b1 b4
  have hloop : ∃ h', h.fillScalar ⟨a.buf, w⟩ x = some h' ∧ h'.vars = h.vars ∧
      (∀ i, InShape s i → h'.getElement a (f i) = some x) ∧
      (∀ j, InShape a.view.shape j → (∀ i, InShape s i → f i ≠ j) → h'.getElement a j = h.getElement a j) ∧
      (∀ b : Handle, b.buf ≠ a.buf → ∀ j, h'.getElement b j = h.getElement b j) := by
    obtain ⟨h', c1, c2, c3, c4, c5⟩ := setAll_through (h := h) hs hb (w := w) (src := fun t => f (g t))
      (fun t ht => by
        rw [b4] at ht
        obtain ⟨d1, d2, d3⟩ := b5 t ht
        exact ⟨d2, by simpa using d3 [] trivial⟩) (fun _ => x) fun _ _ _ _ _ => rfl
    refine ⟨h', c1, c2, fun i hi => ?_, fun j hj hne => ?_, c5⟩
    · obtain ⟨t, ht, rfl⟩ := b6 i hi
      exact c3 t (by rw [b4]; exact ht)
    · refine c4 j hj fun t ht => ?_
      rw [b4] at ht
      exact hne _ (b5 t ht).1
  unfold Heap.setItemScalar setTarget
  cases hai : allInts key with
  | none =>
    simp only [b1, Option.map_some, Option.bind_eq_bind, Option.bind_some]
    exact hloop
  | some is =>
    by_cases hlen : is.length = a.view.shape.length
    · obtain ⟨rfl, g2, g3⟩ := allInts_basicIndex key is _ _ f hai hlen hk
      simp only [if_pos hlen, Option.bind_eq_bind, Option.bind_some]
      rw [g3]
      refine ⟨{ h with mems := h.mems.modify a.buf fun m => Rumpy.setElement m a.view (f []) x },
        by unfold Heap.setElement; rw [if_pos (indexOk_iff.2 g2)], rfl, ?_, ?_, ?_⟩
      · intro i hi
        have : i = [] := List.eq_nil_of_length_eq_zero (by simpa using hi.length_eq)
        subst this
        unfold Heap.getElement
        rw [if_pos (indexOk_iff.2 g2)]
        simp [List.getElem?_modify, List.getElem?_eq_getElem hb, Rumpy.setElement]
      · intro j hj hne
        unfold Heap.getElement
        rw [if_pos (indexOk_iff.2 hj), if_pos (indexOk_iff.2 hj)]
        simp only [List.getElem?_modify, if_true, List.getElem?_eq_getElem hb, Option.map_eq_map, Option.map_some,
          Rumpy.setElement]
        rw [if_neg fun hh => hne [] trivial (hs _ _ g2 hj hh.symm)]
      · intro b hbn j
        unfold Heap.getElement
        simp only [List.getElem?_modify, if_neg hbn.symm]; simp
    · simp only [if_neg hlen, b1, Option.map_some, Option.bind_eq_bind, Option.bind_some]
      exact hloop

/-- C45: `a[i] = x` with one integer does the same as with a tuple of one integer. -/
theorem C45_setitem_int (h : Heap α) (a : Handle) (i : Int) (x : α) :
    h.setIntScalar a i x = h.setItemScalar a [.int i] x := by
  unfold Heap.setIntScalar Heap.setItemScalar setTarget
  simp only [allInts, Option.map_some, List.length_singleton]
  rcases hs : a.view.shape with _ | ⟨n, _ | ⟨k, s⟩⟩
  · simp [setItemLoop, hs]
  · simp
  · simp [setItemLoop, hs]
    cases a.view.sliceAxis 0 (normalizeIndex i n) (normalizeIndex i n + 1) 1 <;> rfl

/-- C45: `a[i:j:step] = x` does the same as with a tuple of one slice. -/
theorem C45_setitem_slice (h : Heap α) (a : Handle) (i j : Option Int) (step : Int) (x : α) :
    h.setSliceScalar a i j step x = h.setItemScalar a [.slice i j step] x := by
  unfold Heap.setSliceScalar Heap.setItemScalar setTarget
  simp only [allInts, setItemLoop]
  cases hs : a.view.shape[0]? with
  | none => simp
  | some n =>
    simp only [Option.bind_eq_bind, Option.bind_some]
    split
    · simp
    · cases a.view.sliceAxis 0 (sliceStart n i step) (sliceStop n j step) step <;> rfl

/-- C45, proved part: `a[key] = b` for a tuple of slices and an array `b` of the selected shape on
another buffer assigns `b[i]` to the element that `a[key][i]` reads, and changes no other element of
`a` and no other buffer.  Missing: keys with integers, which the code rejects or takes with an extra
axis; broadcasting of `b`, which the code does not do; arrays on the same buffer. -/
theorem C45_setitem_array_partial (h : Heap α) (a b : Handle) (hw : a.view.WF) (hs : Separate a.view)
    (hpos : ∀ st ∈ a.view.strides, 0 ≤ st) (hb : a.buf < h.mems.length) (hbb : b.buf < h.mems.length)
    (hab : b.buf ≠ a.buf) (key : List SetKey) (hkey : ∀ k ∈ key, ∀ i, k ≠ .int i) (hne : key ≠ [])
    (s : List Nat) (f : List Nat → List Nat)
    (hk : basicIndex (key.map SetKey.ix) a.view.shape = some (s, f)) (hsh : b.view.shape = s) :
    ∃ h', h.setItemArray a key b = some h' ∧ h'.vars = h.vars ∧
      (∀ i, InShape s i → h'.getElement a (f i) = h.getElement b i) ∧
      (∀ j, InShape a.view.shape j → (∀ i, InShape s i → f i ≠ j) → h'.getElement a j = h.getElement a j) ∧
      (∀ c : Handle, c.buf ≠ a.buf → ∀ j, h'.getElement c j = h.getElement c j) := by
  obtain ⟨w, news, g, b1, b2, b3, b4, b5, b6, b7⟩ := setItemLoop_spec key a.view [] a.view.shape [] a.view.strides s f
    hw rfl rfl rfl hpos hk
  obtain ⟨rfl, b8⟩ := b7 hkey
  simp only [List.nil_append, List.length_nil] at b1 b4
  have hai : allInts key = none := by
    cases key with
    | nil => exact absurd rfl hne
    | cons k r =>
      cases k with
      | int i => exact absurd rfl (hkey (.int i) (by simp) i)
      | slice _ _ _ => rfl
  have hmb := List.getElem?_eq_getElem hbb
  set mb := h.mems[b.buf] with hmbd
  have hsrc : ∀ t, InShape w.shape t → InShape a.view.shape (f t) ∧ w.addr t = a.view.addr (f t) := by
    intro t ht
    rw [b4] at ht
    obtain ⟨d1, d2, d3⟩ := b5 t ht
    rw [b8 t ht] at d2 d3
    exact ⟨d2, by simpa using d3 [] trivial⟩
  obtain ⟨h', c1, c2, c3, c4, c5⟩ := setAll_through (h := h) hs hb (w := w) (src := f) hsrc
    (fun t => mb (b.view.addr t)) (fun t u ht hu e => by
      rw [b4] at ht hu
      rw [basicIndex_injective _ _ _ _ hk t u ht hu e])
  have hread : ∀ (l : List (List Nat)) (h0 : Heap α), h0.mems[b.buf]? = some mb → (∀ i ∈ l, InShape w.shape i) →
      l.foldlM (fun h i => do
        let x ← h.getElement b i
        h.setElement ⟨a.buf, w⟩ i x) h0
      = l.foldlM (fun h i => h.setElement ⟨a.buf, w⟩ i (mb (b.view.addr i))) h0 := by
    intro l
    induction l with
    | nil => intro h0 _ _; rfl
    | cons i l ih =>
      intro h0 hm0 hin
      have hi := hin i (by simp)
      have e1 : h0.getElement b i = some (mb (b.view.addr i)) := by
        unfold Heap.getElement
        rw [if_pos (indexOk_iff.2 (by rw [hsh, ← b4]; exact hi)), hm0]; rfl
      have e2 : h0.setElement ⟨a.buf, w⟩ i (mb (b.view.addr i)) = some { h0 with
          mems := h0.mems.modify a.buf fun m => Rumpy.setElement m w i (mb (b.view.addr i)) } := by
        unfold Heap.setElement
        rw [if_pos (indexOk_iff.2 hi)]
      rw [List.foldlM_cons, List.foldlM_cons]
      simp only [e1, e2, Option.bind_eq_bind, Option.bind_some]
      refine ih _ ?_ fun j hj => hin j (by simp [hj])
      simp [List.getElem?_modify, hab.symm, hm0]
  refine ⟨h', ?_, c2, fun i hi => ?_, fun j hj hn => ?_, c5⟩
  · unfold Heap.setItemArray setTarget
    rw [hai]
    simp only [b1, Option.map_some, Option.bind_eq_bind, Option.bind_some]
    unfold Heap.fillArray
    rw [if_neg (by simp [b4, hsh])]
    dsimp only
    rw [← c1]
    exact hread _ h hmb fun i hi => by rw [odometerAll_eq] at hi; exact mem_indices.1 hi
  · rw [c3 i (by rw [b4]; exact hi)]
    unfold Heap.getElement
    rw [if_pos (indexOk_iff.2 (by rw [hsh]; exact hi)), hmb]; rfl
  · exact c4 j hj fun t ht => hn t (by rw [← b4]; exact ht)

/-! ### Every statement NumPy accepts is accepted -/

theorem Cmd.Means.unique {c : Cmd α} {w w1 w2 : World α} (h1 : c.Means w w1) (h2 : c.Means w w2) : w1 = w2 := by
  cases h1 with
  | create _ => cases h2; rfl
  | view e => cases h2 with | view e' => rw [e, Option.some.injEq] at e'; subst e'; rfl
  | set e _ => cases h2 with | set e' _ => rw [e, Option.some.injEq] at e'; subst e'; rfl
  | setAll e => cases h2 with | setAll e' => rw [e, Option.some.injEq] at e'; subst e'; rfl
  | fill e => cases h2 with | fill e' => rw [e, Option.some.injEq] at e'; subst e'; rfl
  | assign e f _ => cases h2 with
    | assign e' f' _ =>
      rw [e, Option.some.injEq] at e'; subst e'
      rw [f, Option.some.injEq] at f'; subst f'; rfl
  | copy e f => cases h2 with
    | copy e' f' =>
      rw [e, Option.some.injEq] at e'; subst e'
      rw [f, Option.some.injEq] at f'; subst f'; rfl
  | binary e f g x y => cases h2 with
    | binary e' f' g' x' y' =>
      rw [e, Option.some.injEq] at e'; subst e'
      rw [f, Option.some.injEq] at f'; subst f'
      rw [← broadcastShapes_iff] at g g'
      rw [g, Option.some.injEq] at g'; subst g'
      rw [x, Option.some.injEq] at x'; subst x'
      rw [y, Option.some.injEq] at y'; subst y'; rfl
  | del => cases h2; rfl

theorem Meaning.unique {cs : List (Cmd α)} {w w1 w2 : World α} (h1 : Meaning cs w w1) (h2 : Meaning cs w w2) :
    w1 = w2 := by
  induction h1 with
  | nil => cases h2; rfl
  | cons a _ ih => cases h2 with | cons b r => rw [a.unique b] at ih; exact ih r

/-- C45: a program has at most one meaning, so the arrays of `C45_history_partial` are determined. -/
theorem C45_meaning_unique (cs : List (Cmd α)) (w1 w2 : World α) (h1 : Meaning cs ⟨[], []⟩ w1)
    (h2 : Meaning cs ⟨[], []⟩ w2) : w1 = w2 := h1.unique h2

/-- C45, proved part: after any program, the next statement, when it is plain and NumPy accepts it,
is not an error.  Missing: making a view (see C04, C08, C09 and C10 for those) and assigning an
object to itself, which is always an error. -/
theorem C45_progress_partial (zero : α) (cs : List (Cmd α)) (h : Heap α) (w w' : World α) (c : Cmd α)
    (hrun : Runs zero cs ⟨[], []⟩ h) (hm : Meaning cs ⟨[], []⟩ w) (hp : c.Plain h) (hc : c.Means w w')
    (hview : ∀ k op, c ≠ .view k op) (hself : ∀ k, c ≠ .assign k k) : ∃ h', c.run zero h = some h' := by
  obtain ⟨L, w0, m0, hr⟩ := runs_rel zero hrun Rel.empty
  have := m0.unique hm
  subst this
  have back : ∀ {k : Nat} {o : Obj}, w0.var? k = some o → ∃ a, h.var? k = some a ∧ Tied L a o := by
    intro k o ho
    have hv := hr.var k
    rw [ho] at hv
    cases ha : h.var? k with
    | none => rw [ha] at hv; exact hv.elim
    | some a => rw [ha] at hv; exact ⟨a, rfl, hv⟩
  cases hc with
  | create _ => exact ⟨_, rfl⟩
  | view e => exact absurd rfl (hview _ _)
  | set e hi =>
    obtain ⟨a, ha, ht⟩ := back e
    obtain ⟨h1, e1, _⟩ := hr.setElement ht (by rw [← ht.2.2.1]; exact hi) _
    exact ⟨h1, by simp only [Cmd.run, ha, Option.bind_eq_bind, Option.bind_some]; exact e1⟩
  | setAll e =>
    obtain ⟨a, ha, ht⟩ := back e
    obtain ⟨h1, e1, _⟩ := hr.fillScalar ht _
    exact ⟨h1, by simp only [Cmd.run, ha, Option.bind_eq_bind, Option.bind_some]; exact e1⟩
  | fill e =>
    obtain ⟨a, ha, ht⟩ := back e
    obtain ⟨h1, e1, _⟩ := hr.fill ht _
    exact ⟨h1, by simp only [Cmd.run, ha, Option.bind_eq_bind, Option.bind_some]; exact e1⟩
  | @assign k j _ d s e f g =>
    obtain ⟨a, ha, ht⟩ := back e
    obtain ⟨b, hb, hu⟩ := back f
    have hkj : k ≠ j := fun hh => hself k (by rw [hh])
    obtain ⟨h1, e1, _⟩ := hr.fillArray ht hu (by rw [← ht.2.2.1, ← hu.2.2.1]; exact g) (hp a b ha hb)
    refine ⟨h1, ?_⟩
    simp only [Cmd.run, ha, hb, Option.bind_eq_bind, Option.bind_some]
    rw [if_neg hkj]; exact e1
  | @copy k eight _ o row e f =>
    obtain ⟨a, ha, ht⟩ := back e
    obtain ⟨h1, c1, _, _, e1, _⟩ := hr.copy ht eight zero
    exact ⟨_, by simp only [Cmd.run, ha, e1, Option.bind_eq_bind, Option.bind_some]; rfl⟩
  | @binary k j fn typed same item refcnt _ _ _ _ _ _ e f g _ _ =>
    obtain ⟨a, ha, ht⟩ := back e
    obtain ⟨b, hb, hu⟩ := back f
    rw [ht.2.2.1, hu.2.2.1, ← broadcastShapes_iff] at g
    obtain ⟨hla, hlb, _⟩ := C09_broadcast_least _ _ _ g
    obtain ⟨a', hba⟩ := Option.isSome_iff_exists.1 ((broadcastTo_isSome ht.2.1).2 hla)
    obtain ⟨b', hbb⟩ := Option.isSome_iff_exists.1 ((broadcastTo_isSome hu.2.1).2 hlb)
    obtain ⟨ma, _, hma, _, _⟩ := hr.get ht
    obtain ⟨mb, _, hmb, _, _⟩ := hr.get hu
    have := binaryElided_eq typed same fn h refcnt a b item zero ht.2.1 hu.2.1 g hba hbb hma hmb
    exact ⟨_, by simp only [Cmd.run, ha, hb, this, Option.bind_eq_bind, Option.bind_some]; rfl⟩
  | del => exact ⟨_, rfl⟩

/-! ### Examples and counterexamples -/

/-- One buffer of three one-byte elements 1, 2, 3 and an array of it. -/
def threeHeap : Heap Nat := ⟨[fun p => p.toNat + 1], [some ⟨0, View.fresh [3] 1⟩]⟩

/-- A program that meets the hypotheses of `C45_history_partial`: `a = [1, 2, 3, 4]`,
`v = a[::2]`, `v[1] = 9`, `c = v.copy()`, `c[0] = 7`, `r = v + a[:2]`; and what the variables hold. -/
example :
    let cs : List (Cmd Nat) := [.create [4] [1, 2, 3, 4] 8, .view 0 (.slice 0 none none 2), .set 1 [1] 9, .copy 1 true,
      .set 2 [0] 7, .view 0 (.slice 0 none (some 2) 1), .binary 1 3 (· + ·) true true 8 1]
    (cs.foldlM (fun h (c : Cmd Nat) => c.run 0 h) (⟨[], []⟩ : Heap Nat)).map (fun h => (List.range 5).map fun k =>
      (h.var? k).map fun a => (indices a.view.shape).map (h.getElement a))
    = some [some [some 1, some 2, some 9, some 4], some [some 1, some 9], some [some 7, some 9],
      some [some 1, some 2], some [some 2, some 11]] := by
  decide +kernel

/-- A short one of them, with every step shown to be plain. -/
example : ∃ h, Runs 0 [.create [4] [1, 2, 3, 4] 8, .view 0 (.slice 0 none none 2), .set 1 [1] 9] (⟨[], []⟩ : Heap Nat) h :=
  ⟨_, .cons ⟨rfl, by decide⟩ rfl (.cons (by
      intro a ha
      have : a = ⟨0, View.fresh [4] 8⟩ := (Option.some.inj ha).symm
      subst this
      refine ⟨?_, trivial⟩
      show ∀ st, (View.fresh [4] 8).strides[0]? = some st → 0 ≤ st
      intro st hst
      have : st = 8 := (Option.some.inj hst).symm
      omega) rfl (.cons trivial rfl .nil))⟩

/-- C45 fails for an assignment between overlapping views: `a[1:] = a[:-1]` on `[1, 2, 3]` gives
`[1, 1, 1]`, because elements are read after they were overwritten; NumPy gives `[1, 1, 2]`. -/
theorem C45_overlap_counterexample :
    let a : Handle := ⟨0, View.fresh [3] 1⟩
    (do
      let d ← ViewOp.run (.slice 0 (some 1) none 1) a.view
      let s ← ViewOp.run (.slice 0 none (some (-1)) 1) a.view
      let h ← threeHeap.fillArray ⟨0, d⟩ ⟨0, s⟩
      (indices [3]).mapM (h.getElement a)) = some [1, 1, 1] ∧
    let w : World Nat := ⟨[[1, 2, 3]], [some ⟨0, ⟨[3], rank [3]⟩⟩]⟩
    let cells : Nd Nat := ⟨[3], rank [3]⟩
    (w.assign ⟨0, ViewOp.spec (.slice 0 (some 1) none 1) cells⟩ ⟨0, ViewOp.spec (.slice 0 none (some (-1)) 1) cells⟩).values
      ⟨0, cells⟩ = some [1, 1, 2] := by
  decide +kernel

/-- C45 fails for `array(a)`, which NumPy documents as a copy: it shares the buffer, so writing to it
changes `a`.  The same holds for rounding an array of integers. -/
theorem C45_array_shares_counterexample :
    let a : Handle := ⟨0, View.fresh [3] 1⟩
    let p := threeHeap.pyArray a
    let q := threeHeap.roundInteger a
    ((p.1.setElement p.2 [1] 9).bind fun h => h.getElement a [1]) = some 9 ∧
    ((q.1.setElement q.2 [1] 9).bind fun h => h.getElement a [1]) = some 9 ∧
    threeHeap.getElement a [1] = some 2 := by
  decide +kernel

/-- C45 fails for the methods `sort` and `resize` of a view: they put a new array in the object, so the
base does not change and the view is no longer a view of it.  Here `v = a[::-1]; v.sort()` leaves
`a` as `[1, 2, 3]`, and a later `v[0] = 9` does not show in `a`; in NumPy `a` becomes `[3, 2, 1]` and
then `[3, 2, 9]`. -/
theorem C45_sort_view_counterexample :
    let a : Handle := ⟨0, View.fresh [3] 1⟩
    (do
      let v ← ViewOp.run (.slice 0 none none (-1)) a.view
      let h := (threeHeap.push ⟨0, v⟩).replaceVar 1 ⟨[3], [1, 2, 3]⟩ 1 0
      let v' ← h.var? 1
      let h' ← h.setElement v' [0] 9
      let x ← (indices [3]).mapM (h.getElement a)
      let y ← (indices [3]).mapM (h'.getElement a)
      some (x, y)) = some ([1, 2, 3], [1, 2, 3]) := by
  decide +kernel

/-- C45 fails for `a[0] = row` on a 2-d array: the axis of the integer is kept with length 1, so the
shapes differ and the assignment is an error; NumPy assigns the row. -/
theorem C45_assign_row_counterexample :
    let h : Heap Nat := ⟨[fun p => p.toNat, fun p => p.toNat + 10], []⟩
    h.setIntArray ⟨0, View.fresh [2, 3] 1⟩ 0 ⟨1, View.fresh [3] 1⟩ = none ∧
    (h.setIntArray ⟨0, View.fresh [2, 3] 1⟩ 0 ⟨1, View.fresh [1, 3] 1⟩).isSome = true ∧
    (basicIndex [.int 0] [2, 3]).map (·.1) = some [3] := by
  refine ⟨by rfl, by decide +kernel, by decide⟩

/-- C45 fails for an integer out of range beside a slice: `a[5, :] = 7` on a 2x2 array of one-byte
elements is not an error, and stores outside the array's four bytes; NumPy raises `IndexError`. -/
theorem C45_setitem_outside_counterexample :
    let h : Heap Nat := ⟨[fun _ => 0], []⟩
    let a : Handle := ⟨0, View.fresh [2, 2] 1⟩
    (h.setItemScalar a [.int 5, .slice none none 1] 7).map (fun h => (h.mems.map fun m => (m 3, m 10, m 11)))
      = some [(0, 7, 7)] ∧
    (basicIndex ([SetKey.int 5, .slice none none 1].map SetKey.ix) a.view.shape).isNone = true := by
  decide +kernel

/-- Item assignment on a concrete array: `a[1, ::2] = 7` on a 2x3 array. -/
example : (basicIndex ([SetKey.int (-1), .slice none none 2].map SetKey.ix) [2, 3]).map (·.1) = some [2] ∧
    ((⟨[fun p => p.toNat], []⟩ : Heap Nat).setItemScalar ⟨0, View.fresh [2, 3] 1⟩ [.int (-1), .slice none none 2] 7).map
      (fun h => (List.range 7).map fun p => h.mems.map fun m => m p) = some [[0], [1], [2], [7], [4], [7], [6]] := by
  decide +kernel

end Props
