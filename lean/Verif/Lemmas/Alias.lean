import Verif.Lemmas.Copy
import Verif.Lemmas.Elementwise
import Verif.Lemmas.Grid
import Verif.Lemmas.InBounds
import Verif.Lemmas.Index
import Verif.Model.Alias
import Verif.Spec.Alias
/-!
# Lemmas about arrays that share buffers
-/

namespace Rumpy
open Spec

/-! ### Strides are whole elements -/

theorem fStrides_dvd (item : Nat) (s : List Nat) : ∀ x ∈ fStrides s item, (item : Int) ∣ x := by
  have : ∀ (s : List Nat) (k : Int), (item : Int) ∣ k → ∀ x ∈ fStridesLoop s k, (item : Int) ∣ x := by
    intro s
    induction s with
    | nil => intro k _ x hx; simp [fStridesLoop] at hx
    | cons n s ih =>
      intro k hk x hx
      simp only [fStridesLoop, List.mem_cons] at hx
      rcases hx with rfl | hx
      · exact hk
      · exact ih _ (Dvd.dvd.mul_right hk _) x hx
  exact this s _ (dvd_refl _)

theorem broadcastLoop_dvd {d : Int} : ∀ {os : List Nat} {sts : List Int} {ns : List Nat} {r : List Int},
    View.broadcastLoop os sts ns = some r → (∀ st ∈ sts, d ∣ st) → ∀ st ∈ r, d ∣ st
  | [], _, _, r, h, _ => by
    simp only [View.broadcastLoop, Option.some.injEq] at h
    subst h
    intro st hst
    cases hst
  | o :: os, st :: sts, n :: ns, r, h, hp => by
    simp only [View.broadcastLoop] at h
    split at h
    · simp only [Option.map_eq_some_iff] at h
      obtain ⟨r', h1, rfl⟩ := h
      intro x hx
      rcases List.mem_cons.1 hx with rfl | hx
      · exact hp _ (by simp)
      · exact broadcastLoop_dvd h1 (fun y hy => hp y (by simp [hy])) x hx
    · split at h
      · simp only [Option.map_eq_some_iff] at h
        obtain ⟨r', h1, rfl⟩ := h
        intro x hx
        rcases List.mem_cons.1 hx with rfl | hx
        · exact dvd_zero _
        · exact broadcastLoop_dvd h1 (fun y hy => hp y (by simp [hy])) x hx
      · simp at h
  | _ :: _, [], _, r, h, _ => by simp [View.broadcastLoop] at h
  | _ :: _, _ :: _, [], r, h, _ => by simp [View.broadcastLoop] at h

theorem broadcastTo_dvd {v v' : View} {t : List Nat} {d : Int} (h : v.broadcastTo t = some v')
    (hp : ∀ st ∈ v.strides, d ∣ st) : ∀ st ∈ v'.strides, d ∣ st := by
  unfold View.broadcastTo at h
  split at h
  · simp at h
  · simp only at h
    split at h
    · simp at h
    · rename_i st hst
      simp only [Option.some.injEq] at h
      subst h
      intro x hx
      simp only [View.viewWith, List.mem_append, List.mem_replicate] at hx
      rcases hx with ⟨_, rfl⟩ | hx
      · exact dvd_zero _
      · exact broadcastLoop_dvd hst hp x hx

/-! ### Indices -/

theorem indexOk_iff {idx shape : List Nat} : indexOk idx shape = true ↔ InShape shape idx := by
  unfold indexOk
  induction shape generalizing idx with
  | nil => cases idx <;> simp [InShape]
  | cons n s ih =>
    cases idx with
    | nil => simp [InShape]
    | cons i idx =>
      have := ih (idx := idx)
      simp only [Bool.and_eq_true, beq_iff_eq] at this
      simp only [List.length_cons, List.zipWith_cons_cons, List.all_cons, Bool.and_eq_true, beq_iff_eq,
        Nat.add_right_cancel_iff, id, decide_eq_true_eq, InShape, ← this]
      tauto

theorem indices_pairwise_rank (s : List Nat) : (indices s).Pairwise fun i j => rank s i < rank s j := by
  have h : ((indices s).map (rank s)).Pairwise (· < ·) := by
    rw [map_rank_indices]; exact List.pairwise_lt_range
  exact List.pairwise_map.1 h

/-! ### The relation between buffers and allocations -/

/-- The array `a` of the heap and the array `o` of the specification name the same elements, when
buffer `b` has elements of `L[b].1` bytes and there are `L[b].2` of them. -/
def Tied (L : List (Nat × Nat)) (a : Handle) (o : Obj) : Prop :=
  o.owner = a.buf ∧ a.view.WF ∧ o.cells.shape = a.view.shape ∧
    ∃ l, L[a.buf]? = some l ∧ a.view.item = l.1 ∧ (∀ st ∈ a.view.strides, (l.1 : Int) ∣ st) ∧
      ∀ i, InShape a.view.shape i → o.cells.get i < l.2 ∧ a.view.addr i = ((l.1 * o.cells.get i : Nat) : Int)

/-- Both are freed, or both are arrays and they are tied. -/
def TiedVar (L : List (Nat × Nat)) : Option Handle → Option Obj → Prop
  | none, none => True
  | some a, some o => Tied L a o
  | _, _ => False

/-- The heap holds what the specification's world holds. -/
structure Rel (L : List (Nat × Nat)) (w : World α) (h : Heap α) : Prop where
  mems : h.mems.length = L.length
  rows : w.rows.length = L.length
  pos : ∀ l ∈ L, 0 < l.1
  buf : ∀ (b : Nat) (l : Nat × Nat) (m : Int → α) (row : List α), L[b]? = some l → h.mems[b]? = some m → w.rows[b]? = some row →
    row.length = l.2 ∧ ∀ c x, row[c]? = some x → m ((l.1 * c : Nat) : Int) = x
  vars : List.Forall₂ (TiedVar L) h.vars w.vars

theorem Rel.empty : Rel (α := α) [] ⟨[], []⟩ ⟨[], []⟩ :=
  ⟨rfl, rfl, by simp, by simp, .nil⟩

theorem forall₂_join {L : List (Nat × Nat)} {as : List (Option Handle)} {os : List (Option Obj)}
    (h : List.Forall₂ (TiedVar L) as os) (k : Nat) : TiedVar L (as[k]?).join (os[k]?).join := by
  induction h generalizing k with
  | nil => simp [TiedVar]
  | cons h _ ih =>
    cases k with
    | zero => simpa using h
    | succ k => simpa using ih k

theorem Rel.var {L : List (Nat × Nat)} {w : World α} {h : Heap α} (hr : Rel L w h) (k : Nat) :
    TiedVar L (h.var? k) (w.var? k) := forall₂_join hr.vars k

theorem Rel.tied {L : List (Nat × Nat)} {w : World α} {h : Heap α} (hr : Rel L w h) {k : Nat} {a : Handle}
    (ha : h.var? k = some a) : ∃ o, w.var? k = some o ∧ Tied L a o := by
  have := hr.var k
  rw [ha] at this
  cases ho : w.var? k with
  | none => rw [ho] at this; exact this.elim
  | some o => rw [ho] at this; exact ⟨o, rfl, this⟩

theorem Tied.mono {L : List (Nat × Nat)} (l : Nat × Nat) {a : Handle} {o : Obj} (h : Tied L a o) :
    Tied (L ++ [l]) a o := by
  obtain ⟨h1, h2, h3, l', h4, h5⟩ := h
  refine ⟨h1, h2, h3, l', ?_, h5⟩
  rw [List.getElem?_append_left (List.getElem?_eq_some_iff.1 h4).1]
  exact h4

theorem TiedVar.mono {L : List (Nat × Nat)} (l : Nat × Nat) : ∀ {a : Option Handle} {o : Option Obj},
    TiedVar L a o → TiedVar (L ++ [l]) a o
  | none, none, _ => trivial
  | some _, some _, h => Tied.mono l h
  | none, some _, h => h.elim
  | some _, none, h => h.elim

theorem forall₂_snoc {R : β → γ → Prop} {as : List β} {bs : List γ} {a : β} {b : γ} (h : List.Forall₂ R as bs)
    (hab : R a b) : List.Forall₂ R (as ++ [a]) (bs ++ [b]) := by
  induction h with
  | nil => exact .cons hab .nil
  | cons h _ ih => exact .cons h ih

/-- A new name for cells of an allocation that exists. -/
theorem Rel.push {L : List (Nat × Nat)} {w : World α} {h : Heap α} (hr : Rel L w h) {a : Handle} {o : Obj}
    (ht : Tied L a o) : Rel L (w.bind o) (h.push a) :=
  ⟨hr.mems, hr.rows, hr.pos, hr.buf, forall₂_snoc hr.vars ht⟩

/-- A new allocation. -/
theorem Rel.alloc {L : List (Nat × Nat)} {w : World α} {h : Heap α} (hr : Rel L w h) {r : Arr α} {item : Nat}
    (zero : α) (hitem : 0 < item) (hlen : r.data.length = size r.shape) :
    Rel (L ++ [(item, size r.shape)]) (w.alloc r.shape r.data)
      ((h.alloc r item zero).1.push (h.alloc r item zero).2) := by
  refine ⟨by simp [Heap.push, Heap.alloc, hr.mems], by simp [World.alloc, hr.rows], ?_, ?_, ?_⟩
  · intro l hl
    rcases List.mem_append.1 hl with hl | hl
    · exact hr.pos l hl
    · simp only [List.mem_singleton] at hl; subst hl; exact hitem
  · intro b l m row hl hm hrow
    simp only [Heap.push, Heap.alloc, World.alloc] at hm hrow
    by_cases hb : b < L.length
    · rw [List.getElem?_append_left hb] at hl
      rw [List.getElem?_append_left (by rw [hr.mems]; exact hb)] at hm
      rw [List.getElem?_append_left (by rw [hr.rows]; exact hb)] at hrow
      exact hr.buf b l m row hl hm hrow
    · have hbl : b < L.length + 1 := by
        have := (List.getElem?_eq_some_iff.1 hl).1
        simpa using this
      have hb' : b = L.length := by omega
      subst hb'
      rw [List.getElem?_append_right (by omega)] at hl
      rw [List.getElem?_append_right (by rw [hr.mems]), hr.mems] at hm
      rw [List.getElem?_append_right (by rw [hr.rows]), hr.rows] at hrow
      simp only [Nat.sub_self, List.getElem?_cons_zero, Option.some.injEq] at hl hm hrow
      subst hl hm hrow
      refine ⟨hlen, fun c x hx => ?_⟩
      simp only [Arr.mem]
      rw [Int.toNat_natCast, Nat.mul_div_cancel_left _ hitem]
      simp [List.getD, hx]
  · simp only [Heap.push, Heap.alloc, World.alloc]
    refine forall₂_snoc (hr.vars.imp fun _ _ h => h.mono _) ?_
    refine ⟨by simp [hr.rows, hr.mems], View.WF.fresh _ _, rfl, (item, size r.shape), ?_, rfl, ?_, ?_⟩
    · show (L ++ [(item, size r.shape)])[h.mems.length]? = _
      rw [hr.mems, List.getElem?_append_right (by omega)]; simp
    · exact fun st hst => cStrides_dvd _ _ _ hst
    · intro i hi
      have hi : InShape r.shape i := hi
      refine ⟨rank_lt hi, ?_⟩
      simp only [Arr.view, View.fresh, View.addr]
      rw [byteOffset_cStrides _ _ _ hi.length_eq]
      simp

/-- The buffer and the allocation of a tied array exist. -/
theorem Rel.get {L : List (Nat × Nat)} {w : World α} {h : Heap α} (hr : Rel L w h) {a : Handle} {o : Obj}
    (ht : Tied L a o) : ∃ m row, h.mems[a.buf]? = some m ∧ w.rows[o.owner]? = some row ∧
      ∀ i, InShape a.view.shape i → row[o.cells.get i]? = some (m (a.view.addr i)) := by
  obtain ⟨h1, _, _, l, h4, _, _, h5⟩ := ht
  have hb := (List.getElem?_eq_some_iff.1 h4).1
  have hm := List.getElem?_eq_getElem (l := h.mems) (i := a.buf) (by rw [hr.mems]; exact hb)
  have hrow := List.getElem?_eq_getElem (l := w.rows) (i := a.buf) (by rw [hr.rows]; exact hb)
  obtain ⟨e1, e2⟩ := hr.buf _ _ _ _ h4 hm hrow
  refine ⟨_, _, hm, by rw [h1]; exact hrow, fun i hi => ?_⟩
  obtain ⟨g1, g2⟩ := h5 i hi
  rw [← e1] at g1
  rw [List.getElem?_eq_getElem g1, g2, e2 _ _ (List.getElem?_eq_getElem g1)]

/-- Reading an element. -/
theorem Rel.read {L : List (Nat × Nat)} {w : World α} {h : Heap α} (hr : Rel L w h) {a : Handle} {o : Obj}
    (ht : Tied L a o) {i : List Nat} (hi : InShape a.view.shape i) :
    ∃ x, h.getElement a i = some x ∧ w.read o i = some x := by
  obtain ⟨m, row, h1, h2, h3⟩ := hr.get ht
  refine ⟨m (a.view.addr i), ?_, ?_⟩
  · unfold Heap.getElement
    rw [if_pos (indexOk_iff.2 hi), h1]; rfl
  · unfold World.read
    rw [h2]; exact h3 i hi

/-- Writing an element. -/
theorem Rel.store {L : List (Nat × Nat)} {w : World α} {h : Heap α} (hr : Rel L w h) {a : Handle} {o : Obj}
    (ht : Tied L a o) {i : List Nat} (hi : InShape a.view.shape i) (x : α) :
    Rel L (w.store o i x) { h with mems := h.mems.modify a.buf fun m => Rumpy.setElement m a.view i x } := by
  obtain ⟨h1, _, _, l, h4, _, _, h5⟩ := ht
  refine ⟨by simp [hr.mems], by simp [World.store, hr.rows], hr.pos, ?_, hr.vars⟩
  intro b l' m row hl hm hrow
  simp only [World.store, List.getElem?_modify, h1] at hm hrow
  by_cases hb : a.buf = b
  · subst hb
    rw [h4, Option.some.injEq] at hl
    subst hl
    simp only [if_true, Option.map_eq_map, Option.map_eq_some_iff] at hm hrow
    obtain ⟨m0, hm0, rfl⟩ := hm
    obtain ⟨row0, hrow0, rfl⟩ := hrow
    obtain ⟨e1, e2⟩ := hr.buf _ _ _ _ h4 hm0 hrow0
    obtain ⟨g1, g2⟩ := h5 i hi
    refine ⟨by simpa using e1, fun c y hc => ?_⟩
    simp only [Rumpy.setElement, g2]
    have hp : 0 < l.1 := hr.pos l (List.mem_of_getElem? h4)
    by_cases he : o.cells.get i = c
    · subst he
      rw [if_pos rfl]
      rw [List.getElem?_set_self (by omega)] at hc
      exact Option.some.inj hc
    · rw [List.getElem?_set_ne he] at hc
      rw [if_neg]
      · exact e2 c y hc
      · intro hh
        have : l.1 * c = l.1 * o.cells.get i := by exact_mod_cast hh
        exact he (Nat.eq_of_mul_eq_mul_left hp this).symm
  · simp only [if_neg hb, id, Option.map_eq_map, Option.map_id'] at hm hrow
    exact hr.buf b l' m row hl hm hrow

/-- Writing an element through `setElement`. -/
theorem Rel.setElement {L : List (Nat × Nat)} {w : World α} {h : Heap α} (hr : Rel L w h) {a : Handle} {o : Obj}
    (ht : Tied L a o) {i : List Nat} (hi : InShape a.view.shape i) (x : α) :
    ∃ h', h.setElement a i x = some h' ∧ Rel L (w.store o i x) h' ∧ h'.vars = h.vars := by
  refine ⟨_, ?_, hr.store ht hi x, rfl⟩
  unfold Heap.setElement
  rw [if_pos (indexOk_iff.2 hi)]

/-- Writing one value to a list of elements. -/
theorem Rel.setAll {L : List (Nat × Nat)} {a : Handle} {o : Obj} (ht : Tied L a o) (x : α) :
    ∀ (l : List (List Nat)) {w : World α} {h : Heap α}, Rel L w h → (∀ i ∈ l, InShape a.view.shape i) →
      ∃ h', l.foldlM (fun h i => h.setElement a i x) h = some h' ∧
        Rel L (l.foldl (fun w i => w.store o i x) w) h' ∧ h'.vars = h.vars
  | [], w, h, hr, _ => ⟨h, rfl, hr, rfl⟩
  | i :: l, w, h, hr, hin => by
    obtain ⟨h1, e1, r1, v1⟩ := hr.setElement ht (hin i (by simp)) x
    obtain ⟨h2, e2, r2, v2⟩ := Rel.setAll ht x l r1 fun j hj => hin j (by simp [hj])
    exact ⟨h2, by simp [e1, e2], r2, v2.trans v1⟩

/-- `fill_view` with a scalar. -/
theorem Rel.fillScalar {L : List (Nat × Nat)} {w : World α} {h : Heap α} (hr : Rel L w h) {a : Handle} {o : Obj}
    (ht : Tied L a o) (x : α) :
    ∃ h', h.fillScalar a x = some h' ∧ Rel L (w.fill o x) h' ∧ h'.vars = h.vars := by
  unfold Heap.fillScalar World.fill
  rw [odometerAll_eq, ht.2.2.1]
  exact Rel.setAll ht x _ hr fun i hi => mem_indices.1 hi

theorem foldl_modify (f : (Int → α) → β → Int → α) (b : Nat) :
    ∀ (l : List β) (ms : List (Int → α)), l.foldl (fun ms k => ms.modify b fun m => f m k) ms
      = ms.modify b fun m => l.foldl f m
  | [], ms => by
    apply List.ext_getElem?
    intro j
    simp [List.getElem?_modify]
  | k :: l, ms => by
    rw [List.foldl_cons, foldl_modify f b l]
    apply List.ext_getElem?
    intro j
    simp only [List.getElem?_modify, List.foldl_cons]
    by_cases hj : b = j <;> simp [hj, Option.map_map, Function.comp_def]

/-- The method `fill` does what `fill_view` does. -/
theorem fill_eq_fillScalar {a : Handle} (hw : a.view.WF) (h : Heap α) (x : α) :
    h.fill a x = h.fillScalar a x := by
  have hset : ∀ (l : List (List Nat)) (h : Heap α), (∀ i ∈ l, InShape a.view.shape i) →
      l.foldlM (fun h i => h.setElement a i x) h = some { h with mems := List.foldl (fun (ms : List (Int → α)) i =>
        ms.modify a.buf (fun m => Rumpy.setElement m a.view i x)) h.mems l } := by
    intro l
    induction l with
    | nil => intro h _; rfl
    | cons i l ih =>
      intro h hin
      rw [List.foldlM_cons]
      have e : h.setElement a i x
          = some { h with mems := h.mems.modify a.buf fun m => Rumpy.setElement m a.view i x } := by
        unfold Heap.setElement
        rw [if_pos (indexOk_iff.2 (hin i (by simp)))]
      rw [e]
      exact ih _ fun j hj => hin j (by simp [hj])
  unfold Heap.fill Heap.fillScalar
  rw [odometerAll_eq]
  dsimp only
  rw [sizeOf_eq]
  by_cases h0 : size a.view.shape = 0
  · rw [if_pos h0, List.eq_nil_of_length_eq_zero (by rw [length_indices, h0] : (indices a.view.shape).length = 0)]; rfl
  · rw [if_neg h0]
    by_cases hc : a.view.cFlag = true
    · rw [if_pos hc, hset _ _ fun i hi => mem_indices.1 hi, foldl_modify]
      congr 3
      funext m
      rw [← map_rank_indices, List.foldl_map]
      apply List.foldl_ext
      intro m i hi
      funext p
      have := cFlag_addr hw hc (mem_indices.1 hi)
      simp only [Rumpy.setElement, this]
      push_cast
      rfl
    · rw [if_neg hc]

/-- The method `fill`. -/
theorem Rel.fill {L : List (Nat × Nat)} {w : World α} {h : Heap α} (hr : Rel L w h) {a : Handle} {o : Obj}
    (ht : Tied L a o) (x : α) :
    ∃ h', h.fill a x = some h' ∧ Rel L (w.fill o x) h' ∧ h'.vars = h.vars := by
  rw [fill_eq_fillScalar ht.2.1]
  exact hr.fillScalar ht x

theorem World.read_store_ne (w : World α) {d s : Obj} {i j : List Nat} (x : α)
    (h : d.owner ≠ s.owner ∨ d.cells.get i ≠ s.cells.get j) : (w.store d i x).read s j = w.read s j := by
  unfold World.read World.store
  simp only [List.getElem?_modify]
  by_cases ho : d.owner = s.owner
  · simp only [ho, if_true]
    have h : d.cells.get i ≠ s.cells.get j := by tauto
    cases w.rows[s.owner]? with
    | none => rfl
    | some r => simp [List.getElem?_set_ne h]
  · simp [if_neg ho]

/-- `fill_view` with an array whose elements are not written before they are read. -/
theorem Rel.fillArray {L : List (Nat × Nat)} {w : World α} {h : Heap α} (hr : Rel L w h) {a b : Handle}
    {d s : Obj} (ha : Tied L a d) (hb : Tied L b s) (hsh : a.view.shape = b.view.shape)
    (hno : a.buf ≠ b.buf ∨ ∀ i j, InShape a.view.shape i → InShape a.view.shape j →
      rank a.view.shape i < rank a.view.shape j → a.view.addr i ≠ b.view.addr j) :
    ∃ h', h.fillArray a b = some h' ∧ Rel L (w.assign d s) h' ∧ h'.vars = h.vars := by
  have hcell : ∀ i j, InShape a.view.shape i → InShape a.view.shape j →
      rank a.view.shape i < rank a.view.shape j → d.owner ≠ s.owner ∨ d.cells.get i ≠ s.cells.get j := by
    intro i j hi hj hlt
    rcases hno with hno | hno
    · left; rw [ha.1, hb.1]; exact hno
    · by_cases hbuf : a.buf = b.buf
      · right
        intro he
        obtain ⟨_, _, _, l, hl, _, _, h5⟩ := ha
        obtain ⟨_, _, _, l', hl', _, _, h5'⟩ := hb
        rw [hbuf, hl', Option.some.injEq] at hl
        subst hl
        have e1 := (h5 i hi).2
        have e2 := (h5' j (by rw [← hsh]; exact hj)).2
        exact hno i j hi hj hlt (by rw [e1, e2, he])
      · left; rw [ha.1, hb.1]; exact hbuf
  have key : ∀ (l : List (List Nat)) (w' : World α) (h : Heap α), Rel L w' h →
      (∀ i ∈ l, InShape a.view.shape i) → (l.Pairwise fun i j => rank a.view.shape i < rank a.view.shape j) →
      (∀ j ∈ l, w'.read s j = w.read s j) →
      ∃ h', l.foldlM (fun h i => do
          let x ← h.getElement b i
          h.setElement a i x) h = some h' ∧
        Rel L (l.foldl (fun w' i => match w.read s i with
          | some x => w'.store d i x
          | none => w') w') h' ∧ h'.vars = h.vars := by
    intro l
    induction l with
    | nil => intro w' h hr _ _ _; exact ⟨h, rfl, hr, rfl⟩
    | cons i l ih =>
      intro w' h hr hin hpw hrd
      have hi := hin i (by simp)
      obtain ⟨x, e1, e2⟩ := hr.read hb (i := i) (by rw [← hsh]; exact hi)
      obtain ⟨h1, e3, r1, v1⟩ := hr.setElement ha hi x
      rw [List.pairwise_cons] at hpw
      rw [hrd i (by simp)] at e2
      obtain ⟨h2, e4, r2, v2⟩ := ih _ h1 r1 (fun j hj => hin j (by simp [hj])) hpw.2 (fun j hj => by
        rw [World.read_store_ne w' x (hcell i j hi (hin j (by simp [hj])) (hpw.1 j hj))]
        exact hrd j (by simp [hj]))
      refine ⟨h2, ?_, ?_, v2.trans v1⟩
      · rw [List.foldlM_cons]
        simp only [e1, e3, Option.bind_eq_bind, Option.bind_some]
        exact e4
      · rw [List.foldl_cons, e2]
        exact r2
  unfold Heap.fillArray World.assign
  rw [if_neg (by simp [hsh]), odometerAll_eq, ha.2.2.1]
  exact key _ w h hr (fun i hi => mem_indices.1 hi) (indices_pairwise_rank _) fun _ _ => rfl

/-- The values of a tied array. -/
theorem Rel.values {L : List (Nat × Nat)} {w : World α} {h : Heap α} (hr : Rel L w h) {a : Handle} {o : Obj}
    (ht : Tied L a o) {m : Int → α} (hm : h.mems[a.buf]? = some m) :
    w.values o = some ((a.view.denote m).toList) := by
  obtain ⟨m', row, h1, h2, h3⟩ := hr.get ht
  rw [hm, Option.some.injEq] at h1
  subst h1
  unfold World.values
  rw [ht.2.2.1]
  have : ∀ l : List (List Nat), (∀ i ∈ l, InShape a.view.shape i) →
      l.mapM (w.read o) = some (l.map fun i => m (a.view.addr i)) := by
    intro l
    induction l with
    | nil => intro _; rfl
    | cons i l ih =>
      intro hin
      have e : w.read o i = some (m (a.view.addr i)) := by
        unfold World.read; rw [h2]; exact h3 i (hin i (by simp))
      rw [List.mapM_cons, e, ih fun j hj => hin j (by simp [hj])]
      rfl
  exact this _ fun i hi => mem_indices.1 hi

/-- A copy is a new allocation with the same values. -/
theorem Rel.copy {L : List (Nat × Nat)} {w : World α} {h : Heap α} (hr : Rel L w h) {a : Handle} {o : Obj}
    (ht : Tied L a o) (eight : Bool) (zero : α) :
    ∃ h' c row l, h.copy eight a zero = some (h', c) ∧ w.values o = some row ∧
      Rel (L ++ [l]) (w.alloc o.cells.shape row) (h'.push c) := by
  obtain ⟨m, row, h1, h2, h3⟩ := hr.get ht
  obtain ⟨_, hw, hsh, l, hl, hit, hdv, _⟩ := id ht
  have hcp := copyArr_eq eight m hw (fun _ => by rw [hit]; exact hdv) zero
  obtain ⟨c1, c2⟩ := hcp
  have hitem : 0 < a.view.item := by rw [hit]; exact hr.pos l (List.mem_of_getElem? hl)
  have := hr.alloc (r := copyArr eight m a.view zero) zero hitem (by
    rw [c2, c1]; simp [Nd.toList, length_indices])
  refine ⟨(h.alloc (copyArr eight m a.view zero) a.view.item zero).1,
    (h.alloc (copyArr eight m a.view zero) a.view.item zero).2, (a.view.denote m).toList,
    (a.view.item, size o.cells.shape), ?_, hr.values ht h1, ?_⟩
  · unfold Heap.copy
    rw [h1]; rfl
  · have e : (a.view.denote m).shape = o.cells.shape := hsh.symm
    rw [e] at c1
    rw [c1, c2] at this
    exact this

/-! ### Temporary elision never happens -/

/-- The buffer given as `out` is held by `out` and by the broadcast view of the operand, so
`Arc::get_mut` fails. -/
theorem strong_ne_one (h : Heap α) (a : Handle) (a' : View) (b : Handle) :
    h.strong [a, ⟨a.buf, a'⟩, b] a.buf ≠ 1 := by
  unfold Heap.strong
  rw [List.countP_append]
  have : 2 ≤ List.countP (fun x : Handle => x.buf == a.buf) [a, ⟨a.buf, a'⟩, b] := by
    simp only [List.countP_cons, List.countP_nil, beq_self_eq_true, if_true]
    omega
  omega

theorem tryElision_eq {h : Heap α} {refcnt : Int} {a : Handle} {shape : List Nat} {same : Bool} {o : Handle}
    (e : h.tryElision refcnt a shape same = some o) : o = a := by
  unfold Heap.tryElision at e
  split at e
  · simp at e
  · split at e
    · simp at e
    · split at e
      · simp at e
      · simpa using e.symm

/-- The result of a binary operation is always a new buffer with the values of the operation. -/
theorem binaryElided_eq (typed same : Bool) (f : α → α → α) (h : Heap α) (refcnt : Int) (a b : Handle)
    (item : Nat) (zero : α) {shape : List Nat} {a' b' : View} {ma mb : Int → α} (hwa : a.view.WF) (hwb : b.view.WF)
    (hsh : broadcastShapes a.view.shape b.view.shape = some shape)
    (ha : a.view.broadcastTo shape = some a') (hb : b.view.broadcastTo shape = some b')
    (hma : h.mems[a.buf]? = some ma) (hmb : h.mems[b.buf]? = some mb) :
    h.binaryElided typed same f refcnt a b item zero = some (h.alloc
      ⟨shape, (indices shape).map fun i => f (ma (a'.addr i)) (mb (b'.addr i))⟩ item zero) := by
  obtain ⟨wa, sa, _, _⟩ := broadcastTo_addr hwa ha
  obtain ⟨wb, sb, _, _⟩ := broadcastTo_addr hwb hb
  unfold Heap.binaryElided
  rw [hsh]
  simp only [Option.bind_eq_bind, Option.bind_some]
  unfold Heap.mapBinaryInplace
  rw [hsh]
  simp only [Option.bind_eq_bind, Option.bind_some, ha, hb, hma, hmb]
  cases he : h.tryElision refcnt a shape same with
  | none =>
    dsimp only
    rw [mapBinary_eq f ma mb wa wb sa sb, mapBinaryFallback_eq]
    simp
  | some o =>
    have := tryElision_eq he
    subst this
    dsimp only
    rw [if_neg (strong_ne_one h o a' ⟨b.buf, b'⟩), mapBinaryFallback_eq]

/-! ### Item assignment -/

/-- The key of an item assignment as a basic index. -/
def SetKey.ix : SetKey → Ix
  | .int i => .int i
  | .slice a b c => .slice a b c

theorem modify_mid (p r : List Nat) (j : Nat) (g : Nat → Nat) :
    (p ++ j :: r).modify p.length g = p ++ g j :: r := by
  induction p with
  | nil => rfl
  | cons x p ih => simp [ih]

/-- What the loop of `__setitem__` over a tuple selects: the same elements as basic indexing; an
integer leaves an axis of length 1. -/
theorem setItemLoop_spec : ∀ (key : List SetKey) (v : View) (pre s : List Nat) (pst st : List Int)
    (s' : List Nat) (f : List Nat → List Nat), v.WF → v.shape = pre ++ s → v.strides = pst ++ st →
    pst.length = pre.length → (∀ x ∈ st, 0 ≤ x) → basicIndex (key.map SetKey.ix) s = some (s', f) →
    ∃ w news, ∃ g : List Nat → List Nat, setItemLoop key v pre.length = some w ∧ w.WF ∧ w.item = v.item ∧
      w.shape = pre ++ news ∧
      (∀ t, InShape news t → InShape s' (g t) ∧ InShape s (f (g t)) ∧
        ∀ p, InShape pre p → w.addr (p ++ t) = v.addr (p ++ f (g t))) ∧
      (∀ i, InShape s' i → ∃ t, InShape news t ∧ g t = i) ∧
      ((∀ k ∈ key, ∀ i, k ≠ .int i) → news = s' ∧ ∀ t, InShape news t → g t = t)
  | [], v, pre, s, pst, st, s', f, hw, hs, hst, hl, hn, h => by
    simp only [List.map_nil, basicIndex, Option.some.injEq, Prod.mk.injEq] at h
    obtain ⟨rfl, rfl⟩ := h
    exact ⟨v, s, id, rfl, hw, rfl, hs, fun t ht => ⟨ht, ht, fun _ _ => rfl⟩, fun i hi => ⟨i, hi, rfl⟩,
      fun _ => ⟨rfl, fun _ _ => rfl⟩⟩
  | .int i :: r, v, pre, [], pst, st, s', f, hw, hs, hst, hl, hn, h => by
    simp [basicIndex, SetKey.ix] at h
  | .int i :: r, v, pre, n :: s, pst, st, s', f, hw, hs, hst, hl, hn, h => by
    simp only [List.map_cons, SetKey.ix, basicIndex] at h
    split at h
    · rename_i hin
      simp only [Option.bind_eq_bind, Option.bind_eq_some_iff, Option.some.injEq, Prod.mk.injEq] at h
      obtain ⟨⟨s1, f1⟩, h1, rfl, rfl⟩ := h
      have hll := hw.len
      rw [hs, hst] at hll
      simp only [List.length_append, List.length_cons] at hll
      obtain ⟨x, st, rfl⟩ : ∃ x st', st = x :: st' := by
        cases st with
        | nil => simp at hll; omega
        | cons x st => exact ⟨x, st, rfl⟩
      have hx : 0 ≤ x := hn x (by simp)
      have es : v.shape[pre.length]? = some n := by rw [hs]; simp
      have et : v.strides[pre.length]? = some x := by rw [hst, ← hl]; simp
      have hk0 : 0 ≤ normalizeIndex i n ∧ normalizeIndex i n < n := by unfold normalizeIndex; split <;> omega
      have hke : (if i < 0 then i + (n : Int) else i) = normalizeIndex i n := by
        unfold normalizeIndex; split <;> omega
      obtain ⟨v1, a1, a2, a3, a4, a5, _, a7⟩ := sliceAxis_denote (α := Int) id (v := v) (step := 1) (by decide) es et
        (start := normalizeIndex i n) (stop := normalizeIndex i n + 1) (Or.inl hx)
        (fun k hk => by rw [sliceLen_one] at hk; omega)
      rw [sliceLen_one, hs, set_mid _ _ _ _ rfl] at a2
      rw [hst, set_mid _ _ _ _ hl] at a3
      obtain ⟨w, news, g, b1, b2, b3, b4, b5, b6, b7⟩ := setItemLoop_spec r v1 (pre ++ [1]) s (pst ++ [x * 1]) st s1 f1
        (a5 hw.len) a2 a3 (by simp [hl]) (fun y hy => hn y (by simp [hy])) h1
      refine ⟨w, 1 :: news, fun t => g t.tail, ?_, b2, b3.trans a4, by rw [b4]; simp, ?_, ?_, ?_⟩
      · simp only [setItemLoop, es, a1, Option.bind_eq_bind, Option.bind_some]
        simpa using b1
      · intro t ht
        obtain ⟨j, t, rfl, hj, ht'⟩ := inShape_cons.1 ht
        have : j = 0 := by omega
        subst this
        obtain ⟨c1, c2, c3⟩ := b5 t ht'
        refine ⟨c1, ⟨by rw [hke]; omega, c2⟩, fun p hp => ?_⟩
        have hp1 : InShape (pre ++ [1]) (p ++ [0]) :=
          (inShape_append_iff hp.length_eq).2 ⟨hp, by simp [InShape]⟩
        have e1 := c3 (p ++ [0]) hp1
        have e2 := a7 ((p ++ [0]) ++ f1 (g t)) (by
          rw [a2]; exact (inShape_append_iff hp1.length_eq).2 ⟨hp1, c2⟩)
        have e3 : ((p ++ [0]) ++ f1 (g t)).modify pre.length (fun k => (normalizeIndex i n + k * 1).toNat)
            = p ++ (normalizeIndex i n).toNat :: f1 (g t) := by
          rw [List.append_assoc, List.singleton_append, ← hp.length_eq, modify_mid]; simp
        rw [List.append_assoc, List.singleton_append] at e1
        rw [e1, e2, e3]
        simp only [List.tail_cons, hke]
      · intro j hj
        obtain ⟨t, c1, c2⟩ := b6 j hj
        exact ⟨0 :: t, ⟨by omega, c1⟩, c2⟩
      · intro hk
        exact absurd rfl (hk (.int i) (by simp) i)
    · simp at h
  | .slice a b c :: r, v, pre, [], pst, st, s', f, hw, hs, hst, hl, hn, h => by
    simp [basicIndex, SetKey.ix] at h
  | .slice a b c :: r, v, pre, n :: s, pst, st, s', f, hw, hs, hst, hl, hn, h => by
    simp only [List.map_cons, SetKey.ix, basicIndex] at h
    split at h
    · simp at h
    · rename_i hc0
      simp only [Option.bind_eq_bind, Option.bind_eq_some_iff, Option.some.injEq, Prod.mk.injEq] at h
      obtain ⟨⟨s1, f1⟩, h1, rfl, rfl⟩ := h
      have hll := hw.len
      rw [hs, hst] at hll
      simp only [List.length_append, List.length_cons] at hll
      obtain ⟨x, st, rfl⟩ : ∃ x st', st = x :: st' := by
        cases st with
        | nil => simp at hll; omega
        | cons x st => exact ⟨x, st, rfl⟩
      have hx : 0 ≤ x := hn x (by simp)
      have es : v.shape[pre.length]? = some n := by rw [hs]; simp
      have et : v.strides[pre.length]? = some x := by rw [hst, ← hl]; simp
      have hlen := sliceLen_spec (start := sliceStart n a c) (stop := sliceStop n b c) hc0
      have hlen2 := specLen_isSliceLen (start := sliceStart n a c) (stop := sliceStop n b c) hc0
      have hL := IsSliceLen.unique hlen hlen2
      obtain ⟨v1, a1, a2, a3, a4, a5, _, a7⟩ := sliceAxis_denote (α := Int) id (v := v) (step := c) hc0 es et
        (start := sliceStart n a c) (stop := sliceStop n b c) (Or.inl hx)
        (fun k hk => (slice_positions hc0 hlen hk).1)
      rw [hL] at a2
      set m := (if c > 0 then ((sliceStop n b c - sliceStart n a c + c - 1) / c).toNat
        else ((sliceStart n a c - sliceStop n b c - c - 1) / (-c)).toNat) with hm
      rw [hs, set_mid _ _ _ _ rfl] at a2
      rw [hst, set_mid _ _ _ _ hl] at a3
      obtain ⟨w, news, g, b1, b2, b3, b4, b5, b6, b7⟩ := setItemLoop_spec r v1 (pre ++ [m]) s (pst ++ [x * c]) st s1 f1
        (a5 hw.len) a2 a3 (by simp [hl]) (fun y hy => hn y (by simp [hy])) h1
      refine ⟨w, m :: news, fun t => t.headD 0 :: g t.tail, ?_, b2, b3.trans a4, by rw [b4]; simp, ?_, ?_, ?_⟩
      · simp only [setItemLoop, es, Option.bind_eq_bind, Option.bind_some]
        rw [if_neg hc0, a1, Option.bind_some]
        simpa using b1
      · intro t ht
        obtain ⟨j, t, rfl, hj, ht⟩ := inShape_cons.1 ht
        obtain ⟨c1, c2, c3⟩ := b5 t ht
        have hpos := slice_positions hc0 hlen2 hj
        simp only [List.headD_cons, List.tail_cons]
        refine ⟨⟨hj, c1⟩, ⟨by omega, c2⟩, fun p hp => ?_⟩
        have hp1 : InShape (pre ++ [m]) (p ++ [j]) :=
          (inShape_append_iff hp.length_eq).2 ⟨hp, by simp [InShape]; exact hj⟩
        have e1 := c3 (p ++ [j]) hp1
        have e2 := a7 ((p ++ [j]) ++ f1 (g t)) (by
          rw [a2]; exact (inShape_append_iff hp1.length_eq).2 ⟨hp1, c2⟩)
        have e3 : ((p ++ [j]) ++ f1 (g t)).modify pre.length (fun k => (sliceStart n a c + k * c).toNat)
            = p ++ (sliceStart n a c + j * c).toNat :: f1 (g t) := by
          rw [List.append_assoc, List.singleton_append, ← hp.length_eq, modify_mid]
        rw [List.append_assoc, List.singleton_append] at e1
        rw [e1, e2, e3]
      · intro i hi
        obtain ⟨j, t, rfl, hj, ht⟩ := inShape_cons.1 hi
        obtain ⟨t', c1, c2⟩ := b6 t ht
        exact ⟨j :: t', ⟨hj, c1⟩, by simp [c2]⟩
      · intro hk
        obtain ⟨d1, d2⟩ := b7 fun k hk' => hk k (by simp [hk'])
        refine ⟨by rw [d1], fun t ht => ?_⟩
        obtain ⟨j, t, rfl, hj, ht⟩ := inShape_cons.1 ht
        simp [d2 t ht]

/-- Different indices of a basic index are different elements. -/
theorem basicIndex_injective : ∀ (items : List Ix) (s s' : List Nat) (f : List Nat → List Nat),
    basicIndex items s = some (s', f) → ∀ i j, InShape s' i → InShape s' j → f i = f j → i = j
  | [], s, s', f, h, i, j, _, _, e => by
    simp only [basicIndex, Option.some.injEq, Prod.mk.injEq] at h
    obtain ⟨rfl, rfl⟩ := h
    exact e
  | .newAxis :: r, s, s', f, h, i, j, hi, hj, e => by
    simp only [basicIndex, Option.bind_eq_bind, Option.bind_eq_some_iff, Option.some.injEq, Prod.mk.injEq] at h
    obtain ⟨⟨s1, f1⟩, h1, rfl, rfl⟩ := h
    obtain ⟨x, t, rfl, hx, ht⟩ := inShape_cons.1 hi
    obtain ⟨y, u, rfl, hy, hu⟩ := inShape_cons.1 hj
    have := basicIndex_injective r s s1 f1 h1 t u ht hu e
    rw [this]; congr 1; omega
  | .int k :: r, [], s', f, h, _, _, _, _, _ => by simp [basicIndex] at h
  | .int k :: r, n :: s, s', f, h, i, j, hi, hj, e => by
    simp only [basicIndex] at h
    split at h
    · simp only [Option.bind_eq_bind, Option.bind_eq_some_iff, Option.some.injEq, Prod.mk.injEq] at h
      obtain ⟨⟨s1, f1⟩, h1, rfl, rfl⟩ := h
      exact basicIndex_injective r s s1 f1 h1 i j hi hj (List.cons.inj e).2
    · simp at h
  | .slice a b c :: r, [], s', f, h, _, _, _, _, _ => by simp [basicIndex] at h
  | .slice a b c :: r, n :: s, s', f, h, i, j, hi, hj, e => by
    simp only [basicIndex] at h
    split at h
    · simp at h
    · rename_i hc0
      simp only [Option.bind_eq_bind, Option.bind_eq_some_iff, Option.some.injEq, Prod.mk.injEq] at h
      obtain ⟨⟨s1, f1⟩, h1, rfl, rfl⟩ := h
      have hlen2 := specLen_isSliceLen (start := sliceStart n a c) (stop := sliceStop n b c) hc0
      obtain ⟨x, t, rfl, hx, ht⟩ := inShape_cons.1 hi
      obtain ⟨y, u, rfl, hy, hu⟩ := inShape_cons.1 hj
      have p1 := slice_positions hc0 hlen2 hx
      have p2 := slice_positions hc0 hlen2 hy
      simp only [List.headD_cons, List.tail_cons, List.cons.injEq] at e
      have := basicIndex_injective r s s1 f1 h1 t u ht hu e.2
      have e1 : (x : Int) * c = y * c := by omega
      have e2 := Int.eq_of_mul_eq_mul_right hc0 e1
      rw [this]; congr 1; omega

/-- A key of integers only, one for each axis. -/
theorem allInts_basicIndex : ∀ (key : List SetKey) (is : List Int) (s s' : List Nat) (f : List Nat → List Nat),
    allInts key = some is → is.length = s.length → basicIndex (key.map SetKey.ix) s = some (s', f) →
    s' = [] ∧ InShape s (f []) ∧ List.zipWith (fun i n => let k := normalizeIndex i n
        if k < 0 then n else k.toNat) is s = f []
  | [], is, s, s', f, h, hl, hb => by
    simp only [allInts, Option.some.injEq] at h
    subst h
    have : s = [] := List.eq_nil_of_length_eq_zero (by simpa using hl.symm)
    subst this
    simp only [List.map_nil, basicIndex, Option.some.injEq, Prod.mk.injEq] at hb
    obtain ⟨rfl, rfl⟩ := hb
    simp [InShape]
  | .slice _ _ _ :: r, is, s, s', f, h, hl, hb => by simp [allInts] at h
  | .int i :: r, is, s, s', f, h, hl, hb => by
    simp only [allInts, Option.map_eq_some_iff] at h
    obtain ⟨is', h1, rfl⟩ := h
    cases s with
    | nil => simp at hl
    | cons n s =>
      simp only [List.map_cons, SetKey.ix, basicIndex] at hb
      split at hb
      · rename_i hin
        simp only [Option.bind_eq_bind, Option.bind_eq_some_iff, Option.some.injEq, Prod.mk.injEq] at hb
        obtain ⟨⟨s1, f1⟩, h2, rfl, rfl⟩ := hb
        obtain ⟨e1, e2, e3⟩ := allInts_basicIndex r is' s s1 f1 h1 (by simpa using hl) h2
        have hk : (if i < 0 then i + (n : Int) else i) = normalizeIndex i n := by
          unfold normalizeIndex; split <;> omega
        have hk0 : 0 ≤ normalizeIndex i n ∧ normalizeIndex i n < n := by unfold normalizeIndex; split <;> omega
        refine ⟨e1, ⟨by rw [hk]; omega, e2⟩, ?_⟩
        rw [List.zipWith_cons_cons, e3, hk]
        dsimp only
        rw [if_neg (by omega)]
      · simp at hb

/-- Storing through a view, element by element: memory afterwards. -/
theorem setAll_mem (a : Handle) (x : List Nat → α) : ∀ (l : List (List Nat)) (h : Heap α) (m : Int → α),
    h.mems[a.buf]? = some m → (∀ i ∈ l, InShape a.view.shape i) →
    ∃ m', l.foldlM (fun h i => h.setElement a i (x i)) h = some { h with mems := h.mems.set a.buf m' } ∧
      (∀ p, (∀ i ∈ l, a.view.addr i ≠ p) → m' p = m p) ∧
      ((∀ i ∈ l, ∀ j ∈ l, a.view.addr i = a.view.addr j → x i = x j) → ∀ i ∈ l, m' (a.view.addr i) = x i)
  | [], h, m, hm, _ => by
    refine ⟨m, ?_, fun _ _ => rfl, by simp⟩
    have : h.mems.set a.buf m = h.mems := by
      apply List.ext_getElem?
      intro j
      rw [List.getElem?_set]
      split
      · rename_i e; subst e
        have hlt := (List.getElem?_eq_some_iff.1 hm).1
        rw [if_pos hlt, hm]
      · rfl
    rw [this]; rfl
  | i :: l, h, m, hm, hin => by
    have hlt := (List.getElem?_eq_some_iff.1 hm).1
    have e : h.setElement a i (x i) = some { h with mems := h.mems.set a.buf (Rumpy.setElement m a.view i (x i)) } := by
      unfold Heap.setElement
      rw [if_pos (indexOk_iff.2 (hin i (by simp)))]
      congr 2
      apply List.ext_getElem?
      intro j
      rw [List.getElem?_modify, List.getElem?_set]
      split
      · rename_i ej; subst ej
        rw [hm]; rfl
      · simp
    obtain ⟨m', e1, e2, e3⟩ := setAll_mem a x l { h with mems := h.mems.set a.buf (Rumpy.setElement m a.view i (x i)) }
      (Rumpy.setElement m a.view i (x i)) (by simp [hlt]) fun j hj => hin j (by simp [hj])
    refine ⟨m', ?_, ?_, ?_⟩
    · rw [List.foldlM_cons, e]
      simp only [Option.bind_eq_bind, Option.bind_some]
      rw [e1]
      simp
    · intro p hp
      rw [e2 p fun j hj => hp j (by simp [hj])]
      unfold Rumpy.setElement
      rw [if_neg fun hh => hp i (by simp) hh.symm]
    · intro hx j hj
      have hx' : ∀ i ∈ l, ∀ j ∈ l, a.view.addr i = a.view.addr j → x i = x j :=
        fun u hu w hw' => hx u (by simp [hu]) w (by simp [hw'])
      by_cases hjl : ∃ u ∈ l, a.view.addr u = a.view.addr j
      · obtain ⟨u, hu, hua⟩ := hjl
        rw [← hua, e3 hx' u hu]
        exact hx u (by simp [hu]) j hj hua
      · push Not at hjl
        rw [e2 _ hjl]
        rcases List.mem_cons.1 hj with rfl | hj
        · simp [Rumpy.setElement]
        · exact absurd rfl (hjl j hj)

end Rumpy
