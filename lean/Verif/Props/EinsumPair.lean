import Verif.Props.Einsum
/-!
# Property C41: Einstein sums of two operands
-/

namespace Props
open Spec Rumpy

/-! ### Reshaping to a matrix -/

theorem denote_get_of_toList {a b : Nd R} (h : a.toList = b.toList) {i j : List Nat} (hi : InShape a.shape i)
    (hj : InShape b.shape j) (hr : rank a.shape i = rank b.shape j) : a.get i = b.get j := by
  have h1 := toList_getElem? hi
  have h2 := toList_getElem? hj
  rw [hr, h, h2] at h1
  exact (Option.some.inj h1).symm

theorem inShape_le_one {S x : List Nat} (hl : S.length ≤ 1) (hx : InShape S x) : (S = [] ∧ x = []) ∨ ∃ n i, S = [n] ∧ x = [i] ∧ i < n := by
  match S, x, hx, hl with
  | [], [], _, _ => exact Or.inl ⟨rfl, rfl⟩
  | [n], [i], h, _ => exact Or.inr ⟨n, i, rfl, rfl, h.1⟩

/-- An array whose axes are `S` and then `T`, reshaped to a matrix: rows are the indices of `S`, columns those of `T`. -/
theorem reshape_two {v w : View} (mem : Int → R) {S T : List Nat} (hw : v.WF) (hs : v.shape = S ++ T)
    (h : v.reshape [max (size S) 1, max (size T) 1] = some w)
    (hc : v.cFlag = true ∨ (S.length ≤ 1 ∧ T.length ≤ 1)) :
    w.WF ∧ w.shape = [size S, size T] ∧ ∀ x y, InShape S x → InShape T y →
      (w.denote mem).get [rank S x, rank T y] = (v.denote mem).get (x ++ y) := by
  have hsome : (v.reshape [max (size S) 1, max (size T) 1]).isSome := by rw [h]; rfl
  rw [C08_reshape_succeeds_iff] at hsome
  have hsz := hsome.1
  rw [hs, size_append] at hsz
  simp only [size, Nat.mul_one] at hsz
  have hS : 0 < size S := by
    rcases Nat.eq_zero_or_pos (size S) with h0 | h0
    · rw [h0] at hsz; simp at hsz; omega
    · exact h0
  have hT : 0 < size T := by
    rcases Nat.eq_zero_or_pos (size T) with h0 | h0
    · rw [h0] at hsz; simp at hsz; omega
    · exact h0
  rw [Nat.max_eq_left hS, Nat.max_eq_left hT] at h
  obtain ⟨w1, w2⟩ := reshape_shape_wf h
  refine ⟨w2, w1, ?_⟩
  intro x y hx hy
  have hi : InShape [size S, size T] [rank S x, rank T y] := ⟨rank_lt hx, rank_lt hy, trivial⟩
  have hj : InShape (S ++ T) (x ++ y) := (inShape_append_iff (inShape_length hx)).2 ⟨hx, hy⟩
  have hrank : rank [size S, size T] [rank S x, rank T y] = rank (S ++ T) (x ++ y) := by
    rw [rank_append T y (inShape_length hx)]
    simp [rank, size]
  cases hcf : v.cFlag with
  | true =>
    obtain ⟨_, _, e⟩ := C08_reshape_partial mem v w hw _ hcf h
    apply denote_get_of_toList e
    · show InShape w.shape _; rw [w1]; exact hi
    · show InShape v.shape _; rw [hs]; exact hj
    · show rank w.shape _ = rank v.shape _; rw [w1, hs, hrank]
  | false =>
    rcases hc with hc | ⟨h1, h2⟩
    · rw [hcf] at hc; simp at hc
    · apply C08_reshape_fortran mem v w hw _ hcf h
      · rw [hs]; exact hj
      · exact hi
      · rw [hs]
        rcases inShape_le_one h1 hx with ⟨rfl, rfl⟩ | ⟨n, i, rfl, rfl, hn⟩ <;>
        rcases inShape_le_one h2 hy with ⟨rfl, rfl⟩ | ⟨m, j, rfl, rfl, hm⟩ <;>
        simp [rankF, rank, size]

theorem fStridesLoop_dvd (item : Nat) : ∀ (s : List Nat) (acc : Int), (item : Int) ∣ acc → ∀ x ∈ fStridesLoop s acc, (item : Int) ∣ x
  | [], acc, _, x, h => by simp [fStridesLoop] at h
  | n :: s, acc, ha, x, h => by
    simp only [fStridesLoop, List.mem_cons] at h
    rcases h with rfl | h
    · exact ha
    · exact fStridesLoop_dvd item s _ (Dvd.dvd.mul_right ha _) x h

theorem reshape_facts {v w : View} {s : List Nat} (h : v.reshape s = some w) :
    w.item = v.item ∧ w.offset = v.offset ∧ ∀ x ∈ w.strides, (v.item : Int) ∣ x := by
  unfold View.reshape at h
  split at h
  · simp at h
  · split at h
    · simp at h
    · dsimp only at h
      cases h
      refine ⟨rfl, by simp [View.viewWith], ?_⟩
      intro x hx
      have hx : x ∈ (if v.cFlag = true then cStrides s v.item else fStrides s v.item) := hx
      split at hx
      · exact cStrides_dvd _ _ _ hx
      · exact fStridesLoop_dvd _ _ _ (dvd_refl _) x hx

/-! ### The fast paths -/

theorem einsumFinish_eq [CommSemiring R] {item : Nat} {nd : Nd R} :
    einsumFinish item nd.shape (some nd.toList) = .ok (Held.of ⟨nd.shape, nd.toList⟩ item 0) := by
  unfold einsumFinish
  split
  · rename_i h0
    rw [sizeOf_eq] at h0
    have hl := Nd.length_toList nd
    rw [h0, List.length_eq_zero_iff] at hl
    rw [hl]
  · rfl

theorem reshape_flat_one {a : Held R} (ha : a.view.WF) {n : Nat} (hs : a.view.shape = [n]) {w : View}
    (h : a.view.reshape [Rumpy.sizeOf a.view.shape] = some w) :
    w.shape = [size a.view.shape] ∧ w.WF ∧ ∀ i < size a.view.shape, a.nd.toList[i]? = some (a.mem (w.addr [i])) := by
  have hn : size a.view.shape = n := by rw [hs]; simp [size]
  rw [sizeOf_eq, hn] at h
  obtain ⟨w1, w2⟩ := reshape_shape_wf h
  refine ⟨by rw [w1, hn], w2, ?_⟩
  intro i hi
  rw [hn] at hi
  have hget : (w.denote a.mem).get [i] = a.nd.get [i] := by
    cases hcf : a.view.cFlag with
    | true =>
      obtain ⟨_, _, e⟩ := C08_reshape_partial a.mem a.view w ha _ hcf h
      apply denote_get_of_toList e
      · show InShape w.shape _; rw [w1]; exact ⟨hi, trivial⟩
      · show InShape a.view.shape _; rw [hs]; exact ⟨hi, trivial⟩
      · show rank w.shape _ = rank a.view.shape _; rw [w1, hs]
    | false =>
      apply C08_reshape_fortran a.mem a.view w ha _ hcf h
      · rw [hs]; exact ⟨hi, trivial⟩
      · exact ⟨hi, trivial⟩
      · rw [hs]
  have h1 := toList_getElem? (nd := a.nd) (idx := [i]) (by show InShape a.view.shape _; rw [hs]; exact ⟨hi, trivial⟩)
  have h2 : rank a.nd.shape [i] = i := by show rank a.view.shape _ = _; rw [hs]; simp [rank, size]
  rw [h2] at h1
  rw [h1, ← hget]
  rfl

theorem isBroadcast_self (s : List Nat) : IsBroadcast s s s := ⟨by simp, fun k hk => Or.inl ⟨rfl, rfl⟩⟩

theorem broadcast_self_get {a : Nd R} {idx : List Nat} (hi : InShape a.shape idx) : (a.broadcast a.shape).get idx = a.get idx := by
  show a.get _ = _
  rw [Nat.sub_self, List.drop_zero, zipWith_bc_self hi]

/-- The result is a transposed outer product: the only result of two operands that is not freshly laid out. -/
def TransposedOuter (sa sb out : List Char) : Prop := sa.length = 1 ∧ out = sb ++ sa ∧ out ≠ sa ++ sb

theorem pair_fast {R : Type} [CommSemiring R] {sa sb out : List Char} {dim : Char → Nat} {a b : Held R} (ha : a.view.WF) (hb : b.view.WF)
    {put : R → R} (hput : ∀ x, put x = x) (hitem : 0 < a.view.item) (hsa : a.view.shape = sa.map dim) (hsb : b.view.shape = sb.map dim)
    (hos : ∀ c ∈ out, c ∈ sa ∨ c ∈ sb) (ho : out.Nodup) {r : Held R} (hx : einsumPairFast put ⟨[sa, sb], out⟩ a b = some r) :
    r.nd.Same (Spec.einsum [sa, sb] out dim [a.nd, b.nd]) ∧ r.view.WF ∧ r.view.item = a.view.item ∧
      (¬ TransposedOuter sa sb out →
        r = Held.of ⟨out.map dim, (Spec.einsum [sa, sb] out dim [a.nd, b.nd]).toList⟩ a.view.item 0) := by
  have split : (∀ c, c ∈ sa ∨ c ∈ sb → c ∈ out) → ∀ idx, InShape (out.map dim) idx →
      (Spec.einsum [sa, sb] out dim [a.nd, b.nd]).get idx = a.nd.get (sa.map (assign out idx)) * b.nd.get (sb.map (assign out idx)) := by
    intro hm idx hi
    rw [einsum_split dim [a.nd, b.nd] ho (contr := []) List.nodup_nil (by intro c; simpa using fun h => hm c h) hi]
    simp [indices, einTerm_two]
  unfold einsumPairFast at hx
  dsimp only at hx
  simp only [List.getD_cons_zero, List.getD_cons_succ] at hx
  split at hx
  · rename_i h
    obtain ⟨hdis, hla, hlb, hlo⟩ := h
    rw [hsa, List.length_map] at hla
    rw [hsb, List.length_map] at hlb
    obtain ⟨i, rfl⟩ := List.length_eq_one_iff.1 hla
    obtain ⟨j, rfl⟩ := List.length_eq_one_iff.1 hlb
    obtain ⟨x, y, rfl⟩ := List.length_eq_two.1 hlo
    have hij : i ≠ j := by simpa using hdis
    have hxy : x ≠ y := by simpa using ho
    have hsa' : a.view.shape = [dim i] := by simpa using hsa
    have hsb' : b.view.shape = [dim j] := by simpa using hsb
    rw [Option.map_eq_some_iff] at hx
    obtain ⟨arr, harr, hx⟩ := hx
    obtain ⟨a', ea⟩ : ∃ a', a.view.reshape [Rumpy.sizeOf a.view.shape] = some a' := by
      unfold outer at harr
      cases e : a.view.reshape [Rumpy.sizeOf a.view.shape] with
      | none => simp [e] at harr
      | some w => exact ⟨w, rfl⟩
    obtain ⟨b', eb⟩ : ∃ b', b.view.reshape [Rumpy.sizeOf b.view.shape] = some b' := by
      unfold outer at harr
      cases e : b.view.reshape [Rumpy.sizeOf b.view.shape] with
      | none => simp [ea, e] at harr
      | some w => exact ⟨w, rfl⟩
    obtain ⟨a1, a2, a3⟩ := reshape_flat_one ha hsa' ea
    obtain ⟨b1, b2, b3⟩ := reshape_flat_one hb hsb' eb
    obtain ⟨arr', harr', hIs⟩ := outer_of_flat put a b a.view.item hitem 0 0 ea a1 a2 a3 eb b1 b2 b3
    rw [harr] at harr'
    cases harr'
    have hshape : arr.shape = [dim i, dim j] := by
      rw [hIs.1]
      show [size a.view.shape, size b.view.shape] = _
      rw [hsa', hsb']; simp [size]
    have hval : ∀ p q, p < dim i → q < dim j →
        (Held.of arr a.view.item 0).nd.get [p, q] = a.nd.get [p] * b.nd.get [q] := by
      intro p q hp hq
      have hd := hIs.denote hitem 0
      have : (Held.of arr a.view.item 0).nd.get [p, q] = _ := hd.2 [p, q] (by show InShape arr.shape _; rw [hshape]; exact ⟨hp, hq, trivial⟩)
      rw [this]
      show put (a.nd.toList.getD p 0 * b.nd.toList.getD q 0) = _
      rw [hput]
      have e1 := toList_getElem? (nd := a.nd) (idx := [p]) (by show InShape a.view.shape _; rw [hsa']; exact ⟨hp, trivial⟩)
      have e2 := toList_getElem? (nd := b.nd) (idx := [q]) (by show InShape b.view.shape _; rw [hsb']; exact ⟨hq, trivial⟩)
      have r1 : rank a.nd.shape [p] = p := by show rank a.view.shape _ = _; rw [hsa']; simp [rank, size]
      have r2 : rank b.nd.shape [q] = q := by show rank b.view.shape _ = _; rw [hsb']; simp [rank, size]
      rw [r1] at e1
      rw [r2] at e2
      rw [List.getD_eq_getElem?_getD, List.getD_eq_getElem?_getD, e1, e2]
      rfl
    have hx0 := hos x (by simp)
    have hy0 := hos y (by simp)
    simp only [List.mem_singleton] at hx0 hy0
    have hcase : (x = i ∧ y = j) ∨ (x = j ∧ y = i) := by
      rcases hx0 with rfl | rfl <;> rcases hy0 with rfl | rfl
      · exact absurd rfl hxy
      · exact Or.inl ⟨rfl, rfl⟩
      · exact Or.inr ⟨rfl, rfl⟩
      · exact absurd rfl hxy
    rcases hcase with ⟨rfl, rfl⟩ | ⟨rfl, rfl⟩
    · simp only [List.cons_append, List.nil_append, if_true] at hx
      subst hx
      have hIs' : arr.Is (Spec.einsum [[x], [y]] [x, y] dim [a.nd, b.nd]) := by
        refine Arr.is_iff.2 ⟨hshape, ?_, ?_⟩
        · have := congrArg List.length hIs.2
          rw [this, Nd.length_toList]
          show size [size a.view.shape, size b.view.shape] = size ([x, y].map dim)
          rw [hsa', hsb']; simp [size]
        · intro idx hi
          have hi : InShape ([x, y].map dim) idx := hi
          obtain ⟨p, q, rfl, hp, hq⟩ := inShape_two (by simpa using hi)
          rw [split (by simp) _ hi]
          have hd := hIs.at? (idx := [p, q]) (by
            show InShape [size a.view.shape, size b.view.shape] _
            rw [hsa', hsb']; exact ⟨by simpa [size] using hp, by simpa [size] using hq, trivial⟩)
          rw [hd]
          have h2 := hval p q hp hq
          have hdd := (hIs.denote hitem 0).2 [p, q] (by show InShape arr.shape _; rw [hshape]; exact ⟨hp, hq, trivial⟩)
          rw [← hdd]
          rw [show (View.denote (arr.mem a.view.item 0) (arr.view a.view.item)).get [p, q] = _ from h2]
          simp [assign, List.idxOf_cons, hxy]
      refine ⟨hIs'.denote hitem 0, View.WF.fresh _ _, rfl, ?_⟩
      intro _
      have : arr = ⟨[x, y].map dim, (Spec.einsum [[x], [y]] [x, y] dim [a.nd, b.nd]).toList⟩ := by
        cases arr with
        | mk s dd => exact congrArg₂ Arr.mk hIs'.1 hIs'.2
      rw [← this]
    · have hne : ¬ ([y] ++ [x] = [x, y]) := by
        intro h
        simp only [List.cons_append, List.nil_append, List.cons.injEq] at h
        exact hxy h.1.symm
      rw [if_neg hne] at hx
      subst hx
      have hT : TransposedOuter [y] [x] [x, y] := ⟨rfl, rfl, by
        intro h
        simp only [List.cons_append, List.nil_append, List.cons.injEq] at h
        exact hxy h.1⟩
      have hws : (Held.of arr a.view.item 0).view.WF := View.WF.fresh _ _
      obtain ⟨_, t3⟩ := C06_transpose (Held.of arr a.view.item 0).mem (Held.of arr a.view.item 0).view hws
      refine ⟨⟨?_, ?_⟩, View.WF.viewWith (by simp [hws.len]), rfl, fun h => absurd hT h⟩
      · show arr.shape.reverse = _
        rw [hshape]; rfl
      · intro idx hi
        have hi' : InShape ([x, y].map dim) idx := by
          have hi : InShape arr.shape.reverse idx := hi
          rw [hshape] at hi; exact hi
        obtain ⟨p, q, rfl, hp, hq⟩ := inShape_two (by simpa using hi')
        rw [split (by simp) _ hi']
        refine (t3 [p, q] hi).trans ?_
        show (Held.of arr a.view.item 0).nd.get [q, p] = _
        rw [hval q p hq hp]
        simp [assign, List.idxOf_cons, hxy]
  · split at hx
    · rename_i h
      obtain ⟨rfl, rfl⟩ := h
      rw [Option.map_eq_some_iff] at hx
      obtain ⟨arr, harr, rfl⟩ := hx
      have hbr : IsBroadcast a.view.shape b.view.shape a.view.shape := by rw [hsb, ← hsa]; exact isBroadcast_self _
      have hIs := C15_binary true (fun x y : R => x * y) a.mem b.mem a.view b.view ha hb 0 arr _ hbr harr
      have hIs' : arr.Is (Spec.einsum [sa, sa] sa dim [a.nd, b.nd]) := by
        refine hIs.congr ⟨hsa, ?_⟩
        intro idx hi
        have hi : InShape a.view.shape idx := hi
        have hi' : InShape (sa.map dim) idx := hsa ▸ hi
        have hl : idx.length = sa.length := by simpa using inShape_length hi'
        rw [split (by simp) _ hi', map_assign ho hl]
        have e1 := broadcast_self_get (a := a.nd) (idx := idx) hi
        have e2 := broadcast_self_get (a := b.nd) (idx := idx) (by show InShape b.view.shape _; rw [hsb]; exact hi')
        have e3 : b.nd.shape = a.view.shape := by rw [hsa, ← hsb]; rfl
        rw [e3] at e2
        exact congrArg₂ (· * ·) e1 e2
      refine ⟨hIs'.denote hitem 0, View.WF.fresh _ _, rfl, ?_⟩
      intro _
      have : arr = ⟨sa.map dim, (Spec.einsum [sa, sa] sa dim [a.nd, b.nd]).toList⟩ := by
        cases arr with
        | mk s dd => exact congrArg₂ Arr.mk hIs'.1 hIs'.2
      rw [← this]
    · simp at hx

/-! ### The product of matrices -/

theorem transposeAxes_facts {v w : View} {axes : List Nat} (h : v.transposeAxes axes = some w) :
    w.item = v.item ∧ w.offset = v.offset := by
  unfold View.transposeAxes at h
  split at h
  · simp at h
  · cases e1 : axes.mapM (fun a => v.shape[a]?) with
    | none => simp [e1] at h
    | some x =>
      cases e2 : axes.mapM (fun a => v.strides[a]?) with
      | none => simp [e1, e2] at h
      | some y =>
        simp only [e1, e2, Option.bind_eq_bind, Option.bind_some, Option.some.injEq] at h
        subst h
        exact ⟨rfl, by simp [View.viewWith]⟩

theorem map_idxOf_inj {sub L M : List Char} (hL : ∀ c ∈ L, c ∈ sub) (hM : ∀ c ∈ M, c ∈ sub)
    (h : L.map sub.idxOf = M.map sub.idxOf) : L = M := by
  have key : ∀ {K : List Char}, (∀ c ∈ K, c ∈ sub) → (K.map sub.idxOf).map (fun i => sub.getD i 'a') = K := by
    intro K hK
    rw [List.map_map]
    conv_rhs => rw [← List.map_id K]
    apply List.map_congr_left
    intro c hc
    have := List.idxOf_lt_length_of_mem (hK c hc)
    simp [List.getD_eq_getElem?_getD, List.getElem?_eq_getElem this]
  rw [← key hL, ← key hM, h]

theorem permuted_spec {R : Type} {sub L : List Char} {dim : Char → Nat} {a : Held R} (hw : a.view.WF) (hs : a.view.shape = sub.map dim)
    (hn : sub.Nodup) (hp : L.Perm sub) :
    ∃ a', permuted a (L.map fun c => (position? sub c).getD 0) = some a' ∧ a'.view.WF ∧ a'.view.item = a.view.item ∧
      a'.view.shape = L.map dim ∧ ∀ idx, InShape (L.map dim) idx → a'.nd.get idx = a.nd.get (sub.map (assign L idx)) := by
  have hL : L.Nodup := hp.nodup_iff.2 hn
  unfold permuted
  split
  · rename_i h
    have hperm : L.map (fun c => (position? sub c).getD 0) = L.map sub.idxOf := by
      apply List.map_congr_left
      intro c hc
      rw [position?_idxOf hn (hp.mem_iff.1 hc)]; rfl
    rw [hperm, List.length_map, hp.length_eq, ← map_idxOf_range hn] at h
    have : L = sub := map_idxOf_inj (fun c hc => hp.mem_iff.1 hc) (fun c hc => hc) h
    subst this
    refine ⟨a, rfl, hw, rfl, hs, ?_⟩
    intro idx hi
    rw [map_assign hn (by simpa using inShape_length hi)]
  · obtain ⟨w, h1, h2, h3, h4⟩ := permute_letters (R := R) a.view a.mem hw hs hn hL (fun c hc => hp.mem_iff.2 hc) fun c hc => hp.mem_iff.1 hc
    rw [h1]
    exact ⟨⟨a.mem, w⟩, rfl, h2, (transposeAxes_facts h1).1, h3, h4⟩

theorem rawCopy_of [Zero R] {arr : Arr R} {item : Nat} (hi : 0 < item) {v : View} (ho : v.offset = 0) (hv : v.item = item) :
    rawCopy ⟨arr.mem item 0, v⟩ arr.data.length = arr.data := by
  unfold rawCopy
  apply List.ext_getElem (by simp)
  intro k h1 h2
  simp only [List.getElem_map, List.getElem_range, ho, hv, Arr.mem, zero_add]
  have e : ((k : Int) * (item : Int)).toNat / item = k := by
    rw [← Int.natCast_mul, Int.toNat_natCast, Nat.mul_div_cancel _ hi]
  rw [e]
  simp [List.getD_eq_getElem?_getD, List.getElem?_eq_getElem h2]

theorem sum_over_ranks [AddCommMonoid R] (s : List Nat) (f : Nat → R) :
    ∑ k ∈ Finset.range (size s), f k = ((indices s).map fun y => f (rank s y)).sum := by
  rw [show (fun y => f (rank s y)) = f ∘ rank s from rfl, ← List.map_map, map_rank_indices]
  induction size s with
  | zero => simp
  | succ n ih => rw [Finset.sum_range_succ, ih, List.range_succ]; simp

/-- After its axes are permuted to `perm`, the operand is not in column-major order only. -/
def RowMajorOrNone (h : Held R) (perm : List Nat) : Prop :=
  ∀ h', permuted h perm = some h' → h'.view.cFlag = true ∨ h'.view.fFlag = false

theorem reshape_ready {v w : View} {s : List Nat} (h : v.reshape s = some w) (hv : v.cFlag = true ∨ v.fFlag = false) : v.cFlag = true := by
  have hsome : (v.reshape s).isSome := by rw [h]; rfl
  rw [C08_reshape_succeeds_iff] at hsome
  rcases hv with h | h
  · exact h
  · rcases hsome.2 with h' | h'
    · exact h'
    · rw [h] at h'; simp at h'

/-- The matrix product of the two operands, their summed letters `C` in the same order, holds the Einstein sum. -/
theorem blas_spec {R : Type} [CommSemiring R] {d : DType} (hd : d ∈ productDTypes) {sa sb A B C : List Char} {contr : List Char} {m : List (Char × Nat)}
    {a b : Held R} (ha : a.view.WF) (hb : b.view.WF) (hia : a.view.item = Rumpy.DType.itemsize d)
    (hib : b.view.item = Rumpy.DType.itemsize d) (hsa : a.view.shape = sa.map (dimOf m)) (hsb : b.view.shape = sb.map (dimOf m))
    (na : sa.Nodup) (nb : sb.Nodup) (ho : (A ++ B).Nodup) (hcm : ∀ c, c ∈ contr ↔ (c ∈ sa ∨ c ∈ sb) ∧ c ∉ A ++ B)
    (hA : sa.filter (fun c => decide (c ∉ contr)) = A) (hB : sb.filter (fun c => decide (c ∉ contr)) = B)
    (hCa : sa.filter (fun c => decide (c ∈ contr)) = C) (hCb : sb.filter (fun c => decide (c ∈ contr)) = C)
    (ra : (A.length ≤ 1 ∧ C.length ≤ 1) ∨ RowMajorOrNone a ((A ++ C).map fun c => (position? sa c).getD 0))
    (rb : (C.length ≤ 1 ∧ B.length ≤ 1) ∨ RowMajorOrNone b ((C ++ B).map fun c => (position? sb c).getD 0)) :
    blasContraction d a b sa sb (A ++ B) contr m = none ∨
      ∃ r, blasContraction d a b sa sb (A ++ B) contr m = some (some r) ∧
        rawCopy r (size ((A ++ B).map (dimOf m))) = (Spec.einsum [sa, sb] (A ++ B) (dimOf m) [a.nd, b.nd]).toList := by
  have hd' := productDTypes_sum hd
  have hip := itemsize_pos hd'
  have pa : (A ++ C).Perm sa := by
    rw [← hA, ← hCa]
    have := List.filter_append_perm (fun c => decide (c ∉ contr)) sa
    simpa using this
  have pb : (C ++ B).Perm sb := by
    rw [← hB, ← hCb]
    have := List.filter_append_perm (fun c => decide (c ∈ contr)) sb
    simpa using this
  have nAC := pa.nodup_iff.2 na
  have nCB := pb.nodup_iff.2 nb
  obtain ⟨a', ea, wa, ia, sha, va⟩ := permuted_spec ha hsa na pa
  obtain ⟨b', eb, wb, ib, shb, vb⟩ := permuted_spec hb hsb nb pb
  unfold blasContraction
  dsimp only
  rw [hA, hB, hCa, hCb, ea, eb]
  rw [if_neg (by simp)]
  simp only [Option.elim_some, sizeOf_eq]
  cases ua : a'.view.reshape [max (size (A.map (dimOf m))) 1, max (size (C.map (dimOf m))) 1] with
  | none => exact Or.inl rfl
  | some wA =>
  rw [Option.bind_some]
  cases ub : b'.view.reshape [max (size (C.map (dimOf m))) 1, max (size (B.map (dimOf m))) 1] with
  | none => exact Or.inl rfl
  | some wB =>
  rw [Option.bind_some]
  rw [List.map_append] at sha shb
  obtain ⟨a1, a2, a3⟩ := reshape_two a'.mem wa sha ua (by
    rcases ra with h | h
    · exact Or.inr (by simpa using h)
    · exact Or.inl (reshape_ready ua (h a' ea)))
  obtain ⟨b1, b2, b3⟩ := reshape_two b'.mem wb shb ub (by
    rcases rb with h | h
    · exact Or.inr (by simpa using h)
    · exact Or.inl (reshape_ready ub (h b' eb)))
  obtain ⟨_, _, a4⟩ := reshape_facts ua
  obtain ⟨_, _, b4⟩ := reshape_facts ub
  rw [ia, hia] at a4
  rw [ib, hib] at b4
  obtain ⟨arr, h1, h2⟩ := matmul_call (a := ⟨a'.mem, wA⟩) (b := ⟨b'.mem, wB⟩) (L1 := []) (L2 := []) (loop := []) hd' a1 b1 a2 b2
    (isBroadcastAll_same []) ⟨Or.inl rfl, by simp⟩ ⟨Or.inl rfl, by simp⟩ a4 b4
  have hmat : matmul d ⟨a'.mem, wA⟩ ⟨b'.mem, wB⟩ = some (Held.of arr (Rumpy.DType.itemsize d) 0) := by
    unfold matmul matmulWith
    rw [expandForMatmul_two (by rw [a2]; simp) (by rw [b2]; simp)]
    simp [h1]
  rw [hmat, Option.bind_some]
  have harr : arr.data = (Spec.einsum [sa, sb] (A ++ B) (dimOf m) [a.nd, b.nd]).toList := by
    rw [h2.2]
    apply List.ext_getElem?
    intro k
    have hlen : (Spec.einsum [sa, sb] (A ++ B) (dimOf m) [a.nd, b.nd]).toList.length = size ((A ++ B).map (dimOf m)) := Nd.length_toList _
    have hsz : size [size (A.map (dimOf m)), size (B.map (dimOf m))] = size ((A ++ B).map (dimOf m)) := by
      rw [List.map_append, size_append]; simp [size]
    by_cases hk : k < size ((A ++ B).map (dimOf m))
    · have hk' : k ∈ (indices ((A ++ B).map (dimOf m))).map (rank ((A ++ B).map (dimOf m))) := by
        rw [map_rank_indices]; simpa using hk
      obtain ⟨idx, hidx, rfl⟩ := List.mem_map.1 hk'
      have hidx := mem_indices.1 hidx
      obtain ⟨x, z, rfl, hx, hz⟩ : ∃ x z, idx = x ++ z ∧ InShape (A.map (dimOf m)) x ∧ InShape (B.map (dimOf m)) z := by
        have hl := inShape_length hidx
        refine ⟨idx.take A.length, idx.drop A.length, (List.take_append_drop _ _).symm, ?_⟩
        rw [← inShape_append_iff (by simp at hl ⊢; omega), List.take_append_drop, ← List.map_append]
        exact hidx
      have lx : x.length = A.length := by simpa using inShape_length hx
      have lz : z.length = B.length := by simpa using inShape_length hz
      have e1 := toList_getElem? (nd := Spec.einsum [sa, sb] (A ++ B) (dimOf m) [a.nd, b.nd]) (idx := x ++ z) hidx
      have e2 := toList_getElem? (nd := Nd.matmul (Held.nd ⟨a'.mem, wA⟩) (Held.nd ⟨b'.mem, wB⟩) [] (size (A.map (dimOf m)))
          (size (C.map (dimOf m))) (size (B.map (dimOf m)))) (idx := [rank (A.map (dimOf m)) x, rank (B.map (dimOf m)) z])
          ⟨rank_lt hx, rank_lt hz, trivial⟩
      have hr : rank [size (A.map (dimOf m)), size (B.map (dimOf m))] [rank (A.map (dimOf m)) x, rank (B.map (dimOf m)) z]
          = rank ((A ++ B).map (dimOf m)) (x ++ z) := by
        rw [List.map_append, rank_append _ _ (inShape_length hx)]
        simp [rank, size]
      have e1 : (Spec.einsum [sa, sb] (A ++ B) (dimOf m) [a.nd, b.nd]).toList[rank ((A ++ B).map (dimOf m)) (x ++ z)]? = _ := e1
      have e2 : (Nd.matmul (Held.nd ⟨a'.mem, wA⟩) (Held.nd ⟨b'.mem, wB⟩) [] (size (A.map (dimOf m)))
          (size (C.map (dimOf m))) (size (B.map (dimOf m)))).toList[rank [size (A.map (dimOf m)), size (B.map (dimOf m))]
            [rank (A.map (dimOf m)) x, rank (B.map (dimOf m)) z]]? = _ := e2
      rw [hr] at e2
      rw [e1, e2]
      congr 1
      have nC : C.Nodup := (List.nodup_append.1 nCB).1
      have memC : ∀ c, c ∈ C ↔ c ∈ contr := by
        intro c
        constructor
        · intro h; rw [← hCa] at h; simpa using (List.mem_filter.1 h).2
        · intro h
          rcases ((hcm c).1 h).1 with h' | h'
          · rw [← hCa]; exact List.mem_filter.2 ⟨h', by simpa using h⟩
          · rw [← hCb]; exact List.mem_filter.2 ⟨h', by simpa using h⟩
      rw [einsum_split (dimOf m) [a.nd, b.nd] ho nC (by intro c; rw [memC, hcm]; simp) hidx]
      show (∑ k ∈ Finset.range (size (C.map (dimOf m))), _) = _
      rw [sum_over_ranks]
      congr 1
      apply List.map_congr_left
      intro y hy
      have hy := mem_indices.1 hy
      have ly : y.length = C.length := by simpa using inShape_length hy
      rw [einTerm_two]
      have ta : (Held.nd ⟨a'.mem, wA⟩).get [rank (A.map (dimOf m)) x, rank (C.map (dimOf m)) y] =
          a.nd.get (sa.map (assign (A ++ B ++ C) (x ++ z ++ y))) := by
        refine (a3 x y hx hy).trans ((va (x ++ y) ?_).trans ?_)
        · rw [List.map_append]; exact (inShape_append_iff (inShape_length hx)).2 ⟨hx, hy⟩
        · congr 1
          apply List.map_congr_left
          intro c hc
          rcases List.mem_append.1 (pa.mem_iff.2 hc) with h | h
          · rw [assign_append_left lx h, List.append_assoc, List.append_assoc, assign_append_left lx h]
          · have n1 : c ∉ A := fun h' => (List.nodup_append.1 nAC).2.2 c h' c h rfl
            have n2 : c ∉ A ++ B := ((hcm c).1 ((memC c).1 h)).2
            rw [assign_append_right lx n1, assign_append_right (by simp [lx, lz]) n2]
      have tb : (Held.nd ⟨b'.mem, wB⟩).get [rank (C.map (dimOf m)) y, rank (B.map (dimOf m)) z] =
          b.nd.get (sb.map (assign (A ++ B ++ C) (x ++ z ++ y))) := by
        refine (b3 y z hy hz).trans ((vb (y ++ z) ?_).trans ?_)
        · rw [List.map_append]; exact (inShape_append_iff (inShape_length hy)).2 ⟨hy, hz⟩
        · congr 1
          apply List.map_congr_left
          intro c hc
          rcases List.mem_append.1 (pb.mem_iff.2 hc) with h | h
          · have n2 : c ∉ A ++ B := ((hcm c).1 ((memC c).1 h)).2
            rw [assign_append_left ly h, assign_append_right (by simp [lx, lz]) n2]
          · have n1 : c ∉ C := fun h' => (List.nodup_append.1 nCB).2.2 c h' c h rfl
            have n2 : c ∉ A := fun h' => (List.nodup_append.1 ho).2.2 c h' c h rfl
            rw [assign_append_right ly n1, assign_append_left (by simp [lx, lz]) (List.mem_append.2 (Or.inr h)),
              assign_append_right lx n2]
      rw [← ta, ← tb]
      exact congrArg₂ (· * ·)
        (coreAt_none (a := Held.nd ⟨a'.mem, wA⟩) a2 trivial ⟨rank_lt hx, rank_lt hy, trivial⟩)
        (coreAt_none (a := Held.nd ⟨b'.mem, wB⟩) b2 trivial ⟨rank_lt hy, rank_lt hz, trivial⟩)
    · rw [List.getElem?_eq_none (l := Nd.toList (Spec.einsum _ _ _ _)) (by rw [hlen]; omega), List.getElem?_eq_none]
      rw [Nd.length_toList]
      show size [size (A.map (dimOf m)), size (B.map (dimOf m))] ≤ k
      rw [hsz]; omega
  have hlen : size ((A ++ B).map (dimOf m)) = arr.data.length := by
    rw [harr, Nd.length_toList]; rfl
  rw [hlen]
  have hgo : ∀ v : View, v.offset = 0 → v.item = Rumpy.DType.itemsize d →
      rawCopy ⟨(Held.of arr (Rumpy.DType.itemsize d) 0).mem, v⟩ arr.data.length =
        (Spec.einsum [sa, sb] (A ++ B) (dimOf m) [a.nd, b.nd]).toList := by
    intro v h1 h2
    rw [← harr]
    exact rawCopy_of hip h1 h2
  by_cases hE : A ++ B = []
  · rw [if_pos hE]
    exact Or.inr ⟨_, rfl, hgo _ rfl rfl⟩
  · rw [if_neg hE]
    cases ur : (Held.of arr (Rumpy.DType.itemsize d) 0).view.reshape ((A ++ B).map (dimOf m)) with
    | none => exact Or.inl rfl
    | some vr =>
      rw [Option.bind_some, if_pos trivial]
      obtain ⟨f1, f2, _⟩ := reshape_facts ur
      exact Or.inr ⟨_, rfl, hgo vr f2 f1⟩

/-! ### Two operands -/

theorem shape_pos_of_size {L : List Char} {dim : Char → Nat} (h : size (L.map dim) ≠ 0) : ∀ c ∈ L, 0 < dim c := by
  induction L with
  | nil => simp
  | cons c L ih =>
    simp only [List.map_cons, size] at h
    intro x hx
    rcases List.mem_cons.1 hx with rfl | hx
    · exact Nat.pos_of_ne_zero fun e => h (by rw [e, Nat.zero_mul])
    · exact ih (fun e => h (by rw [e, Nat.mul_zero])) x hx

theorem filter_summed {t contr out : List Char} (h : ∀ c ∈ t, c ∈ contr ↔ c ∉ out) :
    t.filter (fun c => decide (c ∉ contr)) = t.filter (· ∈ out) ∧ t.filter (fun c => decide (c ∈ contr)) = t.filter (· ∉ out) := by
  constructor
  · apply List.filter_congr
    intro c hc
    rw [decide_eq_decide, h c hc, not_not]
  · apply List.filter_congr
    intro c hc
    rw [decide_eq_decide, h c hc]

/-- C41: the Einstein sum of two operands, none of whose letters repeats in an operand or in the output.  Partial: if letters
are summed then every summed letter is in both operands and in the same order there, the output is the other letters of the first operand and then
those of the second, the summed axes are not empty, and an operand with more letters of a kind than one is not in column-major
order only when the code makes a matrix of it. -/
theorem C41_pair_partial {R : Type} [CommSemiring R] (d : DType) (hd : d ∈ productDTypes) (put : R → R) (hput : ∀ x, put x = x)
    (s sa sb out : List Char) (ht : EinText s [sa, sb] out) (a b : Held R) (ha : a.view.WF) (hb : b.view.WF)
    (hia : a.view.item = Rumpy.DType.itemsize d) (hib : b.view.item = Rumpy.DType.itemsize d) (dim : Char → Nat)
    (hdim : EinDims [sa, sb] [a.view.shape, b.view.shape] dim) (hos : ∀ c ∈ out, c ∈ sa ∨ c ∈ sb)
    (na : sa.Nodup) (nb : sb.Nodup) (no : out.Nodup)
    (h : (∀ c, c ∈ sa ∨ c ∈ sb → c ∈ out) ∨
      ∃ C, sa.filter (· ∉ out) = C ∧ sb.filter (· ∉ out) = C ∧ out = sa.filter (· ∈ out) ++ sb.filter (· ∈ out) ∧
        (∀ c ∈ C, 0 < dim c) ∧
        (((sa.filter (· ∈ out)).length ≤ 1 ∧ C.length ≤ 1) ∨
          RowMajorOrNone a ((sa.filter (· ∈ out) ++ C).map fun c => (position? sa c).getD 0)) ∧
        ((C.length ≤ 1 ∧ (sb.filter (· ∈ out)).length ≤ 1) ∨
          RowMajorOrNone b ((C ++ sb.filter (· ∈ out)).map fun c => (position? sb c).getD 0))) :
    ∃ r, einsumTwo d put s a b = .ok r ∧ r.nd.Same (Spec.einsum [sa, sb] out dim [a.nd, b.nd]) ∧ r.view.WF ∧
      r.view.item = Rumpy.DType.itemsize d ∧
      (¬ TransposedOuter sa sb out →
        r = Held.of ⟨out.map dim, (Spec.einsum [sa, sb] out dim [a.nd, b.nd]).toList⟩ (Rumpy.DType.itemsize d) 0) := by
  have hip := itemsize_pos (productDTypes_sum hd)
  have hos' : ∀ c ∈ out, c ∈ ([sa, sb] : List (List Char)).flatten := by simpa using hos
  obtain ⟨m, hm, hmd⟩ := validate_ok (p := ⟨[sa, sb], out⟩) hdim hos'
  have hmd' : ∀ c, c ∈ sa ∨ c ∈ sb → dimOf m c = dim c := by simpa using hmd
  have hs2 : a.view.shape = sa.map dim ∧ b.view.shape = sb.map dim := by simpa [EinDims] using hdim
  obtain ⟨hsa, hsb⟩ := hs2
  unfold einsumTwo
  rw [(C41_parse s [sa, sb] out).2 ht, Option.bind_some, hm, Option.map_some]
  simp only [Option.elim_some]
  cases hf : einsumPairFast put ⟨[sa, sb], out⟩ a b with
  | some x =>
    obtain ⟨h1, h2, h3, h4⟩ := pair_fast ha hb hput (by omega) hsa hsb hos no hf
    rw [hia] at h3 h4
    exact ⟨x, rfl, h1, h2, h3, h4⟩
  | none =>
    simp only [Option.elim_none]
    have he := einsum_congr_dim (dim := dimOf m) (dim' := dim) [a.nd, b.nd] hos' hmd
    have hsh : out.map (dimOf m) = out.map dim := List.map_congr_left fun c hc => hmd c (hos' c hc)
    have hfin : einsumFinish (Rumpy.DType.itemsize d) (out.map (dimOf m)) (einsumBinary d ⟨[sa, sb], out⟩ a b m) =
        einsumFinish (Rumpy.DType.itemsize d) (out.map (dimOf m)) (some (Spec.einsum [sa, sb] out (dimOf m) [a.nd, b.nd]).toList) := by
      by_cases h0 : size (out.map (dimOf m)) = 0
      · unfold einsumFinish
        rw [sizeOf_eq, if_pos h0, if_pos h0]
      · congr 1
        obtain ⟨_, _, hn, hk⟩ := validate_some hm
        have hmc := mem_contractions (p := ⟨[sa, sb], out⟩) hk
        simp only [List.flatten_cons, List.flatten_nil, List.append_nil, List.mem_append] at hmc
        have hsa' : a.view.shape = sa.map (dimOf m) := by
          rw [hsa]; exact (List.map_congr_left fun c hc => hmd' c (Or.inl hc)).symm
        have hsb' : b.view.shape = sb.map (dimOf m) := by
          rw [hsb]; exact (List.map_congr_left fun c hc => hmd' c (Or.inr hc)).symm
        unfold einsumBinary
        dsimp only
        simp only [List.getD_cons_zero, List.getD_cons_succ, sizeOf_eq]
        rcases h with hall | ⟨C, hCa, hCb, hout, hpos, ra, rb⟩
        · have hnil : contractions ⟨[sa, sb], out⟩ m = [] := by
            rw [List.eq_nil_iff_forall_not_mem]
            intro c hc
            rw [hmc] at hc
            exact hc.2 (hall c hc.1)
          rw [if_neg (fun h => h.2.2 hnil)]
          apply einsumElementwise_eq hm no na nb
          · rw [hnil]; exact ⟨[], [], rfl, by simp, by simp⟩
          · rw [hnil]; exact ⟨[], [], rfl, by simp, by simp⟩
          · rw [hnil]; simp
        · have memC : ∀ c, c ∈ contractions ⟨[sa, sb], out⟩ m ↔ c ∈ C := by
            intro c
            rw [hmc]
            constructor
            · rintro ⟨h1 | h1, h2⟩
              · rw [← hCa]; exact List.mem_filter.2 ⟨h1, by simpa using h2⟩
              · rw [← hCb]; exact List.mem_filter.2 ⟨h1, by simpa using h2⟩
            · intro hc
              rw [← hCa, List.mem_filter] at hc
              exact ⟨Or.inl hc.1, by simpa using hc.2⟩
          have inA : ∀ c ∈ C, c ∈ sa := fun c hc => by rw [← hCa] at hc; exact (List.mem_filter.1 hc).1
          have inB : ∀ c ∈ C, c ∈ sb := fun c hc => by rw [← hCb] at hc; exact (List.mem_filter.1 hc).1
          have hel := einsumElementwise_eq hm no na nb
            ⟨_, [], (List.append_nil _).symm, fun c hc => inA c ((memC c).1 hc), by simp⟩
            ⟨_, [], (List.append_nil _).symm, fun c hc => inB c ((memC c).1 hc), by simp⟩
            (fun c hc => by rw [hmd' c (Or.inl (inA c ((memC c).1 hc)))]; exact hpos c ((memC c).1 hc))
          split
          · rename_i hg
            obtain ⟨fa1, fa2⟩ := filter_summed (t := sa) fun c hc => (hmc c).trans (and_iff_right (Or.inl hc))
            obtain ⟨fb1, fb2⟩ := filter_summed (t := sb) fun c hc => (hmc c).trans (and_iff_right (Or.inr hc))
            have hb' := blas_spec (m := m) (contr := contractions ⟨[sa, sb], out⟩ m) hd ha hb hia hib hsa' hsb' na nb
              (A := sa.filter (· ∈ out)) (B := sb.filter (· ∈ out)) (C := C) (hout ▸ no)
              (by intro c; rw [hmc, ← hout]) fa1 fb1 (fa2.trans hCa) (fb2.trans hCb) ra rb
            rw [← hout] at hb'
            rcases hb' with e | ⟨r, e, hr⟩
            · rw [e]; exact hel
            · rw [e]; exact congrArg some hr
          · exact hel
    rw [hfin, he, hsh]
    have hq : einsumFinish (Rumpy.DType.itemsize d) (out.map dim) (some (Spec.einsum [sa, sb] out dim [a.nd, b.nd]).toList) = _ :=
      einsumFinish_eq (nd := Spec.einsum [sa, sb] out dim [a.nd, b.nd])
    refine ⟨_, hq, Arr.Is.denote (r := ⟨out.map dim, _⟩) ⟨rfl, rfl⟩ hip 0, View.WF.fresh _ _, rfl, fun _ => rfl⟩

/-- A `2 × 2` matrix of 64-bit integers in row-major order. -/
def squareExample (w x y z : Int) : Held Int := Held.of ⟨[2, 2], [w, x, y, z]⟩ 8 0

example : ∃ r, einsumTwo .i64 id "ij,jk->ik".toList (squareExample 1 2 3 4) (squareExample 5 6 7 8) = .ok r ∧
    r.nd.Same (Spec.einsum ["ij".toList, "jk".toList] "ik".toList (fun _ => 2)
      [(squareExample 1 2 3 4).nd, (squareExample 5 6 7 8).nd]) := by
  obtain ⟨r, h1, h2, _⟩ := C41_pair_partial .i64 (by decide) id (fun _ => rfl) "ij,jk->ik".toList "ij".toList "jk".toList "ik".toList
    (by rw [← C41_parse]; decide +kernel) (squareExample 1 2 3 4) (squareExample 5 6 7 8) (View.WF.fresh _ _) (View.WF.fresh _ _)
    rfl rfl (fun _ => 2) (by unfold EinDims; decide) (by decide) (by decide) (by decide) (by decide)
    (Or.inr ⟨"j".toList, by decide, by decide, by decide, by decide, Or.inl (by decide), Or.inl (by decide)⟩)
  exact ⟨r, h1, h2⟩
example : (Spec.einsum ["ij".toList, "jk".toList] "ik".toList (fun _ => 2)
    [(squareExample 1 2 3 4).nd, (squareExample 5 6 7 8).nd]).toList = [19, 22, 43, 50] := by decide +kernel

end Props
