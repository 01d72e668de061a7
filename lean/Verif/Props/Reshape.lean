import Verif.Lemmas.View
/-!
# C07, C08, C09, C10: flip, reshape, broadcasting, squeeze and expand_dims
-/

namespace Props
open Spec Rumpy

/-! ### C07 flip -/

/-- C07, proved part: on an axis with a non-negative stride `flip` reverses exactly that
axis.  The missing part (an axis that is already reversed) is false, see
`C07_flip_twice_counterexample`. -/
theorem C07_flip_partial (mem : Int → α) (v : View) (hw : v.WF) (axis : Nat) (st : Int)
    (hax : axis < v.shape.length) (hst : v.strides[axis]? = some st) (hpos : 0 ≤ st) :
    ∃ v', v.flip axis = some v' ∧ v'.WF ∧ (v'.denote mem).Same ((v.denote mem).flip axis) ∧
      v'.shape = v.shape ∧ ∀ k, k ≠ axis → v'.strides[k]? = v.strides[k]? := by
  have hlen : v.shape[axis]? = some v.shape[axis] := List.getElem?_eq_getElem hax
  have hgd : v.shape.getD axis 0 = v.shape[axis] := List.getD_eq_getElem _ _ hax
  unfold View.flip
  rw [hlen]
  by_cases h0 : v.shape[axis] = 0
  · simp only [h0, if_true]
    refine ⟨v, rfl, hw, ⟨rfl, fun idx hi => ?_⟩, rfl, fun _ _ => rfl⟩
    exfalso
    have := (inShape_iff_getD.1 hi).2 axis hax
    simp only [View.denote] at this
    rw [hgd] at this; omega
  · simp only [h0, if_false]
    have hn : View.sliceLen ((v.shape[axis] : Int) - 1) (-1) (-1) = v.shape[axis] := by
      have h := sliceLen_spec (start := (v.shape[axis] : Int) - 1) (stop := -1) (step := -1) (by decide)
      refine h.unique fun k => ?_
      rw [if_neg (by decide)]; omega
    obtain ⟨v', h1, h2, h3, _, h4, h5, _⟩ := sliceAxis_denote mem (v := v)
      (start := (v.shape[axis] : Int) - 1) (stop := -1) (step := -1) (by decide) hlen hst (Or.inl hpos)
      (by rw [hn]; intro k hk; omega)
    rw [hn] at h2 h5
    have hsh : v.shape.set axis v.shape[axis] = v.shape := by simp
    rw [hsh] at h2
    refine ⟨v', h1, h4 hw.len, ⟨h2, fun idx hi => ?_⟩, h2, fun k hk => ?_⟩
    · rw [h5.2 idx hi]
      simp only [Nd.slice, Nd.flip, View.denote] at hi ⊢
      rw [h2] at hi
      congr 2
      apply List.ext_getElem?
      intro k
      rw [List.getElem?_modify, List.getElem?_modify]
      by_cases hk : axis = k
      · subst hk
        have hlt := (inShape_iff_getD.1 hi).2 axis hax
        have hil : axis < idx.length := by rw [hi.length_eq]; exact hax
        rw [List.getD_eq_getElem _ _ hil, hgd] at hlt
        simp only [if_true, List.getElem?_eq_getElem hil, Option.map_eq_map, Option.map_some, Option.some.injEq, hgd]
        omega
      · simp [hk]
    · rw [h3, List.getElem?_set, if_neg (Ne.symm hk)]

example : (View.fresh [2, 3] 8).flip 1 = some ⟨16, [2, 3], [24, -8], 8, false, false⟩ := by decide

/-- `flip(a)` without an axis, src/python/shape.rs:310-319: flips every axis in turn. -/
def flipAll (v : View) : Option View :=
  (List.range v.shape.length).foldlM (fun w ax => w.flip ax) v

/-- C07, proved part: `flip(a)` of an array without reversed axes reverses every axis. -/
theorem C07_flip_all_partial (mem : Int → α) (v : View) (hw : v.WF)
    (hpos : ∀ st ∈ v.strides, 0 ≤ st) :
    ∃ v', flipAll v = some v' ∧
      (v'.denote mem).Same ((List.range v.shape.length).foldl (fun a ax => a.flip ax) (v.denote mem)) := by
  have key : ∀ (axs : List Nat) (w : View) (a : Nd α), axs.Nodup → w.WF →
      (∀ ax ∈ axs, ax < w.shape.length ∧ ∃ st, w.strides[ax]? = some st ∧ 0 ≤ st) →
      (w.denote mem).Same a →
      ∃ v', axs.foldlM (fun w ax => w.flip ax) w = some v' ∧
        (v'.denote mem).Same (axs.foldl (fun a ax => a.flip ax) a) := by
    intro axs
    induction axs with
    | nil => intro w a _ _ _ hs; exact ⟨w, rfl, hs⟩
    | cons ax axs ih =>
      intro w a hnd hwf hax hs
      obtain ⟨hlt, st, hst, hp⟩ := hax ax (by simp)
      obtain ⟨w', h1, h2, h3, h4, h5⟩ := C07_flip_partial mem w hwf ax st hlt hst hp
      have hs' : (w'.denote mem).Same (a.flip ax) := by
        refine h3.trans ⟨hs.1, fun idx hi => ?_⟩
        simp only [Nd.flip] at hi ⊢
        rw [← hs.1]
        refine hs.2 _ ?_
        have hlt' : ax < (w.denote mem).shape.length := hlt
        refine inShape_modify (n := (w.denote mem).shape.getD ax 0) hlt' ?_ (fun k hk => by omega)
        rw [List.getD_eq_getElem _ _ hlt']
        simpa using hi
      obtain ⟨v', h6, h7⟩ := ih w' (a.flip ax) (List.nodup_cons.1 hnd).2 h2 (by
        intro b hb
        obtain ⟨q1, st', q2, q3⟩ := hax b (by simp [hb])
        refine ⟨by rw [h4]; exact q1, st', ?_, q3⟩
        rw [h5 b (by rintro rfl; exact (List.nodup_cons.1 hnd).1 hb)]; exact q2) hs'
      exact ⟨v', by rw [List.foldlM_cons, h1]; exact h6, h7⟩
  refine key _ v _ List.nodup_range hw ?_ (Nd.Same.refl _)
  intro ax hax
  have hlt := List.mem_range.1 hax
  have hlt' : ax < v.strides.length := by rw [hw.len]; exact hlt
  exact ⟨hlt, v.strides[ax], List.getElem?_eq_getElem hlt', hpos _ (List.getElem_mem hlt')⟩

example : (flipAll (View.fresh [2, 2] 1)).map (fun w => (indices w.shape).map w.addr)
    = some [3, 2, 1, 0] := by decide

/-- C07 fails for a second flip: flipping `[10, 20]` twice must give it back, but the code
moves the start past the end of the buffer. -/
theorem C07_flip_twice_counterexample :
    (((View.fresh [2] 1).flip 0).bind (fun w => w.flip 0)).map (fun w => (indices w.shape).map w.addr)
      = some [2, 3] ∧
    ((((View.fresh [2] 1).denote id).flip 0).flip 0).toList = [0, 1] := by
  decide

/-! ### C08 reshape -/

/-- C08, proved part: reshaping an array that is C-contiguous keeps the elements in
row-major order.  Missing: arrays that are only F-contiguous, for which the claim is false
(`C08_reshape_fortran_counterexample`), and other layouts, which are refused. -/
theorem C08_reshape_partial (mem : Int → α) (v v' : View) (hw : v.WF) (s : List Nat)
    (hc : v.cFlag = true) (h : v.reshape s = some v') :
    v'.shape = s ∧ size s = size v.shape ∧ (v'.denote mem).toList = (v.denote mem).toList := by
  unfold View.reshape at h
  split at h
  · simp at h
  · rename_i hsz
    simp only [sizeOf_eq, ne_eq, not_not] at hsz
    simp only [hc, Bool.not_true, Bool.false_and, Bool.false_eq_true, if_false, if_true,
      Option.some.injEq] at h
    subst h
    refine ⟨rfl, hsz.symm, ?_⟩
    simp only [Nd.toList, View.denote, View.addr, View.viewWith]
    have e1 := hw.c hc
    have l1 : (indices v.shape).map (fun idx => mem (v.offset + byteOffset idx v.strides))
        = (List.range (size v.shape)).map (fun r : Nat => mem (v.offset + ((v.item * r : Nat) : Int))) := by
      rw [← map_rank_indices, List.map_map]
      apply List.map_congr_left
      intro idx hi
      simp only [Function.comp, isC_sound hw.len e1 (mem_indices.1 hi)]
    have l2 : (indices s).map (fun idx => mem (v.offset + 0 + byteOffset idx (cStrides s v.item)))
        = (List.range (size s)).map (fun r : Nat => mem (v.offset + ((v.item * r : Nat) : Int))) := by
      rw [← map_rank_indices, List.map_map]
      apply List.map_congr_left
      intro idx hi
      simp only [Function.comp, byteOffset_cStrides v.item s idx (mem_indices.1 hi).length_eq]
      congr 1; ring
    rw [l1, l2, hsz]

/-- C08: reshape succeeds exactly when the sizes agree and the array is flagged contiguous. -/
theorem C08_reshape_succeeds_iff (v : View) (s : List Nat) :
    (v.reshape s).isSome ↔ size v.shape = size s ∧ (v.cFlag = true ∨ v.fFlag = true) := by
  unfold View.reshape
  simp only [sizeOf_eq]
  split
  · rename_i h; simp [h]
  · rename_i h
    simp only [ne_eq, not_not] at h
    cases hc : v.cFlag <;> cases hf : v.fFlag <;> simp [h]

/-- What happens to an array that is only F-contiguous: reshape keeps the column-major
order instead (equal column-major rank means equal element). -/
theorem C08_reshape_fortran (mem : Int → α) (v v' : View) (hw : v.WF) (s : List Nat)
    (hc : v.cFlag = false) (h : v.reshape s = some v') (idx idx' : List Nat)
    (hi : InShape v.shape idx) (hi' : InShape s idx') (hr : rankF v.shape idx = rankF s idx') :
    (v'.denote mem).get idx' = (v.denote mem).get idx := by
  unfold View.reshape at h
  split at h
  · simp at h
  · cases hf : v.fFlag with
    | false => simp [hc, hf] at h
    | true =>
      simp only [hc, hf, Bool.not_false, Bool.not_true, Bool.and_false, Bool.false_eq_true, if_false,
        Option.some.injEq] at h
      subst h
      simp only [View.denote, View.addr, View.viewWith, fStrides]
      rw [byteOffset_fStridesLoop s idx' _ hi'.length_eq,
        isFAux_sound hw.len (hw.f hf) idx hi, hr]
      congr 1; ring

/-- C08 fails for a transposed matrix: `a.T.reshape(4)` for `a = [[10, 20], [30, 40]]` must
be `[10, 30, 20, 40]` (bytes 0, 2, 1, 3); the code yields `[10, 20, 30, 40]`. -/
theorem C08_reshape_fortran_counterexample :
    ((View.fresh [2, 2] 1).transpose.reshape [4]).map (fun w => (indices w.shape).map w.addr)
      = some [0, 1, 2, 3] ∧
    ((View.fresh [2, 2] 1).transpose.denote id).toList = [0, 2, 1, 3] := by
  decide

/-- A requested shape with at most one `-1`, the other entries being lengths. -/
def ShapeMatches (req : List Int) (s : List Nat) : Prop :=
  s.length = req.length ∧ ∀ k, k < req.length → req.getD k 0 = -1 ∨ req.getD k 0 = (s.getD k 0 : Nat)

/-- C08 (`-1` inference, soundness): the resolved shape agrees with every given length, and
if a `-1` was given the resolved shape has exactly `n` elements. -/
theorem C08_infer_sound (req : List Int) (n : Nat) (s : List Nat)
    (h : resolveReshape req n = some s) :
    ShapeMatches req s ∧ (-1 ∈ req → size s = n) := by
  unfold resolveReshape at h
  cases hr : resolveLoop req 0 none 1 with
  | none => simp [hr] at h
  | some r =>
    obtain ⟨hge, hcase⟩ := resolveLoop_spec req 0 none 1 r hr
    have hnat : ∀ k, k < req.length → req.getD k 0 ≠ -1 →
        req.getD k 0 = ((req.map Int.toNat).getD k 0 : Nat) := by
      intro k hk hne
      have hm : req.getD k 0 ∈ req := by
        rw [List.getD_eq_getElem _ _ hk]; exact List.getElem_mem hk
      have := hge _ hm
      rw [List.getD_eq_getElem _ _ hk] at this hne ⊢
      rw [List.getD_eq_getElem _ _ (by simpa using hk), List.getElem_map]
      omega
    rcases hcase with ⟨h1, h2⟩ | ⟨_, a, b, rfl, ha, hb, h2⟩
    · subst h2
      simp only [hr, Option.bind_eq_bind, Option.bind_some, Option.some.injEq] at h
      subst h
      refine ⟨⟨by simp, fun k hk => ?_⟩, fun hm => absurd hm h1⟩
      by_cases hne : req.getD k 0 = -1
      · exact Or.inl hne
      · exact Or.inr (hnat k hk hne)
    · subst h2
      simp only [hr, Option.bind_eq_bind, Option.bind_some] at h
      split at h
      · simp at h
      · rename_i hp0
        split at h
        · simp at h
        · rename_i hdiv
          simp only [Option.some.injEq] at h
          subst h
          have hset : ((a ++ -1 :: b).map Int.toNat).set (0 + a.length)
              (n / (1 * size (a.map Int.toNat) * size (b.map Int.toNat)))
              = a.map Int.toNat ++ (n / (1 * size (a.map Int.toNat) * size (b.map Int.toNat)))
                :: b.map Int.toNat := by
            rw [List.map_append, List.set_append_right _ _ (by simp)]
            simp
          rw [hset]
          refine ⟨⟨by simp, fun k hk => ?_⟩, fun _ => ?_⟩
          · by_cases hne : (a ++ -1 :: b).getD k 0 = -1
            · exact Or.inl hne
            · right
              rw [hnat k hk hne]
              congr 1
              have hka : k ≠ a.length := by
                rintro rfl
                exact hne (by simp [List.getD])
              simp only [List.map_append, List.map_cons, List.getD]
              rcases Nat.lt_or_ge k a.length with hlt | hge'
              · rw [List.getElem?_append_left (by simpa using hlt), List.getElem?_append_left (by simpa using hlt)]
              · rw [List.getElem?_append_right (by simpa using hge'),
                  List.getElem?_append_right (by simpa using hge')]
                have : ∃ m, k - (a.map Int.toNat).length = m + 1 := ⟨k - a.length - 1, by simp; omega⟩
                obtain ⟨m, hm⟩ := this
                rw [hm]; simp
          · rw [size_append]
            simp only [size]
            simp only [ne_eq, not_not, Nat.one_mul] at hdiv hp0 ⊢
            have h1 := Nat.div_mul_cancel (Nat.dvd_of_mod_eq_zero hdiv)
            calc _ = n / (size (a.map Int.toNat) * size (b.map Int.toNat)) *
                    (size (a.map Int.toNat) * size (b.map Int.toNat)) := by ring
              _ = n := h1

/-- C08 (`-1` inference, completeness): if a shape of `n` elements matches a request with
exactly one `-1` and non-zero other lengths, that shape is found. -/
theorem C08_infer_complete (a b : List Nat) (d n : Nat)
    (hn : size (a ++ d :: b) = n) (ha : 0 ∉ a) (hb : 0 ∉ b) :
    resolveReshape (a.map Int.ofNat ++ -1 :: b.map Int.ofNat) n = some (a ++ d :: b) := by
  have key : ∀ (l : List Nat) (rest : List Int) (i p : Nat) (neg : Option Nat),
      resolveLoop (l.map Int.ofNat ++ rest) i neg p = resolveLoop rest (i + l.length) neg (p * size l) := by
    intro l
    induction l with
    | nil => intro rest i p neg; simp [size]
    | cons x l ih =>
      intro rest i p neg
      simp only [List.map_cons, List.cons_append, resolveLoop]
      rw [if_neg (by simp), if_neg (by simp), ih]
      simp [size, Nat.mul_assoc]; congr 1; omega
  have hl : resolveLoop (a.map Int.ofNat ++ -1 :: b.map Int.ofNat) 0 none 1
      = some (some a.length, size a * size b) := by
    rw [key]
    simp only [resolveLoop]
    rw [if_neg (by decide), if_pos trivial]
    have := key b [] (0 + a.length + 1) (1 * size a) (some (0 + a.length))
    simp only [List.append_nil] at this
    simp only [Option.isSome_none, Bool.false_eq_true, if_false]
    rw [this]; simp [resolveLoop]
  have hpa : 0 < size a := Nat.pos_of_ne_zero fun h => ha (size_eq_zero_iff.1 h)
  have hpb : 0 < size b := Nat.pos_of_ne_zero fun h => hb (size_eq_zero_iff.1 h)
  have hpos : 0 < size a * size b := Nat.mul_pos hpa hpb
  have hn' : n = d * (size a * size b) := by
    rw [← hn, size_append]; simp only [size]; ring
  unfold resolveReshape
  simp only [hl, Option.bind_eq_bind, Option.bind_some]
  rw [if_neg (by omega), if_neg (by rw [hn']; simp)]
  congr 1
  have e : n / (size a * size b) = d := by rw [hn']; exact Nat.mul_div_cancel _ hpos
  rw [e, List.map_append, List.set_append_right _ _ (by simp)]
  have : ∀ l : List Nat, (l.map Int.ofNat).map Int.toNat = l := by
    intro l; rw [List.map_map]; conv_rhs => rw [← List.map_id l]
    apply List.map_congr_left; intro x _; simp
  simp [this]

example : resolveReshape [2, -1, 3] 24 = some [2, 4, 3] := by decide
example : resolveReshape [5, -1] 24 = none ∧ resolveReshape [-1, -1] 24 = none ∧
    resolveReshape [-2] 4 = none := by decide

end Props
