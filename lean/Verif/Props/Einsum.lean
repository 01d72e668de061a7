import Verif.Lemmas.Einsum
import Verif.Lemmas.Gufunc
import Verif.Lemmas.DateText
import Verif.Props.Gufunc
import Verif.Props.Views
import Verif.Props.Reduce
import Verif.Props.Triangle
import Verif.Props.Elementwise
import Verif.Props.Matmul
import Verif.Props.Products
/-!
# Property C41: Einstein sums
-/

namespace Props
open Spec Rumpy

/-! ### Reading the subscript -/

theorem isLower_plain {c : Char} (h : c.isLower = true) : c ≠ ',' ∧ c ≠ '-' ∧ c ≠ '>' := by
  refine ⟨?_, ?_, ?_⟩ <;> (rintro rfl; simp [Char.isLower] at h)

theorem commaJoin_splitOn : ∀ s : List Char, commaJoin (Rumpy.splitOn ',' s) = s
  | [] => rfl
  | c :: s => by
    have ih := commaJoin_splitOn s
    have hne := splitOn_ne_nil ',' s
    unfold Rumpy.splitOn
    cases hl : Rumpy.splitOn ',' s with
    | nil => exact absurd hl hne
    | cons p ps =>
      rw [hl] at ih
      split
      · rename_i hc
        subst hc
        simp [commaJoin, ih]
      · cases ps with
        | nil => simp only [commaJoin] at ih ⊢; rw [ih]
        | cons q qs => simp only [commaJoin] at ih ⊢; rw [← ih]; rfl

theorem parseInputs_iff {s : List Char} {inputs : List (List Char)} :
    parseInputs s = some inputs ↔ inputs ≠ [] ∧ (∀ t ∈ inputs, ∀ c ∈ t, c.isLower = true) ∧ s = commaJoin inputs := by
  unfold parseInputs
  dsimp only
  constructor
  · intro h
    split at h
    · rename_i hall
      simp only [Option.some.injEq] at h
      subst h
      refine ⟨splitOn_ne_nil _ _, ?_, (commaJoin_splitOn s).symm⟩
      intro t ht c hc
      exact List.all_eq_true.1 (List.all_eq_true.1 hall t ht) c hc
    · simp at h
  · rintro ⟨hne, hlow, rfl⟩
    rw [splitOn_commaJoin hne fun t ht hc => (isLower_plain (hlow t ht _ hc)).1 rfl, if_pos]
    rw [List.all_eq_true]
    intro t ht
    rw [List.all_eq_true]
    exact hlow t ht

theorem commaJoin_chars {inputs : List (List Char)} (h : ∀ t ∈ inputs, ∀ c ∈ t, c.isLower = true) :
    ∀ c ∈ commaJoin inputs, c ≠ '-' ∧ c ≠ '>' := by
  induction inputs with
  | nil => simp [commaJoin]
  | cons t ts ih =>
    cases ts with
    | nil =>
      intro c hc
      exact (isLower_plain (h t (by simp) c hc)).2
    | cons u us =>
      intro c hc
      simp only [commaJoin, List.mem_append, List.mem_cons] at hc
      rcases hc with hc | rfl | hc
      · exact (isLower_plain (h t (by simp) c hc)).2
      · decide
      · exact ih (fun x hx => h x (by simp [hx])) c hc

theorem splitArrow_none : ∀ {s : List Char}, (∀ c ∈ s, c ≠ '-') → splitArrow s = none
  | [], _ => rfl
  | c :: s, h => by
    rw [splitArrow, if_neg fun e => h c (by simp) e.1, splitArrow_none fun d hd => h d (by simp [hd])]
    rfl

theorem implicitOutput_is (inputs : List (List Char)) : IsImplicitOutput inputs (implicitOutput inputs) := by
  unfold implicitOutput
  constructor
  · have h1 := List.pairwise_insertionSort (· ≤ ·) (inputs.flatten.dedup.filter fun c => inputs.flatten.count c = 1)
    have h2 : ((inputs.flatten.dedup.filter fun c => inputs.flatten.count c = 1).insertionSort (· ≤ ·)).Nodup :=
      (List.perm_insertionSort _ _).nodup_iff.2 ((List.nodup_dedup _).filter _)
    exact (h1.and h2).imp fun {a b} h => Decidable.byContradiction fun hlt => h.2 (Char.le_antisymm h.1 (Char.not_lt.1 hlt))
  · intro c
    rw [List.mem_insertionSort, List.mem_filter, List.mem_dedup, decide_eq_true_eq]
    constructor
    · exact fun h => h.2
    · intro h
      exact ⟨List.count_pos_iff.1 (by omega), h⟩

/-- C41: a subscript is read as the text says: the operands' letters, and the output written after the arrow or, without
an arrow, the letters that occur once, in alphabetical order.  Any other text is rejected. -/
theorem C41_parse (s : List Char) (inputs : List (List Char)) (output : List Char) :
    parseSubscript s = some ⟨inputs, output⟩ ↔ EinText s inputs output := by
  unfold parseSubscript EinText
  dsimp only
  generalize s.filter (fun c => decide ¬ IsSpace c) = t
  constructor
  · intro h
    split at h
    · rename_i l r hs
      split at h
      · simp at h
      · rw [Option.bind_eq_some_iff] at h
        obtain ⟨ins, h1, h2⟩ := h
        split at h2
        · rename_i hall
          simp only [Option.some.injEq, EinSub.mk.injEq] at h2
          obtain ⟨rfl, rfl⟩ := h2
          obtain ⟨hne, hlow, rfl⟩ := parseInputs_iff.1 h1
          refine ⟨hne, hlow, Or.inl ⟨by simpa using splitArrow_sound hs, ?_⟩⟩
          intro c hc
          simpa using List.all_eq_true.1 hall c hc
        · simp at h2
    · rw [Option.map_eq_some_iff] at h
      obtain ⟨ins, h1, h2⟩ := h
      simp only [EinSub.mk.injEq] at h2
      obtain ⟨rfl, rfl⟩ := h2
      obtain ⟨hne, hlow, ht⟩ := parseInputs_iff.1 h1
      exact ⟨hne, hlow, Or.inr ⟨ht, implicitOutput_is _⟩⟩
  · rintro ⟨hne, hlow, h | h⟩
    · obtain ⟨ht, hout⟩ := h
      have hs : splitArrow t = some (commaJoin inputs, output) := by
        rw [ht]
        simpa using splitArrow_text (commaJoin inputs) output fun c hc => (commaJoin_chars hlow c hc).2
      have hr : splitArrow output = none := by
        apply splitArrow_none
        intro c hc
        rcases hout c hc with h | rfl
        · exact (isLower_plain h).2.1
        · decide
      rw [hs]
      simp only [hr, Option.isSome_none, Bool.false_eq_true, if_false]
      rw [parseInputs_iff.2 ⟨hne, hlow, rfl⟩, Option.bind_some, if_pos]
      rw [List.all_eq_true]
      intro c hc
      simpa using hout c hc
    · obtain ⟨ht, himp⟩ := h
      have hs : splitArrow t = none := by
        rw [ht]; exact splitArrow_none fun c hc => (commaJoin_chars hlow c hc).1
      rw [hs]
      simp only
      rw [parseInputs_iff.2 ⟨hne, hlow, ht⟩, Option.map_some]
      have he := implicitOutput_is inputs
      rw [List.Pairwise.eq_of_mem_iff he.1 himp.1 fun c => (he.2 c).trans (himp.2 c).symm]

example : EinText "ij, jk -> ik".toList ["ij".toList, "jk".toList] "ik".toList := by
  rw [← C41_parse]; decide +kernel
example : EinText "kj,jb".toList ["kj".toList, "jb".toList] "bk".toList := by
  rw [← C41_parse]; decide +kernel
example : parseSubscript "i->j->k".toList = none := by decide +kernel

/-- C41: operands are accepted exactly when each has one axis per letter, a letter has one length everywhere, and the letters
of the output occur in the operands. -/
theorem C41_accepts_iff (inputs : List (List Char)) (output : List Char) (shapes : List (List Nat)) :
    (validateSubscript ⟨inputs, output⟩ shapes).isSome ↔
      (∃ dim, EinDims inputs shapes dim) ∧ ∀ c ∈ output, c ∈ inputs.flatten := by
  constructor
  · intro h
    obtain ⟨m, hm⟩ := Option.isSome_iff_exists.1 h
    obtain ⟨h1, h2, -, -⟩ := validate_some hm
    exact ⟨⟨_, h1⟩, h2⟩
  · rintro ⟨⟨dim, hd⟩, ho⟩
    obtain ⟨m, hm, -⟩ := validate_ok (p := ⟨inputs, output⟩) hd ho
    rw [hm]; rfl

example : (validateSubscript ⟨["ij".toList, "jk".toList], "ik".toList⟩ [[2, 3], [3, 4]]).isSome = true ∧
    (validateSubscript ⟨["ij".toList, "jk".toList], "ik".toList⟩ [[2, 3], [2, 4]]).isSome = false := by decide +kernel

/-! ### One operand -/

theorem einsum_congr_dim [CommSemiring R] {inputs : List (List Char)} {output : List Char} {dim dim' : Char → Nat}
    (ops : List (Nd R)) (hos : ∀ c ∈ output, c ∈ inputs.flatten) (h : ∀ c ∈ inputs.flatten, dim c = dim' c) :
    Spec.einsum inputs output dim ops = Spec.einsum inputs output dim' ops := by
  have h1 : output.map dim = output.map dim' := List.map_congr_left fun c hc => h c (hos c hc)
  have h2 : (einLetters inputs output).map dim = (einLetters inputs output).map dim' := by
    apply List.map_congr_left
    intro c hc
    simp only [einLetters, List.mem_dedup, List.mem_append] at hc
    rcases hc with hc | hc
    · exact h c hc
    · exact h c (hos c hc)
  unfold Spec.einsum
  dsimp only
  rw [h1, h2]

theorem position?_idxOf {sub : List Char} (hn : sub.Nodup) {c : Char} (hc : c ∈ sub) : position? sub c = some (sub.idxOf c) := by
  apply position?_unique (List.count_eq_one_of_mem hn hc)
  rw [List.getElem?_eq_getElem (List.idxOf_lt_length_of_mem hc), List.getElem_idxOf]

theorem indices_single (n : Nat) : indices [n] = (List.range n).map fun v => [v] := by
  simp only [indices, List.map_cons, List.map_nil]
  induction List.range n with
  | nil => rfl
  | cons x l ih => simp [ih]

theorem ein_foldl_add [AddCommMonoid R] (l : List R) : l.foldl (· + ·) 0 = l.sum := List.sum_eq_foldl.symm

theorem map_idxOf_range {sub : List Char} (hn : sub.Nodup) : sub.map sub.idxOf = List.range sub.length := by
  apply List.ext_getElem
  · simp
  · intro i h1 h2
    simp [List.Nodup.idxOf_getElem hn]

/-- Permuting the axes of an operand to the order `out` of its letters. -/
theorem permute_letters {sub out : List Char} {dim : Char → Nat} (v : View) (mem : Int → R) (hw : v.WF) (hs : v.shape = sub.map dim)
    (hn : sub.Nodup) (ho : out.Nodup) (h1 : ∀ c ∈ sub, c ∈ out) (h2 : ∀ c ∈ out, c ∈ sub) :
    ∃ w, v.transposeAxes (out.map fun c => (position? sub c).getD 0) = some w ∧ w.WF ∧ w.shape = out.map dim ∧
      ∀ idx, InShape (out.map dim) idx → (w.denote mem).get idx = (v.denote mem).get (sub.map (assign out idx)) := by
  have hperm : out.map (fun c => (position? sub c).getD 0) = out.map sub.idxOf := by
    apply List.map_congr_left
    intro c hc
    rw [position?_idxOf hn (h2 c hc)]; rfl
  rw [hperm]
  have hp : out.Perm sub := (List.perm_ext_iff_of_nodup ho hn).2 fun c => ⟨h2 c, h1 c⟩
  have hpr : (out.map sub.idxOf).Perm (List.range v.shape.length) := by
    rw [hs, List.length_map, ← map_idxOf_range hn]
    exact hp.map _
  obtain ⟨w, hw1, hw2, hw3, hw4⟩ := C06_transpose_axes mem v hw _ hpr
  have hshape : w.shape = out.map dim := by
    have : w.shape = _ := hw3
    rw [this]
    show (out.map sub.idxOf).map (fun k => v.shape.getD k 0) = _
    rw [List.map_map]
    apply List.map_congr_left
    intro c hc
    show v.shape.getD (sub.idxOf c) 0 = dim c
    rw [hs]
    exact assign_map dim (h2 c hc)
  refine ⟨w, hw1, hw2, hshape, ?_⟩
  intro idx hi
  rw [hw4 idx (by show InShape w.shape idx; rw [hshape]; exact hi)]
  show (v.denote mem).get _ = _
  congr 1
  show (List.range v.shape.length).map _ = _
  rw [hs, List.length_map, ← map_idxOf_range hn, List.map_map]
  apply List.map_congr_left
  intro c hc
  have hco := h1 c hc
  have hlt : out.idxOf c < (out.map sub.idxOf).length := by simpa using List.idxOf_lt_length_of_mem hco
  have hnd : (out.map sub.idxOf).Nodup := hpr.nodup_iff.2 List.nodup_range
  have hk := List.Nodup.idxOf_getElem hnd (out.idxOf c) hlt
  simp only [List.getElem_map, List.getElem_idxOf] at hk
  simp only [Function.comp, hk]
  rfl

/-- A fast path answers with the Einstein sum. -/
theorem single_fast {R : Type} [CommSemiring R] {sub out : List Char} {dim : Char → Nat} {a : Held R} (hw : a.view.WF)
    (hitem : 0 < a.view.item) (hs : a.view.shape = sub.map dim) (hos : ∀ c ∈ out, c ∈ sub) (ho : out.Nodup)
    {x : Option (Held R)} (hx : einsumSingleFast ⟨[sub], out⟩ a = some x) :
    ∃ r, x = some r ∧ r.nd.Same (Spec.einsum [sub] out dim [a.nd]) := by
  have hget : ∀ idx, a.nd.get idx = a.mem (a.view.addr idx) := fun _ => rfl
  have hflat : ([sub] : List (List Char)).flatten = sub := by simp
  -- the sum over given letters
  have split : ∀ contr : List Char, contr.Nodup → (∀ c, c ∈ contr ↔ c ∈ sub ∧ c ∉ out) → ∀ idx, InShape (out.map dim) idx →
      (Spec.einsum [sub] out dim [a.nd]).get idx =
        ((indices (contr.map dim)).map fun y => a.nd.get (sub.map (assign (out ++ contr) (idx ++ y)))).sum := by
    intro contr hc hm idx hi
    rw [einsum_split dim [a.nd] ho hc (by simpa using hm) hi]
    simp only [einTerm_one]
  change singleFast sub out a = some x at hx
  unfold singleFast at hx
  dsimp only at hx
  split at hx
  · -- a permutation of the axes
    rename_i h
    obtain ⟨hn, -, h1, h2⟩ := h
    obtain ⟨w, hw1, hw2, hw3, hw4⟩ := permute_letters a.view a.mem hw hs hn ho h1 h2
    rw [hw1] at hx
    simp only [Option.map_some, Option.some.injEq] at hx
    refine ⟨⟨a.mem, w⟩, hx.symm, hw3, ?_⟩
    intro idx hi
    have hi : InShape (out.map dim) idx := by rw [← hw3]; exact hi
    rw [split [] List.nodup_nil (by intro c; simp; exact h1 c) idx hi]
    simp only [List.map_nil, indices, List.map_cons, List.sum_cons, List.sum_nil, add_zero, List.append_nil]
    exact hw4 idx hi
  · split at hx
    · -- the trace
      rename_i h
      obtain ⟨hl, he, rfl⟩ := h
      obtain ⟨i, j, rfl⟩ := List.length_eq_two.1 hl
      simp only [List.getElem?_cons_zero, List.getElem?_cons_succ, Option.some.injEq] at he
      subst he
      obtain ⟨w, hd1, hd2, hd3, hd4⟩ := C50_diagonal_partial a.mem a.view hw (n := dim i) (m := dim i) (by simpa using hs)
      rw [hd1] at hx
      simp only [Option.map_some, Option.some.injEq] at hx
      refine ⟨_, hx.symm, ?_⟩
      rw [C16_reduce_all (fun x y : R => x + y) 0 add_assoc add_comm zero_add a.mem w hd2]
      have hsh : w.shape = [dim i] := by
        have : w.shape = _ := hd3
        rw [this]
        show [min (a.view.shape.getD 0 0) (a.view.shape.getD 1 0)] = _
        rw [hs]; simp
      apply Arr.Is.denote _ hitem
      refine ⟨rfl, ?_⟩
      show [_] = [(Spec.einsum [[i, i]] [] dim [a.nd]).get []]
      rw [split [i] (by simp) (by intro c; simp) [] trivial, ein_foldl_add, Nd.toList]
      congr 2
      show (indices w.shape).map _ = _
      rw [hsh]
      apply List.map_congr_left
      intro y hy
      rw [mem_indices] at hy
      rw [hd4 y (by show InShape w.shape y; rw [hsh]; exact hy)]
      show a.nd.get [y.getD 0 0, y.getD 0 0] = _
      simp [assign]
    · split at hx
      · -- the diagonal
        rename_i h
        obtain ⟨hl, he, hl1, he1⟩ := h
        obtain ⟨i, j, rfl⟩ := List.length_eq_two.1 hl
        obtain ⟨k, rfl⟩ := List.length_eq_one_iff.1 hl1
        simp only [List.getElem?_cons_zero, List.getElem?_cons_succ, Option.some.injEq] at he he1
        subst he
        subst he1
        obtain ⟨w, hd1, hd2, hd3, hd4⟩ := C50_diagonal_partial a.mem a.view hw (n := dim k) (m := dim k) (by simpa using hs)
        rw [hd1] at hx
        simp only [Option.map_some, Option.some.injEq] at hx
        have hsh : w.shape = [dim k] := by
          have : w.shape = _ := hd3
          rw [this]
          show [min (a.view.shape.getD 0 0) (a.view.shape.getD 1 0)] = _
          rw [hs]; simp
        refine ⟨_, hx.symm, hsh, ?_⟩
        intro idx hi
        have hi' : InShape ([k].map dim) idx := by rw [List.map_singleton, ← hsh]; exact hi
        rw [split [] List.nodup_nil (by intro c; simp) idx hi']
        rw [show (Held.nd ⟨a.mem, w⟩).get idx = _ from hd4 idx hi]
        show a.nd.get [idx.getD 0 0, idx.getD 0 0] = _
        simp [indices, assign]
      · split at hx
        · -- the sum along one of two axes
          rename_i h
          obtain ⟨hl, hn, hl1⟩ := h
          obtain ⟨i, j, rfl⟩ := List.length_eq_two.1 hl
          obtain ⟨k, rfl⟩ := List.length_eq_one_iff.1 hl1
          have hij : i ≠ j := by simpa using hn
          simp only [Option.some.injEq, List.getElem?_cons_zero] at hx
          refine ⟨_, hx.symm, ?_⟩
          have hk : k = i ∨ k = j := by simpa using hos k (by simp)
          have hax : ∀ ax, ax < 2 → ((reduceAxis (· + ·) 0 a.mem a.view ax 0)).Is (axisReduce (· + ·) 0 a.nd ax) := by
            intro ax hax
            exact C18_reduce_axis (fun x y : R => x + y) 0 add_assoc add_comm zero_add a.mem a.view hw ax (by rw [hs]; simpa using hax) (by rw [hs]; simp) 0
          have hone : ∀ y, InShape [dim k] y → ∃ v, y = [v] := by
            intro y hy
            exact List.length_eq_one_iff.1 (by simpa using inShape_length hy)
          rcases hk with rfl | rfl
          · rw [if_pos rfl]
            refine (hax 1 (by omega)).congr ?_ |>.denote hitem 0
            refine ⟨by show a.view.shape.eraseIdx 1 = _; rw [hs]; rfl, ?_⟩
            intro idx hi
            have hi' : InShape ([k].map dim) idx := by
              have : (axisReduce (· + ·) 0 a.nd 1).shape = [dim k] := by show a.view.shape.eraseIdx 1 = _; rw [hs]; rfl
              rw [this] at hi; exact hi
            obtain ⟨v, rfl⟩ := hone idx hi'
            rw [split [j] (by simp) (by intro c; simp; constructor; · rintro rfl; exact ⟨Or.inr rfl, hij.symm⟩
                                        · rintro ⟨h | h, hne⟩; exact absurd h hne; exact h) _ hi']
            show ((List.range (a.view.shape.getD 1 0)).map _).foldl _ _ = _
            rw [ein_foldl_add, hs]
            rw [show indices ([j].map dim) = (List.range (dim j)).map fun v => [v] from indices_single _]
            simp [assign, List.idxOf_cons, hij, Function.comp_def]
          · rw [if_neg (by simpa using fun h => hij h.symm)]
            refine (hax 0 (by omega)).congr ?_ |>.denote hitem 0
            refine ⟨by show a.view.shape.eraseIdx 0 = _; rw [hs]; rfl, ?_⟩
            intro idx hi
            have hi' : InShape ([k].map dim) idx := by
              have : (axisReduce (· + ·) 0 a.nd 0).shape = [dim k] := by show a.view.shape.eraseIdx 0 = _; rw [hs]; rfl
              rw [this] at hi; exact hi
            obtain ⟨v, rfl⟩ := hone idx hi'
            rw [split [i] (by simp) (by intro c; simp; constructor; · rintro rfl; exact ⟨Or.inl rfl, hij⟩
                                        · rintro ⟨h | h, hne⟩; exact h; exact absurd h hne) _ hi']
            show ((List.range (a.view.shape.getD 0 0)).map _).foldl _ _ = _
            rw [ein_foldl_add, hs]
            rw [show indices ([i].map dim) = (List.range (dim i)).map fun v => [v] from indices_single _]
            simp [assign, List.idxOf_cons, hij.symm, Function.comp_def]
        · split at hx
          · -- the sum of all elements
            rename_i h
            obtain ⟨-, hn, rfl⟩ := h
            simp only [Option.some.injEq] at hx
            refine ⟨_, hx.symm, ?_⟩
            rw [C16_reduce_all (fun x y : R => x + y) 0 add_assoc add_comm zero_add a.mem a.view hw]
            apply Arr.Is.denote _ hitem
            refine ⟨rfl, ?_⟩
            show [_] = [(Spec.einsum [sub] [] dim [a.nd]).get []]
            rw [split sub hn (by intro c; simp) [] trivial, ein_foldl_add, Nd.toList]
            congr 2
            show (indices a.view.shape).map _ = _
            rw [hs]
            apply List.map_congr_left
            intro y hy
            rw [mem_indices] at hy
            simp only [List.nil_append]
            rw [map_assign hn (by simpa using inShape_length hy)]
            rfl
          · simp at hx

/-- C41 (partial): the Einstein sum of one operand is right when no letter repeats in the output, and either no letter is
summed or no letter of the output repeats in the operand.  Missing: the other subscripts (see the counterexamples). -/
theorem C41_one_partial {R : Type} [CommSemiring R] (d : DType) (hd : 0 < Rumpy.DType.itemsize d) (s sub out : List Char)
    (ht : EinText s [sub] out) (a : Held R) (hw : a.view.WF) (hitem : 0 < a.view.item) (dim : Char → Nat)
    (hdim : EinDims [sub] [a.view.shape] dim) (hos : ∀ c ∈ out, c ∈ sub) (ho : out.Nodup)
    (h : (∀ c ∈ sub, c ∈ out) ∨ ∀ c ∈ out, sub.count c = 1) :
    ∃ r, einsumOne d s a = .ok r ∧ r.nd.Same (Spec.einsum [sub] out dim [a.nd]) := by
  have hos' : ∀ c ∈ out, c ∈ ([sub] : List (List Char)).flatten := by simpa using hos
  obtain ⟨m, hm, hmd⟩ := validate_ok (p := ⟨[sub], out⟩) hdim hos'
  have hs : a.view.shape = sub.map dim := by simpa [EinDims] using hdim
  unfold einsumOne
  rw [(C41_parse s [sub] out).2 ht, Option.bind_some, hm, Option.map_some]
  simp only [Option.elim_some]
  cases hf : einsumSingleFast ⟨[sub], out⟩ a with
  | some x =>
    obtain ⟨r, rfl, hr⟩ := single_fast hw hitem hs hos ho hf
    exact ⟨r, rfl, hr⟩
  | none =>
    simp only [Option.elim_none]
    have he := einsum_congr_dim (dim := dimOf m) (dim' := dim) [a.nd] hos' hmd
    rw [einsumSingle_eq hm ho h, he]
    have hsh : out.map (dimOf m) = out.map dim := List.map_congr_left fun c hc => hmd c (hos' c hc)
    rw [hsh]
    unfold einsumFinish
    split
    · rename_i h0
      refine ⟨_, rfl, Arr.Is.denote (r := ⟨out.map dim, []⟩) ⟨rfl, ?_⟩ hd 0⟩
      rw [sizeOf_eq] at h0
      have hl := length_indices (out.map dim)
      rw [h0, List.length_eq_zero_iff] at hl
      show [] = (indices (out.map dim)).map _
      rw [hl]; rfl
    · exact ⟨_, rfl, Arr.Is.denote (nd := Spec.einsum [sub] out dim [a.nd]) ⟨rfl, rfl⟩ hd 0⟩

/-- A `2 × 2 × 2` array of the numbers 1 to 8. -/
def cubeExample : Held Int := Held.of ⟨[2, 2, 2], [1, 2, 3, 4, 5, 6, 7, 8]⟩ 8 0

example : ∃ r, einsumOne .i64 "iij->j".toList cubeExample = .ok r ∧
    r.nd.Same (Spec.einsum ["iij".toList] "j".toList (fun _ => 2) [cubeExample.nd]) :=
  C41_one_partial .i64 (by decide) _ _ _ (by rw [← C41_parse]; decide +kernel) cubeExample (View.WF.fresh _ _) (by decide) _
    (by unfold EinDims; decide) (by decide) (by decide) (Or.inr (by decide))
example : (Spec.einsum ["iij".toList] "j".toList (fun _ => 2) [cubeExample.nd]).toList = [8, 10] := by decide +kernel

/-- C41: without an arrow, the Einstein sum of one operand is always right. -/
theorem C41_one_implicit {R : Type} [CommSemiring R] (d : DType) (hd : 0 < Rumpy.DType.itemsize d) (s sub out : List Char)
    (ht : EinText s [sub] out) (himp : IsImplicitOutput [sub] out) (a : Held R) (hw : a.view.WF) (hitem : 0 < a.view.item)
    (dim : Char → Nat) (hdim : EinDims [sub] [a.view.shape] dim) :
    ∃ r, einsumOne d s a = .ok r ∧ r.nd.Same (Spec.einsum [sub] out dim [a.nd]) := by
  have hone : ∀ c ∈ out, sub.count c = 1 := by
    intro c hc
    simpa using (himp.2 c).1 hc
  refine C41_one_partial d hd s sub out ht a hw hitem dim hdim ?_ ?_ (Or.inr hone)
  · intro c hc
    exact List.count_pos_iff.1 (by rw [hone c hc]; omega)
  · exact himp.1.imp fun {x y} h e => by subst e; exact absurd h (Char.lt_irrefl x)

example : ∃ r, einsumOne .i64 "kij".toList cubeExample = .ok r ∧
    r.nd.Same (Spec.einsum ["kij".toList] "ijk".toList (fun _ => 2) [cubeExample.nd]) :=
  C41_one_implicit .i64 (by decide) _ _ _ (by rw [← C41_parse]; decide +kernel)
    ⟨by decide, fun c => by
      constructor
      · intro h
        fin_cases h <;> decide
      · intro h
        have hm : c ∈ ["kij".toList].flatten := List.count_pos_iff.1 (by omega)
        fin_cases hm <;> decide⟩ cubeExample (View.WF.fresh _ _) (by decide) _ (by unfold EinDims; decide)
example : (Spec.einsum ["kij".toList] "ijk".toList (fun _ => 2) [cubeExample.nd]).toList = [1, 5, 2, 6, 3, 7, 4, 8] := by
  decide +kernel

end Props
