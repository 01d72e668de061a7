import Verif.Lemmas.Strings
import Verif.Props.EinsumPair
/-!
# C39: storing strings of fixed width

`Strs.Holds a t` says that array `a` holds the texts `t` in its cells; reading is `readString`.
-/

namespace Props
open Spec Rumpy

/-! ### Storing and reading back -/

theorem trimNul_append (s : List Char) : ∃ k, s = trimNul s ++ List.replicate k nul := by
  refine ⟨(s.reverse.takeWhile (· = nul)).length, ?_⟩
  unfold trimNul
  have h := List.takeWhile_append_dropWhile (p := fun c => decide (c = nul)) (l := s.reverse)
  have hr : s.reverse.takeWhile (fun c => decide (c = nul)) =
      List.replicate (s.reverse.takeWhile (fun c => decide (c = nul))).length nul := by
    rw [List.eq_replicate_iff]
    refine ⟨rfl, fun b hb => ?_⟩
    have := List.all_eq_true.1 (List.all_takeWhile (p := fun c => decide (c = nul)) (l := s.reverse)) b hb
    simpa using this
  have := congrArg List.reverse h
  rw [List.reverse_append, List.reverse_reverse] at this
  conv_lhs => rw [← this]
  congr 1
  conv_lhs => rw [hr]
  rw [List.reverse_replicate]

theorem takeWhile_trimNul {s : List Char} (h : NoNul (trimNul s)) : s.takeWhile (· ≠ nul) = trimNul s := by
  obtain ⟨k, hk⟩ := trimNul_append s
  conv_lhs => rw [hk]
  rw [List.takeWhile_append_of_pos]
  · cases k <;> simp [List.replicate_succ]
  · intro c hc
    simp only [ne_eq, decide_eq_true_eq]
    rintro rfl
    exact h hc

theorem fromVec_cell (unit : Nat) (hu : 0 < unit) (code : β → Nat) (data : List (List β)) (w : Nat) {i : Nat}
    (hi : i < data.length) {j : Nat} (hj : j < w) :
    (fromVec unit code data w).strs.cell ((fromVec unit code data w).strs.view.addr [i]) j = (data[i].map code).getD j 0 := by
  rw [fromVec_eq]
  have := outCell (w := w) hu (s := [data.length]) (fun i => (data.getD (i.getD 0 0) []).map code) (idx := [i])
    (by simpa [InShape] using hi) hj
  rw [strs_view, this]
  simp [List.getD_eq_getElem?_getD, hi]

/-- C39.  A string stored in an array of width `w` reads back cut to the width and without trailing
NULs, when no NUL is left inside it.  Missing: NULs inside a string (`C39_embedded_nul`). -/
theorem C39_round_trip_partial (data : List (List Char)) (w i : Nat) (hi : i < data.length)
    (hn : NoNul (trimNul (data[i].take w))) :
    let a := (fromVec 4 Char.toNat data w).strs
    a.view.shape = [data.length] ∧ readString (a.cell (a.view.addr [i])) w = trimNul (data[i].take w) := by
  dsimp only
  refine ⟨by rw [fromVec_eq]; rfl, ?_⟩
  rw [readString_of (s := data[i]) (fun j hj => fromVec_cell 4 (by omega) Char.toNat data w hi hj)]
  exact takeWhile_trimNul hn

example : let a := (fromVec 4 Char.toNat ["hello".toList, ['b', nul], []] 3).strs
    readString (a.cell (a.view.addr [0])) 3 = "hel".toList ∧ readString (a.cell (a.view.addr [1])) 3 = ['b'] := by
  decide +kernel

/-- C39, the code: a NUL inside a string ends it when it is read. -/
theorem C39_embedded_nul_counterexample : let a := (fromVec 4 Char.toNat [['a', nul, 'b']] 3).strs
    readString (a.cell (a.view.addr [0])) 3 = ['a'] ∧ trimNul (['a', nul, 'b'].take 3) = ['a', nul, 'b'] := by
  decide +kernel

/-- C39 for byte strings, with the same restriction. -/
theorem C39_bytes_round_trip_partial (data : List (List Nat)) (w i : Nat) (hi : i < data.length)
    (hn : 0 ∉ data[i].take w) :
    let a := (fromVec 1 id data w).strs
    a.view.shape = [data.length] ∧ readBytes (a.cell (a.view.addr [i])) w = data[i].take w := by
  dsimp only
  refine ⟨by rw [fromVec_eq]; rfl, ?_⟩
  have hc : CellOf ((fromVec 1 id data w).strs.cell ((fromVec 1 id data w).strs.view.addr [i])) w (data[i].take w) := by
    refine ⟨by simp, hn, fun j hj => ?_⟩
    rw [fromVec_cell 1 (by omega) id data w hi hj, List.map_id]
    simp only [List.getD_eq_getElem?_getD]
    rw [List.getElem?_take_of_lt hj]
  exact hc.readBytes

example : let a := (fromVec 1 id [[104, 101, 108], [0x80]] 2).strs
    readBytes (a.cell (a.view.addr [0])) 2 = [104, 101] ∧ readBytes (a.cell (a.view.addr [1])) 2 = [0x80] := by
  decide +kernel

/-! ### Storing into an element of an existing array -/

/-- An array of two strings read backwards: the memory holds `hi`, `ok`. -/
def backwards : Strs := ⟨4, fun a => [104, 105, 111, 107].getD (a / 4).toNat 0, ⟨8, [2], [-8], 8, false, false⟩, 2⟩

/-- What it holds. -/
def backwardsTexts : Nd (List Char) := ⟨[2], fun idx => if idx = [0] then ['o', 'k'] else ['h', 'i']⟩

theorem backwards_wf : backwards.view.WF := ⟨rfl, by decide, by decide⟩

theorem backwards_holds : backwards.Holds backwardsTexts := by
  refine ⟨rfl, rfl, rfl, fun idx hi => ?_⟩
  match idx, hi with
  | [0], _ => exact ⟨by decide, by decide, by decide⟩
  | [1], _ => exact ⟨by decide, by decide, by decide⟩

theorem foldl_store (u : Nat) (hu : 0 < u) (addr : Int) : ∀ (c : List Nat) (k : Nat) (m : Int → Nat) (x : Int),
    ((c.zipIdx k).foldl (fun (m : Int → Nat) xj => fun x => if x = addr + u * (xj.2 : Nat) then xj.1 else m x) m) x =
      if ∃ j < c.length, x = addr + u * ((k + j : Nat) : Int) then c.getD (((x - addr) / u).toNat - k) 0 else m x
  | [], k, m, x => by simp
  | y :: c, k, m, x => by
    simp only [List.zipIdx_cons, List.foldl_cons]
    rw [foldl_store u hu addr c (k + 1)]
    by_cases h1 : ∃ j < c.length, x = addr + u * ((k + 1 + j : Nat) : Int)
    · rw [if_pos h1]
      obtain ⟨j, hj, rfl⟩ := h1
      rw [if_pos ⟨j + 1, by simpa using hj, by push_cast; ring⟩]
      have : (addr + (u : Int) * ((k + 1 + j : Nat) : Int) - addr) / u = ((k + 1 + j : Nat) : Int) := by
        rw [add_sub_cancel_left, Int.mul_ediv_cancel_left _ (by omega)]
      rw [this, Int.toNat_natCast, show k + 1 + j - (k + 1) = j by omega, show k + 1 + j - k = j + 1 by omega]
      rfl
    · rw [if_neg h1]
      by_cases h2 : x = addr + u * (k : Int)
      · rw [if_pos h2, if_pos ⟨0, by simp, by simpa using h2⟩]
        have : (x - addr) / u = (k : Int) := by
          rw [h2, add_sub_cancel_left, Int.mul_ediv_cancel_left _ (by omega)]
        rw [this, Int.toNat_natCast]
        simp
      · rw [if_neg h2, if_neg]
        rintro ⟨j, hj, hx⟩
        cases j with
        | zero => exact h2 (by simpa using hx)
        | succ j => exact h1 ⟨j, by simpa using hj, by rw [hx]; push_cast; ring⟩

theorem storeAt_eq (code : β → Nat) (a : Strs) (hu : 0 < a.unit) (addr : Int) (s : List β) (x : Int) :
    storeAt code a addr s x = if ∃ j < a.width, x = addr + a.unit * (j : Nat) then
      (s.map code).getD ((x - addr) / a.unit).toNat 0 else a.mem x := by
  unfold storeAt
  rw [storeCell_eq, List.foldl_map]
  simp only [Nat.zero_add]
  rw [foldl_store a.unit hu addr (padCell a.width (s.map code)) 0 a.mem x]
  simp only [length_padCell, Nat.zero_add, Nat.sub_zero]
  by_cases h : ∃ j < a.width, x = addr + a.unit * (j : Nat)
  · rw [if_pos h, if_pos h]
    obtain ⟨j, hj, rfl⟩ := h
    have : (addr + (a.unit : Int) * (j : Int) - addr) / a.unit = (j : Int) := by
      rw [add_sub_cancel_left, Int.mul_ediv_cancel_left _ (by omega)]
    rw [this, Int.toNat_natCast, getD_padCell _ hj]
  · rw [if_neg h, if_neg h]

/-- No two elements of the array share memory. -/
def CellsApart (a : Strs) : Prop :=
  ∀ i k, InShape a.view.shape i → InShape a.view.shape k → i ≠ k → ∀ x < a.width, ∀ y < a.width,
    a.view.addr i + a.unit * (x : Nat) ≠ a.view.addr k + a.unit * (y : Nat)

/-- C39.  Writing a string into one element of an array makes that element hold the string cut to
the width, and leaves all others as they were. -/
theorem C39_store (a : Strs) (t : Nd (List Char)) (h : a.Holds t) (hap : CellsApart a) (idx : List Nat)
    (hi : InShape t.shape idx) (s : List Char) (hs : NoNul (s.take a.width)) :
    ({ a with mem := storeAt Char.toNat a (a.view.addr idx) s } : Strs).Holds
      ⟨t.shape, fun k => if k = idx then s.take a.width else t.get k⟩ := by
  obtain ⟨h1, h2, h3, h4⟩ := h
  have hu : 0 < a.unit := by omega
  refine ⟨h1, h2, h3, fun k hk => ?_⟩
  dsimp only
  by_cases e : k = idx
  · rw [if_pos e]
    subst e
    refine ⟨by simp, zero_notMem_codes.2 hs, fun j hj => ?_⟩
    show storeAt Char.toNat a (a.view.addr k) s (a.view.addr k + a.unit * (j : Nat)) = _
    rw [storeAt_eq _ _ hu, if_pos ⟨j, hj, rfl⟩, add_sub_cancel_left, Int.mul_ediv_cancel_left _ (by omega), Int.toNat_natCast]
    simp only [List.getD_eq_getElem?_getD, List.map_take]
    rw [List.getElem?_take_of_lt hj]
  · rw [if_neg e]
    obtain ⟨c1, c2, c3⟩ := h4 k hk
    refine ⟨c1, c2, fun j hj => ?_⟩
    show storeAt Char.toNat a (a.view.addr idx) s (a.view.addr k + a.unit * (j : Nat)) = _
    rw [storeAt_eq _ _ hu, if_neg]
    · exact c3 j hj
    · rintro ⟨y, hy, he⟩
      exact hap k idx (h3 ▸ hk) (h3 ▸ hi) e j hj y hy he

example : ({ backwards with mem := storeAt Char.toNat backwards (backwards.view.addr [1]) ['a', 'b', 'c'] } : Strs).Holds
    ⟨[2], fun k => if k = [1] then ['a', 'b'] else backwardsTexts.get k⟩ := by
  apply C39_store backwards backwardsTexts backwards_holds _ [1] (by decide) ['a', 'b', 'c'] (by decide)
  intro i k hi hk hne x hx y hy
  match i, hi, k, hk with
  | [0], _, [0], _ => exact absurd rfl hne
  | [1], _, [1], _ => exact absurd rfl hne
  | [0], _, [1], _ =>
    simp only [backwards, View.addr, byteOffset] at hx hy ⊢
    omega
  | [1], _, [0], _ =>
    simp only [backwards, View.addr, byteOffset] at hx hy ⊢
    omega

/-! ### Choosing the width -/

theorem maxLen_texts (data : List (List β)) : maxLen (data.map PyNest.text) = data.foldr (fun s m => max s.length m) 0 := by
  induction data with
  | nil => rfl
  | cons s data ih => simp [maxLen, maxLenItem, ih]

theorem le_maxLen_texts {data : List (List β)} {s : List β} (h : s ∈ data) : s.length ≤ maxLen (data.map PyNest.text) := by
  rw [maxLen_texts]
  induction data with
  | nil => simp at h
  | cons x data ih =>
    rcases List.mem_cons.1 h with rfl | h
    · simp
    · simp only [List.foldr_cons]
      exact Nat.le_trans (ih h) (Nat.le_max_right _ _)

theorem mapM_itemText (data : List (List β)) : (data.map PyNest.text).mapM itemText = some data := by
  induction data with
  | nil => rfl
  | cons s data ih => rw [List.map_cons, List.mapM_cons, ih]; rfl

/-- C39.  An array made from a list of strings holds exactly these strings: nothing is cut. -/
theorem C39_list (data : List (List Char)) (hne : data ≠ []) (hn : ∀ s ∈ data, NoNul s) :
    ∃ a, fromList 4 Char.toNat (data.map PyNest.text) = some a ∧
      a.Holds ⟨[data.length], fun idx => data.getD (idx.getD 0 0) []⟩ := by
  obtain ⟨s, data', rfl⟩ := List.exists_cons_of_ne_nil hne
  refine ⟨(fromVec 4 Char.toNat (s :: data') (maxLen ((s :: data').map PyNest.text))).strs, ?_, ?_⟩
  · unfold fromList
    simp only [List.map_cons, inferWidth, inferItem]
    rw [← List.map_cons, mapM_itemText]
    rfl
  · rw [fromVec_eq]
    apply out_holds
    intro idx hi
    match idx, hi with
    | [i], hi =>
      have hi' : i < (s :: data').length := by simpa [InShape] using hi
      have hm : (s :: data').getD ([i].getD 0 0) [] ∈ s :: data' := by
        rw [List.getD_cons_zero, List.getD_eq_getElem?_getD, List.getElem?_eq_getElem hi', Option.getD_some]
        exact List.getElem_mem hi'
      exact ⟨le_maxLen_texts hm, hn _ hm⟩

example : ∃ a, fromList 4 Char.toNat (["", "longest", "x"].map fun s => PyNest.text s.toList) = some a ∧ a.width = 7 :=
  ⟨_, rfl, rfl⟩

/-- C39 for byte strings. -/
theorem C39_bytes_list (data : List (List Nat)) (hne : data ≠ []) (hn : ∀ s ∈ data, 0 ∉ s) :
    ∃ a, fromList 1 id (data.map PyNest.text) = some a ∧
      a.HoldsBytes ⟨[data.length], fun idx => data.getD (idx.getD 0 0) []⟩ := by
  obtain ⟨s, data', rfl⟩ := List.exists_cons_of_ne_nil hne
  refine ⟨(fromVec 1 id (s :: data') (maxLen ((s :: data').map PyNest.text))).strs, ?_, ?_⟩
  · unfold fromList
    simp only [List.map_cons, inferWidth, inferItem]
    rw [← List.map_cons, mapM_itemText]
    rfl
  · rw [fromVec_eq]
    simp only [List.map_id]
    apply out_holdsBytes
    intro idx hi
    match idx, hi with
    | [i], hi =>
      have hi' : i < (s :: data').length := by simpa [InShape] using hi
      have hm : (s :: data').getD ([i].getD 0 0) [] ∈ s :: data' := by
        rw [List.getD_cons_zero, List.getD_eq_getElem?_getD, List.getElem?_eq_getElem hi', Option.getD_some]
        exact List.getElem_mem hi'
      exact ⟨le_maxLen_texts hm, hn _ hm⟩

/-- The nested Python list with the given shape and elements. -/
def nest : List Nat → (List Nat → List β) → List (PyNest β)
  | [], _ => []
  | [n], f => (List.range n).map fun i => .text (f [i])
  | n :: m :: s, f => (List.range n).map fun i => .list (nest (m :: s) fun idx => f (i :: idx))

theorem length_nest (n : Nat) (s : List Nat) (f : List Nat → List β) : (nest (n :: s) f).length = n := by
  cases s <;> simp [nest]

theorem flatten_texts (l : List (List β)) : flattenItems (l.map PyNest.text) = ([], l) := by
  induction l with
  | nil => rfl
  | cons s l ih => simp [flattenItems, flattenItem, ih]

theorem flatten_lists (g : γ → List (PyNest β)) (d : γ → List (List β)) (m : Nat) (sh : List Nat) :
    ∀ l : List γ, (∀ x ∈ l, (g x).length = m ∧ flattenItems (g x) = (sh, d x)) →
      (flattenItems (l.map fun x => PyNest.list (g x))).2 = l.flatMap d ∧
      (l ≠ [] → (flattenItems (l.map fun x => PyNest.list (g x))).1 = m :: sh)
  | [], _ => ⟨rfl, fun h => absurd rfl h⟩
  | x :: l, h => by
    obtain ⟨h1, h2⟩ := h x (by simp)
    obtain ⟨i1, _⟩ := flatten_lists g d m sh l fun y hy => h y (by simp [hy])
    simp [flattenItems, flattenItem, h1, h2, i1]

theorem flatten_nest : ∀ (s : List Nat) (n : Nat) (f : List Nat → List β), (∀ x ∈ n :: s, 0 < x) →
    flattenItems (nest (n :: s) f) = (s, (indices (n :: s)).map f)
  | [], n, f, _ => by
    have : nest [n] f = ((List.range n).map fun i => f [i]).map PyNest.text := by simp [nest]
    rw [this, flatten_texts, indices_singleton, List.map_map]
    rfl
  | m :: s, n, f, h => by
    have key := flatten_lists (fun i : Nat => nest (m :: s) fun idx => f (i :: idx))
      (fun i => (indices (m :: s)).map fun idx => f (i :: idx)) m s (List.range n) (fun i _ =>
        ⟨length_nest _ _ _, flatten_nest s m _ fun x hx => h x (by simp [hx])⟩)
    have hn : List.range n ≠ [] := by
      have := h n (by simp)
      simp; omega
    refine Prod.ext (key.2 hn) ?_
    refine key.1.trans ?_
    conv_rhs => rw [indices]
    rw [List.map_flatMap]
    simp [List.map_map, Function.comp_def]

/-- The strings of the first innermost row. -/
def firstRow : List Nat → (List Nat → List β) → List (List β)
  | [], _ => []
  | [n], f => (List.range n).map fun i => f [i]
  | _ :: m :: s, f => firstRow (m :: s) fun idx => f (0 :: idx)

theorem inferWidth_nest : ∀ (s : List Nat) (n : Nat) (f : List Nat → List β), (∀ x ∈ n :: s, 0 < x) →
    inferWidth (nest (n :: s) f) = some (maxLen ((firstRow (n :: s) f).map PyNest.text))
  | [], n, f, h => by
    obtain ⟨k, rfl⟩ : ∃ k, n = k + 1 := ⟨n - 1, by have := h n (by simp); omega⟩
    simp only [nest, firstRow, List.map_map]
    rw [List.range_succ_eq_map, List.map_cons, List.map_cons, inferWidth, inferItem]
    rfl
  | m :: s, n, f, h => by
    obtain ⟨k, rfl⟩ : ∃ k, n = k + 1 := ⟨n - 1, by have := h n (by simp); omega⟩
    simp only [nest, firstRow]
    rw [List.range_succ_eq_map, List.map_cons, inferWidth, inferItem]
    exact inferWidth_nest s m _ fun x hx => h x (by simp [hx])

theorem nest_two_cons (n m : Nat) (s : List Nat) (f : List Nat → List β) (hn : 0 < n) :
    ∃ l r, nest (n :: m :: s) f = .list l :: r := by
  obtain ⟨k, rfl⟩ : ∃ k, n = k + 1 := ⟨n - 1, by omega⟩
  simp only [nest]
  rw [List.range_succ_eq_map, List.map_cons]
  exact ⟨_, _, rfl⟩

/-- C39.  An array made from a nested list of strings holds exactly these strings, in their places,
when no string is longer than all those of the first innermost row.  Missing: longer strings
further on, which are cut (`C39_nested_cut_counterexample`). -/
theorem C39_nested_list_partial (n m : Nat) (s : List Nat) (f : List Nat → List Char) (hpos : ∀ x ∈ n :: m :: s, 0 < x)
    (hn : ∀ idx, InShape (n :: m :: s) idx → NoNul (f idx))
    (hw : ∀ idx, InShape (n :: m :: s) idx → ∃ r ∈ firstRow (n :: m :: s) f, (f idx).length ≤ r.length) :
    ∃ a, fromList 4 Char.toNat (nest (n :: m :: s) f) = some a ∧ a.Holds ⟨n :: m :: s, f⟩ := by
  set S := n :: m :: s with hS
  set w := maxLen ((firstRow S f).map PyNest.text) with hwd
  obtain ⟨l, r, hlr⟩ := nest_two_cons n m s f (hpos n List.mem_cons_self)
  refine ⟨fromVecShaped 4 Char.toNat ((indices S).map f) S w, ?_, ?_⟩
  · unfold fromList
    have h1 := inferWidth_nest (m :: s) n f hpos
    have h2 := flatten_nest (m :: s) n f hpos
    have h3 := length_nest n (m :: s) f
    rw [h1]
    rw [← hS] at hlr h1 h2 h3 ⊢
    rw [hlr] at h2 h3 ⊢
    dsimp only
    rw [h2, h3]
  · unfold fromVecShaped
    dsimp only
    set o := fromVec 4 Char.toNat ((indices S).map f) w with ho
    have hlen : ((indices S).map f).length = size S := by rw [List.length_map, length_indices]
    have hsh : o.strs.view = View.fresh [size S] (4 * w) := by
      rw [ho, fromVec_eq, strs_view]
      simp only [hlen]
    have hwf : o.strs.view.WF := by rw [hsh]; exact View.WF.fresh _ _
    have hc : o.strs.view.cFlag = true := by rw [hsh]; rfl
    have hsome : (o.strs.view.reshape S).isSome := by
      rw [C08_reshape_succeeds_iff, hsh]
      exact ⟨by simp [View.fresh, size], Or.inl rfl⟩
    obtain ⟨v, hv⟩ := Option.isSome_iff_exists.1 hsome
    rw [hv, Option.getD_some]
    obtain ⟨v1, _, v3⟩ := C08_reshape_partial o.strs.cell o.strs.view v hwf S hc hv
    have hitem := (reshape_facts hv).1
    have hunit : o.strs.unit = 4 := by rw [ho, fromVec_eq]; rfl
    have hwidth : o.strs.width = w := by rw [ho, fromVec_eq]; rfl
    refine ⟨hunit, ?_, v1, fun idx hi => ?_⟩
    · show v.item = 4 * o.strs.width
      rw [hitem, hsh, hwidth]; rfl
    · have hi' : InShape S idx := hi
      have hr := rank_lt hi'
      have hget : o.strs.cell (v.addr idx) = o.strs.cell (o.strs.view.addr [rank S idx]) := by
        have := denote_get_of_toList v3 (i := idx) (j := [rank S idx]) (by show InShape v.shape idx; rw [v1]; exact hi')
          (by show InShape o.strs.view.shape _; rw [hsh]; simpa [View.fresh, InShape] using hr)
          (by show rank v.shape idx = rank o.strs.view.shape _; rw [v1, hsh]; simp [View.fresh, rank, size])
        exact this
      have hlt : rank S idx < ((indices S).map f).length := by rw [hlen]; exact hr
      have hel : ((indices S).map f)[rank S idx] = f idx := by
        have := indices_getElem?_rank hi'
        have h2 : ((indices S).map f)[rank S idx]? = some (f idx) := by rw [List.getElem?_map, this]; rfl
        rw [List.getElem?_eq_getElem hlt] at h2
        exact Option.some.inj h2
      refine ⟨?_, zero_notMem_codes.2 (hn idx hi'), fun j hj => ?_⟩
      · rw [List.length_map]
        show (f idx).length ≤ o.strs.width
        rw [hwidth]
        obtain ⟨x, hx, hle⟩ := hw idx hi'
        exact Nat.le_trans hle (le_maxLen_texts hx)
      · show o.strs.cell (v.addr idx) j = _
        rw [hget, ho, fromVec_cell 4 (by omega) Char.toNat _ w hlt (by rw [← hwidth]; exact hj), hel]

example : ∃ a, fromList 4 Char.toNat (nest [2, 2] fun idx => if idx = [1, 1] then ['x', 'y'] else ['a', 'b', 'c']) = some a ∧
    a.Holds ⟨[2, 2], fun idx => if idx = [1, 1] then ['x', 'y'] else ['a', 'b', 'c']⟩ := by
  apply C39_nested_list_partial
  · decide
  · intro idx _; split <;> decide
  · intro idx _
    refine ⟨['a', 'b', 'c'], by decide, ?_⟩
    split <;> decide

/-- C39, the code: the width of a nested list is taken from its first innermost row only, so longer
strings in later rows are cut: `[["a"], ["long"]]` becomes `[["a"], ["l"]]`. -/
theorem C39_nested_cut_counterexample :
    ((fromList 4 Char.toNat [.list [.text ['a']], .list [.text ['l', 'o', 'n', 'g']]]).map fun a =>
      (a.view.shape, a.width, readString (a.cell (a.view.addr [1, 0])) a.width)) = some ([2, 1], 1, ['l']) := by
  decide +kernel

/-- C39, the code: a ragged list is no error, it silently becomes a flat array. -/
theorem C39_ragged_counterexample :
    ((fromList 4 Char.toNat [.list [.text ['a'], .text ['b']], .list [.text ['c']]]).map fun a => a.view.shape) = some [3] := by
  decide +kernel

/-! ### Comparison, truth value, copying -/

/-- C39.  Comparing two elements is comparing the texts they hold. -/
theorem C39_compare (a : Strs) (t : Nd (List Char)) (h : a.Holds t) (i k : List Nat) (hi : InShape t.shape i)
    (hk : InShape t.shape k) :
    let r := compareStr a (a.view.addr i) (a.view.addr k)
    (r = .lt ↔ TextLt (t.get i) (t.get k)) ∧ (r = .eq ↔ t.get i = t.get k) ∧ (r = .gt ↔ TextLt (t.get k) (t.get i)) := by
  dsimp only
  unfold compareStr
  rw [(h.2.2.2 i hi).read, (h.2.2.2 k hk).read]
  exact compareText_spec _ _

example : compareStr backwards (backwards.view.addr [1]) (backwards.view.addr [0]) = .lt :=
  (C39_compare backwards backwardsTexts backwards_holds [1] [0] (by decide) (by decide)).1.2
    ⟨[], Or.inr ⟨'h', 'o', ['i'], ['k'], rfl, rfl, by decide⟩⟩

/-- C39 for byte strings. -/
theorem C39_bytes_compare (a : Strs) (t : Nd (List Nat)) (h : a.HoldsBytes t) (i k : List Nat) (hi : InShape t.shape i)
    (hk : InShape t.shape k) :
    let r := compareBytesElem a (a.view.addr i) (a.view.addr k)
    (r = .lt ↔ DictLt (· < ·) (t.get i) (t.get k)) ∧ (r = .eq ↔ t.get i = t.get k) ∧
      (r = .gt ↔ DictLt (· < ·) (t.get k) (t.get i)) := by
  dsimp only
  unfold compareBytesElem
  rw [(h.2.2.2 i hi).readBytes, (h.2.2.2 k hk).readBytes]
  exact compareBytes_spec _ _

/-- C39.  An element counts as true when its text is not empty, if the width is not 0. -/
theorem C39_truth_partial (a : Strs) (t : Nd (List Char)) (h : a.Holds t) (hw : 0 < a.width) (i : List Nat)
    (hi : InShape t.shape i) : truthy a (a.view.addr i) = true ↔ t.get i ≠ [] := by
  obtain ⟨h1, h2, h3⟩ := h.2.2.2 i hi
  unfold truthy
  rw [h3 0 hw, decide_eq_true_eq]
  cases ht : t.get i with
  | nil => simp
  | cons c s =>
    rw [ht] at h2
    simp only [List.map_cons, List.getD_cons_zero, ne_eq, reduceCtorEq, not_false_eq_true, iff_true]
    intro h0
    exact h2 (by simp [h0])

example : truthy backwards (backwards.view.addr [0]) = true :=
  (C39_truth_partial backwards backwardsTexts backwards_holds (by decide) [0] (by decide)).2 (by decide)

/-- C39, the code: in an array of width 0 the truth value of the empty string is read from the
memory behind the array. -/
theorem C39_truth_width_counterexample :
    let a : Strs := ⟨4, fun _ => 7, View.fresh [1] 0, 0⟩
    a.Holds ⟨[1], fun _ => []⟩ ∧ truthy a (a.view.addr [0]) = true := by
  refine ⟨⟨rfl, rfl, rfl, fun idx _ => ⟨by simp, by simp, fun j hj => ?_⟩⟩, by decide⟩
  exact absurd hj (Nat.not_lt_zero j)

theorem range_blocks (a k : Nat) :
    (List.range a).flatMap (fun i => (List.range k).map fun j => i * k + j) = List.range (a * k) := by
  induction a with
  | zero => simp
  | succ a ih => rw [List.range_succ, List.flatMap_append, ih, Nat.succ_mul, List.range_add]; simp

theorem copy_block (a : Strs) {w : Nat} {c : List Nat → List Nat} (hwf : a.view.WF) (hc : a.view.cFlag = true)
    (hitem : a.view.item = a.unit * w)
    (h : ∀ idx, InShape a.view.shape idx → ∀ j < w, a.cell (a.view.addr idx) j = (c idx).getD j 0) :
    ((List.range (size a.view.shape * w)).map fun (i : Nat) => a.mem (a.view.offset + a.unit * i)) =
      (indices a.view.shape).flatMap fun idx => padCell w (c idx) := by
  have hcell : ∀ idx ∈ indices a.view.shape, padCell w (c idx) =
      (List.range w).map fun j => a.mem (a.view.offset + a.unit * ((rank a.view.shape idx * w + j : Nat) : Int)) := by
    intro idx hidx
    have hi := mem_indices.1 hidx
    rw [← range_map_cell (src := a.cell (a.view.addr idx)) (fun j hj => h idx hi j hj)]
    apply List.map_congr_left
    intro j _
    unfold Strs.cell
    rw [cFlag_addr hwf hc hi, hitem]
    congr 1
    push_cast
    ring
  rw [List.flatMap_def, List.map_congr_left hcell]
  have : (indices a.view.shape).map (fun idx => (List.range w).map fun j =>
      a.mem (a.view.offset + a.unit * ((rank a.view.shape idx * w + j : Nat) : Int))) =
      ((indices a.view.shape).map (rank a.view.shape)).map fun r => (List.range w).map fun j =>
        a.mem (a.view.offset + a.unit * ((r * w + j : Nat) : Int)) := by
    rw [List.map_map]; rfl
  rw [this, map_rank_indices, ← List.flatMap_def, ← range_blocks (size a.view.shape) w]
  rw [List.map_flatMap]
  simp [List.map_map, Function.comp_def]

/-- C39.  A copy holds the same texts, from any layout. -/
theorem C39_copy (a : Strs) (t : Nd (List Char)) (hwf : a.view.WF) (h : a.Holds t) : (copyStrs a).strs.Holds t := by
  obtain ⟨h1, h2, h3, h4⟩ := h
  have ht : ∀ idx, InShape t.shape idx → (t.get idx).length ≤ a.width ∧ NoNul (t.get idx) := fun idx hi =>
    ⟨by simpa using (h4 idx hi).1, zero_notMem_codes.1 (h4 idx hi).2.1⟩
  suffices hs : copyStrs a = ⟨4, t.shape, a.width, (indices t.shape).flatMap fun i => padCell a.width ((t.get i).map Char.toNat)⟩ by
    rw [hs]; exact out_holds ht
  unfold copyStrs
  dsimp only
  rw [h1, h3, sizeOf_eq]
  split
  · rename_i h0
    have : indices t.shape = [] := by
      rw [← List.length_eq_zero_iff, length_indices, h0]
    simp [this, h0]
  · split
    · rename_i _ hc
      have := copy_block a (w := a.width) (c := fun idx => (t.get idx).map Char.toNat) hwf hc (by rw [h1, h2])
        (fun idx hi j hj => (h4 idx (h3 ▸ hi)).2.2 j hj)
      rw [h1, h3] at this
      rw [this]
    · congr 1
      rw [addrs_eq hwf, h3]
      have hz := zipIdx_flatMap_map a.view.addr (fun o i => storeCell Char.toNat a.width (i * a.width)
        (readString (a.cell o) a.width)) (indices t.shape) 0
      rw [hz]
      have hz2 := zipIdx_flatMap_map t.get (fun s i => storeCell Char.toNat a.width (i * a.width) s) (indices t.shape) 0
      have hsame : ((indices t.shape).zipIdx.flatMap fun ci => storeCell Char.toNat a.width (ci.2 * a.width)
          (readString (a.cell (a.view.addr ci.1)) a.width)) =
          (indices t.shape).zipIdx.flatMap fun ci => storeCell Char.toNat a.width (ci.2 * a.width) (t.get ci.1) := by
        apply List.flatMap_congr
        rintro ⟨idx, i⟩ hmem
        have hi := mem_indices.1 (List.fst_mem_of_mem_zipIdx hmem)
        rw [(h4 idx hi).read]
      rw [hsame, ← hz2]
      have := writes_storeCells Char.toNat a.width ((indices t.shape).map t.get)
      rw [List.length_map, length_indices] at this
      rw [this, List.flatMap_map]

example : (copyStrs backwards).strs.Holds backwardsTexts ∧ (copyStrs backwards).units = [111, 107, 104, 105] :=
  ⟨C39_copy _ _ backwards_wf backwards_holds, by decide +kernel⟩

/-- C39 for byte strings. -/
theorem C39_bytes_copy (a : Strs) (t : Nd (List Nat)) (hwf : a.view.WF) (h : a.HoldsBytes t) :
    (copyByteStrs a).strs.HoldsBytes t := by
  obtain ⟨h1, h2, h3, h4⟩ := h
  have ht : ∀ idx, InShape t.shape idx → (t.get idx).length ≤ a.width ∧ 0 ∉ t.get idx := fun idx hi =>
    ⟨(h4 idx hi).1, (h4 idx hi).2.1⟩
  suffices hs : copyByteStrs a = ⟨1, t.shape, a.width, (indices t.shape).flatMap fun i => padCell a.width (t.get i)⟩ by
    rw [hs]; exact out_holdsBytes ht
  unfold copyByteStrs
  dsimp only
  rw [h1, h3, sizeOf_eq]
  split
  · rename_i h0
    have : indices t.shape = [] := by
      rw [← List.length_eq_zero_iff, length_indices, h0]
    simp [this, h0]
  · split
    · rename_i _ hc
      have := copy_block a (w := a.width) (c := t.get) hwf hc (by rw [h1, h2, Nat.one_mul])
        (fun idx hi j hj => (h4 idx (h3 ▸ hi)).2.2 j hj)
      rw [h1, h3] at this
      rw [this]
    · congr 1
      rw [addrs_eq hwf, h3]
      have hz := zipIdx_flatMap_map a.view.addr (fun o i => storeCell id a.width (i * a.width)
        (Rumpy.readBytes (a.cell o) a.width)) (indices t.shape) 0
      rw [hz]
      have hz2 := zipIdx_flatMap_map t.get (fun s i => storeCell id a.width (i * a.width) s) (indices t.shape) 0
      have hsame : ((indices t.shape).zipIdx.flatMap fun ci => storeCell id a.width (ci.2 * a.width)
          (Rumpy.readBytes (a.cell (a.view.addr ci.1)) a.width)) =
          (indices t.shape).zipIdx.flatMap fun ci => storeCell id a.width (ci.2 * a.width) (t.get ci.1) := by
        apply List.flatMap_congr
        rintro ⟨idx, i⟩ hmem
        have hi := mem_indices.1 (List.fst_mem_of_mem_zipIdx hmem)
        rw [(h4 idx hi).readBytes]
      rw [hsame, ← hz2]
      have := writes_storeCells id a.width ((indices t.shape).map t.get)
      rw [List.length_map, length_indices] at this
      rw [this, List.flatMap_map]
      simp

example : ∃ a t, a.view.WF ∧ a.HoldsBytes t ∧ t.get [1] = [3] ∧ (copyByteStrs a).strs.HoldsBytes t := by
  have h : (fromVec 1 id [[1, 2], [3]] 2).strs.HoldsBytes ⟨[2], fun idx => [[1, 2], [3]].getD (idx.getD 0 0) []⟩ := by
    rw [fromVec_eq]
    simp only [List.map_id]
    apply out_holdsBytes
    intro idx hi
    match idx, hi with
    | [0], _ => decide
    | [1], _ => decide
  have hw : (fromVec 1 id [[1, 2], [3]] 2).strs.view.WF := View.WF.fresh _ _
  exact ⟨_, _, hw, h, rfl, C39_bytes_copy _ _ hw h⟩

end Props
