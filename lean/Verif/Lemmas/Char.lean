import Verif.Model.Char
import Verif.Lemmas.Strings
/-!
# Lemmas: the `char` functions
-/

namespace Rumpy
open Spec

/-! ## The loops over the elements -/

theorem sources_eq {a : Strs} (hwf : a.view.WF) (hit : a.view.item = 4 * a.width) :
    a.sources = (indices a.view.shape).map fun idx => a.cell (a.view.addr idx) := by
  unfold Strs.sources
  by_cases hc : a.view.cFlag = true
  · rw [if_pos hc, sizeOf_eq, ← map_rank_indices, List.map_map]
    apply List.map_congr_left
    intro idx hi
    rw [mem_indices] at hi
    have := cFlag_addr hwf hc hi
    simp only [Function.comp]
    rw [this, hit]
    congr 2
    push_cast
    ring
  · rw [if_neg hc, addrs_eq hwf, List.map_map]
    rfl

theorem mem_sources {a : Strs} (hwf : a.view.WF) (hit : a.view.item = 4 * a.width) {src : Nat → Nat}
    (h : src ∈ a.sources) : ∃ idx, InShape a.view.shape idx ∧ src = a.cell (a.view.addr idx) := by
  rw [sources_eq hwf hit] at h
  obtain ⟨idx, hi, rfl⟩ := List.mem_map.1 h
  exact ⟨idx, mem_indices.1 hi, rfl⟩

theorem indices_of_size_zero {s : List Nat} (h : size s = 0) : indices s = [] := by
  rw [← List.length_eq_zero_iff, length_indices, h]

theorem tableOf_is {a : Strs} (hwf : a.view.WF) (hit : a.view.item = 4 * a.width) (f : (Nat → Nat) → β) (zero : β) :
    (tableOf a f zero).Is ⟨a.view.shape, fun idx => f (a.cell (a.view.addr idx))⟩ := by
  unfold tableOf
  dsimp only
  split
  · rename_i h
    rw [sizeOf_eq] at h
    refine ⟨rfl, ?_⟩
    simp [Nd.toList, indices_of_size_zero h, sizeOf_eq, h]
  · refine ⟨rfl, ?_⟩
    simp only
    rw [writes_zipIdx f _ _ (by simp [sources_eq hwf hit, sizeOf_eq, length_indices]), sources_eq hwf hit, List.map_map]
    rfl

theorem stringsOf_holds {a : Strs} (hwf : a.view.WF) (hit : a.view.item = 4 * a.width) {w : Nat}
    {f : (Nat → Nat) → List Nat} {g : List Nat → List Char}
    (hf : ∀ idx, InShape a.view.shape idx → f (a.cell (a.view.addr idx)) = (g idx).map Char.toNat)
    (hw : ∀ idx, InShape a.view.shape idx → (g idx).length ≤ w ∧ NoNul (g idx)) :
    (stringsOf a w f).strs.Holds ⟨a.view.shape, g⟩ := by
  have hout : stringsOf a w f = ⟨4, a.view.shape, w, (indices a.view.shape).flatMap fun i => padCell w ((g i).map Char.toNat)⟩ := by
    unfold stringsOf
    dsimp only
    split
    · rename_i h
      rw [sizeOf_eq] at h
      simp [indices_of_size_zero h, sizeOf_eq, h]
    · congr 1
      have hcells : a.sources.map f = (indices a.view.shape).map fun i => (g i).map Char.toNat := by
        rw [sources_eq hwf hit, List.map_map]
        apply List.map_congr_left
        intro idx hi
        exact hf idx (mem_indices.1 hi)
      have := writes_cells w (a.sources.map f) (by
        rw [hcells]
        intro c hc
        obtain ⟨idx, hi, rfl⟩ := List.mem_map.1 hc
        rw [List.length_map]
        exact (hw idx (mem_indices.1 hi)).1)
      rw [zipIdx_flatMap_map f (fun c (i : Nat) => c.zipIdx.map fun xj => (i * w + xj.2, xj.1))] at this
      have hl : (a.sources.map f).length = sizeOf a.view.shape := by
        rw [hcells, List.length_map, length_indices, sizeOf_eq]
      rw [hl] at this
      rw [this, hcells, List.flatMap_map]
  rw [hout]
  exact out_holds hw

theorem triple_stores (G : List Nat → Nat → List δ) (x y z : β → List Nat) : ∀ (l : List β) (k : Nat),
    ((l.flatMap fun s => [x s, y s, z s]).zipIdx (k * 3)).flatMap (fun ci => G ci.1 ci.2) =
      (l.zipIdx k).flatMap fun si => G (x si.1) (si.2 * 3) ++ G (y si.1) (si.2 * 3 + 1) ++ G (z si.1) (si.2 * 3 + 2)
  | [], k => rfl
  | s :: l, k => by
    have ih := triple_stores G x y z l (k + 1)
    rw [show (k + 1) * 3 = k * 3 + 1 + 1 + 1 by omega] at ih
    simp only [List.flatMap_cons, List.cons_append, List.nil_append, List.zipIdx_cons, List.append_assoc]
    rw [ih, show k * 3 + 1 + 1 = k * 3 + 2 by omega]
    simp only [List.append_assoc]

theorem indices_three (s : List Nat) : indices (s ++ [3]) = (indices s).flatMap fun i => [i ++ [0], i ++ [1], i ++ [2]] := by
  rw [indices_append]
  rfl

theorem partitionOf_holds {a : Strs} (hwf : a.view.WF) (hit : a.view.item = 4 * a.width)
    {cell : (Nat → Nat) → List Nat × List Nat × List Nat} {x y z : List Nat → List Char}
    (hf : ∀ idx, InShape a.view.shape idx → cell (a.cell (a.view.addr idx)) =
      ((x idx).map Char.toNat, (y idx).map Char.toNat, (z idx).map Char.toNat))
    (hx : ∀ idx, InShape a.view.shape idx → (x idx).length ≤ a.width ∧ NoNul (x idx))
    (hy : ∀ idx, InShape a.view.shape idx → (y idx).length ≤ a.width ∧ NoNul (y idx))
    (hz : ∀ idx, InShape a.view.shape idx → (z idx).length ≤ a.width ∧ NoNul (z idx)) :
    (partitionOf a cell).strs.Holds ⟨a.view.shape ++ [3], fun idx =>
      if idx.getLastD 0 = 0 then x idx.dropLast else if idx.getLastD 0 = 1 then y idx.dropLast else z idx.dropLast⟩ := by
  set g : List Nat → List Char := fun idx =>
      if idx.getLastD 0 = 0 then x idx.dropLast else if idx.getLastD 0 = 1 then y idx.dropLast else z idx.dropLast with hg
  have hout : partitionOf a cell =
      ⟨4, a.view.shape ++ [3], a.width, (indices (a.view.shape ++ [3])).flatMap fun i => padCell a.width ((g i).map Char.toNat)⟩ := by
    unfold partitionOf
    dsimp only
    split
    · rename_i h
      rw [sizeOf_eq] at h
      simp [indices_three, indices_of_size_zero h, sizeOf_eq, h]
    · congr 1
      have hcells : (a.sources.flatMap fun s => [(cell s).1, (cell s).2.1, (cell s).2.2]) =
          (indices (a.view.shape ++ [3])).map fun i => (g i).map Char.toNat := by
        rw [sources_eq hwf hit, indices_three, List.flatMap_map, List.map_flatMap]
        apply List.flatMap_congr
        intro idx hi
        rw [hf idx (mem_indices.1 hi)]
        simp [hg]
      have := writes_cells a.width (a.sources.flatMap fun s => [(cell s).1, (cell s).2.1, (cell s).2.2]) (by
        rw [sources_eq hwf hit]
        intro c hc
        simp only [List.flatMap_map, List.mem_flatMap] at hc
        obtain ⟨idx, hi, hc⟩ := hc
        rw [mem_indices] at hi
        rw [hf idx hi] at hc
        simp only [List.mem_cons, List.not_mem_nil, or_false] at hc
        rcases hc with rfl | rfl | rfl
        · rw [List.length_map]; exact (hx idx hi).1
        · rw [List.length_map]; exact (hy idx hi).1
        · rw [List.length_map]; exact (hz idx hi).1)
      have ht := triple_stores (fun c (i : Nat) => c.zipIdx.map fun xj => (i * a.width + xj.2, xj.1))
        (fun s => (cell s).1) (fun s => (cell s).2.1) (fun s => (cell s).2.2) a.sources 0
      rw [Nat.zero_mul] at ht
      rw [ht] at this
      have hl : (a.sources.flatMap fun s => [(cell s).1, (cell s).2.1, (cell s).2.2]).length = sizeOf a.view.shape * 3 := by
        rw [hcells, List.length_map, length_indices, sizeOf_eq, size_append]
        simp [size]
      rw [hl] at this
      rw [this, hcells, List.flatMap_map]
  rw [hout]
  apply out_holds
  intro idx hi
  obtain ⟨p, q, rfl, hp, hq⟩ : ∃ p q, idx = p ++ q ∧ InShape a.view.shape p ∧ InShape [3] q := by
    refine ⟨idx.take a.view.shape.length, idx.drop a.view.shape.length, (List.take_append_drop _ _).symm, ?_⟩
    have hl := hi.length_eq
    rw [← List.take_append_drop a.view.shape.length idx] at hi
    exact (inShape_append_iff (by simp at hl; simp; omega)).1 hi
  match q, hq with
  | [k], hk =>
    have hk : k < 3 := hk.1
    simp only [hg, List.dropLast_concat]
    have : (p ++ [k]).getLastD 0 = k := by simp
    rw [this]
    split
    · exact hx p hp
    · split
      · exact hy p hp
      · exact hz p hp

/-! ## Reading through `read_string` -/

theorem readFlat_eq {a : Strs} {t : Nd (List Char)} (hwf : a.view.WF) (hc : a.view.cFlag = true) (h : a.Holds t) :
    (List.range (sizeOf a.view.shape)).map (readFlat a) = (indices t.shape).map t.get := by
  obtain ⟨hu, hit, hs, hcell⟩ := h
  rw [sizeOf_eq, ← map_rank_indices, List.map_map, hs]
  apply List.map_congr_left
  intro idx hi
  rw [mem_indices] at hi
  have ha := cFlag_addr hwf hc (hs ▸ hi)
  simp only [Function.comp]
  unfold readFlat
  have := (hcell idx hi).read
  rw [ha, hs] at this
  push_cast
  exact this

theorem foldl_max_ge : ∀ (l : List (List Char)) (m : Nat), m ≤ l.foldl (fun m r => max m r.length) m ∧
    ∀ s ∈ l, s.length ≤ l.foldl (fun m r => max m r.length) m
  | [], m => by simp
  | x :: l, m => by
    obtain ⟨h1, h2⟩ := foldl_max_ge l (max m x.length)
    simp only [List.foldl_cons, List.mem_cons, forall_eq_or_imp]
    exact ⟨by omega, by omega, h2⟩

theorem foldl_max_map_ge (f : β → Nat) : ∀ (l : List β) (m : Nat), m ≤ l.foldl (fun m r => max m (f r)) m ∧
    ∀ s ∈ l, f s ≤ l.foldl (fun m r => max m (f r)) m
  | [], m => by simp
  | x :: l, m => by
    obtain ⟨h1, h2⟩ := foldl_max_map_ge f l (max m (f x))
    simp only [List.foldl_cons, List.mem_cons, forall_eq_or_imp]
    exact ⟨by omega, by omega, h2⟩

theorem storeResults_holds {s : List Nat} {w : Nat} {g : List Nat → List Char}
    (hn : ∀ idx, InShape s idx → NoNul (g idx)) : (storeResults s w ((indices s).map g)).strs.Holds ⟨s, g⟩ := by
  have hout : storeResults s w ((indices s).map g) =
      ⟨4, s, max w (((indices s).map g).foldl (fun m r => max m r.length) 0), (indices s).flatMap fun i =>
        padCell (max w (((indices s).map g).foldl (fun m r => max m r.length) 0)) ((g i).map Char.toNat)⟩ := by
    unfold storeResults
    dsimp only
    congr 1
    have := writes_storeCells Char.toNat (max w (((indices s).map g).foldl (fun m r => max m r.length) 0)) ((indices s).map g)
    rw [List.length_map, length_indices, ← sizeOf_eq] at this
    rw [this, List.flatMap_map]
  rw [hout]
  apply out_holds
  intro idx hi
  refine ⟨?_, hn idx hi⟩
  have := (foldl_max_ge ((indices s).map g) 0).2 (g idx) (List.mem_map.2 ⟨idx, mem_indices.2 hi, rfl⟩)
  omega

theorem applyUnary_holds {a : Strs} {t : Nd (List Char)} (hwf : a.view.WF) (hc : a.view.cFlag = true) (h : a.Holds t)
    {op : List Char → List Char} (hn : ∀ s, NoNul s → NoNul (op s)) :
    (applyUnary a op).strs.Holds ⟨t.shape, fun idx => op (t.get idx)⟩ := by
  have hr : (List.range (sizeOf a.view.shape)).map (fun i => op (readFlat a i)) =
      (indices t.shape).map fun idx => op (t.get idx) := by
    have := congrArg (List.map op) (readFlat_eq hwf hc h)
    rw [List.map_map, List.map_map] at this
    exact this
  unfold applyUnary
  rw [hr, h.2.2.1]
  apply storeResults_holds
  intro idx hi
  exact hn _ (zero_notMem_codes.1 (h.2.2.2 idx hi).2.1)

/-! ## One element -/

theorem CellOf.at {src : Nat → Nat} {w : Nat} {s : List Char} (h : CellOf src w (s.map Char.toNat)) {i : Nat}
    (hi : i < s.length) : src i = (s[i]).toNat := by
  have hw : s.length ≤ w := by simpa using h.1
  rw [h.2.2 i (by omega)]
  simp [List.getD_eq_getElem?_getD, hi]

theorem CellOf.end {src : Nat → Nat} {w : Nat} {s : List Char} (h : CellOf src w (s.map Char.toNat))
    (hi : s.length < w) : src s.length = 0 := by
  rw [h.2.2 _ hi]
  simp

theorem CellOf.ne {src : Nat → Nat} {w : Nat} {s : List Char} (h : CellOf src w (s.map Char.toNat)) {i : Nat}
    (hi : i < s.length) : src i ≠ 0 := by
  rw [h.at hi]
  intro h0
  exact h.2.1 (h0 ▸ List.mem_map.2 ⟨s[i], List.getElem_mem hi, rfl⟩)

theorem CellOf.strlen {src : Nat → Nat} {w : Nat} {s : List Char} (h : CellOf src w (s.map Char.toNat)) :
    strlen src w = s.length := by
  have hw : s.length ≤ w := by simpa using h.1
  unfold Rumpy.strlen
  by_cases hl : s.length < w
  · have : (List.range w).find? (fun i => src i == 0) = some s.length := by
      rw [List.find?_range_eq_some]
      refine ⟨by simp [h.end hl], by simpa using hl, fun j hj => ?_⟩
      simpa using h.ne hj
    rw [this]; rfl
  · have : (List.range w).find? (fun i => src i == 0) = none := by
      rw [List.find?_eq_none]
      intro i hi
      rw [List.mem_range] at hi
      simpa using h.ne (i := i) (by omega)
    rw [this]
    show w = s.length
    omega

theorem CellOf.map_range {src : Nat → Nat} {w : Nat} {s : List Char} (h : CellOf src w (s.map Char.toNat)) {i n : Nat}
    (hi : i + n ≤ s.length) : (List.range' i n).map src = ((s.drop i).take n).map Char.toNat := by
  apply List.ext_getElem
  · simp; omega
  · intro k h1 h2
    have hk : k < n := by simpa using h1
    simp [h.at (i := i + k) (by omega)]

theorem occursAt_le {sub s : List Char} {i : Nat} (h : OccursAt sub s i) : i + sub.length ≤ s.length := by
  have := h.2.length_le
  have := h.1
  simp at *
  omega

theorem matchesAt_iff' {src : Nat → Nat} {w : Nat} {s : List Char} (h : CellOf src w (s.map Char.toNat)) {i : Nat}
    {sub : List Char} (hi : i + sub.length ≤ s.length) : matchesAt src i (codes sub) = true ↔ OccursAt sub s i := by
  unfold matchesAt codes OccursAt
  rw [List.all_eq_true]
  constructor
  · intro hm
    refine ⟨by omega, ?_⟩
    rw [List.prefix_iff_eq_take]
    apply List.ext_getElem
    · simp; omega
    · intro k h1 h2
      have := hm ((sub.map Char.toNat)[k]'(by simpa using h1), k) (by
        rw [List.mem_zipIdx_iff_getElem?]
        simp [h1])
      simp only [List.getElem_map, beq_iff_eq] at this
      rw [h.at (i := i + k) (by omega)] at this
      have := congrArg Char.ofNat this
      rw [Char.ofNat_toNat, Char.ofNat_toNat] at this
      simp [this]
  · rintro ⟨_, hp⟩ ⟨c, k⟩ hck
    rw [List.mem_zipIdx_iff_getElem?] at hck
    simp only [List.getElem?_map, Option.map_eq_some_iff] at hck
    obtain ⟨ch, hch, rfl⟩ := hck
    obtain ⟨hk, hge⟩ := List.getElem?_eq_some_iff.1 hch
    simp only [beq_iff_eq]
    rw [h.at (i := i + k) (by omega)]
    congr 1
    rw [List.prefix_iff_eq_take] at hp
    have : sub[k]? = ((s.drop i).take sub.length)[k]? := by rw [← hp]
    rw [hch] at this
    rw [List.getElem?_take_of_lt hk, List.getElem?_drop, List.getElem?_eq_getElem (by omega)] at this
    exact (Option.some.inj this).symm

theorem lastMatch_some {p : Nat → Bool} : ∀ {n i : Nat}, lastMatch p n = some i →
    i < n ∧ p i = true ∧ ∀ k, i < k → k < n → p k = false
  | 0, i, h => by simp [lastMatch] at h
  | n + 1, i, h => by
    unfold lastMatch at h
    split at h
    · rename_i hp
      obtain rfl := Option.some.inj h
      exact ⟨by omega, hp, fun k h1 h2 => by omega⟩
    · rename_i hp
      obtain ⟨h1, h2, h3⟩ := lastMatch_some h
      refine ⟨by omega, h2, fun k hk hk' => ?_⟩
      by_cases hkn : k = n
      · subst hkn; simpa using hp
      · exact h3 k hk (by omega)

theorem lastMatch_none {p : Nat → Bool} : ∀ {n : Nat}, lastMatch p n = none → ∀ k < n, p k = false
  | 0, _, k, hk => by omega
  | n + 1, h, k, hk => by
    unfold lastMatch at h
    split at h
    · simp at h
    · rename_i hp
      by_cases hkn : k = n
      · subst hkn; simpa using hp
      · exact lastMatch_none h k (by omega)

theorem firstMatch_some {p : Nat → Bool} {n i : Nat} (h : firstMatch p n = some i) :
    i < n ∧ p i = true ∧ ∀ k < i, p k = false := by
  unfold firstMatch at h
  rw [List.find?_range_eq_some] at h
  exact ⟨by simpa using h.2.1, h.1, fun k hk => by simpa using h.2.2 k hk⟩

theorem firstMatch_none {p : Nat → Bool} {n : Nat} (h : firstMatch p n = none) : ∀ k < n, p k = false := by
  unfold firstMatch at h
  rw [List.find?_eq_none] at h
  intro k hk
  simpa using h k (by simpa using hk)

/-- Where the search loops look, and what they find. -/
theorem search_first {src : Nat → Nat} {w : Nat} {s : List Char} (h : CellOf src w (s.map Char.toNat)) (sub : List Char) :
    (∃ i, (if (codes sub).length ≤ s.length then firstMatch (fun i => matchesAt src i (codes sub)) (s.length - (codes sub).length + 1) else none) =
      some i ∧ OccursAt sub s i ∧ ∀ k < i, ¬ OccursAt sub s k) ∨
    ((if (codes sub).length ≤ s.length then firstMatch (fun i => matchesAt src i (codes sub)) (s.length - (codes sub).length + 1) else none) = none ∧
      ∀ k, ¬ OccursAt sub s k) := by
  have hl : (codes sub).length = sub.length := by simp [codes]
  rw [hl]
  split
  · rename_i hle
    match hm : firstMatch (fun i => matchesAt src i (codes sub)) (s.length - sub.length + 1) with
    | some i =>
      obtain ⟨h1, h2, h3⟩ := firstMatch_some hm
      refine Or.inl ⟨i, rfl, (matchesAt_iff' h (by omega)).1 h2, fun k hk ho => ?_⟩
      have := h3 k hk
      rw [(matchesAt_iff' h (by omega)).2 ho] at this
      simp at this
    | none =>
      refine Or.inr ⟨rfl, fun k ho => ?_⟩
      have hk := occursAt_le ho
      have := firstMatch_none hm k (by omega)
      rw [(matchesAt_iff' h hk).2 ho] at this
      simp at this
  · rename_i hle
    refine Or.inr ⟨rfl, fun k ho => ?_⟩
    have hk := occursAt_le ho
    omega

theorem search_last {src : Nat → Nat} {w : Nat} {s : List Char} (h : CellOf src w (s.map Char.toNat)) (sub : List Char) :
    (∃ i, (if (codes sub).length ≤ s.length then lastMatch (fun i => matchesAt src i (codes sub)) (s.length - (codes sub).length + 1) else none) =
      some i ∧ OccursAt sub s i ∧ ∀ k, i < k → ¬ OccursAt sub s k) ∨
    ((if (codes sub).length ≤ s.length then lastMatch (fun i => matchesAt src i (codes sub)) (s.length - (codes sub).length + 1) else none) = none ∧
      ∀ k, ¬ OccursAt sub s k) := by
  have hl : (codes sub).length = sub.length := by simp [codes]
  rw [hl]
  split
  · rename_i hle
    match hm : lastMatch (fun i => matchesAt src i (codes sub)) (s.length - sub.length + 1) with
    | some i =>
      obtain ⟨h1, h2, h3⟩ := lastMatch_some hm
      refine Or.inl ⟨i, rfl, (matchesAt_iff' h (by omega)).1 h2, fun k hk ho => ?_⟩
      have hk' := occursAt_le ho
      have := h3 k hk (by omega)
      rw [(matchesAt_iff' h (by omega)).2 ho] at this
      simp at this
    | none =>
      refine Or.inr ⟨rfl, fun k ho => ?_⟩
      have hk := occursAt_le ho
      have := lastMatch_none hm k (by omega)
      rw [(matchesAt_iff' h hk).2 ho] at this
      simp at this
  · rename_i hle
    refine Or.inr ⟨rfl, fun k ho => ?_⟩
    have hk := occursAt_le ho
    omega

theorem findCell_spec {src : Nat → Nat} {w : Nat} {s : List Char} (h : CellOf src w (s.map Char.toNat)) (sub : List Char) :
    IsFind s sub (findCell (codes sub) w src) := by
  unfold findCell
  rw [h.strlen]
  dsimp only
  rcases search_first h sub with ⟨i, hf, h1, h2⟩ | ⟨hf, h1⟩
  · split at hf
    · rw [if_neg (by omega), hf]
      exact Or.inl ⟨i, rfl, h1, h2⟩
    · simp at hf
  · split at hf
    · rw [if_neg (by omega), hf]
      exact Or.inr ⟨rfl, h1⟩
    · rw [if_pos (by omega)]
      exact Or.inr ⟨rfl, h1⟩

theorem rfindCell_spec {src : Nat → Nat} {w : Nat} {s : List Char} (h : CellOf src w (s.map Char.toNat)) (sub : List Char) :
    IsRfind s sub (rfindCell (codes sub) w src) := by
  unfold rfindCell
  rw [h.strlen]
  dsimp only
  rcases search_last h sub with ⟨i, hf, h1, h2⟩ | ⟨hf, h1⟩
  · split at hf
    · rw [if_neg (by omega), hf]
      exact Or.inl ⟨i, rfl, h1, h2⟩
    · simp at hf
  · split at hf
    · rw [if_neg (by omega), hf]
      exact Or.inr ⟨rfl, h1⟩
    · rw [if_pos (by omega)]
      exact Or.inr ⟨rfl, h1⟩

theorem occursAt_nil (s : List Char) {i : Nat} (hi : i ≤ s.length) : OccursAt [] s i := ⟨hi, List.nil_prefix⟩

theorem occursAt_split {sub s : List Char} {i : Nat} (h : OccursAt sub s i) :
    s = s.take i ++ sub ++ s.drop (i + sub.length) := by
  obtain ⟨r, hr⟩ := h.2
  have : s.drop (i + sub.length) = r := by
    rw [← List.drop_drop, ← hr]
    simp
  rw [this, List.append_assoc, hr, List.take_append_drop]

theorem partitionCell_spec {src : Nat → Nat} {w : Nat} {s : List Char} (h : CellOf src w (s.map Char.toNat)) (sep : List Char) :
    ∃ x y z, partitionCell (codes sep) w src = (x.map Char.toNat, y.map Char.toNat, z.map Char.toNat) ∧
      IsPartition s sep x y z := by
  unfold partitionCell
  rw [h.strlen]
  dsimp only
  rcases search_first h sep with ⟨i, hf, h1, h2⟩ | ⟨hf, h1⟩
  · rw [hf]
    have hle := occursAt_le h1
    refine ⟨s.take i, sep, s.drop (i + sep.length), ?_, Or.inl ⟨occursAt_split h1, rfl, fun k hk => h2 k ?_⟩⟩
    · have hl : (codes sep).length = sep.length := by simp [codes]
      dsimp only
      rw [hl, List.range_eq_range', h.map_range (by omega), h.map_range (by omega)]
      simp [codes]
    · simp at hk; omega
  · rw [hf]
    refine ⟨s, [], [], ?_, Or.inr ⟨h1, rfl, rfl, rfl⟩⟩
    dsimp only
    rw [List.range_eq_range', h.map_range (by omega)]
    simp

theorem rpartitionCell_spec {src : Nat → Nat} {w : Nat} {s : List Char} (h : CellOf src w (s.map Char.toNat)) (sep : List Char) :
    ∃ x y z, rpartitionCell (codes sep) w src = (x.map Char.toNat, y.map Char.toNat, z.map Char.toNat) ∧
      IsRpartition s sep x y z := by
  unfold rpartitionCell
  rw [h.strlen]
  dsimp only
  rcases search_last h sep with ⟨i, hf, h1, h2⟩ | ⟨hf, h1⟩
  · rw [hf]
    have hle := occursAt_le h1
    refine ⟨s.take i, sep, s.drop (i + sep.length), ?_, Or.inl ⟨occursAt_split h1, rfl, fun k hk => h2 k ?_⟩⟩
    · have hl : (codes sep).length = sep.length := by simp [codes]
      dsimp only
      rw [hl, List.range_eq_range', h.map_range (by omega), h.map_range (by omega)]
      simp [codes]
    · simp at hk; omega
  · rw [hf]
    refine ⟨[], [], s, ?_, Or.inr ⟨h1, rfl, rfl, rfl⟩⟩
    dsimp only
    rw [List.range_eq_range', h.map_range (by omega)]
    simp

theorem joinChars_cons (sep : List Char) (c : Char) (s : List Char) :
    joinChars sep (c :: s) = c :: s.flatMap fun d => sep ++ [d] := by
  unfold joinChars
  induction s generalizing c with
  | nil => rfl
  | cons d s ih =>
    have := ih d
    simp only [List.map_cons, List.flatMap_cons] at this ⊢
    rw [List.intercalate_cons_cons, this]
    simp

theorem length_joinChars (sep s : List Char) : (joinChars sep s).length = if s.length = 0 then 0 else s.length + (s.length - 1) * sep.length := by
  cases s with
  | nil => rfl
  | cons c s =>
    rw [joinChars_cons]
    simp [List.length_flatMap, Nat.mul_add, Nat.mul_comm]
    omega

theorem joinCell_spec {src : Nat → Nat} {w : Nat} {s : List Char} (h : CellOf src w (s.map Char.toNat)) (sep : List Char) :
    joinCell (codes sep) w src = (joinChars sep s).map Char.toNat := by
  unfold joinCell
  rw [h.strlen]
  dsimp only
  match s, h with
  | [], h => rfl
  | c :: s, h =>
    rw [if_neg (by simp), joinChars_cons, List.map_cons, List.map_flatMap]
    have h0 := h.at (i := 0) (by simp)
    have hr := h.map_range (i := 1) (n := s.length) (by simp; omega)
    simp only [List.drop_succ_cons, List.drop_zero, List.take_length] at hr
    rw [h0]
    simp only [List.getElem_cons_zero, List.length_cons, Nat.add_sub_cancel]
    congr 1
    have : (List.range' 1 s.length).flatMap (fun i => codes sep ++ [src i]) =
        ((List.range' 1 s.length).map src).flatMap fun x => codes sep ++ [x] := by
      rw [List.flatMap_map]
    rw [this, hr, List.flatMap_map]
    simp [codes]

theorem endswithCell_spec {src : Nat → Nat} {w : Nat} {s : List Char} (h : CellOf src w (s.map Char.toNat)) (suf : List Char) :
    endswithCell (codes suf) w src = true ↔ suf <:+ s := by
  have hl : (codes suf).length = suf.length := by simp [codes]
  unfold endswithCell
  rw [h.strlen, hl]
  dsimp only
  split
  · rename_i hle
    rw [matchesAt_iff' h (by omega)]
    constructor
    · intro ho
      have := occursAt_split ho
      rw [show s.length - suf.length + suf.length = s.length by omega, List.drop_length, List.append_nil] at this
      exact ⟨_, this.symm⟩
    · rintro ⟨p, rfl⟩
      refine ⟨by simp, ?_⟩
      simp
  · rename_i hle
    simp only [Bool.false_eq_true, false_iff]
    intro hs
    exact hle hs.length_le

/-- `startswith` is right when the comparison ends inside the element. -/
theorem startswith_spec {src : Nat → Nat} {w : Nat} {s : List Char} (h : CellOf src w (s.map Char.toNat)) {pre : List Char}
    (hp : NoNul pre) (hw : s.length < w ∨ pre.length ≤ w) : matchesAt src 0 (codes pre) = true ↔ pre <+: s := by
  have hsw : s.length ≤ w := by simpa using h.1
  by_cases hle : pre.length ≤ s.length
  · rw [matchesAt_iff' h (by omega)]
    unfold OccursAt
    simp
  · constructor
    · intro hm
      exfalso
      unfold matchesAt codes at hm
      rw [List.all_eq_true] at hm
      have := hm ((pre.map Char.toNat)[s.length]'(by simp; omega), s.length) (by
        rw [List.mem_zipIdx_iff_getElem?, List.getElem?_eq_getElem (by simp; omega)])
      simp only [List.getElem_map, beq_iff_eq, Nat.zero_add] at this
      rw [h.end (by omega)] at this
      have h0 := (toNat_eq_zero _).1 this.symm
      exact hp (h0 ▸ List.getElem_mem _)
    · intro hpre
      exact absurd hpre.length_le hle

/-! ## Counting -/

theorem countLoop_spec {src : Nat → Nat} {w : Nat} {s : List Char} (h : CellOf src w (s.map Char.toNat)) {sub : List Char}
    (hsub : sub ≠ []) (hle : sub.length ≤ s.length) : ∀ (fuel i : Nat) (cnt : Int), s.length < fuel + i →
    ∃ c : Nat, countLoop src (codes sub) s.length fuel i cnt = cnt + c ∧
      (∃ ps, Apart sub s ps ∧ (∀ p ∈ ps, i ≤ p) ∧ ps.length = c) ∧
      ∀ ps, Apart sub s ps → (∀ p ∈ ps, i ≤ p) → ps.length ≤ c
  | 0, i, cnt, hf => by
    refine ⟨0, by simp [countLoop], ⟨[], ⟨by simp, by simp⟩, by simp, rfl⟩, fun ps hp hi => ?_⟩
    match ps with
    | [] => simp
    | p :: ps =>
      have h1 := occursAt_le (hp.1 p (by simp))
      have h2 := hi p (by simp)
      omega
  | fuel + 1, i, cnt, hf => by
    have hl : (codes sub).length = sub.length := by simp [codes]
    have hpos : 0 < sub.length := List.length_pos_iff.2 hsub
    unfold countLoop
    rw [hl]
    split
    · rename_i hi
      split
      · rename_i hm
        obtain ⟨c, e, ⟨ps, ha, hge, hlen⟩, hmax⟩ := countLoop_spec h hsub hle fuel (i + sub.length) (cnt + 1) (by omega)
        rw [matchesAt_iff' h (by omega)] at hm
        refine ⟨c + 1, by rw [e]; push_cast; ring, ⟨i :: ps, ⟨?_, ?_⟩, ?_, by simp [hlen]⟩, fun qs hq hqi => ?_⟩
        · intro p hp
          rcases List.mem_cons.1 hp with rfl | hp
          · exact hm
          · exact ha.1 p hp
        · rw [List.pairwise_cons]
          exact ⟨fun q hq => by have := hge q hq; omega, ha.2⟩
        · intro p hp
          rcases List.mem_cons.1 hp with rfl | hp
          · exact Nat.le_refl _
          · have := hge p hp; omega
        · match qs, hq, hqi with
          | [], _, _ => simp
          | q :: qs, hq, hqi =>
            have hq2 := List.pairwise_cons.1 hq.2
            have := hmax qs ⟨fun p hp => hq.1 p (List.mem_cons_of_mem _ hp), hq2.2⟩ (fun p hp => by
              have h1 := hq2.1 p hp
              have h2 := hqi q (by simp)
              omega)
            simpa using this
      · rename_i hm
        obtain ⟨c, e, ⟨ps, ha, hge, hlen⟩, hmax⟩ := countLoop_spec h hsub hle fuel (i + 1) cnt (by omega)
        rw [matchesAt_iff' h (by omega)] at hm
        refine ⟨c, e, ⟨ps, ha, fun p hp => by have := hge p hp; omega, hlen⟩, fun qs hq hqi => hmax qs hq fun p hp => ?_⟩
        have h1 := hqi p hp
        by_cases hpi : p = i
        · subst hpi; exact absurd (hq.1 p hp) hm
        · omega
    · rename_i hi
      refine ⟨0, by simp, ⟨[], ⟨by simp, by simp⟩, by simp, rfl⟩, fun ps hp hi => ?_⟩
      match ps with
      | [] => simp
      | p :: ps =>
        have h1 := occursAt_le (hp.1 p (by simp))
        have h2 := hi p (by simp)
        omega

theorem countCell_spec {src : Nat → Nat} {w : Nat} {s : List Char} (h : CellOf src w (s.map Char.toNat)) {sub : List Char}
    (hsub : sub ≠ []) : IsCount s sub (countCell (codes sub) w src) := by
  have hl : (codes sub).length = sub.length := by simp [codes]
  unfold countCell
  rw [h.strlen, hl]
  dsimp only
  split
  · rename_i hle
    obtain ⟨c, e, ⟨ps, ha, _, hlen⟩, hmax⟩ := countLoop_spec h hsub hle (s.length + 1) 0 0 (by omega)
    rw [e]
    refine ⟨⟨ps, ha, by rw [hlen]; simp⟩, fun qs hq => ?_⟩
    have := hmax qs hq (by simp)
    omega
  · rename_i hle
    refine ⟨⟨[], ⟨by simp, by simp⟩, rfl⟩, fun qs hq => ?_⟩
    match qs, hq with
    | [], _ => simp
    | q :: qs, hq =>
      have := occursAt_le (hq.1 q (by simp))
      omega

theorem pairwise_lt_length : ∀ (ps : List Nat) (lo hi : Nat), ps.Pairwise (· < ·) → (∀ p ∈ ps, lo ≤ p ∧ p < hi) →
    ps.length + lo ≤ hi ∨ ps = []
  | [], _, _, _, _ => Or.inr rfl
  | p :: ps, lo, hi, hp, hb => by
    rw [List.pairwise_cons] at hp
    have h0 := hb p (by simp)
    rcases pairwise_lt_length ps (p + 1) hi hp.2 (fun q hq => ⟨hp.1 q hq, (hb q (List.mem_cons_of_mem _ hq)).2⟩) with h | rfl
    · left; simp; omega
    · left; simp; omega

theorem count_empty (s : List Char) : IsCount s [] ((s.length + 1 : Nat) : Int) := by
  refine ⟨⟨List.range (s.length + 1), ⟨fun p hp => occursAt_nil s (by simpa [Nat.lt_succ_iff] using hp), ?_⟩, by simp⟩,
    fun ps hp => ?_⟩
  · apply List.Pairwise.imp _ (List.pairwise_lt_range (n := s.length + 1))
    intro a b hab
    exact ⟨hab, by simp; omega⟩
  · rcases pairwise_lt_length ps 0 (s.length + 1) (hp.2.imp fun h => h.1) (fun p h => ⟨by omega, by
      have := (hp.1 p h).1; omega⟩) with h | rfl
    · omega
    · simp; omega

/-! ## Replacing -/

theorem isSplit_cons {old s : List Char} {limit : Option Nat} {p : List Char} {ps : List (List Char)} (c : Char)
    (h : IsSplit old limit s (p :: ps)) (hno : limit = some 0 ∨ ¬ OccursAt old (c :: s) 0) :
    IsSplit old limit (c :: s) ((c :: p) :: ps) := by
  have hsucc : ∀ i, OccursAt old (c :: s) (i + 1) ↔ OccursAt old s i := by
    intro i
    unfold OccursAt
    simp
  cases h with
  | done hd =>
    refine IsSplit.done ?_
    rcases hd with hd | hd
    · exact Or.inl hd
    · rcases hno with hno | hno
      · exact Or.inl hno
      · refine Or.inr fun i => ?_
        match i with
        | 0 => exact hno
        | i + 1 => rw [hsucc]; exact hd i
  | @step _ _ i _ hl ho hfirst hrest =>
    have := IsSplit.step (sub := old) (limit := limit) (s := c :: s) (i := i + 1) (pieces := ps) hl ((hsucc i).2 ho) (by
      intro k hk
      match k with
      | 0 =>
        rcases hno with hno | hno
        · exact absurd hno hl
        · exact hno
      | k + 1 => rw [hsucc]; exact hfirst k (by omega)) (by
      have : (c :: s).drop (i + 1 + old.length) = s.drop (i + old.length) := by
        rw [show i + 1 + old.length = i + old.length + 1 by omega]; rfl
      rw [this]; exact hrest)
    simpa using this

theorem isSplit_ne_nil {old s : List Char} {limit : Option Nat} {ps : List (List Char)} (h : IsSplit old limit s ps) : ps ≠ [] := by
  cases h <;> simp

theorem isSplit_exists {old : List Char} (hold : old ≠ []) : ∀ (n : Nat) (s : List Char) (limit : Option Nat), s.length ≤ n →
    ∃ ps, IsSplit old limit s ps
  | 0, s, limit, hn => by
    have : s = [] := List.length_eq_zero_iff.1 (by omega)
    subst this
    exact ⟨_, .done (Or.inr fun i ho => by
      have := occursAt_le ho
      have hp := List.length_pos_iff.2 hold
      simp at this
      exact hold this.2)⟩
  | n + 1, s, limit, hn => by
    by_cases hl : limit = some 0
    · exact ⟨_, .done (Or.inl hl)⟩
    · by_cases ho : ∃ i, OccursAt old s i
      · obtain ⟨i, hi, hmin⟩ : ∃ i, OccursAt old s i ∧ ∀ k < i, ¬ OccursAt old s k := by
          classical
          exact ⟨Nat.find ho, Nat.find_spec ho, fun k hk => Nat.find_min ho hk⟩
        have := occursAt_le hi
        have hp := List.length_pos_iff.2 hold
        obtain ⟨ps, h⟩ := isSplit_exists hold n (s.drop (i + old.length)) (limit.map (· - 1)) (by simp; omega)
        exact ⟨_, .step hl hi hmin h⟩
      · exact ⟨_, .done (Or.inr fun i hi => ho ⟨i, hi⟩)⟩

theorem intercalate_cons_head (new : List Char) (c : Char) (p : List Char) (ps : List (List Char)) :
    new.intercalate ((c :: p) :: ps) = c :: new.intercalate (p :: ps) := by
  cases ps <;> simp [List.intercalate_cons_cons]

theorem occursAt_drop {old s : List Char} {i k : Nat} (hi : i ≤ s.length) : OccursAt old (s.drop i) k ↔ OccursAt old s (i + k) := by
  unfold OccursAt
  rw [List.drop_drop, List.length_drop]
  constructor
  · rintro ⟨h1, h2⟩; exact ⟨by omega, h2⟩
  · rintro ⟨h1, h2⟩; exact ⟨by omega, h2⟩

theorem below_iff (cnt : Nat) (limit : Option Nat) : below cnt limit = true ↔ limit.map (· - cnt) ≠ some 0 := by
  cases limit with
  | none => simp [below]
  | some l => simp [below]; omega

theorem replaceLoop_spec {src : Nat → Nat} {w : Nat} {s : List Char} (h : CellOf src w (s.map Char.toNat)) {old : List Char}
    (hold : old ≠ []) (new : List Char) (limit : Option Nat) : ∀ (fuel i cnt : Nat), i ≤ s.length → s.length < fuel + i →
    ∃ r, replaceLoop src (codes old) (codes new) s.length limit fuel i cnt = r.map Char.toNat ∧
      IsReplace (s.drop i) old new (limit.map (· - cnt)) r
  | 0, i, cnt, hi, hf => by omega
  | fuel + 1, i, cnt, hi, hf => by
    have hl : (codes old).length = old.length := by simp [codes]
    have hpos : 0 < old.length := List.length_pos_iff.2 hold
    unfold replaceLoop
    rw [hl]
    by_cases hlt : i < s.length
    · rw [if_pos hlt]
      by_cases hm : (i + old.length ≤ s.length ∧ below cnt limit = true) ∧ matchesAt src i (codes old) = true
      · rw [if_pos hm]
        obtain ⟨r, hr, pieces, hs, rfl⟩ := replaceLoop_spec h hold new limit fuel (i + old.length) (cnt + 1) hm.1.1 (by omega)
        rw [hr]
        refine ⟨new ++ new.intercalate pieces, by simp [codes], [] :: pieces, ?_, ?_⟩
        · have ho := (matchesAt_iff' h hm.1.1).1 hm.2
          have := IsSplit.step (sub := old) (limit := limit.map (· - cnt)) (s := s.drop i) (i := 0) (pieces := pieces)
            ((below_iff cnt limit).1 hm.1.2) ((occursAt_drop hi).2 ho) (by intro k hk; omega) (by
              rw [List.drop_drop, Nat.zero_add, Option.map_map]
              have : (fun x => x - 1) ∘ (fun x => x - cnt) = fun x : Nat => x - (cnt + 1) := by
                funext x; simp; omega
              rw [this]; exact hs)
          simpa using this
        · obtain ⟨p, ps, rfl⟩ := List.exists_cons_of_ne_nil (isSplit_ne_nil hs)
          rw [List.intercalate_cons_cons, List.nil_append]
      · rw [if_neg hm]
        obtain ⟨r, hr, pieces, hs, rfl⟩ := replaceLoop_spec h hold new limit fuel (i + 1) cnt (by omega) (by omega)
        obtain ⟨p, ps, rfl⟩ := List.exists_cons_of_ne_nil (isSplit_ne_nil hs)
        rw [hr, h.at hlt]
        refine ⟨s[i] :: new.intercalate (p :: ps), by simp, (s[i] :: p) :: ps, ?_, (intercalate_cons_head _ _ _ _).symm⟩
        rw [List.drop_eq_getElem_cons hlt]
        apply isSplit_cons _ hs
        by_cases hb : below cnt limit = true
        · right
          rw [← List.drop_eq_getElem_cons hlt, occursAt_drop hi]
          intro ho
          have hle := occursAt_le ho
          exact hm ⟨⟨hle, hb⟩, (matchesAt_iff' h hle).2 ho⟩
        · left
          by_contra hne
          exact hb ((below_iff cnt limit).2 hne)
    · rw [if_neg hlt]
      have : s.drop i = [] := List.drop_eq_nil_of_le (by omega)
      rw [this]
      refine ⟨[], rfl, [[]], .done (Or.inr fun k ho => ?_), by simp⟩
      have := occursAt_le ho
      simp at this
      exact hold this.2

/-- The two loops of `replace` agree on the length. -/
theorem replace_length {src : Nat → Nat} {old new : List Nat} (hold : 0 < old.length) {len : Nat} (limit : Option Nat) :
    ∀ (fuel i cnt : Nat), i ≤ len → len < fuel + i →
    ∃ k, replaceCount src old len limit fuel i cnt = cnt + k ∧ k * old.length ≤ len - i ∧
      (replaceLoop src old new len limit fuel i cnt).length = len - i - k * old.length + k * new.length
  | 0, i, cnt, hi, hf => by omega
  | fuel + 1, i, cnt, hi, hf => by
    unfold replaceCount replaceLoop
    by_cases hlt : i < len
    · rw [if_pos hlt]
      by_cases hb : i + old.length ≤ len ∧ below cnt limit = true
      · rw [if_pos hb]
        by_cases hm : matchesAt src i old = true
        · rw [if_pos hm, if_pos ⟨hb, hm⟩]
          obtain ⟨k, e, hk, hlen⟩ := replace_length (src := src) (new := new) hold limit fuel (i + old.length) (cnt + 1) hb.1 (by omega)
          refine ⟨k + 1, by rw [e]; omega, by rw [Nat.succ_mul]; omega, ?_⟩
          rw [List.length_append, hlen, Nat.succ_mul, Nat.succ_mul]
          omega
        · rw [if_neg hm, if_neg (fun hx => hm hx.2)]
          obtain ⟨k, e, hk, hlen⟩ := replace_length (src := src) (len := len) (new := new) hold limit fuel (i + 1) cnt (by omega) (by omega)
          refine ⟨k, e, by omega, ?_⟩
          rw [List.length_cons, hlen]
          omega
      · rw [if_neg hb, if_neg (fun hx => hb hx.1)]
        refine ⟨0, rfl, by omega, ?_⟩
        have hstop : ∀ (fuel i : Nat), (len < i + old.length ∨ below cnt limit ≠ true) → i ≤ len → len < fuel + i →
            (replaceLoop src old new len limit fuel i cnt).length = len - i := by
          intro fuel
          induction fuel with
          | zero => intro i _ _ _; omega
          | succ fuel ih =>
            intro i hb hi hf
            unfold replaceLoop
            by_cases hlt : i < len
            · rw [if_pos hlt, if_neg (by
                rintro ⟨⟨h1, h2⟩, _⟩
                rcases hb with hb | hb
                · omega
                · exact hb h2), List.length_cons, ih (i + 1) (by rcases hb with hb | hb; exact Or.inl (by omega); exact Or.inr hb) (by omega) (by omega)]
              omega
            · rw [if_neg hlt]
              simp; omega
        rw [List.length_cons, hstop fuel (i + 1) (by
          by_cases h1 : i + old.length ≤ len
          · exact Or.inr fun h2 => hb ⟨h1, h2⟩
          · exact Or.inl (by omega)) (by omega) (by omega)]
        omega
    · rw [if_neg hlt, if_neg (by omega)]
      exact ⟨0, rfl, by omega, by simp; omega⟩

theorem noNul_of_append {a b : List Char} (h : NoNul (a ++ b)) : NoNul a ∧ NoNul b := by
  unfold NoNul at *
  simp only [List.mem_append, not_or] at h
  exact h

theorem noNul_append {a b : List Char} (ha : NoNul a) (hb : NoNul b) : NoNul (a ++ b) := by
  unfold NoNul at *
  simp only [List.mem_append, not_or]
  exact ⟨ha, hb⟩

theorem noNul_pieces {old s : List Char} {limit : Option Nat} {ps : List (List Char)} (h : IsSplit old limit s ps)
    (hs : NoNul s) : ∀ p ∈ ps, NoNul p := by
  induction h with
  | done _ => intro p hp; rw [List.mem_singleton] at hp; subst hp; exact hs
  | step _ _ _ _ ih =>
    intro p hp
    rcases List.mem_cons.1 hp with rfl | hp
    · exact fun hn => hs (List.mem_of_mem_take hn)
    · exact ih (fun hn => hs (List.mem_of_mem_drop hn)) p hp

theorem noNul_intercalate {new : List Char} (hn : NoNul new) : ∀ {ps : List (List Char)}, (∀ p ∈ ps, NoNul p) → NoNul (new.intercalate ps)
  | [], _ => by simp [NoNul]
  | [p], h => by simpa using h p (by simp)
  | p :: q :: ps, h => by
    rw [List.intercalate_cons_cons]
    exact noNul_append (noNul_append (h p (by simp)) hn) (noNul_intercalate hn fun x hx => h x (List.mem_cons_of_mem _ hx))

theorem noNul_replace {s old new r : List Char} {limit : Option Nat} (h : IsReplace s old new limit r) (hs : NoNul s)
    (hn : NoNul new) : NoNul r := by
  obtain ⟨ps, hsp, rfl⟩ := h
  exact noNul_intercalate hn (noNul_pieces hsp hs)

/-! ## Stripping -/

theorem cpIsSpace_iff (c : Char) : cpIsSpace c.toNat = true ↔ pySpace c ∧ ¬ (28 ≤ c.toNat ∧ c.toNat ≤ 31) := by
  unfold cpIsSpace pySpace whiteSpace
  rw [charOf_toNat]
  split
  · simp only [Bool.or_eq_true, beq_iff_eq]
    omega
  · simp only [Option.isSome_some, Bool.true_and, Bool.or_eq_true, beq_iff_eq, Bool.and_eq_true, decide_eq_true_eq]
    omega

theorem stripEnd_spec (src : Nat → Nat) (start : Nat) : ∀ e, start ≤ e →
    start ≤ stripEnd src start e ∧ stripEnd src start e ≤ e ∧
    (∀ k, stripEnd src start e ≤ k → k < e → cpIsSpace (src k) = true) ∧
    (start < stripEnd src start e → cpIsSpace (src (stripEnd src start e - 1)) = false)
  | 0, h => by
    have : start = 0 := by omega
    subst this
    simp [stripEnd]
  | e + 1, h => by
    unfold stripEnd
    split
    · rename_i hs
      obtain ⟨h1, h2, h3, h4⟩ := stripEnd_spec src start e (by omega)
      refine ⟨h1, by omega, fun k hk hke => ?_, h4⟩
      by_cases hke' : k = e
      · subst hke'; exact hs.2
      · exact h3 k hk (by omega)
    · rename_i hs
      refine ⟨h, Nat.le_refl _, fun k hk hke => by omega, fun hlt => ?_⟩
      by_contra hne
      exact hs ⟨hlt, by simpa using hne⟩

theorem stripCell_spec {src : Nat → Nat} {w : Nat} {s : List Char} (h : CellOf src w (s.map Char.toNat))
    (hsep : ∀ c ∈ s, ¬ (28 ≤ c.toNat ∧ c.toNat ≤ 31)) {mode : Nat} :
    ∃ r, stripCell mode w src = r.map Char.toNat ∧ IsStrip (mode ≠ 2) (mode ≠ 1) s r ∧ r.length ≤ s.length ∧ ∀ c ∈ r, c ∈ s := by
  have hsp : ∀ {i : Nat} (hi : i < s.length), cpIsSpace (src i) = true ↔ pySpace s[i] := by
    intro i hi
    rw [h.at hi, cpIsSpace_iff]
    exact ⟨fun hx => hx.1, fun hx => ⟨hx, hsep _ (List.getElem_mem hi)⟩⟩
  unfold stripCell
  rw [h.strlen]
  dsimp only
  obtain ⟨start, hst, hle, hpre, hfirst, hz⟩ : ∃ start, (if mode = 2 then 0 else (firstMatch (fun i => !cpIsSpace (src i)) s.length).getD s.length) = start ∧
      start ≤ s.length ∧ (∀ k < start, cpIsSpace (src k) = true) ∧ (mode ≠ 2 → start < s.length → cpIsSpace (src start) = false) ∧
      (mode = 2 → start = 0) := by
    by_cases hm : mode = 2
    · exact ⟨0, by rw [if_pos hm], by omega, by intro k hk; omega, fun hne => absurd hm hne, fun _ => rfl⟩
    · rw [if_neg hm]
      match hf : firstMatch (fun i => !cpIsSpace (src i)) s.length with
      | some i =>
        obtain ⟨h1, h2, h3⟩ := firstMatch_some hf
        exact ⟨i, rfl, by omega, fun k hk => by simpa using h3 k hk, fun _ _ => by simpa using h2, fun hx => absurd hx hm⟩
      | none =>
        have := firstMatch_none hf
        exact ⟨s.length, rfl, Nat.le_refl _, fun k hk => by simpa using this k hk, fun _ hx => by omega, fun hx => absurd hx hm⟩
  rw [hst]
  obtain ⟨stop, hsto, h1, h2, h3, h4, hz'⟩ : ∃ stop, (if mode = 1 then s.length else stripEnd src start s.length) = stop ∧
      start ≤ stop ∧ stop ≤ s.length ∧ (∀ k, stop ≤ k → k < s.length → cpIsSpace (src k) = true) ∧
      (mode ≠ 1 → start < stop → cpIsSpace (src (stop - 1)) = false) ∧ (mode = 1 → stop = s.length) := by
    by_cases hm : mode = 1
    · exact ⟨s.length, by rw [if_pos hm], hle, Nat.le_refl _, fun k hk hk' => by omega, fun hne => absurd hm hne, fun _ => rfl⟩
    · rw [if_neg hm]
      obtain ⟨h1, h2, h3, h4⟩ := stripEnd_spec src start s.length hle
      exact ⟨_, rfl, h1, h2, h3, fun _ => h4, fun hx => absurd hx hm⟩
  rw [hsto]
  have hr : (List.range (stop - start)).map (fun i => src (start + i)) = ((s.drop start).take (stop - start)).map Char.toNat := by
    rw [← h.map_range (i := start) (n := stop - start) (by omega), List.range'_eq_map_range, List.map_map]
    rfl
  refine ⟨(s.drop start).take (stop - start), hr, ⟨s.take start, s.drop stop, ?_, ?_, ?_, ?_, ?_, ?_, ?_⟩, by simp, ?_⟩
  · have : s.drop stop = (s.drop start).drop (stop - start) := by rw [List.drop_drop]; congr 1; omega
    rw [this, List.append_assoc, List.take_append_drop, List.take_append_drop]
  · intro c hc
    obtain ⟨k, hk, rfl⟩ := List.mem_take_iff_getElem.1 hc
    exact (hsp (by omega)).1 (hpre k (by omega))
  · intro c hc
    obtain ⟨k, hk, rfl⟩ := List.mem_drop_iff_getElem.1 hc
    exact (hsp (by omega)).1 (h3 _ (by omega) (by omega))
  · intro hm
    simp only [ne_eq, decide_not, Bool.not_eq_false', decide_eq_true_eq] at hm
    rw [hz hm]; rfl
  · intro hm
    simp only [ne_eq, decide_not, Bool.not_eq_false', decide_eq_true_eq] at hm
    rw [hz' hm]; simp
  · intro hm c hc
    simp only [ne_eq, decide_not, Bool.not_eq_true', decide_eq_false_iff_not] at hm
    rw [List.head?_eq_getElem?] at hc
    obtain ⟨hlt, he⟩ := List.getElem?_eq_some_iff.1 hc
    simp only [List.length_take, List.length_drop] at hlt
    have := hfirst hm (by omega)
    rw [← Bool.not_eq_true, hsp (by omega)] at this
    simp at he
    rwa [he] at this
  · intro hm c hc
    simp only [ne_eq, decide_not, Bool.not_eq_true', decide_eq_false_iff_not] at hm
    rw [List.getLast?_eq_getElem?] at hc
    obtain ⟨hlt, he⟩ := List.getElem?_eq_some_iff.1 hc
    have hlen : ((s.drop start).take (stop - start)).length = stop - start := by simp; omega
    rw [hlen] at hlt
    have := h4 hm (by omega)
    rw [← Bool.not_eq_true, hsp (by omega)] at this
    simp only [hlen, List.getElem_take, List.getElem_drop] at he
    have e : start + (stop - start - 1) = stop - 1 := by omega
    simp only [e] at he
    rwa [he] at this
  · intro c hc
    exact List.mem_of_mem_drop (List.mem_of_mem_take hc)

/-! ## Tabs -/

theorem column_append_plain (out l : List Char) (h : ∀ c ∈ l, c ≠ '\n' ∧ c ≠ '\r') : column (out ++ l) = column out + l.length := by
  unfold column
  rw [List.reverse_append, List.takeWhile_append_of_pos]
  · simp; omega
  · intro c hc
    simpa using h c (by simpa using hc)

theorem column_newline (out : List Char) {c : Char} (h : c = '\n' ∨ c = '\r') : column (out ++ [c]) = 0 := by
  unfold column
  rw [List.reverse_append]
  rcases h with rfl | rfl <;> simp

theorem expandLoop_eq (tabsize : Nat) : ∀ (s out : List Char),
    s.foldl (fun out c => out ++ if c = '\t' then
      (if tabsize = 0 then [] else List.replicate (tabsize - column out % tabsize) ' ') else [c]) out =
    out ++ expandLoop tabsize (column out) s
  | [], out => by simp [expandLoop]
  | c :: s, out => by
    rw [List.foldl_cons, expandLoop_eq tabsize s, expandLoop.eq_2]
    by_cases ht : c = '\t'
    · rw [if_pos ht, if_pos ht]
      by_cases h0 : tabsize = 0
      · simp [h0]
      · dsimp only
        rw [if_neg h0, if_neg h0, column_append_plain out _ (by
          intro c hc
          rw [List.eq_of_mem_replicate hc]
          decide), List.length_replicate, List.append_assoc]
    · rw [if_neg ht, if_neg ht]
      by_cases hn : c = '\n' ∨ c = '\r'
      · rw [if_pos hn, column_newline out hn]
        simp
      · rw [if_neg hn, column_append_plain out [c] (by
          intro d hd
          rw [List.mem_singleton] at hd
          subst hd
          exact ⟨fun hx => hn (Or.inl hx), fun hx => hn (Or.inr hx)⟩)]
        simp

end Rumpy
