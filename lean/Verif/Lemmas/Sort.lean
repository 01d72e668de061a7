import Verif.Model.Sort
import Verif.Spec.Sort
import Verif.Lemmas.Copy
/-!
# Lemmas: sorting
-/

namespace Rumpy
open Spec

/-! ### Stable sorting -/

section Stable
variable {α : Type*} (r s : α → α → Prop) [DecidableRel r]

/-- `a` is placed before `b`: it is not larger, and if equal it stood before it. -/
def Placed (a b : α) : Prop := r a b ∧ (r b a → s a b)

theorem placed_orderedInsert (hto : ∀ a b, r a b ∨ r b a) (htr : ∀ a b c, r a b → r b c → r a c) (a : α) :
    ∀ (l : List α), (∀ b ∈ l, s a b) → l.Pairwise (Placed r s) → (l.orderedInsert r a).Pairwise (Placed r s)
  | [], _, _ => by simp
  | b :: l, hs, hp => by
    rw [List.orderedInsert_cons]
    rw [List.pairwise_cons] at hp
    by_cases h : r a b
    · rw [if_pos h, List.pairwise_cons, List.pairwise_cons]
      refine ⟨?_, hp⟩
      intro c hc
      refine ⟨?_, fun _ => hs c hc⟩
      rcases List.mem_cons.1 hc with rfl | hc
      · exact h
      · exact htr _ _ _ h (hp.1 c hc).1
    · rw [if_neg h, List.pairwise_cons]
      refine ⟨?_, placed_orderedInsert hto htr a l (fun c hc => hs c (by simp [hc])) hp.2⟩
      intro c hc
      rcases (List.mem_orderedInsert (r := r)).1 hc with rfl | hc
      · exact ⟨(hto _ _).resolve_left h, fun h' => absurd h' h⟩
      · exact hp.1 c hc

/-- Insertion sort is stable. -/
theorem placed_insertionSort (hto : ∀ a b, r a b ∨ r b a) (htr : ∀ a b c, r a b → r b c → r a c) :
    ∀ (l : List α), l.Pairwise s → (l.insertionSort r).Pairwise (Placed r s)
  | [], _ => by simp
  | a :: l, h => by
    rw [List.pairwise_cons] at h
    rw [List.insertionSort_cons]
    apply placed_orderedInsert r s hto htr a _ _ (placed_insertionSort hto htr l h.2)
    intro b hb
    exact h.1 b (((List.perm_insertionSort r l).mem_iff).1 hb)

end Stable

section Pairs
variable [LinearOrder κ] (key : φ → κ)

theorem sortPairs_perm (l : List (φ × Nat)) : (sortPairs key l).Perm l := List.perm_insertionSort _ _

theorem sortPairs_placed (l : List φ) :
    (sortPairs key l.zipIdx).Pairwise fun a b => key a.1 < key b.1 ∨ key a.1 = key b.1 ∧ a.2 < b.2 := by
  have h := placed_insertionSort (fun a b : φ × Nat => key a.1 ≤ key b.1) (fun a b => a.2 < b.2)
    (fun a b => le_total _ _) (fun a b c h1 h2 => le_trans h1 h2) l.zipIdx (by
      have : (l.zipIdx.map Prod.snd).Pairwise (· < ·) := by
        rw [List.zipIdx_map_snd]; exact List.pairwise_lt_range'
      rwa [List.pairwise_map] at this)
  refine h.imp ?_
  intro a b hab
  rcases lt_or_eq_of_le hab.1 with hlt | heq
  · exact Or.inl hlt
  · exact Or.inr ⟨heq, hab.2 heq.ge⟩

theorem sortPairs_mem {l : List φ} {p : φ × Nat} (h : p ∈ sortPairs key l.zipIdx) : l[p.2]? = some p.1 := by
  have := (sortPairs_perm key l.zipIdx).mem_iff.1 h
  rwa [List.mem_zipIdx_iff_getElem?] at this

theorem sortPairs_length (l : List φ) : (sortPairs key l.zipIdx).length = l.length := by
  rw [(sortPairs_perm key _).length_eq]; simp

/-- The positions after sorting are the stable order. -/
theorem sortPairs_stable (l : List φ) : StableOrder (l.map key) ((sortPairs key l.zipIdx).map Prod.snd) := by
  refine ⟨?_, ?_⟩
  · have := (sortPairs_perm key l.zipIdx).map Prod.snd
    rwa [List.zipIdx_map_snd, ← List.range_eq_range', ← List.length_map (as := l) key] at this
  · rw [List.pairwise_map]
    refine (sortPairs_placed key l).imp_of_mem ?_
    intro a b ha hb hab
    refine ⟨key a.1, key b.1, ?_, ?_, hab⟩
    · rw [List.getElem?_map, sortPairs_mem key ha]; rfl
    · rw [List.getElem?_map, sortPairs_mem key hb]; rfl

theorem sortPairs_sorted (l : List φ) : SortedCopy key l ((sortPairs key l.zipIdx).map Prod.fst) := by
  refine ⟨?_, ?_⟩
  · have := (sortPairs_perm key l.zipIdx).map Prod.fst
    rwa [List.zipIdx_map_fst] at this
  · rw [List.pairwise_map]
    refine (sortPairs_placed key l).imp ?_
    rintro a b (h | h)
    · exact h.le
    · exact h.1.le

end Pairs

/-- The stable order is unique. -/
theorem stableOrder_unique [LinearOrder κ] {keys : List κ} {p q : List Nat} (hp : StableOrder keys p)
    (hq : StableOrder keys q) : p = q := by
  have hasym : ∀ a b : Nat, a ∈ p → b ∈ q →
      (∃ x y, keys[a]? = some x ∧ keys[b]? = some y ∧ (x < y ∨ x = y ∧ a < b)) →
      (∃ x y, keys[b]? = some x ∧ keys[a]? = some y ∧ (x < y ∨ x = y ∧ b < a)) → a = b := by
    rintro a b _ _ ⟨x, y, hx, hy, h1⟩ ⟨x', y', hx', hy', h2⟩
    rw [hx] at hy'; rw [hy] at hx'
    obtain rfl := Option.some.inj hx'
    obtain rfl := Option.some.inj hy'
    rcases h1 with h1 | ⟨h1, h1'⟩ <;> rcases h2 with h2 | ⟨h2, h2'⟩
    · exact absurd h1 h2.asymm
    · subst h2; exact absurd h1 (lt_irrefl _)
    · subst h1; exact absurd h2 (lt_irrefl _)
    · omega
  exact (hp.1.trans hq.1.symm).eq_of_pairwise hasym hp.2 hq.2

/-! ### Lanes -/

theorem fresh_offset {s idx : List Nat} {item : Nat} (hi : InShape s idx) (hitem : 0 < item) :
    (byteOffset idx (cStrides s item)).toNat / item = rank s idx := by
  have h := cFlag_addr (View.WF.fresh s item) rfl (idx := idx) hi
  simp only [View.addr, View.fresh] at h
  have h : byteOffset idx (cStrides s item) = (rank s idx : Int) * item := by omega
  rw [h]
  have : ((rank s idx : Int) * (item : Int)).toNat = rank s idx * item := by
    rw [← Int.natCast_mul]; rfl
  rw [this, Nat.mul_div_cancel _ hitem]

/-- Stores lane by lane fill the result with the transformed lanes. -/
theorem laneStores_eq (f : List α → List β) (hf : ∀ l, (f l).length = l.length) (mem : Int → α) (v : View)
    {axis item : Nat} (hax : axis < v.shape.length) (hitem : 0 < item) {d : List β} (hd : d.length = size v.shape) (z : β) :
    writes (laneStores f mem v axis item) d = (indices v.shape).map fun idx =>
      (f ((v.denote mem).lane axis (idx.eraseIdx axis))).getD (idx.getD axis 0) z := by
  unfold laneStores
  dsimp only
  rw [odometerAll_eq, outer_flatMap]
  · apply writes_lanes hax _ hd
    intro idx hi
    have hl := lane_length hax hi
    have hlane : ((List.range (v.shape.getD axis 0)).map fun k => mem (v.addr (argSlowIndex v.shape.length axis idx k))) =
        (v.denote mem).lane axis idx := by
      apply List.map_congr_left
      intro k _
      rw [argSlowIndex_eq hax hl]; rfl
    rw [hlane]
    have hlen : (f ((v.denote mem).lane axis idx)).length = v.shape.getD axis 0 := by
      rw [hf]; simp [Nd.lane, View.denote]
    rw [zipIdx_eq_range' z, hlen, List.map_map]
    apply List.map_congr_left
    intro j hj
    have hj := List.mem_range.1 hj
    have hin := inShape_insertIdx hax hi hj
    simp only [Function.comp_apply]
    rw [argSlowIndex_eq hax hl, fresh_offset hin hitem, eraseIdx_insertIdx_self _ _ _ (by omega),
      getD_insertIdx_self _ _ _ (by omega)]
  · intro he
    have hl : v.shape.length = 1 := by
      have := congrArg List.length he
      rw [List.length_eraseIdx, if_pos hax] at this
      simp at this; omega
    have hax0 : axis = 0 := by omega
    subst hax0
    simp [hl, argSlowIndex]

/-- The lanes of an array given lane by lane. -/
theorem lane_mk (s : List Nat) {axis : Nat} (hax : axis < s.length) (g : List Nat → List β) (z : β)
    (idx : List Nat) (hi : InShape (s.eraseIdx axis) idx) (hg : (g idx).length = s.getD axis 0) :
    (Nd.mk s fun i => (g (i.eraseIdx axis)).getD (i.getD axis 0) z).lane axis idx = g idx := by
  have hl := lane_length hax hi
  unfold Nd.lane
  dsimp only
  apply List.ext_getElem
  · simp [hg]
  · intro j h1 h2
    rw [List.getElem_map, List.getElem_range, eraseIdx_insertIdx_self _ _ _ (by omega),
      getD_insertIdx_self _ _ _ (by omega), List.getD_eq_getElem _ _ h2]

/-! ### Several keys -/

section Lex
variable [LinearOrder κ]

theorem lexCmp_swap (ks : List (Nat → κ)) (a b : Nat) : lexCmp ks b a = (lexCmp ks a b).swap := by
  induction ks with
  | nil => rfl
  | cons k ks ih =>
    unfold lexCmp
    rcases lt_trichotomy (k a) (k b) with h | h | h
    · rw [compare_lt_iff_lt.2 h, compare_gt_iff_gt.2 h]; simp
    · rw [compare_eq_iff_eq.2 h, compare_eq_iff_eq.2 h.symm]; simpa using ih
    · rw [compare_gt_iff_gt.2 h, compare_lt_iff_lt.2 h]; simp

theorem lexCmp_cons_le (k : Nat → κ) (ks : List (Nat → κ)) (a b : Nat) :
    lexCmp (k :: ks) a b ≠ .gt ↔ k a < k b ∨ k a = k b ∧ lexCmp ks a b ≠ .gt := by
  conv_lhs => unfold lexCmp
  rcases lt_trichotomy (k a) (k b) with h | h | h
  · rw [compare_lt_iff_lt.2 h]; simp [h]
  · rw [compare_eq_iff_eq.2 h]; simp [h]
  · rw [compare_gt_iff_gt.2 h]; simp [h.asymm, h.ne']

theorem lexCmp_total (ks : List (Nat → κ)) (a b : Nat) : lexCmp ks a b ≠ .gt ∨ lexCmp ks b a ≠ .gt := by
  rw [lexCmp_swap ks a b]
  cases lexCmp ks a b <;> simp

theorem lexCmp_trans (ks : List (Nat → κ)) (a b c : Nat) (h1 : lexCmp ks a b ≠ .gt) (h2 : lexCmp ks b c ≠ .gt) :
    lexCmp ks a c ≠ .gt := by
  induction ks with
  | nil => simp [lexCmp]
  | cons k ks ih =>
    rw [lexCmp_cons_le] at *
    rcases h1 with h1 | ⟨h1, h1'⟩ <;> rcases h2 with h2 | ⟨h2, h2'⟩
    · exact Or.inl (h1.trans h2)
    · exact Or.inl (h2 ▸ h1)
    · exact Or.inl (h1 ▸ h2)
    · exact Or.inr ⟨h1.trans h2, ih h1' h2'⟩

theorem lexCmp_eq_iff (ks : List (Nat → κ)) (a b : Nat) : lexCmp ks a b = .eq ↔ ∀ k ∈ ks, k a = k b := by
  induction ks with
  | nil => simp [lexCmp]
  | cons k ks ih =>
    unfold lexCmp
    rcases lt_trichotomy (k a) (k b) with h | h | h
    · rw [compare_lt_iff_lt.2 h]; simp [h.ne]
    · rw [compare_eq_iff_eq.2 h]; simp [h, ih]
    · rw [compare_gt_iff_gt.2 h]; simp [h.ne']

theorem lexCmp_lt_iff (ks : List (Nat → κ)) (a b : Nat) :
    lexCmp ks a b = .lt ↔ ∃ pre k post, ks = pre ++ k :: post ∧ (∀ r ∈ pre, r a = r b) ∧ k a < k b := by
  induction ks with
  | nil => simp [lexCmp]
  | cons k ks ih =>
    unfold lexCmp
    rcases lt_trichotomy (k a) (k b) with h | h | h
    · rw [compare_lt_iff_lt.2 h]
      simp only [ne_eq, reduceCtorEq, not_false_eq_true, if_true, true_iff]
      exact ⟨[], k, ks, rfl, by simp, h⟩
    · rw [compare_eq_iff_eq.2 h]
      simp only [ne_eq, not_true_eq_false, if_false]
      rw [ih]
      constructor
      · rintro ⟨pre, k', post, rfl, h1, h2⟩
        exact ⟨k :: pre, k', post, rfl, by simpa [h] using h1, h2⟩
      · rintro ⟨pre, k', post, he, h1, h2⟩
        rcases pre with _ | ⟨p, pre⟩
        · simp only [List.nil_append, List.cons.injEq] at he
          rw [← he.1] at h2
          exact absurd h2 (by simp [h])
        · simp only [List.cons_append, List.cons.injEq] at he
          exact ⟨pre, k', post, he.2, fun r hr => h1 r (by simp [hr]), h2⟩
    · rw [compare_gt_iff_gt.2 h]
      simp only [ne_eq, reduceCtorEq, not_false_eq_true, if_true, false_iff]
      rintro ⟨pre, k', post, he, h1, h2⟩
      rcases pre with _ | ⟨p, pre⟩
      · simp only [List.nil_append, List.cons.injEq] at he
        rw [← he.1] at h2
        exact h2.asymm h
      · simp only [List.cons_append, List.cons.injEq] at he
        have := h1 p (by simp)
        rw [← he.1] at this
        exact h.ne' this

/-- Sorting positions by several keys, the last first. -/
theorem lexsort_order (keys : List (Nat → κ)) (n : Nat) :
    let p := (List.range n).insertionSort fun a b => lexCmp keys.reverse a b ≠ .gt
    p.Perm (List.range n) ∧ p.Pairwise (LexBefore keys) := by
  intro p
  refine ⟨List.perm_insertionSort _ _, ?_⟩
  have h := placed_insertionSort (fun a b => lexCmp keys.reverse a b ≠ .gt) (fun a b : Nat => a < b)
    (lexCmp_total _) (lexCmp_trans _) (List.range n) List.pairwise_lt_range
  refine h.imp ?_
  intro a b hab
  have hs := lexCmp_swap keys.reverse a b
  cases hc : lexCmp keys.reverse a b with
  | gt => exact absurd hc hab.1
  | eq =>
    right
    refine ⟨fun k hk => (lexCmp_eq_iff _ a b).1 hc k (by simpa using hk), hab.2 ?_⟩
    dsimp only
    rw [hs, hc]; simp
  | lt =>
    left
    obtain ⟨pre, k, post, he, h1, h2⟩ := (lexCmp_lt_iff _ a b).1 hc
    have he' : keys = post.reverse ++ k :: pre.reverse := by
      have := congrArg List.reverse he
      simpa using this
    exact ⟨k, pre.reverse, ⟨_, he'⟩, fun r hr => h1 r (by simpa using hr), h2⟩

end Lex

end Rumpy
