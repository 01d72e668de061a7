import Verif.Lemmas.Sort
/-!
# Lemmas: quickselect and partitions
-/

namespace Rumpy
open Spec

/-! ### Swaps inside a segment -/

theorem swapAt_isSome {l : List α} {i j : Nat} (hi : i < l.length) (hj : j < l.length) : ∃ l', swapAt l i j = some l' := by
  unfold swapAt
  rw [List.getElem?_eq_getElem hi, List.getElem?_eq_getElem hj]
  exact ⟨_, rfl⟩

theorem swapAt_spec {l l' : List α} {i j : Nat} (h : swapAt l i j = some l') :
    l'.Perm l ∧ ∀ k, l'[k]? = if k = j then l[i]? else if k = i then l[j]? else l[k]? := by
  unfold swapAt at h
  split at h
  · rename_i x y hx hy
    obtain ⟨hi, rfl⟩ := List.getElem?_eq_some_iff.1 hx
    obtain ⟨hj, rfl⟩ := List.getElem?_eq_some_iff.1 hy
    simp only [Option.some.injEq] at h
    subst h
    refine ⟨List.set_set_perm hi hj, ?_⟩
    intro k
    by_cases h1 : k = j
    · subst h1
      rw [if_pos rfl, List.getElem?_set_self (by simpa using hj), hx]
    · rw [if_neg h1, List.getElem?_set_ne (Ne.symm h1)]
      by_cases h2 : k = i
      · subst h2
        rw [if_pos rfl, List.getElem?_set_self hi, hy]
      · rw [if_neg h2, List.getElem?_set_ne (Ne.symm h2)]
  · simp at h

/-- `l'` is `l` rearranged inside the segment `[a, b]`. -/
structure Seg (a b : Nat) (l l' : List α) : Prop where
  perm : l'.Perm l
  out : ∀ k, k < a ∨ b < k → l'[k]? = l[k]?
  ins : ∀ k, a ≤ k → k ≤ b → ∃ k', a ≤ k' ∧ k' ≤ b ∧ l'[k]? = l[k']?

theorem Seg.refl (a b : Nat) (l : List α) : Seg a b l l :=
  ⟨List.Perm.refl _, fun _ _ => rfl, fun k h1 h2 => ⟨k, h1, h2, rfl⟩⟩

theorem Seg.trans {a b : Nat} {l l' l'' : List α} (h : Seg a b l l') (h' : Seg a b l' l'') : Seg a b l l'' := by
  refine ⟨h'.perm.trans h.perm, fun k hk => (h'.out k hk).trans (h.out k hk), ?_⟩
  intro k h1 h2
  obtain ⟨k', h3, h4, e⟩ := h'.ins k h1 h2
  obtain ⟨k'', h5, h6, e'⟩ := h.ins k' h3 h4
  exact ⟨k'', h5, h6, e.trans e'⟩

theorem Seg.swap {l l' : List α} {i j a b : Nat} (h : swapAt l i j = some l') (hi : a ≤ i ∧ i ≤ b) (hj : a ≤ j ∧ j ≤ b) :
    Seg a b l l' := by
  obtain ⟨hp, hg⟩ := swapAt_spec h
  refine ⟨hp, ?_, ?_⟩
  · intro k hk
    rw [hg, if_neg (by omega), if_neg (by omega)]
  · intro k h1 h2
    rw [hg]
    by_cases h3 : k = j
    · exact ⟨i, hi.1, hi.2, by rw [if_pos h3]⟩
    · rw [if_neg h3]
      by_cases h4 : k = i
      · exact ⟨j, hj.1, hj.2, by rw [if_pos h4]⟩
      · exact ⟨k, h1, h2, by rw [if_neg h4]⟩

/-! ### One round -/

section
variable [LinearOrder κ] (key : α → κ)

theorem smallerFirst_spec (pivot : κ) {left right : Nat} : ∀ (m i store : Nat) (l : List α), i + m = right →
    left ≤ store → store ≤ i → right < l.length →
    (∀ k x, left ≤ k → k < store → l[k]? = some x → key x < pivot) →
    (∀ k x, store ≤ k → k < i → l[k]? = some x → pivot ≤ key x) →
    ∃ l' store', smallerFirst key pivot (List.range' i m) l store = some (l', store') ∧
      Seg left right l l' ∧ l'[right]? = l[right]? ∧ left ≤ store' ∧ store' ≤ right ∧
      (∀ k x, left ≤ k → k < store' → l'[k]? = some x → key x < pivot) ∧
      (∀ k x, store' ≤ k → k < right → l'[k]? = some x → pivot ≤ key x)
  | 0, i, store, l, hm, h1, h2, _, hlt, hge => by
    obtain rfl : i = right := by omega
    exact ⟨l, store, rfl, Seg.refl _ _ _, rfl, h1, h2, hlt, hge⟩
  | m + 1, i, store, l, hm, h1, h2, hlen, hlt, hge => by
    rw [List.range'_succ]
    unfold smallerFirst
    have hi : i < l.length := by omega
    rw [List.getElem?_eq_getElem hi]
    dsimp only
    by_cases hx : key l[i] < pivot
    · rw [if_pos hx]
      obtain ⟨l1, hs⟩ := swapAt_isSome hi (show store < l.length by omega)
      rw [hs]
      dsimp only
      obtain ⟨hp, hg⟩ := swapAt_spec hs
      have hseg : Seg left right l l1 := Seg.swap hs (by omega) (by omega)
      obtain ⟨l', store', e, hS, hr, h3, h4, h5, h6⟩ := smallerFirst_spec pivot (left := left) (right := right) m (i + 1)
        (store + 1) l1 (by omega) (by omega) (by omega) (by rw [hp.length_eq]; exact hlen)
        (by
          intro k x hk1 hk2 hkx
          rw [hg] at hkx
          by_cases h3 : k = store
          · rw [if_pos h3, List.getElem?_eq_getElem hi] at hkx
            obtain rfl := Option.some.inj hkx
            exact hx
          · rw [if_neg h3, if_neg (by omega)] at hkx
            exact hlt k x hk1 (by omega) hkx)
        (by
          intro k x hk1 hk2 hkx
          rw [hg, if_neg (by omega)] at hkx
          by_cases h3 : k = i
          · rw [if_pos h3] at hkx
            exact hge store x le_rfl (by omega) hkx
          · rw [if_neg h3] at hkx
            exact hge k x (by omega) (by omega) hkx)
      refine ⟨l', store', e, hseg.trans hS, ?_, h3, h4, h5, h6⟩
      rw [hr, hg, if_neg (by omega), if_neg (by omega)]
    · rw [if_neg hx]
      exact smallerFirst_spec pivot m (i + 1) store l (by omega) h1 (by omega) hlen hlt (by
        intro k x hk1 hk2 hkx
        by_cases h3 : k = i
        · subst h3
          rw [List.getElem?_eq_getElem hi] at hkx
          obtain rfl := Option.some.inj hkx
          exact not_lt.1 hx
        · exact hge k x hk1 (by omega) hkx)

theorem selectRound_spec {left right : Nat} {l : List α} (hlr : left < right) (hlen : right < l.length) :
    ∃ l' store, selectRound key l left right = some (l', store) ∧ Seg left right l l' ∧
      left ≤ store ∧ store ≤ right ∧ ∃ p, l'[store]? = some p ∧
      (∀ k x, left ≤ k → k < store → l'[k]? = some x → key x ≤ key p) ∧
      (∀ k x, store < k → k ≤ right → l'[k]? = some x → key p ≤ key x) := by
  unfold selectRound
  dsimp only
  have hm : (left + right) / 2 < l.length := by omega
  rw [List.getElem?_eq_getElem hm]
  dsimp only
  obtain ⟨l1, hs⟩ := swapAt_isSome hm hlen
  rw [hs]
  dsimp only
  obtain ⟨hp, hg⟩ := swapAt_spec hs
  have hseg1 : Seg left right l l1 := Seg.swap hs (by omega) (by omega)
  obtain ⟨l2, store, e, hS, hr, h3, h4, h5, h6⟩ := smallerFirst_spec key (key l[(left + right) / 2]) (left := left)
    (right := right) (right - left) left left l1 (by omega) le_rfl le_rfl (by rw [hp.length_eq]; exact hlen)
    (by intro k x h1 h2; omega) (by intro k x h1 h2; omega)
  rw [e]
  dsimp only
  have hlen2 : right < l2.length := by rw [hS.perm.length_eq, hp.length_eq]; exact hlen
  obtain ⟨l3, hs3⟩ := swapAt_isSome (show store < l2.length by omega) hlen2
  rw [hs3]
  dsimp only
  obtain ⟨hp3, hg3⟩ := swapAt_spec hs3
  have hpiv : l2[right]? = some l[(left + right) / 2] := by
    rw [hr, hg, if_pos rfl, List.getElem?_eq_getElem hm]
  refine ⟨l3, store, rfl, (hseg1.trans hS).trans (Seg.swap hs3 (by omega) (by omega)), h3, h4,
    l[(left + right) / 2], ?_, ?_, ?_⟩
  · rw [hg3]
    by_cases h : store = right
    · rw [if_pos h, h, hpiv]
    · rw [if_neg h, if_pos rfl, hpiv]
  · intro k x h1 h2 hx
    rw [hg3, if_neg (by omega), if_neg (by omega)] at hx
    exact (h5 k x h1 h2 hx).le
  · intro k x h1 h2 hx
    rw [hg3] at hx
    by_cases h : k = right
    · rw [if_pos h] at hx
      exact h6 store x le_rfl (by omega) hx
    · rw [if_neg h, if_neg (by omega)] at hx
      exact h6 k x (by omega) (by omega) hx

/-- Everything left of the segment is below everything from it on, everything right of it above. -/
def Around (l : List α) (left right : Nat) : Prop :=
  (∀ i j x y, i < left → left ≤ j → l[i]? = some x → l[j]? = some y → key x ≤ key y) ∧
  (∀ i j x y, i ≤ right → right < j → l[i]? = some x → l[j]? = some y → key x ≤ key y)

theorem Around.seg {l l' : List α} {left right : Nat} (hlr : left ≤ right) (h : Around key l left right)
    (hs : Seg left right l l') : Around key l' left right := by
  constructor
  · intro i j x y hi hj hx hy
    rw [hs.out i (by omega)] at hx
    by_cases hjr : j ≤ right
    · obtain ⟨j', h1, _, e⟩ := hs.ins j hj hjr
      rw [e] at hy
      exact h.1 i j' x y hi h1 hx hy
    · rw [hs.out j (by omega)] at hy
      exact h.1 i j x y hi hj hx hy
  · intro i j x y hi hj hx hy
    rw [hs.out j (by omega)] at hy
    by_cases hil : left ≤ i
    · obtain ⟨i', _, h2, e⟩ := hs.ins i hil hi
      rw [e] at hx
      exact h.2 i' j x y h2 hj hx hy
    · rw [hs.out i (by omega)] at hx
      exact h.2 i j x y hi hj hx hy

theorem partitionedAt_of {l : List α} {k : Nat} {p : α} (hp : l[k]? = some p)
    (h1 : ∀ i x, i < k → l[i]? = some x → key x ≤ key p) (h2 : ∀ i x, k < i → l[i]? = some x → key p ≤ key x) :
    PartitionedAt (l.map key) k := by
  refine ⟨key p, by rw [List.getElem?_map, hp]; rfl, ?_, ?_⟩
  · intro i y hi hy
    rw [List.getElem?_map] at hy
    obtain ⟨x, hx, rfl⟩ := Option.map_eq_some_iff.1 hy
    exact h1 i x hi hx
  · intro i y hi hy
    rw [List.getElem?_map] at hy
    obtain ⟨x, hx, rfl⟩ := Option.map_eq_some_iff.1 hy
    exact h2 i x hi hx

theorem selectLoop_spec (kth : Nat) : ∀ (fuel : Nat) (l : List α) (left right : Nat), right - left < fuel →
    right < l.length → left ≤ kth → kth ≤ right → Around key l left right →
    ∃ l', selectLoop key kth fuel l left right = some l' ∧ l'.Perm l ∧ PartitionedAt (l'.map key) kth
  | 0, _, _, _, hf, _, _, _, _ => by omega
  | fuel + 1, l, left, right, hf, hlen, h1, h2, har => by
    unfold selectLoop
    by_cases hlr : left < right
    · rw [if_pos hlr]
      obtain ⟨l', store, e, hS, h3, h4, p, hp, h5, h6⟩ := selectRound_spec key hlr hlen
      rw [e]
      dsimp only
      have har' := har.seg key (by omega) hS
      have hlow : ∀ i x, i < store → l'[i]? = some x → key x ≤ key p := by
        intro i x hi hx
        by_cases h : left ≤ i
        · exact h5 i x h hi hx
        · exact har'.1 i store x p (by omega) h3 hx hp
      have hhigh : ∀ i x, store < i → l'[i]? = some x → key p ≤ key x := by
        intro i x hi hx
        by_cases h : i ≤ right
        · exact h6 i x hi h hx
        · exact har'.2 store i p x h4 (by omega) hp hx
      have hlen' : l'.length = l.length := hS.perm.length_eq
      by_cases hk : store = kth
      · rw [if_pos hk]
        subst hk
        exact ⟨l', rfl, hS.perm, partitionedAt_of key hp hlow hhigh⟩
      · rw [if_neg hk]
        by_cases hk' : store < kth
        · rw [if_pos hk']
          obtain ⟨r, e', hp', hr⟩ := selectLoop_spec kth fuel l' (store + 1) right (by omega) (by omega) (by omega) h2
            ⟨by
              intro i j x y hi hj hx hy
              have hy' := hhigh j y (by omega) hy
              by_cases his : i = store
              · subst his
                rw [hp] at hx
                obtain rfl := Option.some.inj hx
                exact hy'
              · exact (hlow i x (by omega) hx).trans hy', har'.2⟩
          exact ⟨r, e', hp'.trans hS.perm, hr⟩
        · rw [if_neg hk']
          obtain ⟨r, e', hp', hr⟩ := selectLoop_spec kth fuel l' left (store - 1) (by omega) (by omega) h1 (by omega)
            ⟨har'.1, by
              intro i j x y hi hj hx hy
              have hx' := hlow i x (by omega) hx
              by_cases hjs : j = store
              · subst hjs
                rw [hp] at hy
                obtain rfl := Option.some.inj hy
                exact hx'
              · exact hx'.trans (hhigh j y (by omega) hy)⟩
          exact ⟨r, e', hp'.trans hS.perm, hr⟩
    · rw [if_neg hlr]
      obtain rfl : kth = left := by omega
      obtain rfl : kth = right := by omega
      refine ⟨l, rfl, List.Perm.refl _, ?_⟩
      refine partitionedAt_of key (List.getElem?_eq_getElem hlen) ?_ ?_
      · intro i x hi hx
        exact har.1 i kth x _ hi le_rfl hx (List.getElem?_eq_getElem hlen)
      · intro i x hi hx
        exact har.2 kth i _ x le_rfl hi (List.getElem?_eq_getElem hlen) hx

theorem partitionSelect_spec (l : List α) {kth : Nat} (hk : kth < l.length) :
    ∃ l', partitionSelect key l kth = some l' ∧ l'.Perm l ∧ PartitionedAt (l'.map key) kth := by
  unfold partitionSelect
  by_cases h : l.length ≤ 1
  · rw [if_pos h]
    refine ⟨l, rfl, List.Perm.refl _, ?_⟩
    refine partitionedAt_of key (List.getElem?_eq_getElem hk) ?_ ?_
    · intro i x hi; omega
    · intro i x hi hx
      have := (List.getElem?_eq_some_iff.1 hx).1
      omega
  · rw [if_neg h]
    apply selectLoop_spec key kth
    · omega
    · omega
    · omega
    · omega
    · constructor
      · intro i j x y hi; omega
      · intro i j x y _ hj _ hy
        have := (List.getElem?_eq_some_iff.1 hy).1
        omega

end

/-! ### Lanes changed in place -/

/-- The lane of a fresh array given by its data. -/
def dataLane (s : List Nat) (axis : Nat) (d : List α) (zero : α) (outer : List Nat) : List α :=
  (List.range (s.getD axis 0)).map fun j => d.getD (rank s (outer.insertIdx axis j)) zero

/-- One lane replaced. -/
def putLane (s : List Nat) (axis : Nat) (F : List α → List α) (zero : α) (d : List α) (outer : List Nat) : List α :=
  writes ((F (dataLane s axis d zero outer)).zipIdx.map fun xi => (rank s (outer.insertIdx axis xi.2), xi.1)) d

theorem insertIdx_inj {axis : Nat} {a b : List Nat} {i j : Nat} (ha : axis ≤ a.length) (hb : axis ≤ b.length)
    (h : a.insertIdx axis i = b.insertIdx axis j) : a = b ∧ i = j := by
  have h1 := congrArg (fun l => l.eraseIdx axis) h
  have h2 := congrArg (fun l => l.getD axis 0) h
  rw [eraseIdx_insertIdx_self _ _ _ ha, eraseIdx_insertIdx_self _ _ _ hb] at h1
  rw [getD_insertIdx_self _ _ _ ha, getD_insertIdx_self _ _ _ hb] at h2
  exact ⟨h1, h2⟩

theorem putLane_get {s : List Nat} {axis : Nat} (hax : axis < s.length) (F : List α → List α)
    (hF : ∀ l, (F l).length = l.length) (zero : α) {d : List α} (hd : d.length = size s) {outer o : List Nat}
    (hi : InShape (s.eraseIdx axis) outer) (ho : InShape (s.eraseIdx axis) o) {j : Nat} (hj : j < s.getD axis 0) :
    (putLane s axis F zero d outer)[rank s (o.insertIdx axis j)]? =
      if o = outer then (F (dataLane s axis d zero outer))[j]? else d[rank s (o.insertIdx axis j)]? := by
  have hl := lane_length hax hi
  have hl' := lane_length hax ho
  have hlen : (F (dataLane s axis d zero outer)).length = s.getD axis 0 := by rw [hF]; simp [dataLane]
  unfold putLane
  by_cases h : o = outer
  · subst h
    rw [if_pos rfl]
    have hj' : j < (F (dataLane s axis d zero o)).length := by omega
    rw [List.getElem?_eq_getElem hj']
    apply writes_get_of_agree
    · simp only [List.map_map, List.mem_map, Function.comp_apply]
      exact ⟨((F (dataLane s axis d zero o))[j], j), by
        rw [List.mem_zipIdx_iff_getElem?]; exact List.getElem?_eq_getElem hj', rfl⟩
    · intro y hy
      obtain ⟨x, hx, he⟩ := List.mem_map.1 hy
      rw [List.mem_zipIdx_iff_getElem?] at hx
      have hx2 : x.2 < s.getD axis 0 := by
        have := (List.getElem?_eq_some_iff.1 hx).1; omega
      have h1 := rank_inj (inShape_insertIdx hax ho hx2) (inShape_insertIdx hax ho hj) (congrArg Prod.fst he)
      have h2 := (insertIdx_inj (by omega) (by omega) h1).2
      rw [h2, List.getElem?_eq_getElem hj'] at hx
      have h3 : x.1 = y := congrArg Prod.snd he
      rw [← h3]
      exact (Option.some.inj hx).symm
    · rw [hd]; exact rank_lt (inShape_insertIdx hax ho hj)
  · rw [if_neg h]
    apply writes_get_notMem
    simp only [List.map_map, List.mem_map, Function.comp_apply, not_exists, not_and]
    intro x hx he
    rw [List.mem_zipIdx_iff_getElem?] at hx
    have hx2 : x.2 < s.getD axis 0 := by
      have := (List.getElem?_eq_some_iff.1 hx).1; omega
    have h1 := rank_inj (inShape_insertIdx hax hi hx2) (inShape_insertIdx hax ho hj) he
    exact h (insertIdx_inj (by omega) (by omega) h1).1.symm

theorem putLane_length (s : List Nat) (axis : Nat) (F : List α → List α) (zero : α) (d : List α) (outer : List Nat) :
    (putLane s axis F zero d outer).length = d.length := by simp [putLane]

theorem dataLane_congr {s : List Nat} {axis : Nat} {d e : List α} {zero : α} {o : List Nat}
    (h : ∀ j, j < s.getD axis 0 → e[rank s (o.insertIdx axis j)]? = d[rank s (o.insertIdx axis j)]?) :
    dataLane s axis e zero o = dataLane s axis d zero o := by
  apply List.map_congr_left
  intro j hj
  have := h j (List.mem_range.1 hj)
  simp [List.getD, this]

theorem putLanes_spec {s : List Nat} {axis : Nat} (hax : axis < s.length) (F : List α → List α)
    (hF : ∀ l, (F l).length = l.length) (zero : α) : ∀ (os : List (List Nat)) (d : List α), d.length = size s →
    os.Nodup → (∀ o ∈ os, InShape (s.eraseIdx axis) o) →
    (os.foldl (putLane s axis F zero) d).length = size s ∧
    ∀ o j, InShape (s.eraseIdx axis) o → j < s.getD axis 0 →
      (os.foldl (putLane s axis F zero) d)[rank s (o.insertIdx axis j)]? =
        if o ∈ os then (F (dataLane s axis d zero o))[j]? else d[rank s (o.insertIdx axis j)]?
  | [], d, hd, _, _ => ⟨hd, fun o j _ _ => by simp⟩
  | q :: os, d, hd, hn, hin => by
    rw [List.nodup_cons] at hn
    obtain ⟨h1, h2⟩ := putLanes_spec hax F hF zero os (putLane s axis F zero d q) (by rw [putLane_length, hd]) hn.2
      (fun o ho => hin o (by simp [ho]))
    refine ⟨h1, ?_⟩
    intro o j ho hj
    rw [List.foldl_cons, h2 o j ho hj]
    have hq := hin q (by simp)
    by_cases hoq : o = q
    · subst hoq
      rw [if_neg hn.1, putLane_get hax F hF zero hd hq ho hj, if_pos rfl, if_pos (by simp)]
    · by_cases hos : o ∈ os
      · rw [if_pos hos, if_pos (by simp [hos])]
        congr 2
        apply dataLane_congr
        intro j hj
        rw [putLane_get hax F hF zero hd hq ho hj, if_neg hoq]
      · rw [if_neg hos, if_neg (by simp [hoq, hos]), putLane_get hax F hF zero hd hq ho hj, if_neg hoq]

/-- Changing every lane in place gives the array of the changed lanes. -/
theorem putLanes_eq {s : List Nat} {axis : Nat} (hax : axis < s.length) (F : List α → List α)
    (hF : ∀ l, (F l).length = l.length) (zero : α) {nd : Nd α} (hs : nd.shape = s) :
    (indices (s.eraseIdx axis)).foldl (putLane s axis F zero) nd.toList =
      (indices s).map fun i => (F (nd.lane axis (i.eraseIdx axis))).getD (i.getD axis 0) zero := by
  have hlen : nd.toList.length = size s := by simp [Nd.toList, length_indices, hs]
  obtain ⟨h1, h2⟩ := putLanes_spec hax F hF zero (indices (s.eraseIdx axis)) nd.toList hlen (indices_nodup _)
    (fun o ho => mem_indices.1 ho)
  apply eq_toList (nd := ⟨s, fun i => (F (nd.lane axis (i.eraseIdx axis))).getD (i.getD axis 0) zero⟩) h1
  intro idx hi
  dsimp only at hi ⊢
  obtain ⟨ho, hj, he⟩ := lane_of_index hax hi
  have h := h2 _ _ ho hj
  rw [he, if_pos (mem_indices.2 ho)] at h
  rw [h]
  have hl : dataLane s axis nd.toList zero (idx.eraseIdx axis) = nd.lane axis (idx.eraseIdx axis) := by
    unfold dataLane Nd.lane
    rw [hs]
    apply List.map_congr_left
    intro j hj
    have hin := inShape_insertIdx hax ho (List.mem_range.1 hj)
    rw [← hs] at hin ⊢
    exact getD_of_getElem? (toList_getElem? hin) zero
  rw [hl]
  have hj' : idx.getD axis 0 < (F (nd.lane axis (idx.eraseIdx axis))).length := by
    rw [hF]; simpa [Nd.lane, hs] using hj
  rw [List.getD_eq_getElem _ _ hj', List.getElem?_eq_getElem hj']

end Rumpy
