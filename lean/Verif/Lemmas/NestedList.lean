import Verif.Model.NestedList
import Verif.Lemmas.Array
import Verif.Lemmas.Select

/-!
# Lemmas: nested lists of numbers
-/

namespace Rumpy
open Spec

theorem flatMany_same (ex : PyNum → Option β) (g : γ → PyData) (s : List Nat) (d : γ → List β) :
    ∀ l : List γ, (∀ x ∈ l, flatOne ex (g x) = some (s, d x)) →
      flatMany ex (l.map g) = some (if l = [] then [] else s, l.flatMap d)
  | [], _ => by simp [flatMany]
  | x :: l, h => by
    have ih := flatMany_same ex g s d l fun y hy => h y (by simp [hy])
    rw [List.map_cons, flatMany, h x (by simp), ih]
    by_cases hs : s = [] <;> simp [hs]

theorem visible_tail {n : Nat} {s : List Nat} (h : Visible (n :: s)) : Visible s := by
  intro m hm
  refine h m ?_
  cases s with
  | nil => simp at hm
  | cons k s => rw [List.dropLast_cons₂]; exact List.mem_cons_of_mem _ hm

theorem visible_head {n k : Nat} {s : List Nat} (h : Visible (n :: k :: s)) : n ≠ 0 := h n (by simp)

theorem flatOne_shaped (ex : PyNum → Option β) : ∀ (s : List Nat) (get : List Nat → PyNum) (g : List Nat → β), Visible s →
    (∀ idx, InShape s idx → ex (get idx) = some (g idx)) → flatOne ex (.shaped s get) = some (s, (indices s).map g)
  | [], get, g, _, h => by
    rw [PyData.shaped, flatOne, h [] (by simp [InShape])]
    rfl
  | n :: s, get, g, hv, h => by
    have key := flatMany_same ex (fun i : Nat => PyData.shaped s fun idx => get (i :: idx)) s
      (fun i => (indices s).map fun idx => g (i :: idx)) (List.range n) (fun i hi =>
        flatOne_shaped ex s _ _ (visible_tail hv) fun idx hidx => h (i :: idx) (by
          simp only [List.mem_range] at hi
          exact ⟨hi, hidx⟩))
    rw [PyData.shaped, flatOne, key]
    have hs : (if List.range n = [] then [] else s) = s := by
      by_cases h0 : n = 0
      · cases s with
        | nil => simp
        | cons k s => exact absurd h0 (visible_head hv)
      · rw [if_neg (by simpa using h0)]
    rw [hs]
    simp [indices, List.map_flatMap, List.map_map, Function.comp_def]

mutual
theorem flatOne_leaves (ex : PyNum → Option β) : ∀ d : PyData, (flatOne ex d).map (·.2) = d.leaves.mapM ex
  | .num x => by
    rw [flatOne, PyData.leaves]
    cases h : ex x <;> simp [h]
  | .list l => by
    rw [flatOne, PyData.leaves, ← flatMany_leaves ex l]
    cases flatMany ex l <;> rfl
theorem flatMany_leaves (ex : PyNum → Option β) : ∀ l : List PyData, (flatMany ex l).map (·.2) = (PyData.leavesAll l).mapM ex
  | [] => by simp [flatMany, PyData.leavesAll]
  | d :: r => by
    rw [flatMany, PyData.leavesAll, List.mapM_append, ← flatOne_leaves ex d, ← flatMany_leaves ex r]
    cases flatOne ex d <;> cases flatMany ex r <;> rfl
end

theorem mapM_extractItem (ex : PyNum → Option β) : ∀ (l : List PyData) {v : List β}, l.mapM (extractItem ex) = some v →
    (PyData.leavesAll l).mapM ex = some v
  | [], v, h => by simpa [PyData.leavesAll] using h
  | .num x :: r, v, h => by
    rw [List.mapM_cons, extractItem] at h
    cases hx : ex x with
    | none => rw [hx] at h; cases h
    | some y =>
      rw [hx] at h
      cases hr : r.mapM (extractItem ex) with
      | none => rw [hr] at h; cases h
      | some w =>
        rw [hr] at h
        have := mapM_extractItem ex r hr
        rw [PyData.leavesAll, PyData.leaves, List.mapM_append, this]
        simp only [List.mapM_cons, List.mapM_nil, hx]
        exact h
  | .list _ :: r, v, h => by
    rw [List.mapM_cons, extractItem] at h
    cases h

theorem mapM_range (ex : PyNum → Option β) (get : Nat → PyNum) (g : Nat → β) : ∀ l : List Nat, (∀ i ∈ l, ex (get i) = some (g i)) →
    (l.map fun i => PyData.num (get i)).mapM (extractItem ex) = some (l.map g)
  | [], _ => rfl
  | i :: l, h => by
    rw [List.map_cons, List.mapM_cons, extractItem, h i (by simp), mapM_range ex get g l fun j hj => h j (by simp [hj])]
    rfl

theorem inferKind_shaped {k : NumKind} : ∀ (s : List Nat) (get : List Nat → PyNum), (0 ∉ s) →
    inferKindItem (.num (get (List.replicate s.length 0))) = k → inferKindItem (.shaped s get) = k
  | [], get, _, h => h
  | n :: s, get, h0, h => by
    obtain ⟨m, rfl⟩ : ∃ m, n = m + 1 := ⟨n - 1, by
      have : n ≠ 0 := fun e => h0 (by simp [e])
      omega⟩
    rw [PyData.shaped, inferKindItem, List.range_succ_eq_map, List.map_cons, inferKind]
    exact inferKind_shaped s _ (fun hm => h0 (by simp [hm])) (by rw [← h]; rfl)

/-- A nested list without numbers. -/
theorem inferKind_empty : ∀ (s : List Nat) (get : List Nat → PyNum), Visible s → 0 ∈ s → inferKindItem (.shaped s get) = .float
  | [], _, _, h => by cases h
  | n :: s, get, hv, h => by
    rw [PyData.shaped, inferKindItem]
    cases n with
    | zero => rfl
    | succ m =>
      rw [List.range_succ_eq_map, List.map_cons, inferKind]
      exact inferKind_empty s _ (visible_tail hv) (by simpa using h)

theorem Nd_toList_eq (s : List Nat) (g : List Nat → α) : (⟨s, g⟩ : Nd α).toList = (indices s).map g := rfl

theorem shapedOr_is (s : List Nat) (g : List Nat → α) : (shapedOr s ((indices s).map g)).Is ⟨s, g⟩ := by
  unfold shapedOr
  rw [if_pos (by simp [length_indices])]
  exact ⟨rfl, rfl⟩

/-- `from_list` of a rectangular list whose numbers can be read as integers, for an integer dtype. -/
theorem fromPyList_int (dtype : Option NumKind) {s : List Nat} {get : List Nat → PyNum} (hs : s ≠ []) (hv : Visible s) {g : List Nat → Int}
    (hk : isIntKind (dtype.getD (inferKindItem (.shaped s get))) = true) (hg : ∀ idx, InShape s idx → extractI64 (get idx) = some (g idx)) :
    ∃ r, arrayOfPy dtype (.shaped s get) = some (dtype.getD (inferKindItem (.shaped s get)), r) ∧
      r.Is ⟨s, fun idx => storeI64 (dtype.getD (inferKindItem (.shaped s get))) (g idx)⟩ := by
  match s, hs with
  | n :: s, _ =>
    have hf := flatOne_shaped extractI64 (n :: s) get g hv hg
    rw [PyData.shaped, inferKindItem] at hk ⊢
    rw [PyData.shaped] at hf
    generalize hl : ((List.range n).map fun i => PyData.shaped s fun idx => get (i :: idx)) = l at hf hk ⊢
    rw [arrayOfPy]
    rw [flatOne] at hf
    unfold fromPyList
    generalize dtype.getD (inferKind l) = kind at hk ⊢
    have hlen : l.length = n := by rw [← hl]; simp
    cases l with
    | nil =>
      have h0 : n = 0 := by rw [← hlen]; rfl
      subst h0
      have hs' : s = [] := by
        cases s with
        | nil => rfl
        | cons k s => exact absurd rfl (visible_head hv)
      subst hs'
      exact ⟨⟨[0], []⟩, rfl, rfl, rfl⟩
    | cons d l =>
      cases d with
      | list l0 =>
        dsimp only
        rw [if_pos hk]
        cases hm : flatMany extractI64 (PyData.list l0 :: l) with
        | none => rw [hm] at hf; cases hf
        | some r =>
          rw [hm] at hf
          simp only [Option.map_some, Option.some.injEq, Prod.mk.injEq] at hf
          refine ⟨_, rfl, ?_⟩
          rw [hf.1, hf.2, List.map_map]
          exact shapedOr_is (n :: s) _
      | num x =>
        have hs' : s = [] := by
          cases s with
          | nil => rfl
          | cons k s =>
            cases n with
            | zero => cases hl
            | succ m =>
              rw [List.range_succ_eq_map, List.map_cons, PyData.shaped] at hl
              injection hl with h1 h2
              cases h1
        subst hs'
        dsimp only
        rw [if_pos hk, ← hl]
        have := mapM_range extractI64 (fun i => get [i]) (fun i => g [i]) (List.range n) (fun i hi => hg [i] ⟨by simpa using hi, trivial⟩)
        rw [show (fun i => PyData.shaped [] fun idx => get (i :: idx)) = fun i => PyData.num (get [i]) from rfl, this]
        refine ⟨⟨[((List.range n).map fun i => g [i]).length], ((List.range n).map fun i => g [i]).map (storeI64 kind)⟩, rfl, ?_, ?_⟩
        · simp
        · rw [Nd_toList_eq, indices_singleton, List.map_map, List.map_map]
          rfl

/-- `from_list` of a rectangular list whose numbers can be read as floats, for another dtype. -/
theorem fromPyList_float (dtype : Option NumKind) {s : List Nat} {get : List Nat → PyNum} (hs : s ≠ []) (hv : Visible s) {g : List Nat → Rat}
    (hk : isIntKind (dtype.getD (inferKindItem (.shaped s get))) = true → ∃ idx, InShape s idx ∧ extractI64 (get idx) = none)
    (hg : ∀ idx, InShape s idx → extractF64 (get idx) = some (g idx)) :
    ∃ r, arrayOfPy dtype (.shaped s get) = some (dtype.getD (inferKindItem (.shaped s get)), r) ∧
      r.Is ⟨s, fun idx => storeF64 (dtype.getD (inferKindItem (.shaped s get))) (g idx)⟩ := by
  match s, hs with
  | n :: s, _ =>
    have hf := flatOne_shaped extractF64 (n :: s) get g hv hg
    have hleaf : ∀ idx, InShape (n :: s) idx → get idx ∈ (PyData.shaped (n :: s) get).leaves := by
      intro idx hi
      have h1 := flatOne_shaped some (n :: s) get get hv fun _ _ => rfl
      have h2 := flatOne_leaves some (.shaped (n :: s) get)
      rw [h1] at h2
      have h3 : ∀ l : List PyNum, l.mapM some = some l := by
        intro l
        induction l with
        | nil => rfl
        | cons a l ih => rw [List.mapM_cons, ih]; rfl
      rw [h3] at h2
      simp only [Option.map_some, Option.some.injEq] at h2
      rw [← h2]
      exact List.mem_map_of_mem (mem_indices.mpr hi)
    rw [PyData.shaped, inferKindItem] at hk ⊢
    rw [PyData.shaped] at hf hleaf
    generalize hl : ((List.range n).map fun i => PyData.shaped s fun idx => get (i :: idx)) = l at hf hk hleaf ⊢
    rw [arrayOfPy]
    rw [flatOne] at hf
    unfold fromPyList
    generalize dtype.getD (inferKind l) = kind at hk ⊢
    have hlen : l.length = n := by rw [← hl]; simp
    have hnone : ∀ v, isIntKind kind = true → (PyData.leavesAll l).mapM extractI64 ≠ some v := by
      intro v hi hv'
      obtain ⟨idx, hidx, he⟩ := hk hi
      have hm := hleaf idx hidx
      rw [PyData.leaves] at hm
      have : ∀ (l : List PyNum) (v : List Int), l.mapM extractI64 = some v → ∀ x ∈ l, extractI64 x ≠ none := by
        intro l
        induction l with
        | nil => intro v _ x hx; cases hx
        | cons a l ih =>
          intro v h x hx
          rw [List.mapM_cons] at h
          cases ha : extractI64 a with
          | none => rw [ha] at h; cases h
          | some y =>
            rw [ha] at h
            cases hr : l.mapM extractI64 with
            | none => rw [hr] at h; cases h
            | some w =>
              rcases List.mem_cons.mp hx with e | e
              · rw [e, ha]; simp
              · exact ih w hr x e
      exact this _ v hv' _ hm he
    cases l with
    | nil =>
      have h0 : n = 0 := by rw [← hlen]; rfl
      subst h0
      have hs' : s = [] := by
        cases s with
        | nil => rfl
        | cons k s => exact absurd rfl (visible_head hv)
      subst hs'
      exact ⟨⟨[0], []⟩, rfl, rfl, rfl⟩
    | cons d l =>
      cases d with
      | list l0 =>
        dsimp only
        have e : (if isIntKind kind = true then flatMany extractI64 (PyData.list l0 :: l) else none) = none := by
          split
          · next hi =>
            have h2 := flatMany_leaves extractI64 (PyData.list l0 :: l)
            cases hm : flatMany extractI64 (PyData.list l0 :: l) with
            | none => rfl
            | some r => rw [hm] at h2; exact absurd h2.symm (hnone _ hi)
          · rfl
        rw [e]
        cases hm : flatMany extractF64 (PyData.list l0 :: l) with
        | none => rw [hm] at hf; cases hf
        | some r =>
          rw [hm] at hf
          simp only [Option.map_some, Option.some.injEq, Prod.mk.injEq] at hf
          refine ⟨_, rfl, ?_⟩
          rw [hf.1, hf.2, List.map_map]
          exact shapedOr_is (n :: s) _
      | num x =>
        have hs' : s = [] := by
          cases s with
          | nil => rfl
          | cons k s =>
            cases n with
            | zero => cases hl
            | succ m =>
              rw [List.range_succ_eq_map, List.map_cons, PyData.shaped] at hl
              injection hl with h1 h2
              cases h1
        subst hs'
        dsimp only
        have e : (if isIntKind kind = true then (PyData.num x :: l).mapM (extractItem extractI64) else none) = none := by
          split
          · next hi =>
            cases hm : (PyData.num x :: l).mapM (extractItem extractI64) with
            | none => rfl
            | some r => exact absurd (mapM_extractItem _ _ hm) (hnone _ hi)
          · rfl
        rw [e, ← hl]
        have := mapM_range extractF64 (fun i => get [i]) (fun i => g [i]) (List.range n) (fun i hi => hg [i] ⟨by simpa using hi, trivial⟩)
        rw [show (fun i => PyData.shaped [] fun idx => get (i :: idx)) = fun i => PyData.num (get [i]) from rfl, this]
        refine ⟨⟨[((List.range n).map fun i => g [i]).length], ((List.range n).map fun i => g [i]).map (storeF64 kind)⟩, rfl, ?_, ?_⟩
        · simp
        · rw [Nd_toList_eq, indices_singleton, List.map_map, List.map_map]
          rfl

theorem buildList_eq (read : List Nat → PyNum) : ∀ (s idx : List Nat),
    buildList read s idx = .shaped s fun rest => read (idx ++ rest)
  | [], idx => by simp [buildList, PyData.shaped]
  | n :: s, idx => by
    rw [buildList, PyData.shaped]
    congr 1
    refine List.map_congr_left fun i _ => ?_
    rw [buildList_eq read s]
    congr 1
    funext rest
    simp

theorem shaped_congr : ∀ (s : List Nat) {f g : List Nat → PyNum}, (∀ idx, InShape s idx → f idx = g idx) →
    PyData.shaped s f = .shaped s g
  | [], f, g, h => by rw [PyData.shaped, PyData.shaped, h [] (by simp [InShape])]
  | n :: s, f, g, h => by
    rw [PyData.shaped, PyData.shaped]
    congr 1
    refine List.map_congr_left fun i hi => shaped_congr s fun idx hidx => h (i :: idx) ⟨by simpa using hi, hidx⟩

end Rumpy
