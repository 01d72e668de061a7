import Verif.Model.SizeFn
import Verif.Props.NestedList
import Verif.Lemmas.DateText
/-!
# C123: `shape`, `ndim` and `size` of nested lists
-/

namespace Props
open Rumpy Spec

/-- A truth value, a float, or an integer of 64 bits. -/
def Ordinary : PyNum → Prop
  | .bool _ | .float _ => True
  | .int i => -2 ^ 63 ≤ i ∧ i < 2 ^ 63
  | .complex .. => False

theorem ordinary_read {x : PyNum} (h : Ordinary x) : ∃ q, extractF64 x = some q := by
  cases x with
  | bool b => exact ⟨_, rfl⟩
  | float q => exact ⟨_, rfl⟩
  | complex _ _ => exact h.elim
  | int i =>
    have hi : i.natAbs ≤ 2 ^ 63 := by obtain ⟨_, _⟩ := h; omega
    have key : (intToF64 i).natAbs ≤ 2 ^ 64 := by
      have := (natToF64_err i.natAbs).1
      unfold intToF64
      split
      · have e : i.toNat = i.natAbs := by omega
        rw [e]
        omega
      · have e : (-i).toNat = i.natAbs := by omega
        rw [e]
        omega
    have hlt : (2 : Nat) ^ 64 < 2 ^ 1024 := Nat.pow_lt_pow_right (by decide) (by decide)
    exact ⟨(intToF64 i : Rat), by rw [extractF64, if_pos (lt_of_le_of_lt key hlt)]⟩

/-- C123: of a rectangular nested list of ordinary numbers, of any depth and mixture, `shape` is its shape, `ndim` its depth and `size` the
number of its elements. -/
theorem C123_rectangular {s : List Nat} (hs : s ≠ []) (hv : Visible s) {get : List Nat → PyNum} (hg : ∀ i, InShape s i → Ordinary (get i)) :
    shapeOfPy (.shaped s get) = some s ∧ ndimOfPy (.shaped s get) = some s.length ∧ sizeOfPy (.shaped s get) = some (size s) := by
  have main : ∃ k r, arrayOfPy none (.shaped s get) = some (k, r) ∧ r.shape = s := by
    by_cases h : isIntKind ((none : Option NumKind).getD (inferKindItem (.shaped s get))) = true ∧ ∀ i, InShape s i → ∃ n, extractI64 (get i) = some n
    · obtain ⟨r, h1, h2⟩ := fromPyList_int none hs hv (g := fun i => (extractI64 (get i)).getD 0) h.1 (fun i hi => by
        obtain ⟨n, hn⟩ := h.2 i hi
        rw [hn]; rfl)
      exact ⟨_, r, h1, h2.1⟩
    · obtain ⟨r, h1, h2⟩ := fromPyList_float none hs hv (g := fun i => (extractF64 (get i)).getD 0) (fun hk => by
        by_contra hno
        refine h ⟨hk, fun i hi => ?_⟩
        cases he : extractI64 (get i) with
        | none => exact absurd ⟨i, hi, he⟩ hno
        | some n => exact ⟨n, rfl⟩) (fun i hi => by
        obtain ⟨n, hn⟩ := ordinary_read (hg i hi)
        rw [hn]; rfl)
      exact ⟨_, r, h1, h2.1⟩
  obtain ⟨k, r, h1, h2⟩ := main
  unfold shapeOfPy ndimOfPy sizeOfPy
  rw [h1]
  refine ⟨congrArg some h2, congrArg some (congrArg List.length h2), congrArg some ?_⟩
  show Rumpy.sizeOf r.shape = _
  rw [h2, sizeOf_eq]

theorem fromPyList_size {l : List PyData} {k : NumKind} {r : Arr PyNum} (h : fromPyList none l = some (k, r)) : size r.shape = r.data.length := by
  have hsh : ∀ (sh : List Nat) (d : List PyNum), size (shapedOr sh d).shape = (shapedOr sh d).data.length := by
    intro sh d
    unfold shapedOr
    split
    · next e => exact e
    · simp [size]
  unfold fromPyList at h
  dsimp only at h
  match l, h with
  | [], h => cases h; rfl
  | .list l0 :: l, h =>
    dsimp only at h
    split at h
    · cases h; exact hsh _ _
    · obtain ⟨v, -, e⟩ := Option.map_eq_some_iff.1 h
      cases e; exact hsh _ _
  | .num x :: l, h =>
    dsimp only at h
    split at h
    · cases h; simp [size]
    · obtain ⟨v, -, e⟩ := Option.map_eq_some_iff.1 h
      cases e; simp [size]

theorem mapM_length {α β : Type} {f : α → Option β} : ∀ {l : List α} {v : List β}, l.mapM f = some v → v.length = l.length
  | [], v, h => by cases h; rfl
  | a :: l, v, h => by
    rw [List.mapM_cons] at h
    cases ha : f a with
    | none => rw [ha] at h; cases h
    | some b =>
      cases hl : l.mapM f with
      | none => rw [ha, hl] at h; cases h
      | some w =>
        rw [ha, hl] at h
        cases h
        rw [List.length_cons, List.length_cons, mapM_length hl]

/-- C123: for every nested list, also a ragged one, the answers fit each other: `ndim` is the length of `shape`, `size` its product, and `size` is
the number of numbers in the list. -/
theorem C123_consistent {x : PyData} {s : List Nat} (h : shapeOfPy x = some s) :
    ndimOfPy x = some s.length ∧ sizeOfPy x = some (size s) ∧ size s = x.leaves.length := by
  obtain ⟨⟨k, r⟩, h1, rfl⟩ := Option.map_eq_some_iff.1 h
  refine ⟨by unfold ndimOfPy; rw [h1]; rfl, by unfold sizeOfPy; rw [h1]; exact congrArg some (sizeOf_eq _), ?_⟩
  cases x with
  | num _ => cases h1
  | list l =>
    have h2 : fromPyList none l = some (k, r) := h1
    show size r.shape = (PyData.leavesAll l).length
    rw [fromPyList_size h2]
    rcases C80_array_keeps_all h2 with e | e <;> exact mapM_length e

example : shapeOfPy (.list [.list [.num (.int 1), .num (.float (1 / 2))], .list [.num (.bool true), .num (.int 4)], .list [.num (.int 0), .num (.int 0)]]) =
      some [3, 2] ∧ sizeOfPy (.list [.num (.int 1), .num (.float (1 / 2))]) = some 2 ∧ Ordinary (.int (2 ^ 63 - 1)) :=
  ⟨by decide +kernel, by decide +kernel, by constructor <;> norm_num⟩

/-- C123 fails for a number, which has the shape `()` in NumPy and is refused, and for ragged lists, which NumPy refuses and the code
flattens. -/
theorem C123_counterexample :
    shapeOfPy (.num (.int 3)) = none ∧ ndimOfPy (.num (.int 3)) = none ∧ sizeOfPy (.num (.int 3)) = none ∧
    shapeOfPy (.list [.list [.num (.int 1), .num (.int 2)], .list [.num (.int 3)]]) = some [3] := by
  refine ⟨rfl, rfl, rfl, by decide +kernel⟩

end Props
