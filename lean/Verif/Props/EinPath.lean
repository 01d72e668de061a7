import Verif.Spec.EinPath
import Verif.Model.EinPath
import Verif.Props.Einsum
/-!
# C119: `einsum_path` gives a path
-/

namespace Props
open Rumpy Spec

theorem follow_first_two : ∀ (k : Nat) (l : List (List Nat)), l.length = k + 1 →
    ∃ t, (List.replicate k (0, 1)).foldlM contractStep l = some [t] ∧ t.Perm l.flatten
  | 0, l, h => by
    obtain ⟨t, rfl⟩ := List.length_eq_one_iff.1 h
    exact ⟨t, rfl, by simp⟩
  | k + 1, x :: y :: l, h => by
    obtain ⟨t, h1, h2⟩ := follow_first_two k (l ++ [x ++ y]) (by simp at h ⊢; omega)
    refine ⟨t, ?_, h2.trans ?_⟩
    · rw [List.replicate_succ, List.foldlM_cons]
      exact h1
    · simp only [List.flatten_append, List.flatten_cons, List.flatten_nil, List.append_nil]
      rw [← List.append_assoc x y]
      exact List.perm_append_comm

/-- C119.  The answer of `einsum_path` is a path for the operands, whatever is asked for. -/
theorem C119_path (s : List Char) (shapes : List (List Nat)) (opt : String) (path : List (Nat × Nat))
    (h : einsumPath s shapes opt = some path) : IsPath path shapes.length ∧ path.length + 1 = shapes.length := by
  unfold einsumPath at h
  obtain ⟨p, hp, h⟩ := Option.bind_eq_some_iff.1 h
  obtain ⟨m, hm, rfl⟩ := Option.map_eq_some_iff.1 h
  obtain ⟨inputs, output⟩ := p
  have hne : inputs ≠ [] := ((C41_parse s inputs output).1 hp).1
  have hl : shapes.length = inputs.length := by
    obtain ⟨⟨dim, hd⟩, -⟩ := (C41_accepts_iff inputs output shapes).1 (by rw [hm]; rfl)
    rw [show shapes = _ from hd, List.length_map]
  have hpos : 0 < shapes.length := by rw [hl]; exact List.length_pos_of_ne_nil hne
  have e : (if shapes.length < 2 then [] else (List.range (shapes.length - 1)).map fun _ => ((0 : Nat), (1 : Nat))) =
      List.replicate (shapes.length - 1) (0, 1) := by
    split
    · rw [show shapes.length - 1 = 0 by omega]; rfl
    · rw [List.map_const', List.length_range]
  rw [e]
  obtain ⟨t, h1, h2⟩ := follow_first_two (shapes.length - 1) ((List.range shapes.length).map fun k => [k]) (by simp; omega)
  refine ⟨⟨t, h1, h2.trans ?_⟩, by simp; omega⟩
  rw [show ((List.range shapes.length).map fun k => [k]).flatten = List.range shapes.length by
    rw [← List.flatMap_def, List.flatMap_singleton']]

/-- C119.  `einsum_path` answers exactly if the text is a subscript, the operands have one axis per letter, a letter has one length
everywhere, and the letters of the output occur in the operands; everything else is an error. -/
theorem C119_accepts_iff (s : List Char) (shapes : List (List Nat)) (opt : String) :
    (∃ path, einsumPath s shapes opt = some path) ↔
      ∃ inputs output, EinText s inputs output ∧ (∃ dim, EinDims inputs shapes dim) ∧ ∀ c ∈ output, c ∈ inputs.flatten := by
  unfold einsumPath
  constructor
  · rintro ⟨path, h⟩
    obtain ⟨⟨inputs, output⟩, hp, h⟩ := Option.bind_eq_some_iff.1 h
    obtain ⟨m, hm, -⟩ := Option.map_eq_some_iff.1 h
    exact ⟨inputs, output, (C41_parse s inputs output).1 hp, (C41_accepts_iff inputs output shapes).1 (by rw [hm]; rfl)⟩
  · rintro ⟨inputs, output, ht, hd⟩
    obtain ⟨m, hm⟩ := Option.isSome_iff_exists.1 ((C41_accepts_iff inputs output shapes).2 hd)
    rw [(C41_parse s inputs output).2 ht, Option.bind_some, hm]
    exact ⟨_, rfl⟩

/-- C119.  Operands that `einsum` of one, two or more operands would compute with have a path: `einsum_path` refuses only what `einsum`
refuses. -/
theorem C119_einsum (d : DType) {R : Type} [CommSemiring R] (put : R → R) (s : List Char) (ops : List (Held R)) (opt : String)
    (h : einsumPath s (ops.map fun a => a.view.shape) opt = none) : Rumpy.einsum d put s ops = .error := by
  unfold einsumPath at h
  have hn : ((parseSubscript s).bind fun p => (validateSubscript p (ops.map fun a => a.view.shape)).map fun m => (p, m)) = none := by
    cases hp : parseSubscript s with
    | none => rfl
    | some p =>
      rw [hp, Option.bind_some, Option.map_eq_none_iff] at h
      rw [Option.bind_some, h]
      rfl
  unfold Rumpy.einsum
  split
  · unfold einsumOne
    rw [show ((parseSubscript s).bind fun p => (validateSubscript p [_]).map fun m => (p, m)) = none from hn]
    rfl
  · unfold einsumTwo
    rw [show ((parseSubscript s).bind fun p => (validateSubscript p [_, _]).map fun m => (p, m)) = none from hn]
    rfl
  · rw [hn]
    rfl

example : einsumPath "ij,jk,kl->il".toList [[2, 3], [3, 4], [4, 5]] "greedy" = some [(0, 1), (0, 1)] ∧
    [(0, 1), (0, 1)].foldlM contractStep [[0], [1], [2]] = some [[2, 0, 1]] ∧
    einsumPath "ij,jk->ik".toList [[2, 3], [4, 5]] "greedy" = none := by decide +kernel

/-- C119 does not hold for the cost: the path is the same for every `optimize`, also where another order is cheaper.  Here contracting
the last two operands first needs 1 * 1000 * 1 products and then 1000 * 1 * 1, the path needs 1000 * 1 * 1000 and then 1000 * 1000 * 1. -/
theorem C119_optimal_counterexample :
    einsumPath "ij,jk,kl->il".toList [[1000, 1], [1, 1000], [1000, 1]] "optimal" = some [(0, 1), (0, 1)] ∧
    IsPath [(1, 2), (0, 1)] 3 ∧ 1 * 1000 * 1 + 1000 * 1 * 1 < 1000 * 1 * 1000 + 1000 * 1000 * 1 := by
  refine ⟨by decide +kernel, ⟨[0, 1, 2], by decide, by decide⟩, by decide⟩

end Props
