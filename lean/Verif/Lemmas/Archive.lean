import Verif.Model.Archive
import Verif.Lemmas.Text
import Mathlib.Data.List.Forall2
import Mathlib.Data.List.Nodup
/-!
# Lemmas for archives of arrays
-/

namespace Rumpy
open Spec

/-! ### Names -/

theorem trimReversed_ext (s : List Char) : trimReversed ('y' :: 'p' :: 'n' :: '.' :: s) = trimReversed s := by
  rw [trimReversed]

theorem trimReversed_spec (s : List Char) :
    ∃ m, s = (List.replicate m ['y', 'p', 'n', '.']).flatten ++ trimReversed s ∧
      ¬ ['y', 'p', 'n', '.'] <+: trimReversed s := by
  induction s using trimReversed.induct with
  | case1 r ih =>
    obtain ⟨m, h1, h2⟩ := ih
    refine ⟨m + 1, ?_, ?_⟩
    · rw [trimReversed_ext, List.replicate_succ, List.flatten_cons, List.append_assoc, ← h1]
      rfl
    · rw [trimReversed_ext]
      exact h2
  | case2 s hs =>
    have ht : trimReversed s = s := by
      unfold trimReversed
      split
      · exact absurd rfl (hs _)
      · rfl
    refine ⟨0, by rw [ht]; rfl, ?_⟩
    rw [ht]
    rintro ⟨r, rfl⟩
    exact hs r rfl

theorem flatten_replicate_reverse (m : Nat) (l : List α) :
    (List.replicate m l).flatten.reverse = (List.replicate m l.reverse).flatten := by
  rw [List.reverse_flatten, List.map_replicate, List.reverse_replicate]

theorem loadedName_spec (n : List Char) :
    ∃ m, n = loadedName n ++ (List.replicate m npyExt).flatten ∧ ¬ npyExt <:+ loadedName n := by
  obtain ⟨m, h1, h2⟩ := trimReversed_spec n.reverse
  refine ⟨m, ?_, ?_⟩
  · have h := congrArg List.reverse h1
    rw [List.reverse_reverse, List.reverse_append, flatten_replicate_reverse] at h
    exact h
  · intro h
    apply h2
    unfold loadedName at h
    have h' := List.reverse_prefix.2 h
    rw [List.reverse_reverse] at h'
    exact h'

theorem loadedName_ext (n : List Char) : loadedName (n ++ npyExt) = loadedName n := by
  unfold loadedName
  rw [List.reverse_append]
  show (trimReversed ('y' :: 'p' :: 'n' :: '.' :: n.reverse)).reverse = _
  rw [trimReversed_ext]

theorem loadedName_self {n : List Char} (h : ¬ npyExt <:+ n) : loadedName n = n := by
  obtain ⟨m, h1, _⟩ := loadedName_spec n
  cases m with
  | zero => rw [List.replicate_zero, List.flatten_nil, List.append_nil] at h1; exact h1.symm
  | succ m =>
    exfalso
    apply h
    rw [h1, List.replicate_succ', List.flatten_append, ← List.append_assoc]
    exact ⟨loadedName n ++ (List.replicate m npyExt).flatten, by simp⟩

/-! ### Writing -/

/-- The entry of a named array. -/
def entryOf (p : List Char × Source) : Entry := (p.1 ++ npyExt, writeNpy p.2.mem p.2.dtype p.2.view)

theorem writeEntries_spec (arrays : List (List Char × Source)) (done : List Entry) :
    ((writeEntries arrays done).2 = true ↔
      (arrays.map (·.1)).Nodup ∧ ∀ p ∈ arrays, ∀ e ∈ done, e.1 ≠ p.1 ++ npyExt) ∧
    ((writeEntries arrays done).2 = true → (writeEntries arrays done).1 = done ++ arrays.map entryOf) := by
  induction arrays generalizing done with
  | nil => simp [writeEntries]
  | cons p rest ih =>
    obtain ⟨name, a⟩ := p
    unfold writeEntries
    by_cases hb : (done.any fun e => e.1 == name ++ npyExt) = true
    · rw [if_pos hb]
      refine ⟨⟨fun h => (nomatch h), fun h => ?_⟩, fun h => (nomatch h)⟩
      obtain ⟨e, he, hn⟩ := List.any_eq_true.1 hb
      exact absurd (beq_iff_eq.1 hn) (h.2 _ List.mem_cons_self e he)
    · rw [if_neg hb]
      have hno : ∀ e ∈ done, e.1 ≠ name ++ npyExt := by
        intro e he hn
        exact hb (List.any_eq_true.2 ⟨e, he, beq_iff_eq.2 hn⟩)
      obtain ⟨h1, h2⟩ := ih (done ++ [(name ++ npyExt, writeNpy a.mem a.dtype a.view)])
      refine ⟨h1.trans ?_, fun h => ?_⟩
      · rw [List.map_cons, List.nodup_cons]
        constructor
        · rintro ⟨hn, hd⟩
          refine ⟨⟨?_, hn⟩, ?_⟩
          · intro hm
            obtain ⟨q, hq, hqe⟩ := List.mem_map.1 hm
            exact hd q hq _ (List.mem_append_right _ List.mem_cons_self) (by rw [hqe])
          · intro q hq e he
            rcases List.mem_cons.1 hq with rfl | hq
            · exact hno e he
            · exact hd q hq e (List.mem_append_left _ he)
        · rintro ⟨⟨hm, hn⟩, hd⟩
          refine ⟨hn, fun q hq e he => ?_⟩
          rcases List.mem_append.1 he with he | he
          · exact hd q (List.mem_cons_of_mem _ hq) e he
          · rw [List.mem_singleton] at he
            subst he
            intro h
            exact hm (List.mem_map.2 ⟨q, hq, (List.append_cancel_right h).symm⟩)
      · rw [h2 h, List.append_assoc]
        rfl

/-! ### Dictionaries -/

theorem dictGet_set (dict : List (List Char × β)) (k : List Char) (x : β) (j : List Char) :
    dictGet (dictSet dict k x) j = if j = k then some x else dictGet dict j := by
  unfold dictSet dictGet
  split
  · rename_i hp
    induction dict with
    | nil => simp at hp
    | cons e r ih =>
      rw [List.map_cons, List.find?_cons, List.find?_cons]
      by_cases hk : e.1 = k
      · by_cases hj : j = k
        · simp [hk, hj]
        · have hkj : (k == j) = false := by simpa using Ne.symm hj
          have hr : (List.find? (fun e => e.1 == j) (r.map fun e => if (e.1 == k) = true then (k, x) else e)) =
              List.find? (fun e => e.1 == j) r := by
            clear ih hp
            induction r with
            | nil => rfl
            | cons q r ih =>
              rw [List.map_cons, List.find?_cons, List.find?_cons, ih]
              by_cases hq : q.1 = k
              · simp [hq, hkj]
              · simp [hq]
          rw [hr]
          simp [hk, hj, hkj]
      · have hp' : (r.any fun e => e.1 == k) = true := by
          simpa [hk] using hp
        by_cases hj : j = k
        · have hejne : ¬ e.1 = j := by rw [hj]; exact hk
          have := ih hp'
          simp only [hj, if_true] at this
          have hek : (e.1 == k) = false := by simpa using hk
          simp only [hj, hek, Bool.false_eq_true, if_false, if_true]
          exact this
        · have := ih hp'
          simp only [hj, if_false] at this
          simp only [hk, hj, beq_iff_eq, if_false]
          split
          · rfl
          · simpa using this
  · rename_i hp
    have hno : ∀ e ∈ dict, e.1 ≠ k := fun e he h => hp (List.any_eq_true.2 ⟨e, he, beq_iff_eq.2 h⟩)
    rw [List.find?_append]
    by_cases hj : j = k
    · subst hj
      have : dict.find? (fun e => e.1 == j) = none := by
        rw [List.find?_eq_none]
        intro e he h
        exact hno e he (beq_iff_eq.1 h)
      simp [this]
    · simp [hj, Ne.symm hj]

theorem dictSet_keys (dict : List (List Char × β)) (k : List Char) (x : β) :
    (dictSet dict k x).map (·.1) = if k ∈ dict.map (·.1) then dict.map (·.1) else dict.map (·.1) ++ [k] := by
  unfold dictSet
  have hiff : (dict.any fun e => e.1 == k) = true ↔ k ∈ dict.map (·.1) := by
    rw [List.any_eq_true, List.mem_map]
    exact ⟨fun ⟨e, he, h⟩ => ⟨e, he, beq_iff_eq.1 h⟩, fun ⟨e, he, h⟩ => ⟨e, he, beq_iff_eq.2 h⟩⟩
  by_cases h : k ∈ dict.map (·.1)
  · rw [if_pos (hiff.2 h), if_pos h, List.map_map]
    refine List.map_congr_left fun e _ => ?_
    show (if (e.1 == k) = true then (k, x) else e).1 = e.1
    split
    · rename_i he
      exact (beq_iff_eq.1 he).symm
    · rfl
  · rw [if_neg (fun hh => h (hiff.1 hh)), if_neg h, List.map_append]
    rfl

theorem foldl_dict_get (L : List (List Char × β)) (d : List (List Char × β)) (k : List Char) :
    dictGet (L.foldl (fun d e => dictSet d e.1 e.2) d) k =
      (((L.reverse.find? fun e => e.1 == k).map (·.2)).or (dictGet d k)) := by
  induction L generalizing d with
  | nil => simp
  | cons e r ih =>
    rw [List.foldl_cons, ih, dictGet_set, List.reverse_cons, List.find?_append]
    cases h : r.reverse.find? (fun e => e.1 == k) with
    | some p => simp
    | none =>
      by_cases hk : k = e.1
      · subst hk; simp
      · have : (e.1 == k) = false := by simpa using Ne.symm hk
        simp [hk, this]

/-- The value of a key is that of its last occurrence. -/
theorem loadDict_get (L : List (List Char × β)) (k : List Char) :
    dictGet (loadDict L) k = (L.reverse.find? fun e => e.1 == k).map (·.2) := by
  unfold loadDict
  rw [foldl_dict_get]
  simp [dictGet]

theorem foldl_dict_keys (L : List (List Char × β)) (d : List (List Char × β)) (hd : (d.map (·.1)).Nodup) :
    ((L.foldl (fun d e => dictSet d e.1 e.2) d).map (·.1)).Nodup ∧
    ((d.map (·.1) ++ L.map (·.1)).Nodup → (L.foldl (fun d e => dictSet d e.1 e.2) d).map (·.1) = d.map (·.1) ++ L.map (·.1)) := by
  induction L generalizing d with
  | nil => simp [hd]
  | cons e r ih =>
    rw [List.foldl_cons]
    have hd' : ((dictSet d e.1 e.2).map (·.1)).Nodup := by
      rw [dictSet_keys]
      split
      · exact hd
      · rename_i h
        rw [List.nodup_append]
        refine ⟨hd, by simp, ?_⟩
        intro a ha b hb
        rw [List.mem_singleton] at hb
        subst hb
        intro hab
        subst hab
        exact h ha
    obtain ⟨h1, h2⟩ := ih _ hd'
    refine ⟨h1, fun hn => ?_⟩
    have hnot : e.1 ∉ d.map (·.1) := by
      intro hm
      rw [List.nodup_append] at hn
      exact hn.2.2 _ hm e.1 (by simp) rfl
    have hk : (dictSet d e.1 e.2).map (·.1) = d.map (·.1) ++ [e.1] := by rw [dictSet_keys, if_neg hnot]
    rw [h2 (by rw [hk, List.append_assoc]; exact hn), hk, List.append_assoc]
    rfl

theorem loadDict_keys (L : List (List Char × β)) : ((loadDict L).map (·.1)).Nodup := (foldl_dict_keys L [] (by simp)).1

theorem loadDict_keys_of_nodup {L : List (List Char × β)} (h : (L.map (·.1)).Nodup) :
    (loadDict L).map (·.1) = L.map (·.1) := by
  have := (foldl_dict_keys L [] (by simp)).2 (by simpa using h)
  simpa [loadDict] using this

/-! ### Positional names -/

theorem showNat_inj {a b : Nat} (h : showNat a = showNat b) : a = b := by
  have := parseDigits_showNat a
  rw [h, parseDigits_showNat] at this
  exact (Option.some.inj this).symm

theorem positional_no_ext (i : Nat) : ¬ npyExt <:+ "arr_".toList ++ showNat i := by
  rintro ⟨t, h⟩
  have hl := congrArg List.getLast? h
  rw [List.getLast?_append, List.getLast?_append] at hl
  obtain ⟨c, hc⟩ : ∃ c, (showNat i).getLast? = some c := by
    cases hh : (showNat i).getLast? with
    | none => exact absurd (List.getLast?_eq_none_iff.1 hh) (showNat_ne_nil i)
    | some c => exact ⟨c, rfl⟩
  rw [hc] at hl
  have hcy : c = 'y' := by simpa [npyExt, eq_comm] using hl
  have hd := showNat_digits i c (List.mem_of_getLast? hc)
  rw [hcy] at hd
  exact absurd hd (by decide)

theorem positional_nodup (args : List Source) : ((savezNames args []).map (·.1)).Nodup := by
  unfold savezNames
  rw [List.append_nil, List.map_map]
  have : (args.zipIdx.map ((fun p : List Char × Source => p.1) ∘ fun p => ("arr_".toList ++ showNat p.2, p.1))) =
      (args.zipIdx.map (·.2)).map fun i => "arr_".toList ++ showNat i := by
    rw [List.map_map]
    rfl
  rw [this, List.zipIdx_map_snd]
  refine (List.nodup_map_iff_inj_on (List.nodup_range')).2 fun a _ b _ h => showNat_inj (List.append_cancel_left h)

end Rumpy
