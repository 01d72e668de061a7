import Verif.Lemmas.Shuffle
import Mathlib.Algebra.Order.Field.Basic
import Mathlib.Algebra.Order.Ring.Rat
import Mathlib.Tactic.Positivity
/-!
# Properties: random numbers (C35–C38, C62)
-/

namespace Props
open Rumpy

/-! ### C35: the stream -/

/-- C35: the state update is a bijection, for every increment: every state has exactly one predecessor. -/
theorem C35_step_bijective (inc : BitVec 128) (s : BitVec 128) :
    ∃! p : BitVec 128, (Pcg.mk p inc).step = ⟨s, inc⟩ := by
  have hinj : Function.Injective (fun p : BitVec 128 => (Pcg.mk p inc).step.state) := by
    intro a b h
    have := step_injective ⟨a, inc⟩ ⟨b, inc⟩ ((Pcg.ext_iff' _ _).2 ⟨h, by rw [step_inc, step_inc]⟩)
    injection this
  have := finite_bitVec 128
  obtain ⟨p, hp⟩ := Finite.surjective_of_injective hinj s
  refine ⟨p, (Pcg.ext_iff' _ _).2 ⟨hp, step_inc _⟩, ?_⟩
  intro q hq
  exact hinj ((congrArg Pcg.state hq).trans hp.symm)

/-- C35: with an odd increment the generator is back in its state after `n` steps exactly for the multiples of
`2^128`. -/
theorem C35_period_iff (g : Pcg) (hodd : g.inc.toNat % 2 = 1) (n : Nat) :
    Pcg.step^[n] g = g ↔ 2 ^ 128 ∣ n :=
  step_return g hodd n

/-- C35: with an odd increment every state is reached, at exactly one step of the period. -/
theorem C35_reaches_all (g : Pcg) (hodd : g.inc.toNat % 2 = 1) (s : BitVec 128) :
    ∃! n : Nat, n < 2 ^ 128 ∧ (Pcg.step^[n] g).state = s := by
  obtain ⟨n, hn⟩ := (orbit_bijective g hodd).2 s
  refine ⟨n.val, ⟨n.isLt, hn⟩, ?_⟩
  rintro m ⟨hm, he⟩
  exact congrArg Fin.val ((orbit_bijective g hodd).1 (a₁ := ⟨m, hm⟩) (he.trans hn.symm))

/-- C35: over one period every 64-bit number is returned exactly `2^64` times. -/
theorem C35_equidistributed (g : Pcg) (hodd : g.inc.toNat % 2 = 1) (u : BitVec 64) :
    Nat.card {n : Fin (2 ^ 128) // (Pcg.next (Pcg.step^[n.val] g)).1 = u} = 2 ^ 64 :=
  card_output g hodd u

/-- C35: the `n`-th number drawn depends only on the state `n` steps on, so two generators with the same state
give the same numbers, and drawing `m + n` numbers is drawing `m` and then `n`. -/
theorem C35_stream (g : Pcg) (m n : Nat) :
    drawMany Pcg.next (m + n) g =
      ((drawMany Pcg.next m g).1 ++ (drawMany Pcg.next n (Pcg.step^[m] g)).1, Pcg.step^[m + n] g) := by
  have hst : ∀ n g, (drawMany Pcg.next n g).2 = Pcg.step^[n] g := by
    intro n
    induction n with
    | zero => intro g; rfl
    | succ n ih =>
      intro g
      rw [drawMany, Function.iterate_succ_apply]
      exact ih _
  have happ : ∀ m g, (drawMany Pcg.next (m + n) g).1 =
      (drawMany Pcg.next m g).1 ++ (drawMany Pcg.next n (Pcg.step^[m] g)).1 := by
    intro m
    induction m with
    | zero => intro g; rw [Nat.zero_add]; rfl
    | succ m ih =>
      intro g
      rw [Nat.add_right_comm, drawMany, drawMany, Function.iterate_succ_apply]
      show _ :: _ = _ :: _
      rw [ih]
      rfl
  rw [← happ, ← hst]

/-- An odd increment and one that is not: the state 0 with increment 0 never changes. -/
example : (Pcg.mk 7 1).inc.toNat % 2 = 1 := by decide
example : (Pcg.mk 0 0).step = Pcg.mk 0 0 := by decide
/-- The first numbers for state 1, increment 3. -/
example : (drawMany Pcg.next 2 (Pcg.mk 1 3)).1.length = 2 ∧
    (Pcg.mk 1 3).step.state = 0xda942042e4dd58b8#128 := by decide

/-! ### C36: uniform floats -/

/-- C36: `random()` returns `k / 2^53` with `k < 2^53`, and each `k` comes from `2^11` of the 64-bit numbers. -/
theorem C36_random (k : Nat) (hk : k < 2 ^ 53) :
    (∀ u : BitVec 64, uniformNum u < 2 ^ 53) ∧ Nat.card {u : BitVec 64 // uniformNum u = k} = 2 ^ 11 := by
  have hval : ∀ u : BitVec 64, uniformNum u = u.toNat / 2 ^ 11 := by
    intro u
    unfold uniformNum
    rw [BitVec.toNat_ushiftRight, Nat.shiftRight_eq_div_pow]
  constructor
  · intro u
    rw [hval]
    have := u.isLt
    omega
  · rw [← card_bitVec 11]
    apply Nat.card_eq_of_bijective (fun u : {u : BitVec 64 // uniformNum u = k} => u.val.setWidth 11)
    constructor
    · intro a b h
      apply Subtype.ext
      apply BitVec.eq_of_toNat_eq
      have ha := (hval a.val).symm.trans a.2
      have hb := (hval b.val).symm.trans b.2
      have hm := congrArg BitVec.toNat h
      simp only [BitVec.toNat_setWidth] at hm
      rw [← Nat.div_add_mod a.val.toNat (2 ^ 11), ← Nat.div_add_mod b.val.toNat (2 ^ 11), ha, hb, hm]
    · intro w
      have hw := w.isLt
      have hn : (BitVec.ofNat 64 (k * 2 ^ 11 + w.toNat)).toNat = k * 2 ^ 11 + w.toNat := by
        rw [BitVec.toNat_ofNat, Nat.mod_eq_of_lt (by omega)]
      refine ⟨⟨BitVec.ofNat 64 (k * 2 ^ 11 + w.toNat), ?_⟩, ?_⟩
      · rw [hval, hn]; omega
      · apply BitVec.eq_of_toNat_eq
        dsimp only
        rw [BitVec.toNat_setWidth, hn]
        omega

/-- C36 as a number: the value lies in `[0, 1)`. -/
theorem C36_unit_interval (u : BitVec 64) :
    0 ≤ (uniformNum u : ℚ) / 2 ^ 53 ∧ (uniformNum u : ℚ) / 2 ^ 53 < 1 := by
  have h := (C36_random 0 (by decide)).1 u
  constructor
  · positivity
  · rw [div_lt_one (by positivity)]
    exact_mod_cast h

example : uniformNum (BitVec.allOnes 64) = 2 ^ 53 - 1 ∧ uniformNum 0 = 0 := by decide

/-! ### C37: bounded integers -/

/-- C37: drawing below `range` is drawing until a rule accepts, and the rule is unbiased: each value below
`range` has exactly `2^64 / range` accepted numbers.  For every stream. -/
theorem C37_unbiased (range : Nat) (h0 : 0 < range) (h : range < 2 ^ 64) :
    ∃ pick : BitVec 64 → Option Nat, Spec.Unbiased pick range ∧
      ∀ (σ : Type) (next : σ → BitVec 64 × σ) (fuel : Nat) (g : σ),
        boundedUint64 next fuel range g = Spec.firstAccepted pick next (fuel + 1) g :=
  ⟨lemirePick range, ⟨fun x v hx => lemirePick_lt range h0 x v hx, fun v hv => lemirePick_card range v h0 hv⟩,
    fun _ next fuel g => boundedUint64_eq next range fuel h0 h g⟩

/-- C37: with the generator of C35 the loop always ends, from every state with an odd increment. -/
theorem C37_terminates (range : Nat) (h0 : 0 < range) (h : range < 2 ^ 64) (g : Pcg) (hodd : g.inc.toNat % 2 = 1) :
    ∃ fuel, (boundedUint64 Pcg.next fuel range g).isSome := by
  obtain ⟨f, r, _, _, h⟩ := bounded_terminates range h0 h g hodd
  exact ⟨f, by rw [h f (Nat.le_refl f)]; rfl⟩

/-- C37, `integers(low, high)`: for bounds of at most `2^53` the values are `low` plus an unbiased number below
`high - low`, so they lie in the range.  Missing: larger bounds, where the value goes through float64. -/
theorem C37_integers_partial (low high : Int) (h : low < high) (hl : -2 ^ 53 ≤ low) (hh : high ≤ 2 ^ 53) :
    ∃ pick : BitVec 64 → Option Nat, Spec.Unbiased pick (high - low).toNat ∧
      (∀ (σ : Type) (next : σ → BitVec 64 × σ) (fuel : Nat) (g : σ),
        integersOne next fuel low high g =
          (Spec.firstAccepted pick next (fuel + 1) g).map fun r => (low + (r.1 : Int), r.2)) ∧
      (∀ (σ : Type) (next : σ → BitVec 64 × σ) (fuel : Nat) (g g' : σ) (v : Int),
        integersOne next fuel low high g = some (v, g') → low ≤ v ∧ v < high) := by
  have hr : ((wrap64 (high - low)) % 2 ^ 64).toNat = (high - low).toNat := by
    have : wrap64 (high - low) = high - low := by
      unfold wrap64
      exact Int.bmod_eq_of_le (by omega) (by omega)
    rw [this]
    omega
  have hb : ∀ (σ : Type) (next : σ → BitVec 64 × σ) (fuel : Nat) (g : σ),
      boundedUint64 next fuel (high - low).toNat g =
        Spec.firstAccepted (lemirePick (high - low).toNat) next (fuel + 1) g :=
    fun σ next fuel g => boundedUint64_eq next _ fuel (by omega) (by omega) g
  have hval : ∀ v : Nat, v < (high - low).toNat → viaF64 (wrap64 (low + v)) = low + v := by
    intro v hv
    have : wrap64 (low + v) = low + v := by
      unfold wrap64
      exact Int.bmod_eq_of_le (by omega) (by omega)
    rw [this]
    apply viaF64_exact
    omega
  have hlt : ∀ (σ : Type) (next : σ → BitVec 64 × σ) (fuel : Nat) (g : σ) (r : Nat × σ),
      Spec.firstAccepted (lemirePick (high - low).toNat) next (fuel + 1) g = some r → r.1 < (high - low).toNat := by
    intro σ next fuel g r hr
    obtain ⟨x, hx⟩ := firstAccepted_some _ _ _ _ _ hr
    exact lemirePick_lt _ (by omega) x _ hx
  have hmain : ∀ (σ : Type) (next : σ → BitVec 64 × σ) (fuel : Nat) (g : σ),
        integersOne next fuel low high g =
          (Spec.firstAccepted (lemirePick (high - low).toNat) next (fuel + 1) g).map
            fun r => (low + (r.1 : Int), r.2) := by
    intro σ next fuel g
    unfold integersOne
    rw [hr, hb]
    cases hf : Spec.firstAccepted (lemirePick (high - low).toNat) next (fuel + 1) g with
    | none => rfl
    | some r =>
      simp only [Option.map_some]
      rw [hval r.1 (hlt σ next fuel g r hf)]
  refine ⟨lemirePick (high - low).toNat, ⟨fun x v hx => lemirePick_lt _ (by omega) x v hx,
    fun v hv => lemirePick_card _ v (by omega) hv⟩, hmain, ?_⟩
  intro σ next fuel g g' v hv
  rw [hmain] at hv
  obtain ⟨r, hr, he⟩ := Option.map_eq_some_iff.1 hv
  have := hlt σ next fuel g r hr
  injection he with he _
  omega

example : (-2 ^ 53 : Int) ≤ -5 ∧ (-5 : Int) < 6 ∧ (6 : Int) ≤ 2 ^ 53 := by decide
/-- A stream that has to be redrawn once: for a range of 3 the number 0 is not accepted. -/
example : boundedUint64 (fun g : Nat => (BitVec.ofNat 64 (g * 2 ^ 62), g + 1)) 5 3 0 = some (0, 2) := by decide +kernel

/-- C37 fails above `2^53`: `integers(2^53+1, 2^53+2)` returns `2^53` for every stream; and the bounds are not
compared: `integers(5, 5)` returns 5, `integers(5, 3)` returns numbers from the whole 64-bit range. -/
theorem C37_counterexample :
    (∀ (σ : Type) (next : σ → BitVec 64 × σ) (g : σ),
      (integersOne next 0 (2 ^ 53 + 1) (2 ^ 53 + 2) g).map Prod.fst = some (2 ^ 53)) ∧
    (∀ (σ : Type) (next : σ → BitVec 64 × σ) (g : σ), integersOne next 0 5 5 g = some (5, g)) ∧
    (integersOne (fun g : Unit => (BitVec.ofNat 64 (2 ^ 63 + 1), g)) 0 5 3 ()).map Prod.fst = some (-2 ^ 63) := by
  refine ⟨?_, ?_, by decide +kernel⟩
  · intro σ next g
    unfold integersOne
    have : ((wrap64 ((2 ^ 53 + 2) - (2 ^ 53 + 1))) % 2 ^ 64).toNat = 1 := by decide
    rw [this, boundedUint64_eq next 1 0 (by decide) (by decide), Spec.firstAccepted]
    have hp : lemirePick 1 (next g).1 = some 0 := by
      unfold lemirePick
      have := (next g).1.isLt
      rw [Nat.mod_one, if_neg (by omega), Nat.mul_one, Nat.div_eq_of_lt this]
    rw [hp]
    simp only [Option.map_some]
    decide +kernel
  · intro σ next g
    unfold integersOne boundedUint64
    have : ((wrap64 (5 - 5)) % 2 ^ 64).toNat = 0 := by decide
    rw [this, if_pos rfl, Option.map_some]
    have h5 : viaF64 (wrap64 (5 + ((0 : Nat) : Int))) = 5 := by decide +kernel
    rw [h5]

/-! ### C38: shuffling -/

/-- C38: shuffling a list follows the Fisher–Yates scheme with some choices and returns a permutation of the
list, for every stream of numbers. -/
theorem C38_shuffle {σ α : Type} (next : σ → BitVec 64 × σ) (fuel : Nat) (l l' : List α) (g g' : σ)
    (hlen : l.length < 2 ^ 63) (h : shuffleData next fuel l g = some (l', g')) :
    l'.Perm l ∧ ∃ js, Spec.FisherYates (l.length - 1) js l l' := by
  unfold shuffleData at h
  obtain ⟨js, hjs⟩ := shuffleLoop_fisherYates next fuel _ l g (by omega) _ h
  refine ⟨?_, js, hjs⟩
  cases l with
  | nil => cases hjs; exact List.Perm.refl _
  | cons a t => exact fisherYates_perm _ js _ _ (by simp) hjs

/-- C38: every arrangement of distinct elements comes from exactly one sequence of choices. -/
theorem C38_one_choice {α : Type} (l l' : List α) (hn : l.Nodup) (hne : l ≠ []) (hp : l'.Perm l) :
    ∃! js, Spec.FisherYates (l.length - 1) js l l' := by
  have hl : 0 < l.length := List.length_pos_of_ne_nil hne
  obtain ⟨js, hjs⟩ := fisherYates_exists (l.length - 1) l l' hn hp (by omega) (by
    intro p hpi
    rw [List.getElem?_eq_none (by rw [hp.length_eq]; omega), List.getElem?_eq_none (by omega)])
  exact ⟨js, hjs, fun js' h' => fisherYates_unique _ l l' hn (by omega) js' js h' hjs⟩

/-- C38: `permutation(n)` is a permutation of `0 .. n-1`. -/
theorem C38_permutation {σ : Type} (next : σ → BitVec 64 × σ) (fuel n : Nat) (g g' : σ) (l' : List Nat)
    (hn : n < 2 ^ 63) (h : permutationOf next fuel n g = some (l', g')) : l'.Perm (List.range n) :=
  (C38_shuffle next fuel (List.range n) l' g g' (by simpa using hn) h).1

/-- C38, python `shuffle` of a C-contiguous float64 array in a buffer: the rows are permuted and the rest of the
buffer is kept.  Missing: other dtypes and views with gaps, whose strides are ignored. -/
theorem C38_array_partial {σ α : Type} (next : σ → BitVec 64 × σ) (fuel : Nat) (before after : List α)
    (rows : List (List α)) (shape : List Nat) (g : σ) (hne : shape ≠ []) (h64 : rows.length < 2 ^ 63)
    (hr : ∀ r ∈ rows, r.length = shape.prod)
    (r : List α × σ)
    (h : pyShuffle next fuel (before ++ rows.flatten ++ after) before.length (rows.length :: shape) g = some r) :
    ∃ rows' : List (List α), rows'.Perm rows ∧ r.1 = before ++ rows'.flatten ++ after := by
  unfold pyShuffle at h
  dsimp only at h
  by_cases hn : rows.length ≤ 1
  · rw [if_pos hn] at h
    injection h with h
    exact ⟨rows, List.Perm.refl _, by rw [← h]⟩
  · rw [if_neg hn, if_neg hne] at h
    have hlen := length_flatten_rows rows shape.prod hr
    have hdata : ((before ++ rows.flatten ++ after).drop before.length).take (rows.length * shape.prod) =
        rows.flatten := by
      rw [List.append_assoc, List.drop_left, List.take_left' hlen]
    rw [hdata, shuffleRows_eq next fuel _ _ rows g hr (by omega) (by omega)] at h
    obtain ⟨p, hp, rfl⟩ := Option.map_eq_some_iff.1 h
    obtain ⟨q, hq, rfl⟩ := Option.map_eq_some_iff.1 hp
    obtain ⟨js, hjs⟩ := shuffleLoop_fisherYates next fuel _ rows g (by omega) q hq
    refine ⟨q.1, fisherYates_perm _ js _ _ (by omega) hjs, ?_⟩
    dsimp only
    rw [← hlen, show before.length + rows.flatten.length = (before ++ rows.flatten).length by simp, List.drop_left]
    rw [List.append_assoc before rows.flatten after, List.take_left]

/-- C38, python `shuffle` of a contiguous one-dimensional float64 array. -/
theorem C38_vector_partial {σ α : Type} (next : σ → BitVec 64 × σ) (fuel : Nat) (before l after : List α) (g : σ)
    (h64 : l.length < 2 ^ 63) (r : List α × σ)
    (h : pyShuffle next fuel (before ++ l ++ after) before.length [l.length] g = some r) :
    ∃ l', l'.Perm l ∧ r.1 = before ++ l' ++ after := by
  unfold pyShuffle at h
  dsimp only at h
  by_cases hn : l.length ≤ 1
  · rw [if_pos hn] at h
    injection h with h
    exact ⟨l, List.Perm.refl _, by rw [← h]⟩
  · rw [if_neg hn, if_pos rfl] at h
    have hdata : ((before ++ l ++ after).drop before.length).take (l.length * [].prod) = l := by
      rw [List.append_assoc, List.drop_left, List.take_left' (by simp)]
    rw [hdata] at h
    obtain ⟨p, hp, rfl⟩ := Option.map_eq_some_iff.1 h
    obtain ⟨js, hjs⟩ := shuffleLoop_fisherYates next fuel _ l g (by omega) p hp
    refine ⟨p.1, fisherYates_perm _ js _ _ (by omega) hjs, ?_⟩
    dsimp only
    rw [show before.length + l.length * [].prod = (before ++ l).length by simp, List.drop_left]
    rw [List.append_assoc before l after, List.take_left]

/-- C38: with the generator of C35 and an odd increment, shuffling always ends. -/
theorem C38_succeeds {α : Type} (l : List α) (g : Pcg) (hodd : g.inc.toNat % 2 = 1) (hlen : l.length < 2 ^ 63) :
    ∃ fuel, (shuffleData Pcg.next fuel l g).isSome := by
  obtain ⟨f, h⟩ := shuffleLoop_terminates (l.length - 1) l g hodd (by omega) (by omega)
  exact ⟨f, h f (Nat.le_refl f)⟩

/-- A stream of zeros: each element is exchanged with position 0. -/
example : shuffleData (fun g : Nat => (BitVec.ofNat 64 (2 ^ 32), g + 1)) 5 ["a", "b", "c"] 0 =
    some (["b", "c", "a"], 2) := by decide +kernel
example : pyShuffle (fun g : Nat => (BitVec.ofNat 64 (2 ^ 32), g + 1)) 5 ([9] ++ [[1, 2], [3, 4]].flatten ++ [8]) 1 [2, 2] 0 =
    some ([9, 3, 4, 1, 2, 8], 1) := by decide +kernel

/-- C38 fails for a view with gaps: shuffling `a[::2]` of `a = [0, 1, 2, 3]` exchanges the first two words of the
buffer, so the view's elements `[0, 2]` become `[1, 2]`.  A 0-dimensional array panics. -/
theorem C38_counterexample :
    (pyShuffle (fun g : Nat => (BitVec.ofNat 64 (2 ^ 32), g + 1)) 5 [0, 1, 2, 3] 0 [2] 0).map
        (fun r => [r.1[0]?, r.1[2]?]) = some [some 1, some 2] ∧
      ¬ [1, 2].Perm [0, 2] ∧
      pyShuffle (fun g : Nat => (BitVec.ofNat 64 (2 ^ 32), g + 1)) 5 [7] 0 [] 0 = none := by
  refine ⟨by decide +kernel, by decide, rfl⟩

/-! ### C62: choice without replacement -/

/-- C62: `choice(n, k, replace=False)` gives `k` different indices below `n`; it needs `0 < n` and `k ≤ n`. -/
theorem C62_choice {σ : Type} (next : σ → BitVec 64 × σ) (fuel n k : Nat) (g g' : σ) (l : List Nat)
    (hn : n < 2 ^ 64) (h : choiceNoReplace next fuel n k g = some (l, g')) :
    0 < n ∧ k ≤ n ∧ l.length = k ∧ l.Nodup ∧ ∀ i ∈ l, i < n := by
  unfold choiceNoReplace at h
  by_cases h0 : n = 0
  · rw [if_pos h0] at h; cases h
  rw [if_neg h0] at h
  by_cases hk : k > n
  · rw [if_pos hk] at h; cases h
  rw [if_neg hk] at h
  obtain ⟨q, hq, he⟩ := Option.map_eq_some_iff.1 h
  obtain ⟨hp, hl⟩ := choiceLoop_perm next fuel k n (List.range n) g (by simp) (by omega) hn q hq
  injection he with he _
  subst he
  have hnd := hp.nodup_iff.1 List.nodup_range
  refine ⟨by omega, by omega, hl, (List.nodup_append.1 hnd).1, ?_⟩
  intro i hi
  have := hp.symm.subset (List.mem_append_left _ hi)
  simpa using this

/-- C62: with the generator of C35, an odd increment and `k ≤ n` the choice always succeeds. -/
theorem C62_succeeds (n k : Nat) (h0 : 0 < n) (hk : k ≤ n) (hn : n < 2 ^ 64) (g : Pcg) (hodd : g.inc.toNat % 2 = 1) :
    ∃ fuel, (choiceNoReplace Pcg.next fuel n k g).isSome := by
  obtain ⟨f, h⟩ := choiceLoop_terminates k n (List.range n) g hodd (by simp) hk hn
  refine ⟨f, ?_⟩
  unfold choiceNoReplace
  rw [if_neg (by omega), if_neg (by omega), Option.isSome_map]
  exact h f (Nat.le_refl f)

example : choiceNoReplace (fun g : Nat => (BitVec.ofNat 64 (2 ^ 32), g + 1)) 5 4 3 0 = some ([0, 3, 2], 3) := by
  decide +kernel

end Props
