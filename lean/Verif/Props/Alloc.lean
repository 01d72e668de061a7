import Verif.Model.Alloc
import Verif.Lemmas.View
import Verif.Lemmas.InBounds
import Mathlib.Tactic.Linarith
/-!
# C91: an array lies inside the memory allocated for it

Machine arithmetic wraps around in release builds; Model/View counts without bounds.
-/

namespace Props
open Spec Rumpy

theorem mulU_checked {a b c : Nat} (h : mulU true a b = some c) : c = a * b := by
  unfold mulU at h
  split at h
  · simpa using h.symm
  · simp at h

theorem mulU_mod {checked : Bool} {a b c : Nat} (h : mulU checked a b = some c) : c = a * b % 2 ^ 64 ∧ (checked = true → c = a * b) := by
  unfold mulU at h
  split at h
  · next hlt => simp only [Option.some.injEq] at h; rw [Nat.mod_eq_of_lt hlt]; exact ⟨h.symm, fun _ => h.symm⟩
  · cases checked <;> simp at h
    exact ⟨h.symm, fun h => by simp at h⟩

theorem productU_mod {checked : Bool} : ∀ {s : List Nat} {acc p : Nat}, productU checked acc s = some p → acc < 2 ^ 64 →
    p = acc * size s % 2 ^ 64 ∧ (checked = true → p = acc * size s)
  | [], acc, p, h, hacc => by
    simp only [productU, Option.some.injEq] at h
    subst h
    rw [size, Nat.mul_one, Nat.mod_eq_of_lt hacc]
    exact ⟨rfl, fun _ => rfl⟩
  | n :: s, acc, p, h, hacc => by
    rw [productU, Option.bind_eq_some_iff] at h
    obtain ⟨m, hm, hp⟩ := h
    obtain ⟨h1, h2⟩ := mulU_mod hm
    have hm64 : m < 2 ^ 64 := by rw [h1]; exact Nat.mod_lt _ (by decide)
    obtain ⟨h3, h4⟩ := productU_mod hp hm64
    refine ⟨?_, fun hc => ?_⟩
    · rw [h3, h1, Nat.mod_mul_mod, size, Nat.mul_assoc]
    · rw [h4 hc, h2 hc, size, Nat.mul_assoc]

theorem productU_release : ∀ (s : List Nat) (acc : Nat), acc < 2 ^ 64 → productU false acc s = some (acc * size s % 2 ^ 64)
  | [], acc, h => by rw [productU, size, Nat.mul_one, Nat.mod_eq_of_lt h]
  | n :: s, acc, h => by
    have hm : mulU false acc n = some (acc * n % 2 ^ 64) := by
      unfold mulU
      split
      · next hlt => rw [Nat.mod_eq_of_lt hlt]
      · rfl
    rw [productU, hm, Option.bind_some, productU_release s _ (Nat.mod_lt _ (by decide)), Nat.mod_mul_mod, size, Nat.mul_assoc]

theorem bufferU_mod {checked : Bool} {s : List Nat} {item n : Nat} (h : bufferU checked s item = some n) :
    n = size s * item % 2 ^ 64 ∧ n < 2 ^ 63 ∧ (checked = true → n = size s * item) := by
  unfold bufferU at h
  rw [Option.bind_eq_some_iff] at h
  obtain ⟨p, hp, h⟩ := h
  rw [Option.bind_eq_some_iff] at h
  obtain ⟨m, hm, h⟩ := h
  split at h
  · next hlt =>
    simp only [Option.some.injEq] at h
    subst h
    obtain ⟨h1, h2⟩ := productU_mod hp (by decide)
    obtain ⟨h3, h4⟩ := mulU_mod hm
    rw [Nat.one_mul] at h1 h2
    refine ⟨?_, hlt, fun hc => ?_⟩
    · rw [h3, h1, Nat.mod_mul_mod]
    · rw [h4 hc, h2 hc]
  · simp at h

theorem bufferU_release (s : List Nat) (item : Nat) :
    bufferU false s item = if size s * item % 2 ^ 64 < 2 ^ 63 then some (size s * item % 2 ^ 64) else none := by
  have hm : ∀ a b, mulU false a b = some (a * b % 2 ^ 64) := by
    intro a b
    unfold mulU
    split
    · next hlt => rw [Nat.mod_eq_of_lt hlt]
    · rfl
  unfold bufferU
  rw [productU_release s 1 (by decide), Option.bind_some, hm, Option.bind_some, Nat.one_mul, Nat.mod_mul_mod]

theorem bmod_small {x : Int} (h0 : -2 ^ 63 ≤ x) (h1 : x < 2 ^ 63) : Int.bmod x (2 ^ 64) = x := by
  rw [Int.bmod_def]
  split <;> omega

/-- Strides of a shape with an element: either nothing wrapped and the whole array takes less than `2 ^ 63` bytes, or some
element ends at `2 ^ 63` or beyond. -/
theorem cStridesU_cases {checked : Bool} {item : Nat} (hi : item < 2 ^ 63) : ∀ {s : List Nat} {r : List Int × Int}, 0 < size s →
    cStridesU checked item s = some r →
    (r = (cStrides s item, ((size s * item : Nat) : Int)) ∧ size s * item < 2 ^ 63) ∨
    (2 ^ 63 ≤ size s * item ∧ ∃ idx, InShape s idx ∧ 2 ^ 63 ≤ byteOffset idx r.1 + item)
  | [], r, _, h => by
    left
    simp only [cStridesU, Option.some.injEq] at h
    rw [bmod_small (by omega) (by exact_mod_cast hi)] at h
    rw [← h]
    exact ⟨by simp [size, cStrides, cStridesAux], by rw [size, Nat.one_mul]; exact hi⟩
  | n :: s, r, hp, h => by
    rw [size] at hp
    have hn0 : 0 < n := Nat.pos_of_mul_pos_right hp
    have hs0 : 0 < size s := Nat.pos_of_mul_pos_left hp
    rw [cStridesU, Option.bind_eq_some_iff] at h
    obtain ⟨q, hq, h⟩ := h
    rw [Option.map_eq_some_iff] at h
    obtain ⟨stride, hst, rfl⟩ := h
    rcases cStridesU_cases hi hs0 hq with ⟨rfl, hlt⟩ | ⟨hbig, idx, hidx, hge⟩
    · have hcons : (((size s * item : Nat) : Int) :: cStrides s item) = cStrides (n :: s) item := by
        rw [cStrides_cons, Nat.mul_comm]
      by_cases hfit : n * size s * item < 2 ^ 63
      · left
        have hval : ((size s * item : Nat) : Int) * Int.bmod n (2 ^ 64) = ((n * size s * item : Nat) : Int) := by
          rcases Nat.eq_zero_or_pos item with h0 | h0
          · simp [h0]
          · have hle : n ≤ n * size s * item := by
              rw [Nat.mul_assoc]
              exact Nat.le_mul_of_pos_right n (Nat.mul_pos hs0 h0)
            rw [bmod_small (by omega) (by exact_mod_cast (by omega : n < 2 ^ 63))]
            push_cast
            ring
        unfold mulI at hst
        rw [hval, if_pos ⟨by omega, by exact_mod_cast hfit⟩] at hst
        simp only [Option.some.injEq] at hst
        rw [size]
        exact ⟨by rw [← hst, ← hcons], hfit⟩
      · right
        obtain ⟨idx, hidx, hr⟩ := exists_rank (s := n :: s) (r := n * size s - 1) (by rw [size]; omega)
        refine ⟨by rw [size]; omega, idx, hidx, ?_⟩
        dsimp only
        rw [hcons, byteOffset_cStrides item _ _ hidx.length_eq, hr]
        have he : item * (n * size s - 1) + item = n * size s * item := by
          rw [← Nat.mul_succ, Nat.succ_eq_add_one, Nat.sub_add_cancel hp, Nat.mul_comm]
        have : 2 ^ 63 ≤ item * (n * size s - 1) + item := by rw [he]; omega
        exact_mod_cast this
    · right
      refine ⟨?_, 0 :: idx, ⟨hn0, hidx⟩, ?_⟩
      · rw [size, Nat.mul_assoc]
        exact hbig.trans (Nat.le_mul_of_pos_left _ hn0)
      simpa [byteOffset] using hge

/-- C91, proved part: the buffer of a new array holds every element, in builds with overflow checks, and in other builds if the
true number of bytes fits 64 bits. Missing: larger sizes, see the counterexample. -/
theorem C91_zeros_partial (checked : Bool) (shape : List Nat) (item : Nat) (hi : item < 2 ^ 63) (v : View) (n : Nat)
    (h : zerosU checked shape item = some (v, n)) (hc : checked = true ∨ size shape * item < 2 ^ 64) :
    v.shape = shape ∧ v.item = item ∧ n = size shape * item ∧ Inside n shape item v.addr := by
  unfold zerosU at h
  rw [Option.bind_eq_some_iff] at h
  obtain ⟨m, hm, h⟩ := h
  rw [Option.map_eq_some_iff] at h
  obtain ⟨st, hst, h⟩ := h
  simp only [Prod.mk.injEq] at h
  obtain ⟨rfl, rfl⟩ := h
  obtain ⟨h1, h2, h3⟩ := bufferU_mod hm
  have hn : m = size shape * item := by
    rcases hc with hc | hc
    · exact h3 hc
    · rw [h1, Nat.mod_eq_of_lt hc]
  refine ⟨rfl, rfl, hn, fun idx hidx => ?_⟩
  have hp : 0 < size shape := Nat.lt_of_le_of_lt (Nat.zero_le _) (rank_lt hidx)
  have hr := rank_lt hidx
  rcases cStridesU_cases hi hp hst with ⟨rfl, -⟩ | ⟨hbig, -⟩
  · simp only [View.addr]
    rw [byteOffset_cStrides item _ _ hidx.length_eq, hn]
    have hmul : item * rank shape idx + item ≤ size shape * item := by
      rw [← Nat.mul_succ, Nat.mul_comm]
      exact Nat.mul_le_mul_right _ hr
    constructor
    · positivity
    · have : ((item * rank shape idx + item : Nat) : Int) ≤ ((size shape * item : Nat) : Int) := by exact_mod_cast hmul
      push_cast at this ⊢
      linarith
  · omega

/-- Builds without overflow checks: the array lies inside its buffer exactly when its true number of bytes fits 64 bits. -/
theorem C91_release_iff (shape : List Nat) (item : Nat) (hi : item < 2 ^ 63) (v : View) (n : Nat)
    (h : zerosU false shape item = some (v, n)) : Inside n shape item v.addr ↔ size shape * item < 2 ^ 64 := by
  constructor
  · intro hin
    by_contra hbig
    have hp : 0 < size shape := by
      rcases Nat.eq_zero_or_pos (size shape) with h0 | h0
      · rw [h0] at hbig; omega
      · exact h0
    unfold zerosU at h
    rw [Option.bind_eq_some_iff] at h
    obtain ⟨m, hm, h⟩ := h
    rw [Option.map_eq_some_iff] at h
    obtain ⟨st, hst, h⟩ := h
    simp only [Prod.mk.injEq] at h
    obtain ⟨rfl, rfl⟩ := h
    obtain ⟨-, h2, -⟩ := bufferU_mod hm
    rcases cStridesU_cases hi hp hst with ⟨-, hlt⟩ | ⟨-, idx, hidx, hge⟩
    · omega
    · have := (hin idx hidx).2
      simp only [View.addr] at this
      have h2' : (m : Int) < 2 ^ 63 := by exact_mod_cast h2
      linarith
  · exact fun hlt => (C91_zeros_partial false shape item hi v n h (Or.inr hlt)).2.2.2

theorem cStridesU_release (item : Nat) : ∀ s : List Nat, (cStridesU false item s).isSome
  | [] => rfl
  | n :: s => by
    obtain ⟨r, hr⟩ := Option.isSome_iff_exists.1 (cStridesU_release item s)
    rw [cStridesU, hr, Option.bind_some, Option.isSome_map]
    unfold mulI
    split <;> rfl

/-- No array that fits in memory is refused. -/
theorem C91_zeros_fits (shape : List Nat) (item : Nat) (h : size shape * item < 2 ^ 63) : (zerosU false shape item).isSome := by
  obtain ⟨st, hst⟩ := Option.isSome_iff_exists.1 (cStridesU_release item shape)
  have hm : size shape * item % 2 ^ 64 = size shape * item := Nat.mod_eq_of_lt (by omega)
  unfold zerosU
  rw [bufferU_release, hm, if_pos h, Option.bind_some, hst]
  rfl

example : (zerosU true [3, 0, 5] 8).map (·.2) = some 0 ∧ (zerosU true [3, 5] 8).map (·.2) = some 120 ∧ zerosU true [2 ^ 61] 8 = none := by
  decide +kernel

/-- `zeros(2 ** 61)` in a release build: an array of `2 ^ 61` floats with a buffer of no bytes. -/
theorem C91_zeros_counterexample :
    ∃ v, zerosU false [2 ^ 61] 8 = some (v, 0) ∧ v.shape = [2 ^ 61] ∧ ¬ Inside 0 [2 ^ 61] 8 v.addr := by
  refine ⟨⟨0, [2 ^ 61], [8], 8, true, false⟩, by decide +kernel, rfl, fun h => ?_⟩
  have := (h [0] ⟨by decide +kernel, trivial⟩).2
  simp [View.addr, byteOffset] at this

/-- Negative lengths are refused by the functions that take a shape. -/
theorem C91_negative (dims : List Int) (s : List Nat) (h : parseShape dims = some s) : dims = s.map fun n : Nat => (n : Int) := by
  induction dims generalizing s with
  | nil => simp [parseShape] at h; simp [h]
  | cons d dims ih =>
    unfold parseShape at h
    rw [List.mapM_cons] at h
    simp only [Option.bind_eq_bind, Option.bind_eq_some_iff] at h
    obtain ⟨n, hn, t, ht, h⟩ := h
    split at hn
    · next hd =>
      simp only [Option.some.injEq] at hn
      have := ih t ht
      simp only [Option.pure_def, Option.some.injEq] at h
      rw [← h, this, List.map_cons, ← hn]
      congr 1
      omega
    · simp at hn

/-- `resize` does not refuse them: `a.resize(-1, 0)` gives an array whose first length is `2 ^ 64 - 1`. -/
theorem C91_resize_negative_counterexample :
    (resizeU false (View.fresh [2] 8) [-1, 0]).map (fun r => (r.1.1.shape, r.1.2)) = some ([2 ^ 64 - 1, 0], 0) := by
  decide +kernel

/-- `a.resize(2 ** 61)` and `a.repeat(2 ** 61)` of eight floats: elements are stored into a buffer of no bytes. -/
theorem C91_store_counterexample :
    (resizeU false (View.fresh [8] 8) [2 ^ 61]).map (fun r => (r.1.2, r.2)) = some (0, 8) ∧
    (repeatU false 8 (2 ^ 61) 8).map (fun r => (r.1.1.shape, r.1.2, r.2)) = some ([0], 0, 2 ^ 64) := by
  decide +kernel

/-- With overflow checks the elements stored by `resize` and `repeat` lie inside the new buffer. -/
theorem C91_store_checked (v : View) (hi : v.item < 2 ^ 63) (dims : List Int) (n repeats : Nat) :
    (∀ r, resizeU true v dims = some r → r.2 * v.item ≤ r.1.2) ∧
    (∀ r, repeatU true n repeats v.item = some r → r.2 * v.item ≤ r.1.2) := by
  constructor
  · intro r h
    unfold resizeU at h
    dsimp only at h
    rw [Option.bind_eq_some_iff] at h
    obtain ⟨new, hnew, h⟩ := h
    obtain ⟨-, hp⟩ := productU_mod hnew (by decide)
    rw [Nat.one_mul] at hp
    split at h
    · rw [Option.map_eq_some_iff] at h
      obtain ⟨a, -, rfl⟩ := h
      simp
    · rw [Option.bind_eq_some_iff] at h
      obtain ⟨old, -, h⟩ := h
      rw [Option.map_eq_some_iff] at h
      obtain ⟨⟨w, m⟩, ha, rfl⟩ := h
      have := (C91_zeros_partial true _ _ hi w m ha (Or.inl rfl)).2.2.1
      dsimp only
      rw [this, ← hp rfl]
      exact Nat.mul_le_mul_right _ (Nat.min_le_right _ _)
  · intro r h
    unfold repeatU at h
    rw [Option.bind_eq_some_iff] at h
    obtain ⟨m, hm, h⟩ := h
    rw [Option.map_eq_some_iff] at h
    obtain ⟨⟨w, k⟩, ha, rfl⟩ := h
    have := (C91_zeros_partial true _ _ hi w k ha (Or.inl rfl)).2.2.1
    dsimp only
    rw [this, mulU_checked hm, size, size, Nat.mul_one]

/-- `reshape` is the reshape of Model/View, and so stays inside the buffer, in builds with overflow checks, and in other builds if
the new shape has fewer than `2 ^ 63` bytes. -/
theorem C91_reshape_partial (checked : Bool) (v w : View) (shape : List Nat) (hi : v.item < 2 ^ 63) (hc : v.cFlag = true)
    (hold : size v.shape * v.item < 2 ^ 63) (hpos : 0 < v.item) (h : reshapeU checked v shape = .ok w)
    (hsz : checked = true ∨ size shape < 2 ^ 64) (hp : 0 < size shape) : v.reshape shape = some w := by
  have hle : size v.shape ≤ size v.shape * v.item := Nat.le_mul_of_pos_right _ hpos
  unfold reshapeU at h
  split at h
  · next old new ho hn =>
    obtain ⟨ho1, ho2⟩ := productU_mod ho (by decide)
    obtain ⟨hn1, hn2⟩ := productU_mod hn (by decide)
    rw [Nat.one_mul] at ho1 ho2 hn1 hn2
    rw [Nat.mod_eq_of_lt (by omega)] at ho1
    have hn3 : new = size shape := by
      rcases hsz with hc | hc
      · exact hn2 hc
      · rw [hn1, Nat.mod_eq_of_lt hc]
    split at h
    · simp at h
    · next heq =>
      rw [not_not] at heq
      have hs : size v.shape = size shape := by omega
      split at h
      · next st hst =>
        simp only [Outcome.ok.injEq] at h
        rcases cStridesU_cases hi hp hst with ⟨rfl, -⟩ | ⟨hbig, -⟩
        · unfold View.reshape
          rw [← h]
          simp [sizeOf_eq, hs, hc]
        · rw [← hs] at hbig
          omega
      · simp at h
  · simp at h

example : reshapeU true (View.fresh [6] 8) [2, 3] = .ok ⟨0, [2, 3], [24, 8], 8, true, false⟩ := by decide +kernel

/-- One float can be reshaped to 274177 rows of 67280421310721: the product of the two is `2 ^ 64 + 1`. The element in the
second row is far outside the buffer of eight bytes. -/
theorem C91_reshape_counterexample :
    ∃ w, reshapeU false (View.fresh [1] 8) [274177, 67280421310721] = .ok w ∧ w.shape = [274177, 67280421310721] ∧
      ¬ Inside 8 w.shape 8 w.addr := by
  refine ⟨⟨0, [274177, 67280421310721], [538243370485768, 8], 8, true, false⟩, by decide +kernel, rfl, fun h => ?_⟩
  have := (h [1, 0] ⟨by decide, by decide +kernel, trivial⟩).2
  simp [View.addr, byteOffset] at this

end Props
