import Verif.Model.Search
import Verif.Spec.Search
import Verif.Lemmas.Select
/-!
# Lemmas: searching, index conversion, bit packing
-/

namespace Rumpy
open Spec

theorem bsearch_spec {P : Nat → Bool} {n : Nat} (hmono : ∀ i j, i ≤ j → j < n → P j = true → P i = true)
    (lo hi : Nat) (hlh : lo ≤ hi) (hhn : hi ≤ n) (hl : ∀ i, i < lo → P i = true)
    (hh : ∀ i, hi ≤ i → i < n → P i = false) :
    bsearch P lo hi ≤ n ∧ (∀ i, i < bsearch P lo hi → P i = true) ∧
      ∀ i, bsearch P lo hi ≤ i → i < n → P i = false := by
  rw [bsearch]
  split
  · rename_i h
    dsimp only
    split
    · rename_i hp
      apply bsearch_spec hmono _ _ (by omega) hhn _ hh
      intro i hi'
      exact hmono i _ (by omega) (by omega) hp
    · rename_i hp
      apply bsearch_spec hmono _ _ (by omega) (by omega) hl
      intro i h1 h2
      by_contra hc
      exact hp (hmono _ i h1 h2 (by simpa using hc))
  · rename_i h
    refine ⟨by omega, hl, fun i h1 h2 => hh i (by omega) h2⟩
termination_by hi - lo
decreasing_by all_goals omega

theorem bsearch_congr {P Q : Nat → Bool} (lo hi : Nat) (h : ∀ i, i < hi → P i = Q i) :
    bsearch P lo hi = bsearch Q lo hi := by
  rw [bsearch, bsearch.eq_1 Q]
  by_cases hlt : lo < hi
  · rw [if_pos hlt, if_pos hlt]
    dsimp only
    rw [h _ (by omega), bsearch_congr _ _ h,
      bsearch_congr lo _ (fun i hi' => h i (by omega))]
  · rw [if_neg hlt, if_neg hlt]
termination_by hi - lo
decreasing_by all_goals omega

/-- Binary search in a list on which the predicate holds for a prefix. -/
theorem bsearch_list {l : List α} {p : α → Bool} (h : l.Pairwise fun a b => p b = true → p a = true) :
    let k := bsearch (fun i => l[i]?.any p) 0 l.length
    k ≤ l.length ∧ (∀ y ∈ l.take k, p y = true) ∧ ∀ y ∈ l.drop k, p y = false := by
  intro k
  have hm : ∀ i j, i ≤ j → j < l.length → (l[j]?.any p) = true → (l[i]?.any p) = true := by
    intro i j hij hj hp
    rw [List.getElem?_eq_getElem hj] at hp
    rw [List.getElem?_eq_getElem (by omega)]
    simp only [Option.any_some] at hp ⊢
    rcases Nat.lt_or_eq_of_le hij with h1 | h1
    · exact List.pairwise_iff_getElem.1 h i j (by omega) hj h1 hp
    · subst h1; exact hp
  obtain ⟨h1, h2, h3⟩ := bsearch_spec (P := fun i => l[i]?.any p) (n := l.length) hm 0 l.length (by omega)
    (Nat.le_refl _) (fun i hi => absurd hi (by omega)) (fun i hi1 hi2 => absurd hi1 (by omega))
  refine ⟨h1, ?_, ?_⟩
  · intro y hy
    obtain ⟨i, hi, rfl⟩ := List.getElem_of_mem hy
    rw [List.length_take] at hi
    have := h2 i (by omega)
    rw [List.getElem?_eq_getElem (by omega)] at this
    simpa using this
  · intro y hy
    obtain ⟨i, hi, rfl⟩ := List.getElem_of_mem hy
    rw [List.length_drop] at hi
    have := h3 (k + i) (by omega) (by omega)
    rw [List.getElem?_eq_getElem (by omega)] at this
    simpa using this

theorem cIdxStrides_cons (n : Nat) (s : List Nat) : cIdxStrides (n :: s) = size s :: cIdxStrides s := by
  induction s generalizing n with
  | nil => rfl
  | cons m s ih =>
    rw [cIdxStrides]
    simp only [ih m, List.headD_cons, size]
    rw [Nat.mul_comm]

theorem unravelC_spec : ∀ {s : List Nat} {r : Nat}, r < size s →
    InShape s (unravelC (cIdxStrides s) r) ∧ rank s (unravelC (cIdxStrides s) r) = r
  | [], r, h => by
    simp only [size] at h
    have : r = 0 := by omega
    subst this
    exact ⟨trivial, rfl⟩
  | n :: s, r, h => by
    rw [cIdxStrides_cons, unravelC]
    simp only [size] at h
    have hp : 0 < size s := by
      rcases Nat.eq_zero_or_pos (size s) with h0 | h0
      · rw [h0] at h; simp at h
      · exact h0
    obtain ⟨h1, h2⟩ := unravelC_spec (s := s) (Nat.mod_lt r hp)
    refine ⟨⟨Nat.div_lt_of_lt_mul (by rw [Nat.mul_comm]; exact h), h1⟩, ?_⟩
    rw [rank, h2]
    exact Nat.div_add_mod' r (size s)

theorem unravelF_spec : ∀ {s : List Nat} {r : Nat}, r < size s →
    InShape s (unravelF s r) ∧ rankF s (unravelF s r) = r
  | [], r, h => by
    simp only [size] at h
    have : r = 0 := by omega
    subst this
    exact ⟨trivial, rfl⟩
  | n :: s, r, h => by
    rw [unravelF]
    simp only [size] at h
    have hp : 0 < n := by
      rcases Nat.eq_zero_or_pos n with h0 | h0
      · rw [h0] at h; simp at h
      · exact h0
    obtain ⟨h1, h2⟩ := unravelF_spec (s := s) (Nat.div_lt_of_lt_mul h)
    refine ⟨⟨Nat.mod_lt r hp, h1⟩, ?_⟩
    rw [rankF, h2]
    exact Nat.mod_add_div r n

theorem modeIndex_ok {mode : RavelMode} {i : Int} {n : Nat} (h0 : 0 ≤ i) (h1 : i < n) :
    modeIndex mode i n = .ok i := by
  cases mode with
  | clip =>
    simp only [modeIndex]
    rw [if_neg (by omega)]
    congr 1; omega
  | wrap =>
    simp only [modeIndex]
    rw [if_neg (by omega)]
    congr 1; exact Int.emod_eq_of_lt h0 h1
  | raise =>
    simp only [modeIndex]
    rw [if_neg (by omega)]

/-- `ravelLoop` with C strides, for coordinates that a mode maps to `f i n`. -/
theorem ravelLoop_C {mode : RavelMode} (f : Int → Nat → Nat) : ∀ {s : List Nat} {idx : List Int} (acc : Int),
    idx.length = s.length → (∀ d, d < s.length → modeIndex mode (idx.getD d 0) (s.getD d 0) =
      .ok ((f (idx.getD d 0) (s.getD d 0) : Nat) : Int)) →
    ravelLoop mode idx s (cIdxStrides s) acc = .ok (acc + rank s (List.zipWith f idx s))
  | [], [], acc, _, _ => by simp [ravelLoop, rank]
  | n :: s, i :: idx, acc, hl, h => by
    rw [cIdxStrides_cons, ravelLoop]
    have h0 := h 0 (by simp)
    simp only [List.getD_cons_zero] at h0
    rw [h0]
    dsimp only
    rw [ravelLoop_C f _ (by simpa using hl) (fun d hd => by
      have := h (d + 1) (by simpa using hd)
      simpa only [List.getD_cons_succ] using this)]
    congr 1
    simp only [List.zipWith_cons_cons, rank]
    push_cast
    omega

theorem ravelLoop_F {mode : RavelMode} (f : Int → Nat → Nat) : ∀ {s : List Nat} {idx : List Int} (acc : Int) (st : Nat),
    idx.length = s.length → (∀ d, d < s.length → modeIndex mode (idx.getD d 0) (s.getD d 0) =
      .ok ((f (idx.getD d 0) (s.getD d 0) : Nat) : Int)) →
    ravelLoop mode idx s (fIdxStrides s st) acc = .ok (acc + st * rankF s (List.zipWith f idx s))
  | [], [], acc, st, _, _ => by simp [ravelLoop, rankF]
  | n :: s, i :: idx, acc, st, hl, h => by
    rw [fIdxStrides, ravelLoop]
    have h0 := h 0 (by simp)
    simp only [List.getD_cons_zero] at h0
    rw [h0]
    dsimp only
    rw [ravelLoop_F f _ _ (by simpa using hl) (fun d hd => by
      have := h (d + 1) (by simpa using hd)
      simpa only [List.getD_cons_succ] using this)]
    congr 1
    simp only [List.zipWith_cons_cons, rankF]
    push_cast
    ring

theorem ravelLoop_raise_isOk : ∀ {s : List Nat} {idx : List Int} {sts : List Nat} (acc : Int),
    idx.length = s.length → sts.length = s.length →
    ((∃ k, ravelLoop .raise idx s sts acc = .ok k) ∨ ravelLoop .raise idx s sts acc = .error) ∧
    ((∃ k, ravelLoop .raise idx s sts acc = .ok k) ↔
      ∀ d, d < s.length → 0 ≤ idx.getD d 0 ∧ idx.getD d 0 < s.getD d 0)
  | [], [], [], acc, _, _ => by simp [ravelLoop]
  | n :: s, i :: idx, st :: sts, acc, hl, hs => by
    rw [ravelLoop]
    by_cases hi : i < 0 ∨ (n : Int) ≤ i
    · simp only [modeIndex, hi, if_true]
      refine ⟨Or.inr trivial, ?_⟩
      simp only [reduceCtorEq, exists_false, false_iff]
      intro h
      have := h 0 (by simp)
      simp only [List.getD_cons_zero] at this
      omega
    · simp only [modeIndex, hi, if_false]
      obtain ⟨h1, h2⟩ := ravelLoop_raise_isOk (s := s) (idx := idx) (sts := sts) (acc + i * st)
        (by simpa using hl) (by simpa using hs)
      refine ⟨h1, h2.trans ?_⟩
      constructor
      · intro h d hd
        rcases d with _ | d
        · simp only [List.getD_cons_zero]; omega
        · simp only [List.getD_cons_succ]
          exact h d (by simpa using hd)
      · intro h d hd
        have := h (d + 1) (by simpa using hd)
        simpa only [List.getD_cons_succ] using this

theorem fIdxStrides_length (s : List Nat) (k : Nat) : (fIdxStrides s k).length = s.length := by
  induction s generalizing k with
  | nil => rfl
  | cons n s ih => simp [fIdxStrides, ih]

theorem cIdxStrides_length (s : List Nat) : (cIdxStrides s).length = s.length := by
  induction s with
  | nil => rfl
  | cons n s ih => rw [cIdxStrides_cons]; simp [ih]

/-! ### bits -/

/-- A byte holds the bits of a list in its slots, zero after the end. -/
def Encodes (big : Bool) (byte : BitVec 8) (p : List Bool) : Prop :=
  ∀ j, j < 8 → byte.getLsbD (bitSlot big j) = p.getD j false

theorem bitSlot_lt {big : Bool} {j : Nat} (h : j < 8) : bitSlot big j < 8 := by
  unfold bitSlot; split <;> omega

theorem bitSlot_inj {big : Bool} {i j : Nat} (hi : i < 8) (hj : j < 8) :
    bitSlot big i = bitSlot big j ↔ i = j := by
  unfold bitSlot; split <;> omega

theorem bitSlot_surj (big : Bool) {i : Nat} (hi : i < 8) : ∃ j, j < 8 ∧ bitSlot big j = i := by
  refine ⟨bitSlot big i, bitSlot_lt hi, ?_⟩
  unfold bitSlot; split <;> omega

theorem encodes_nil (big : Bool) : Encodes big 0#8 [] := by
  intro j _; simp

theorem encodes_step {big : Bool} {byte : BitVec 8} {p : List Bool} (h : Encodes big byte p)
    (hp : p.length < 8) (b : Bool) : Encodes big (packStep big byte p.length b) (p ++ [b]) := by
  intro j hj
  unfold packStep
  rw [BitVec.getLsbD_or, h j hj]
  have h1 : ((if b then 1#8 else 0#8) <<< bitSlot big p.length).getLsbD (bitSlot big j) =
      (b && decide (j = p.length)) := by
    rw [BitVec.getLsbD_shiftLeft]
    have hsj := bitSlot_lt (big := big) hj
    have hsp := bitSlot_lt (big := big) hp
    by_cases he : j = p.length
    · subst he
      cases b <;> simp [hsj]
    · have hne : bitSlot big j ≠ bitSlot big p.length := fun h => he ((bitSlot_inj hj hp).1 h)
      cases b
      · simp
      · simp only [if_true, he, decide_false, Bool.and_false]
        rw [BitVec.getLsbD_one]
        by_cases hlt : bitSlot big j < bitSlot big p.length
        · simp [hlt]
        · have : bitSlot big j - bitSlot big p.length ≠ 0 := by omega
          simp [this]
  rw [h1]
  rcases Nat.lt_trichotomy j p.length with hlt | heq | hgt
  · simp [List.getD, List.getElem?_append, hlt, show j ≠ p.length by omega]
  · subst heq; simp [List.getD]
  · have e1 : p[j]? = none := List.getElem?_eq_none (by omega)
    have e2 : (p ++ [b])[j]? = none := List.getElem?_eq_none (by simp; omega)
    simp [List.getD, e1, e2, show j ≠ p.length by omega]

theorem encodes_inj {big : Bool} {x y : BitVec 8} {p : List Bool} (hx : Encodes big x p) (hy : Encodes big y p) :
    x = y := by
  apply BitVec.eq_of_getLsbD_eq
  intro i hi
  obtain ⟨j, hj, rfl⟩ := bitSlot_surj big hi
  rw [hx j hj, hy j hj]

theorem packLoop8_spec (big : Bool) : ∀ (bits : List Bool) (byte : BitVec 8) (p : List Bool),
    Encodes big byte p → p.length < 8 →
    (packLoop8 big bits byte p.length).length = (p.length + bits.length + 7) / 8 ∧
    ∀ k, k < (packLoop8 big bits byte p.length).length → ∀ j, j < 8 →
      ((packLoop8 big bits byte p.length).getD k 0#8).getLsbD (bitSlot big j) = (p ++ bits).getD (8 * k + j) false
  | [], byte, p, h, hp => by
    unfold packLoop8
    by_cases h0 : p.length > 0
    · rw [if_pos h0]
      refine ⟨by simp; omega, ?_⟩
      intro k hk j hj
      have : k = 0 := by simpa using hk
      subst this
      simpa using h j hj
    · rw [if_neg h0]
      refine ⟨by simp; omega, ?_⟩
      intro k hk
      simp at hk
  | b :: bits, byte, p, h, hp => by
    have hstep := encodes_step h hp b
    rw [packLoop8]
    by_cases h8 : p.length + 1 = 8
    · rw [if_pos h8]
      obtain ⟨h1, h2⟩ := packLoop8_spec big bits 0#8 [] (encodes_nil big) (by simp)
      simp only [List.length_nil, List.nil_append] at h1 h2
      refine ⟨by simp only [List.length_cons, h1]; omega, ?_⟩
      intro k hk j hj
      rcases k with _ | k
      · simp only [List.getD_cons_zero, Nat.mul_zero, Nat.zero_add]
        rw [hstep j hj]
        have : p ++ b :: bits = (p ++ [b]) ++ bits := by simp
        rw [this]
        simp only [List.getD]
        rw [List.getElem?_append_left (l₁ := p ++ [b]) (by simp; omega)]
      · simp only [List.getD_cons_succ]
        rw [h2 k (by simpa using hk) j hj]
        have : p ++ b :: bits = (p ++ [b]) ++ bits := by simp
        rw [this]
        simp only [List.getD]
        rw [List.getElem?_append_right (l₁ := p ++ [b]) (by simp; omega)]
        congr 2
        simp
        omega
    · rw [if_neg h8]
      have hl : (p ++ [b]).length = p.length + 1 := by simp
      have ih := packLoop8_spec big bits _ (p ++ [b]) hstep (by rw [hl]; omega)
      rw [hl] at ih
      refine ⟨by rw [ih.1]; simp only [List.length_cons]; congr 1; omega, ?_⟩
      intro k hk j hj
      have := ih.2 k hk j hj
      simpa using this

theorem unpackBit_eq {big : Bool} {byte : BitVec 8} {j : Nat} :
    unpackBit big byte j = if byte.getLsbD (bitSlot big j) then 1#8 else 0#8 := by
  unfold unpackBit
  apply BitVec.eq_of_getLsbD_eq
  intro i hi
  rw [BitVec.getLsbD_and, BitVec.getLsbD_ushiftRight, BitVec.getLsbD_one]
  rcases Nat.eq_zero_or_pos i with h0 | h0
  · subst h0
    by_cases h : byte.getLsbD (bitSlot big j) <;> simp [h]
  · have hne : ¬ i = 0 := by omega
    by_cases h : byte.getLsbD (bitSlot big j) <;> simp [h, hne]

theorem unpackLoop_eq (big : Bool) (outSize : Nat) : ∀ (bytes : List (BitVec 8)) (out : Nat), out ≤ outSize →
    unpackLoop big outSize bytes out =
      (bytes.flatMap fun b => (List.range 8).map (unpackBit big b)).take (outSize - out)
  | [], out, _ => by simp [unpackLoop]
  | byte :: r, out, h => by
    rw [unpackLoop]
    rw [unpackLoop_eq big outSize r _ (by simp; omega), List.flatMap_cons, List.take_append]
    congr 1
    simp only [List.length_take, List.length_map, List.length_range]
    congr 1
    omega

theorem flatMap8_getElem? (f : β → Nat → γ) : ∀ (l : List β) (k j : Nat), j < 8 →
    (l.flatMap fun b => (List.range 8).map (f b))[8 * k + j]? = (l[k]?).map fun b => f b j
  | [], k, j, _ => by simp
  | b :: l, 0, j, hj => by
    rw [List.flatMap_cons, List.getElem?_append_left (by simp; omega)]
    simp [hj]
  | b :: l, k + 1, j, hj => by
    rw [List.flatMap_cons, List.getElem?_append_right (by simp; omega)]
    have : 8 * (k + 1) + j - ((List.range 8).map (f b)).length = 8 * k + j := by simp; omega
    rw [this, flatMap8_getElem? f l k j hj]
    simp

theorem flatMap8_length (f : β → Nat → γ) (l : List β) :
    (l.flatMap fun b => (List.range 8).map (f b)).length = l.length * 8 := by
  induction l with
  | nil => rfl
  | cons b l ih => rw [List.flatMap_cons, List.length_append, ih]; simp; omega

theorem packFold_spec (big : Bool) (start : Nat) (g : Nat → Bool) : ∀ (n : Nat), n ≤ 8 →
    Encodes big ((List.range' start n).foldl (fun byte bit => packStep big byte (bit - start) (g bit)) 0#8)
      ((List.range' start n).map g)
  | 0, _ => by simpa using encodes_nil big
  | n + 1, h => by
    have ih := packFold_spec big start g n (by omega)
    rw [List.range'_concat, List.foldl_append, List.map_append]
    simp only [Nat.one_mul, List.foldl_cons, List.foldl_nil, List.map_cons, List.map_nil]
    have hs := encodes_step ih (by simp; omega) (g (start + n))
    have : start + n - start = ((List.range' start n).map g).length := by simp
    rw [this]
    exact hs

/-! ### flat to n-d -/

theorem unflattenAux_spec : ∀ {s : List Nat} {r : Nat}, 0 < size s →
    InShape s (unflattenAux s r).1 ∧ rank s (unflattenAux s r).1 = r % size s ∧
      (unflattenAux s r).2 = r / size s
  | [], r, _ => by simp [unflattenAux, InShape, rank, size, Nat.mod_one]
  | n :: s, r, h => by
    rw [size] at h
    have hn : 0 < n := Nat.pos_of_mul_pos_right h
    have hs : 0 < size s := Nat.pos_of_mul_pos_left h
    obtain ⟨h1, h2, h3⟩ := unflattenAux_spec (s := s) (r := r) hs
    unfold unflattenAux
    dsimp only
    refine ⟨⟨Nat.mod_lt _ hn, h1⟩, ?_, ?_⟩
    · rw [rank, h2, h3, size, Nat.mul_comm n, Nat.mod_mul, Nat.mul_comm (size s), Nat.add_comm]
    · rw [h3, size, Nat.mul_comm n, Nat.div_div_eq_div_mul]

end Rumpy
