import Verif.Lemmas.Totals
import Verif.Lemmas.FloatOps
import Verif.Props.Arith
import Verif.Props.Ufunc
import Mathlib.Tactic.Ring
import Mathlib.Tactic.Linarith
import Mathlib.Tactic.Positivity
/-!
# Lemmas: values of reductions by dtype
-/

namespace Rumpy
open Spec Props

/-- The two ways a result comes about. -/
theorem totalAll_folded (op : Total) (d : DType) {h : Held Elem} (hw : h.view.WF) :
    (d ≠ .bool ∧ ∃ x, Folded (totalStep op d) (totalInit op d) (size h.view.shape) h.nd.toList x ∧ totalAll op d h = storeTotal d x) ∨
      Folded (totalAcc op d) (totalAccInit op d) (size h.view.shape) h.nd.toList (totalAll op d h) := by
  unfold totalAll
  have fb : Folded (totalAcc op d) (totalAccInit op d) (size h.view.shape) h.nd.toList
      (if sizeOf h.view.shape = 0 then totalAccInit op d
        else h.view.addrs.foldl (fun acc p => totalAcc op d acc (h.mem p)) (totalAccInit op d)) := by
    have hl := list_folded (totalAcc op d) (totalAccInit op d) h.nd.toList
    rw [length_toList] at hl
    rw [sizeOf_eq]
    split
    · next h0 =>
      have : indices h.view.shape = [] := List.eq_nil_of_length_eq_zero (by rw [length_indices, h0])
      have e : h.nd.toList = [] := by simp [Nd.toList, Held.nd, View.denote, this]
      rw [e, h0]
      exact .nil
    · rw [← List.foldl_map (f := h.mem) (g := totalAcc op d), addrs_map hw]
      exact hl
  by_cases hd : d = .bool
  · rw [if_pos hd]
    exact .inr fb
  · rw [if_neg hd]
    cases ht : reduceTyped (totalStep op d) (totalInit op d) h.mem h.view with
    | some x => exact .inl ⟨hd, x, reduceTyped_folded _ _ _ hw ht, rfl⟩
    | none => exact .inr fb

/-! ### Integers -/

/-- The whole number of an element. -/
def wholeOf (x : Elem) : Int := x.whole.getD 0

theorem wholeOf_map (ns : List Int) : (ns.map Elem.int).map wholeOf = ns := by
  rw [List.map_map]
  exact (List.map_congr_left fun _ _ => rfl).trans (List.map_id _)

theorem folded_whole {op : Total} {f : List Int → Int} (hf : op.whole = some f) {lo hi : Int} (hlh : lo ≤ 0 ∧ 1 ≤ hi) {c : Elem → Elem → Elem}
    (hc : ∀ a b, c (.int a) (.int b) = .int (totalInt lo hi op a b)) {e : Elem} (he : e = .int (f [])) {k : Nat} {l : List Elem} {a : Elem}
    (h : Folded c e k l a) : (∀ x ∈ l, ∃ n, x = .int n) →
      ∃ t : Int, a = .int t ∧ (hi - lo + 1) ∣ t - f (l.map wholeOf) ∧ lo ≤ t ∧ t ≤ hi := by
  have key : ∀ {l l' : List Int} {s t : Int}, (hi - lo + 1) ∣ s - f l → (hi - lo + 1) ∣ t - f l' →
      (hi - lo + 1) ∣ totalInt lo hi op s t - f (l ++ l') ∧ lo ≤ totalInt lo hi op s t ∧ totalInt lo hi op s t ≤ hi := by
    intro l l' s t hs ht
    cases op <;> cases hf
    · obtain ⟨h1, h2, h3⟩ := wrapTo_congr (show lo ≤ hi by omega) (s + t)
      refine ⟨?_, h1, h2⟩
      rw [List.sum_append]
      have := (h3.add hs).add ht
      rwa [show wrapTo lo hi (s + t) - (s + t) + (s - l.sum) + (t - l'.sum) = totalInt lo hi .sum s t - (l.sum + l'.sum) by
        simp only [totalInt]; ring] at this
    · obtain ⟨h1, h2, h3⟩ := wrapTo_congr (show lo ≤ hi by omega) (s * t)
      refine ⟨?_, h1, h2⟩
      rw [List.prod_append]
      have := (h3.add (hs.mul_right t)).add (ht.mul_left l.prod)
      rwa [show wrapTo lo hi (s * t) - s * t + (s - l.prod) * t + l.prod * (t - l'.prod) = totalInt lo hi .prod s t - l.prod * l'.prod by
        simp only [totalInt]; ring] at this
  have fone : ∀ n, f [n] = n := by cases op <;> cases hf <;> simp
  induction h with
  | nil =>
    intro _
    refine ⟨_, he, by simp, ?_⟩
    cases op <;> cases hf
    · exact ⟨hlh.1, by simpa using (by omega : (0:Int) ≤ hi)⟩
    · exact ⟨by simpa using (by omega : lo ≤ 1), hlh.2⟩
  | @step k l a x _ ih =>
    intro hx
    obtain ⟨t, rfl, h1, -⟩ := ih fun y hy => hx y (List.mem_append_left _ hy)
    obtain ⟨n, rfl⟩ := hx x (by simp)
    obtain ⟨h2, h3⟩ := key (l' := [n]) (t := n) h1 (by rw [fone]; simp)
    refine ⟨_, hc _ _, ?_, h3⟩
    rw [List.map_append]
    exact h2
  | @join k l l' a b _ _ ih ih' =>
    intro hx
    obtain ⟨s, rfl, h1, -⟩ := ih fun y hy => hx y (List.mem_append_left _ hy)
    obtain ⟨t, rfl, h2, -⟩ := ih' fun y hy => hx y (List.mem_append_right _ hy)
    obtain ⟨h3, h4⟩ := key h1 h2
    refine ⟨_, hc _ _, ?_, h4⟩
    rw [List.map_append]
    exact h3
  | @perm k l l' a hp _ ih =>
    intro hx
    obtain ⟨t, h1, h2, h3⟩ := ih fun y hy => hx y (hp.mem_iff.1 hy)
    refine ⟨t, h1, ?_, h3⟩
    have : f (l'.map wholeOf) = f (l.map wholeOf) := by
      cases op <;> cases hf
      · exact ((hp.map _).sum_eq).symm
      · exact ((hp.map _).prod_eq).symm
    rw [this]; exact h2
  | le _ _ ih => exact ih

/-- The extreme of some elements, whatever else enters. -/
theorem folded_extreme {α : Type} {c : α → α → α} {e : α} {D G : α → Prop} {R : α → α → Prop} (hGD : ∀ x, G x → D x)
    (trans : ∀ a b c, G b → R a b → R b c → R a c) (he : G e)
    (hc : ∀ a x, G a → D x → (c a x = a ∨ (c a x = x ∧ G x)) ∧ R a (c a x) ∧ (G x → R x (c a x))) {k : Nat} {l : List α} {a : α}
    (h : Folded c e k l a) : (∀ x ∈ l, D x) → G a ∧ (a = e ∨ a ∈ l) ∧ ∀ x ∈ l, G x → R x a := by
  induction h with
  | nil => exact fun _ => ⟨he, .inl rfl, fun x hx => nomatch hx⟩
  | @step k l a x _ ih =>
    intro hx
    obtain ⟨h1, h2, h3⟩ := ih fun y hy => hx y (List.mem_append_left _ hy)
    obtain ⟨h4, h5, h6⟩ := hc a x h1 (hx x (by simp))
    refine ⟨?_, ?_, ?_⟩
    · rcases h4 with h4 | ⟨h4, h7⟩ <;> rw [h4] <;> assumption
    · rcases h4 with h4 | ⟨h4, h7⟩ <;> rw [h4]
      · exact h2.imp id fun h => List.mem_append_left _ h
      · exact .inr (by simp)
    · intro y hy gy
      rcases List.mem_append.1 hy with hy | hy
      · exact trans _ _ _ h1 (h3 y hy gy) h5
      · rw [List.mem_singleton] at hy
        subst hy
        exact h6 gy
  | @join k l l' a b _ _ ih ih' =>
    intro hx
    obtain ⟨h1, h2, h3⟩ := ih fun y hy => hx y (List.mem_append_left _ hy)
    obtain ⟨g1, g2, g3⟩ := ih' fun y hy => hx y (List.mem_append_right _ hy)
    obtain ⟨h4, h5, h6⟩ := hc a b h1 (hGD _ g1)
    refine ⟨?_, ?_, ?_⟩
    · rcases h4 with h4 | ⟨h4, h7⟩ <;> rw [h4] <;> assumption
    · rcases h4 with h4 | ⟨h4, h7⟩ <;> rw [h4]
      · exact h2.imp id fun h => List.mem_append_left _ h
      · exact g2.imp id fun h => List.mem_append_right _ h
    · intro y hy gy
      rcases List.mem_append.1 hy with hy | hy
      · exact trans _ _ _ h1 (h3 y hy gy) h5
      · exact trans _ _ _ g1 (g3 y hy gy) (h6 g1)
  | @perm k l l' a hp _ ih =>
    intro hx
    obtain ⟨h1, h2, h3⟩ := ih fun y hy => hx y (hp.mem_iff.1 hy)
    exact ⟨h1, h2.imp id fun h => hp.mem_iff.1 h, fun x hx' => h3 x (hp.mem_iff.2 hx')⟩
  | le _ _ ih => exact ih

/-! ### Floats -/

theorem topOf_isFloat {p : Nat} {lo hi : Int} (hlh : lo ≤ hi) : IsFloat p lo hi (topOf p hi) := by
  refine ⟨2 ^ p - 1, hi, ?_, hlh, le_rfl, by unfold topOf; push_cast; rfl⟩
  have : (0 : Int) < 2 ^ p := by positivity
  rw [abs_of_nonneg (by omega)]
  omega

/-- A number within the format rounds to a number. -/
theorem roundBin_num {p : Nat} {lo hi : Int} (hlh : lo ≤ hi) {q : ℚ} (hq : |q| ≤ topOf p hi) : ∃ r, roundBin p lo hi q = .num r := by
  have h1 : ∀ t : ℚ, |t| ≤ topOf p hi → roundBin p lo hi t ≠ .posInf := fun t ht h =>
    absurd (roundBin_posInf hlh h (topOf_isFloat hlh)) (not_lt.2 ((le_abs_self t).trans ht))
  cases h : roundBin p lo hi q with
  | num r => exact ⟨r, rfl⟩
  | posInf => exact absurd h (h1 q hq)
  | negInf =>
    refine absurd ?_ (h1 (-q) (by rwa [abs_neg]))
    rw [roundBin_neg, h]; rfl
  | nan =>
    unfold roundBin at h
    dsimp only at h
    split at h
    · cases h
    · split at h <;> cases h

/-- Every float is a multiple of the smallest positive number. -/
theorem isFloat_multiple {p : Nat} {lo hi : Int} {x : ℚ} (h : IsFloat p lo hi x) : ∃ n : Int, x = n * (2 : ℚ) ^ lo := by
  obtain ⟨m, e, -, h1, -, rfl⟩ := h
  exact zpow_multiple m h1

theorem isFloat_of_multiple {p : Nat} {lo hi g : Int} (h1 : lo ≤ g) (h2 : g ≤ hi) {n : Int} (hn : |(n : ℚ) * 2 ^ g| < 2 ^ p * 2 ^ g) :
    IsFloat p lo hi (n * (2 : ℚ) ^ g) := by
  refine ⟨n, g, ?_, h1, h2, rfl⟩
  rw [abs_mul, abs_of_pos (two_zpow_pos g)] at hn
  have := lt_of_mul_lt_mul_right hn (two_zpow_pos g).le
  exact_mod_cast this

/-- The relative error of a sum of two floats. -/
theorem add_error {p : Nat} {lo hi : Int} (hp : 0 < p) (hlh : lo ≤ hi) {x y : ℚ} (hx : IsFloat p lo hi x) (hy : IsFloat p lo hi y)
    (hq : |x + y| ≤ topOf p hi) :
    ∃ r, roundBin p lo hi (x + y) = .num r ∧ IsFloat p lo hi r ∧ |r - (x + y)| ≤ (2 : ℚ)⁻¹ ^ p * |x + y| := by
  obtain ⟨r, hr⟩ := roundBin_num hlh hq
  refine ⟨r, hr, ?_, ?_⟩
  · have := roundBin_isFlt (lo := lo) (hi := hi) hp hlh (x + y)
    rw [hr] at this
    exact this
  obtain ⟨m, hm⟩ := isFloat_multiple hx
  obtain ⟨n, hn⟩ := isFloat_multiple hy
  have hmn : x + y = ((m + n : Int) : ℚ) * 2 ^ lo := by rw [hm, hn]; push_cast; ring
  generalize x + y = q at *
  by_cases h0 : q = 0
  · subst h0
    have : roundBin p lo hi 0 = .num 0 := roundBin_exact ⟨0, lo, by simp, le_rfl, hlh, by simp⟩
    rw [this] at hr
    cases hr
    simp
  obtain ⟨b1, b2⟩ := log_bounds h0
  by_cases hs : lo ≤ Int.log 2 |q| - p + 1
  · have he := roundBin_err hr
    rw [max_eq_right hs] at he
    rw [abs_sub_comm]
    refine he.trans ?_
    have : (2 : ℚ) ^ (Int.log 2 |q| - p + 1) / 2 = (2 : ℚ)⁻¹ ^ p * 2 ^ Int.log 2 |q| := by
      rw [zpow_add₀ (by norm_num), zpow_sub₀ (by norm_num), zpow_natCast, inv_pow]
      field_simp
    rw [this]
    exact mul_le_mul_of_nonneg_left b1 (by positivity)
  · have hex : IsFloat p lo hi q := by
      rw [hmn]
      refine isFloat_of_multiple le_rfl hlh ?_
      rw [← hmn, ← zpow_natCast, ← zpow_add₀ (by norm_num)]
      exact b2.trans_le (two_zpow_le (by omega))
    rw [roundBin_exact hex] at hr
    cases hr
    rw [sub_self, abs_zero]
    positivity

/-- The number of a float element. -/
def numOf : Elem → ℚ
  | .flt (.num x) => x
  | _ => 0

theorem absSum_nonneg (l : List ℚ) : 0 ≤ absSum l := by
  apply List.sum_nonneg
  intro x hx
  obtain ⟨y, -, rfl⟩ := List.mem_map.1 hx
  exact abs_nonneg y

theorem absSum_append (l l' : List ℚ) : absSum (l ++ l') = absSum l + absSum l' := by
  simp [absSum]

theorem abs_exactSum (l : List ℚ) : |exactSum l| ≤ absSum l := by
  induction l with
  | nil => simp [exactSum, absSum]
  | cons x l ih =>
    have : |x + l.sum| ≤ |x| + |l.sum| := abs_add_le _ _
    simp only [exactSum, absSum, List.sum_cons, List.map_cons] at *
    linarith

/-- Combining two sums with errors. -/
theorem error_step {u K S T A B s t r : ℚ} (hu : 0 ≤ u) (hS : |S| ≤ A) (hT : |T| ≤ B) (hs : |s - S| ≤ (K - 1) * A)
    (ht : |t - T| ≤ (K - 1) * B) (hr : |r - (s + t)| ≤ u * |s + t|) : |r - (S + T)| ≤ (K * (1 + u) - 1) * (A + B) := by
  have h1 : |s + t| ≤ K * (A + B) := by
    have e1 : |s| ≤ |s - S| + |S| := by have := abs_add_le (s - S) S; simpa using this
    have e2 : |t| ≤ |t - T| + |T| := by have := abs_add_le (t - T) T; simpa using this
    have := abs_add_le s t
    nlinarith
  have h2 : |r - (S + T)| ≤ |r - (s + t)| + |s - S| + |t - T| := by
    have e : r - (S + T) = (r - (s + t)) + (s - S) + (t - T) := by ring
    rw [e]
    exact (abs_add_le _ _).trans (add_le_add_left (abs_add_le _ _) _)
  have h3 := mul_le_mul_of_nonneg_left h1 hu
  nlinarith

theorem folded_sum {p : Nat} {lo hi : Int} (hp : 0 < p) (hlh : lo ≤ hi) {c : Elem → Elem → Elem}
    (hc : ∀ x y, IsFlt p lo hi x → IsFlt p lo hi y → c (.flt x) (.flt y) = .flt (fltAdd p lo hi x y)) {k : Nat} {l : List Elem} {a : Elem}
    (h : Folded c (.flt (.num 0)) k l a) : (∀ x ∈ l, ∃ q, x = .flt (.num q) ∧ IsFloat p lo hi q) →
      (1 + (2 : ℚ)⁻¹ ^ p) ^ k * absSum (l.map numOf) ≤ topOf p hi →
      ∃ q, a = .flt (.num q) ∧ IsFloat p lo hi q ∧
        |q - exactSum (l.map numOf)| ≤ ((1 + (2 : ℚ)⁻¹ ^ p) ^ k - 1) * absSum (l.map numOf) := by
  generalize hu : (2 : ℚ)⁻¹ ^ p = u
  have u0 : 0 ≤ u := by rw [← hu]; positivity
  have one_le : ∀ k : Nat, 1 ≤ (1 + u) ^ k := fun k => one_le_pow₀ (by linarith)
  have key : ∀ {k : Nat} {l l' : List ℚ} {s t : ℚ}, IsFloat p lo hi s → IsFloat p lo hi t →
      |s - exactSum l| ≤ ((1 + u) ^ k - 1) * absSum l → |t - exactSum l'| ≤ ((1 + u) ^ k - 1) * absSum l' →
      (1 + u) ^ (k + 1) * absSum (l ++ l') ≤ topOf p hi →
      ∃ q, fltAdd p lo hi (.num s) (.num t) = .num q ∧ IsFloat p lo hi q ∧
        |q - exactSum (l ++ l')| ≤ ((1 + u) ^ (k + 1) - 1) * absSum (l ++ l') := by
    intro k l l' s t fs ft hs ht hb
    have A0 := absSum_nonneg l
    have B0 := absSum_nonneg l'
    have hS := abs_exactSum l
    have hT := abs_exactSum l'
    rw [absSum_append] at hb ⊢
    have hle : |s + t| ≤ topOf p hi := by
      have e1 : |s| ≤ |s - exactSum l| + |exactSum l| := by have := abs_add_le (s - exactSum l) (exactSum l); simpa using this
      have e2 : |t| ≤ |t - exactSum l'| + |exactSum l'| := by have := abs_add_le (t - exactSum l') (exactSum l'); simpa using this
      have e3 := abs_add_le s t
      have e4 : (1 + u) ^ k * (absSum l + absSum l') ≤ (1 + u) ^ (k + 1) * (absSum l + absSum l') :=
        mul_le_mul_of_nonneg_right (pow_le_pow_right₀ (by linarith) (Nat.le_succ k)) (by linarith)
      nlinarith
    obtain ⟨r, h1, h2, h3⟩ := add_error hp hlh fs ft hle
    rw [hu] at h3
    refine ⟨r, h1, h2, ?_⟩
    have := error_step u0 hS hT hs ht h3
    rw [show exactSum (l ++ l') = exactSum l + exactSum l' by simp [exactSum], pow_succ]
    exact this
  induction h with
  | nil =>
    intro _ _
    exact ⟨0, rfl, ⟨0, lo, by simp, le_rfl, hlh, by simp⟩, by simp [exactSum, absSum]⟩
  | @step k l a x _ ih =>
    intro hx hb
    obtain ⟨t, rfl, ft⟩ := hx x (by simp)
    rw [List.map_append] at hb ⊢
    have hb' : (1 + u) ^ k * absSum (l.map numOf) ≤ topOf p hi := by
      refine le_trans ?_ hb
      rw [absSum_append]
      exact mul_le_mul (pow_le_pow_right₀ (by linarith) (Nat.le_succ k)) (by linarith [absSum_nonneg ([Elem.flt (.num t)].map numOf)])
        (absSum_nonneg _) (by linarith [one_le (k + 1)])
    obtain ⟨s, rfl, fs, hs⟩ := ih (fun y hy => hx y (List.mem_append_left _ hy)) hb'
    have ht : |t - exactSum ([Elem.flt (.num t)].map numOf)| ≤ ((1 + u) ^ k - 1) * absSum ([Elem.flt (.num t)].map numOf) := by
      rw [show exactSum ([Elem.flt (.num t)].map numOf) = t by simp [exactSum, numOf], sub_self, abs_zero]
      exact mul_nonneg (by linarith [one_le k]) (absSum_nonneg _)
    obtain ⟨q, h1, h2, h3⟩ := key fs ft hs ht hb
    exact ⟨q, by rw [hc (.num s) (.num t) fs ft, h1], h2, h3⟩
  | @join k l l' a b _ _ ih ih' =>
    intro hx hb
    rw [List.map_append] at hb ⊢
    have hk : (1 + u) ^ k ≤ (1 + u) ^ (k + 1) := pow_le_pow_right₀ (by linarith) (Nat.le_succ k)
    have k0 : 0 ≤ (1 + u) ^ (k + 1) := by linarith [one_le (k + 1)]
    have hb1 : (1 + u) ^ k * absSum (l.map numOf) ≤ topOf p hi := by
      refine le_trans ?_ hb
      rw [absSum_append]
      exact mul_le_mul hk (by linarith [absSum_nonneg (l'.map numOf)]) (absSum_nonneg _) k0
    have hb2 : (1 + u) ^ k * absSum (l'.map numOf) ≤ topOf p hi := by
      refine le_trans ?_ hb
      rw [absSum_append]
      exact mul_le_mul hk (by linarith [absSum_nonneg (l.map numOf)]) (absSum_nonneg _) k0
    obtain ⟨s, rfl, fs, hs⟩ := ih (fun y hy => hx y (List.mem_append_left _ hy)) hb1
    obtain ⟨t, rfl, ft, ht⟩ := ih' (fun y hy => hx y (List.mem_append_right _ hy)) hb2
    obtain ⟨q, h1, h2, h3⟩ := key fs ft hs ht hb
    exact ⟨q, by rw [hc (.num s) (.num t) fs ft, h1], h2, h3⟩
  | @perm k l l' a hp' _ ih =>
    intro hx hb
    have e1 : absSum (l'.map numOf) = absSum (l.map numOf) := (((hp'.map _).map _).sum_eq).symm
    have e2 : exactSum (l'.map numOf) = exactSum (l.map numOf) := ((hp'.map _).sum_eq).symm
    rw [e1] at hb ⊢
    rw [e2]
    exact ih (fun y hy => hx y (hp'.mem_iff.1 hy)) hb
  | @le k k' l a hk _ ih =>
    intro hx hb
    have hkk : (1 + u) ^ k ≤ (1 + u) ^ k' := pow_le_pow_right₀ (by linarith) hk
    obtain ⟨q, h1, h2, h3⟩ := ih hx ((mul_le_mul_of_nonneg_right hkk (absSum_nonneg _)).trans hb)
    exact ⟨q, h1, h2, h3.trans (mul_le_mul_of_nonneg_right (by linarith) (absSum_nonneg _))⟩

/-- Sums of multiples of a power of two that stay small are exact. -/
theorem folded_sum_exact {p : Nat} {lo hi g : Int} (hg : lo ≤ g) (hg' : g ≤ hi) {c : Elem → Elem → Elem}
    (hc : ∀ x y, IsFlt p lo hi x → IsFlt p lo hi y → c (.flt x) (.flt y) = .flt (fltAdd p lo hi x y)) {k : Nat} {l : List Elem} {a : Elem}
    (h : Folded c (.flt (.num 0)) k l a) : (∀ x ∈ l, ∃ n : Int, x = .flt (.num (n * (2 : ℚ) ^ g))) →
      absSum (l.map numOf) < 2 ^ p * 2 ^ g →
      a = .flt (.num (exactSum (l.map numOf))) ∧ ∃ n : Int, exactSum (l.map numOf) = n * (2 : ℚ) ^ g := by
  have key : ∀ {l l' : List ℚ}, (∃ n : Int, exactSum l = n * (2 : ℚ) ^ g) → (∃ n : Int, exactSum l' = n * (2 : ℚ) ^ g) →
      absSum (l ++ l') < 2 ^ p * 2 ^ g → c (.flt (.num (exactSum l))) (.flt (.num (exactSum l'))) = .flt (.num (exactSum (l ++ l'))) ∧
        ∃ n : Int, exactSum (l ++ l') = n * (2 : ℚ) ^ g := by
    rintro l l' ⟨m, hm⟩ ⟨n, hn⟩ hb
    have hs := abs_exactSum l
    have ht := abs_exactSum l'
    have hst := abs_exactSum (l ++ l')
    have a0 := absSum_nonneg l
    have b0 := absSum_nonneg l'
    have hb' := hb
    rw [absSum_append] at hb'
    have e : exactSum (l ++ l') = exactSum l + exactSum l' := by simp [exactSum]
    have hmn : exactSum (l ++ l') = ((m + n : Int) : ℚ) * 2 ^ g := by rw [e, hm, hn]; push_cast; ring
    have f1 : IsFloat p lo hi (exactSum l) := by
      rw [hm]; exact isFloat_of_multiple hg hg' (by rw [← hm]; linarith)
    have f2 : IsFloat p lo hi (exactSum l') := by
      rw [hn]; exact isFloat_of_multiple hg hg' (by rw [← hn]; linarith)
    have f3 : IsFloat p lo hi (exactSum (l ++ l')) := by
      rw [hmn]; exact isFloat_of_multiple hg hg' (by rw [← hmn]; linarith)
    refine ⟨?_, _, hmn⟩
    rw [hc (.num _) (.num _) f1 f2]
    show Elem.flt (roundBin p lo hi (exactSum l + exactSum l')) = _
    rw [← e, roundBin_exact f3]
  induction h with
  | nil => intro _ _; exact ⟨rfl, 0, by simp [exactSum]⟩
  | @step k l a x _ ih =>
    intro hx hb
    obtain ⟨n, rfl⟩ := hx x (by simp)
    rw [List.map_append] at hb ⊢
    have hb' := hb
    rw [absSum_append] at hb'
    obtain ⟨rfl, h2⟩ := ih (fun y hy => hx y (List.mem_append_left _ hy)) (by
      have := absSum_nonneg ([Elem.flt (.num (n * (2 : ℚ) ^ g))].map numOf); linarith)
    have e : exactSum ([Elem.flt (.num (n * (2 : ℚ) ^ g))].map numOf) = n * (2 : ℚ) ^ g := by simp [exactSum, numOf]
    have := key (l' := [Elem.flt (.num (n * (2 : ℚ) ^ g))].map numOf) h2 ⟨n, e⟩ hb
    rw [e] at this
    exact this
  | @join k l l' a b _ _ ih ih' =>
    intro hx hb
    rw [List.map_append] at hb ⊢
    have hb' := hb
    rw [absSum_append] at hb'
    obtain ⟨rfl, h2⟩ := ih (fun y hy => hx y (List.mem_append_left _ hy)) (by have := absSum_nonneg (l'.map numOf); linarith)
    obtain ⟨rfl, h3⟩ := ih' (fun y hy => hx y (List.mem_append_right _ hy)) (by have := absSum_nonneg (l.map numOf); linarith)
    exact key h2 h3 hb
  | @perm k l l' a hp' _ ih =>
    intro hx hb
    have e1 : absSum (l'.map numOf) = absSum (l.map numOf) := (((hp'.map _).map _).sum_eq).symm
    have e2 : exactSum (l'.map numOf) = exactSum (l.map numOf) := ((hp'.map _).sum_eq).symm
    rw [e1] at hb
    rw [e2]
    exact ih (fun y hy => hx y (hp'.mem_iff.1 hy)) hb
  | le _ _ ih => exact ih

end Rumpy
