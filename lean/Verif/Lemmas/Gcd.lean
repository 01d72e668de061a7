import Verif.Model.Gcd
import Verif.Lemmas.Elementwise
import Mathlib.Data.Int.GCD
import Mathlib.Tactic.Ring
import Mathlib.Tactic.Linarith
/-!
# Lemmas: gcd and lcm
-/

namespace Rumpy

theorem pow_pred (w : Nat) (hw : 0 < w) : 2 ^ w = 2 * 2 ^ (w - 1) := by
  obtain ⟨k, rfl⟩ : ∃ k, w = k + 1 := ⟨w - 1, by omega⟩
  rw [Nat.add_sub_cancel, Nat.pow_succ]; omega

/-- `abs` of every value but the smallest, and of the smallest. -/
theorem absVal_eq (w : Nat) (hw : 0 < w) (x : Int) (h1 : -2 ^ (w - 1) ≤ x) (h2 : x < 2 ^ (w - 1)) :
    absVal w x = if x = -2 ^ (w - 1) then x else x.natAbs := by
  unfold absVal
  rw [pow_pred w hw]
  have hM : 0 < 2 ^ (w - 1) := Nat.pos_of_ne_zero (by simp)
  have e : (2 : Int) ^ (w - 1) = ((2 ^ (w - 1) : Nat) : Int) := by push_cast; rfl
  rw [e] at h1 h2 ⊢
  clear e
  generalize 2 ^ (w - 1) = M at *
  by_cases hx : x = -(M : Int)
  · rw [if_pos hx]
    have : ((x.natAbs : Int)) = x + ((2 * M : Nat) : Int) := by omega
    rw [this, Int.add_bmod_right]
    exact Int.bmod_eq_of_le (by omega) (by omega)
  · rw [if_neg hx]
    exact Int.bmod_eq_of_le (by omega) (by omega)

theorem gcdLoop_spec (w : Nat) (fuel : Nat) (a b : Int) (hf : b.natAbs ≤ fuel)
    (ha : a.natAbs ≤ 2 ^ (w - 1)) (hb : b.natAbs ≤ 2 ^ (w - 1))
    (h1 : a = -2 ^ (w - 1) → 0 ≤ b) (h2 : b = -2 ^ (w - 1) → 0 ≤ a) :
    ∃ r, gcdLoop w fuel a b = some r ∧ r.natAbs = Nat.gcd a.natAbs b.natAbs ∧ (0 ≤ a → 0 ≤ b → 0 ≤ r) := by
  induction fuel generalizing a b with
  | zero =>
    have : b = 0 := by omega
    subst this
    unfold gcdLoop
    exact ⟨a, by simp, by simp, fun h _ => h⟩
  | succ n ih =>
    unfold gcdLoop
    by_cases hb0 : b = 0
    · subst hb0
      exact ⟨a, by simp, by simp, fun h _ => h⟩
    · rw [if_neg hb0]
      dsimp only
      rw [if_neg (by rintro ⟨e1, e2⟩; have := h1 e1; omega)]
      have hn : (a.tmod b).natAbs = a.natAbs % b.natAbs := Int.natAbs_tmod a b
      have hlt : a.natAbs % b.natAbs < b.natAbs := Nat.mod_lt _ (by omega)
      have hne : a.tmod b ≠ -2 ^ (w - 1) := by
        intro e
        rw [e] at hn
        have e2 : ((-2 ^ (w - 1) : Int)).natAbs = 2 ^ (w - 1) := by
          rw [Int.natAbs_neg, Int.natAbs_pow]; rfl
        omega
      obtain ⟨r, hr, hg, hs⟩ := ih b (a.tmod b) (by omega) hb (by omega)
        (fun e => Int.tmod_nonneg b (h2 e)) (fun e => absurd e hne)
      refine ⟨r, hr, ?_, ?_⟩
      · rw [hg, hn, Nat.gcd_comm a.natAbs, Nat.gcd_rec b.natAbs a.natAbs]
        exact Nat.gcd_comm _ _
      · intro h3 h4
        exact hs h4 (Int.tmod_nonneg b h3)

theorem gcdLoopU_spec (fuel a b : Nat) (hf : b ≤ fuel) : gcdLoopU fuel a b = some (Nat.gcd a b) := by
  induction fuel generalizing a b with
  | zero =>
    have : b = 0 := by omega
    subst this
    unfold gcdLoopU
    simp
  | succ n ih =>
    unfold gcdLoopU
    by_cases hb0 : b = 0
    · subst hb0; simp
    · rw [if_neg hb0]
      dsimp only
      have hlt : a % b < b := Nat.mod_lt _ (by omega)
      rw [ih b (a % b) (by omega), Nat.gcd_comm a b, Nat.gcd_rec b a, Nat.gcd_comm]

theorem gcdSigned_spec (w : Nat) (hw1 : 1 < w) (a b : Int) (ha : -2 ^ (w - 1) ≤ a) (ha' : a < 2 ^ (w - 1))
    (hb : -2 ^ (w - 1) ≤ b) (hb' : b < 2 ^ (w - 1)) :
    ∃ r, gcdSigned w a b = some r ∧ r.natAbs = Int.gcd a b ∧ (a ≠ -2 ^ (w - 1) → b ≠ -2 ^ (w - 1) → 0 ≤ r) ∧
      (a = -2 ^ (w - 1) → b = -2 ^ (w - 1) → r = -2 ^ (w - 1)) := by
  unfold gcdSigned
  have hw : 0 < w := by omega
  have hM : (2 : Int) ≤ 2 ^ (w - 1) := by
    obtain ⟨k, rfl⟩ : ∃ k, w = k + 2 := ⟨w - 2, by omega⟩
    have : (0 : Int) < 2 ^ k := by positivity
    rw [show k + 2 - 1 = k + 1 by omega, pow_succ]
    omega
  have habs : ∀ x : Int, -2 ^ (w - 1) ≤ x → x < 2 ^ (w - 1) → (absVal w x).natAbs = x.natAbs ∧
      (x ≠ -2 ^ (w - 1) → 0 ≤ absVal w x) ∧ (absVal w x < 0 → x = -2 ^ (w - 1) ∧ absVal w x = -2 ^ (w - 1)) := by
    intro x h1 h2
    rw [absVal_eq w hw x h1 h2]
    by_cases h : x = -2 ^ (w - 1)
    · rw [if_pos h]; exact ⟨rfl, fun k => absurd h k, fun _ => ⟨h, h⟩⟩
    · rw [if_neg h]; exact ⟨Int.natAbs_natCast _, fun _ => by simp, fun k => by omega⟩
  have hle : ∀ x : Int, -2 ^ (w - 1) ≤ x → x < 2 ^ (w - 1) → x.natAbs ≤ 2 ^ (w - 1) := by
    intro x h1 h2
    have e : (2 : Int) ^ (w - 1) = ((2 ^ (w - 1) : Nat) : Int) := by push_cast; rfl
    rw [e] at h1 h2
    omega
  obtain ⟨ea, na, ma⟩ := habs a ha ha'
  obtain ⟨eb, nb, mb⟩ := habs b hb hb'
  by_cases hboth : a = -2 ^ (w - 1) ∧ b = -2 ^ (w - 1)
  · refine ⟨-2 ^ (w - 1), ?_, ?_, ?_, fun _ _ => rfl⟩
    · obtain ⟨h1, h2⟩ := hboth
      subst h1
      rw [h2, absVal_eq w hw _ ha ha', if_pos rfl]
      unfold gcdLoop
      rw [if_neg (by omega)]
      dsimp only
      rw [if_neg, Int.tmod_self]
      · unfold gcdLoop; rw [if_pos rfl]
      · rintro ⟨_, e⟩
        omega
    · rw [hboth.1, hboth.2, Int.gcd_self]
    · intro k _; exact absurd hboth.1 k
  · obtain ⟨r, hr, hg, hs⟩ := gcdLoop_spec w ((absVal w b).natAbs + 1) (absVal w a) (absVal w b) (by omega)
      (by rw [ea]; exact hle a ha ha') (by rw [eb]; exact hle b hb hb')
      (fun e => by
        by_contra hc
        exact hboth ⟨(ma (by rw [e]; omega)).1, (mb (by omega)).1⟩)
      (fun e => by
        by_contra hc
        exact hboth ⟨(ma (by omega)).1, (mb (by rw [e]; omega)).1⟩)
    refine ⟨r, hr, ?_, fun h1 h2 => hs (na h1) (nb h2), fun h1 h2 => absurd ⟨h1, h2⟩ hboth⟩
    rw [hg, ea, eb]; rfl

end Rumpy
