import Verif.Lemmas.Gcd
/-!
# Properties: gcd and lcm (C51)

`w` is the width of the dtype (8, 16, 32 or 64; the proofs only need `1 < w`).
-/

namespace Props
open Rumpy Spec

/-- C51, unsigned gcd: the greatest common divisor, for all operands. -/
theorem C51_gcd_unsigned (a b : Nat) : gcdUnsigned a b = some (Nat.gcd a b) :=
  gcdLoopU_spec (b + 1) a b (by omega)

/-- C51, unsigned lcm: the least common multiple whenever it is representable. -/
theorem C51_lcm_unsigned (w a b : Nat) (h : Nat.lcm a b < 2 ^ w) : lcmUnsigned w a b = some (Nat.lcm a b) := by
  unfold lcmUnsigned
  by_cases h0 : a = 0 ∨ b = 0
  · rw [if_pos h0]
    rcases h0 with rfl | rfl <;> simp
  · rw [if_neg h0, C51_gcd_unsigned]
    dsimp only
    have hd : Nat.gcd a b ∣ a := Nat.gcd_dvd_left a b
    have : a / Nat.gcd a b * b = Nat.lcm a b := by
      rw [Nat.lcm, Nat.div_mul_right_comm hd]
    rw [this, Nat.mod_eq_of_lt h]

/-- C51, signed gcd: never a panic, always the greatest common divisor up to sign, and not negative unless an
operand is the smallest value of the dtype. -/
theorem C51_gcd_signed (w : Nat) (hw : 1 < w) (a b : Int) (ha : -2 ^ (w - 1) ≤ a) (ha' : a < 2 ^ (w - 1))
    (hb : -2 ^ (w - 1) ≤ b) (hb' : b < 2 ^ (w - 1)) :
    ∃ r, gcdSigned w a b = some r ∧ (r = Int.gcd a b ∨ r = -(Int.gcd a b : Int)) ∧
      (a ≠ -2 ^ (w - 1) → b ≠ -2 ^ (w - 1) → r = Int.gcd a b) := by
  obtain ⟨r, hr, hg, hs, _⟩ := gcdSigned_spec w hw a b ha ha' hb hb'
  exact ⟨r, hr, by omega, fun h1 h2 => by have := hs h1 h2; omega⟩

/-- C51, signed gcd as the property states it, for operands other than the smallest value. -/
theorem C51_gcd_signed_partial (w : Nat) (hw : 1 < w) (a b : Int) (ha : -2 ^ (w - 1) < a) (ha' : a < 2 ^ (w - 1))
    (hb : -2 ^ (w - 1) < b) (hb' : b < 2 ^ (w - 1)) : gcdSigned w a b = some (Int.gcd a b : Int) := by
  obtain ⟨r, hr, _, h⟩ := C51_gcd_signed w hw a b (by omega) ha' (by omega) hb'
  rw [hr, h (by omega) (by omega)]

/-- C51, signed lcm: the non-negative least common multiple whenever it is representable. -/
theorem C51_lcm_signed (w : Nat) (hw : 1 < w) (a b : Int) (ha : -2 ^ (w - 1) ≤ a) (ha' : a < 2 ^ (w - 1))
    (hb : -2 ^ (w - 1) ≤ b) (hb' : b < 2 ^ (w - 1)) (h : (Int.lcm a b : Int) < 2 ^ (w - 1)) :
    lcmSigned w a b = some (Int.lcm a b : Int) := by
  have hM : (0 : Int) < 2 ^ (w - 1) := by positivity
  have hz : ∀ x : Int, -2 ^ (w - 1) ≤ x → x < 2 ^ (w - 1) → (absVal w x = 0 ↔ x = 0) := by
    intro x h1 h2
    rw [absVal_eq w (by omega) x h1 h2]
    split <;> omega
  unfold lcmSigned
  dsimp only
  by_cases h0 : a = 0 ∨ b = 0
  · rw [if_pos (by rw [hz a ha ha', hz b hb hb']; exact h0)]
    rcases h0 with rfl | rfl <;> simp
  · rw [if_neg (by rw [hz a ha ha', hz b hb hb']; exact h0)]
    push Not at h0
    have hla : a.natAbs ≤ Int.lcm a b := by
      apply Nat.le_of_dvd
      · exact Nat.pos_of_ne_zero (by rw [Ne, Int.lcm_eq_zero_iff]; tauto)
      · exact Nat.dvd_lcm_left a.natAbs b.natAbs
    have hlb : b.natAbs ≤ Int.lcm a b := by
      apply Nat.le_of_dvd
      · exact Nat.pos_of_ne_zero (by rw [Ne, Int.lcm_eq_zero_iff]; tauto)
      · exact Nat.dvd_lcm_right a.natAbs b.natAbs
    have ea : absVal w a = a.natAbs := by rw [absVal_eq w (by omega) a ha ha', if_neg (by omega)]
    have eb : absVal w b = b.natAbs := by rw [absVal_eq w (by omega) b hb hb', if_neg (by omega)]
    rw [ea, eb, C51_gcd_signed_partial w hw _ _ (by omega) (by omega) (by omega) (by omega)]
    dsimp only
    rw [if_neg (by omega)]
    have hg : Int.gcd (a.natAbs : Int) (b.natAbs : Int) = Nat.gcd a.natAbs b.natAbs := rfl
    have hl : Int.lcm a b = a.natAbs / Nat.gcd a.natAbs b.natAbs * b.natAbs := by
      rw [Nat.div_mul_right_comm (Nat.gcd_dvd_left _ _)]; rfl
    rw [hg, ← Int.ofNat_tdiv, ← Int.natCast_mul, ← hl]
    have e : (2 : Int) ^ (w - 1) = ((2 ^ (w - 1) : Nat) : Int) := by push_cast; rfl
    rw [e] at h
    rw [pow_pred w (by omega), Int.bmod_eq_of_le (by omega) (by omega)]

example : gcdSigned 8 (-12) 18 = some 6 ∧ lcmSigned 8 (-12) 18 = some 36 ∧ gcdUnsigned 0 0 = some 0 ∧
    lcmUnsigned 8 200 100 = some 200 := by decide
example : (-2 ^ (8 - 1) : Int) ≤ -12 ∧ (Int.lcm (-12) 18 : Int) < 2 ^ (8 - 1) := by decide

/-- C51 fails for the smallest value: `gcd(-128, 6)` is -2 and `gcd(-128, 127)` is -1 in int8. -/
theorem C51_counterexample :
    gcdSigned 8 (-128) 6 = some (-2) ∧ gcdSigned 8 (-128) 127 = some (-1) := by decide

/-- C51, arrays: two C-contiguous arrays of one dtype and one shape are combined elementwise.  Missing:
broadcasting, other layouts and operands of different dtypes. -/
theorem C51_array_partial {α β : Type} (f : α → α → β) (memA memB : Int → α) (a b : View) (ha : a.WF) (hb : b.WF)
    (hca : a.cFlag = true) (hcb : b.cFlag = true) (hs : a.shape = b.shape) (hi : a.item = b.item) :
    (pairwiseTyped f memA memB a b).Is
      ⟨a.shape, fun i => f ((a.denote memA).get i) ((b.denote memB).get i)⟩ := by
  refine ⟨rfl, ?_⟩
  apply eq_toList
  · simp [pairwiseTyped, sizeOf_eq]
  · intro idx hin
    have hin' : InShape a.shape idx := hin
    have h1 := cFlag_addr ha hca hin'
    have h2 := cFlag_addr hb hcb (hs ▸ hin')
    have hlt := rank_lt hin'
    simp only [pairwiseTyped, List.getElem?_map, sizeOf_eq, List.getElem?_range hlt, Option.map_some]
    show some (f _ _) = some (f (memA (a.addr idx)) (memB (b.addr idx)))
    rw [h1, h2, hi, ← hs]

example : (View.fresh [2, 3] 8).cFlag = true := rfl

/-- C51 fails for views with gaps, for broadcasting and for operands of different dtypes: the strides of both
operands, the shape and the item size of the second are ignored.  Addresses are bytes, `mem` gives the word
stored at an address, -1 marks an address outside the second operand. -/
theorem C51_array_counterexample :
    let gaps : View := ⟨0, [2], [16], 8, false, false⟩
    let two := View.fresh [2] 8
    let one := View.fresh [1] 8
    let memA : Int → Int := fun x => if x = 0 then 6 else if x = 8 then 7 else if x = 16 then 10 else -1
    let memB : Int → Int := fun x => if x = 0 then 4 else if x = 8 then 5 else -1
    let memOne : Int → Int := fun x => if x = 0 then 4 else -1
    gaps.WF ∧
    (pairwiseTyped (gcdSigned 64) memA memB gaps two).data = [some 2, some 1] ∧
    (⟨[2], fun i => gcdSigned 64 ((gaps.denote memA).get i) ((two.denote memB).get i)⟩ : Nd (Option Int)).toList =
      [some 2, some 5] ∧
    (pairwiseTyped (fun x y => (x, y)) memA memOne two one).data = [(6, 4), (7, -1)] := by
  refine ⟨⟨rfl, by decide, by decide⟩, by decide +kernel, by decide +kernel, by decide +kernel⟩

end Props
