import Verif.Lemmas.IntOps
/-!
# C33 and C34: integer arithmetic and bitwise operations, one element

Layout and broadcasting are C15.  `out` says whether the operator passed an output array (arrays of
at least 32768 elements, see `passesOut`): the code then runs other element functions.
-/

namespace Props
open Spec Rumpy

/-- C33: sums, differences and products agree with the exact ones modulo `2^w`, and are exact
whenever the exact result fits; the same on both paths. -/
theorem C33_wrap (out s : Bool) {w : Nat} (hw : 0 < w) (a b : BitVec w) :
    ∃ x y z, intBinary out s .add a b = .ok x ∧ intBinary out s .sub a b = .ok y ∧ intBinary out s .mul a b = .ok z ∧
      ((2 ^ w : Nat) : Int) ∣ intValue s x - (intValue s a + intValue s b) ∧
      ((2 ^ w : Nat) : Int) ∣ intValue s y - (intValue s a - intValue s b) ∧
      ((2 ^ w : Nat) : Int) ∣ intValue s z - intValue s a * intValue s b ∧
      (InIntRange s w (intValue s a + intValue s b) → intValue s x = intValue s a + intValue s b) ∧
      (InIntRange s w (intValue s a - intValue s b) → intValue s y = intValue s a - intValue s b) ∧
      (InIntRange s w (intValue s a * intValue s b) → intValue s z = intValue s a * intValue s b) := by
  refine ⟨a + b, a - b, a * b, ?_, ?_, ?_, dvd_add a b, dvd_sub' a b, dvd_mul' a b, ?_, ?_, ?_⟩
  · cases out <;> rfl
  · cases out <;> rfl
  · cases out <;> rfl
  · exact fun h => eq_of_dvd_range (intValue_range s _) h (dvd_add a b) hw
  · exact fun h => eq_of_dvd_range (intValue_range s _) h (dvd_sub' a b) hw
  · exact fun h => eq_of_dvd_range (intValue_range s _) h (dvd_mul' a b) hw

example : intBinary false true .add (127#8) (1#8) = .ok (128#8) ∧ intValue true (128#8) = -128 ∧
    intBinary true false .mul (16#8) (17#8) = .ok (16#8) := by decide

/-- C33: division by zero gives zero, for `//` and `%`, on both paths. -/
theorem C33_div_zero (out s : Bool) {w : Nat} (a : BitVec w) :
    intBinary out s .floorDiv a 0#w = .ok 0#w ∧ intBinary out s .mod a 0#w = .ok 0#w := by
  cases out <;> simp [intBinary, intTrait, intKernel]

/-- C33: unsigned `//` and `%` are floor division, on both paths. -/
theorem C33_divmod_unsigned (out : Bool) {w : Nat} (a b : BitVec w) (hb : b ≠ 0#w) :
    ∃ q r, intBinary out false .floorDiv a b = .ok q ∧ intBinary out false .mod a b = .ok r ∧
      IsFloorDiv (intValue false a) (intValue false b) (intValue false q) (intValue false r) := by
  refine ⟨a / b, a % b, ?_, ?_, ?_⟩
  · cases out <;> simp [intBinary, intTrait, intKernel, hb, rustDiv]
  · cases out <;> simp [intBinary, intTrait, intKernel, hb, rustRem]
  · have hpos : (0 : Int) < b.toNat := by
      have : b.toNat ≠ 0 := fun h => hb (BitVec.eq_of_toNat_eq (by simpa using h))
      omega
    have := isFloorDiv_ediv (a := (a.toNat : Int)) hpos
    simp only [intValue, Bool.false_eq_true, if_false, BitVec.toNat_udiv, BitVec.toNat_umod]
    push_cast
    exact this

example : ∃ q r, intBinary false false .floorDiv (200#8) (7#8) = .ok q ∧ intBinary false false .mod (200#8) (7#8) = .ok r ∧
    q.toNat = 28 ∧ r.toNat = 4 := ⟨_, _, rfl, rfl, by decide, by decide⟩

/-- Signed `//` and `%` panic exactly for the smallest number divided by `-1`. -/
theorem C33_panic_iff (out : Bool) {w : Nat} (a b : BitVec w) :
    (intBinary out true .floorDiv a b = .panic ↔ b ≠ 0#w ∧ a = BitVec.intMin w ∧ b = -1#w) ∧
      (intBinary out true .mod a b = .panic ↔ b ≠ 0#w ∧ a = BitVec.intMin w ∧ b = -1#w) := by
  by_cases hb : b = 0#w
  · subst hb
    cases out <;> simp [intBinary, intTrait, intKernel]
  · by_cases h : a = BitVec.intMin w ∧ b = -1#w
    · cases out <;> simp [intBinary, intTrait, intKernel, rustDiv, rustRem, rustDivEuclid, hb, h]
    · cases out <;> simp [intBinary, intTrait, intKernel, rustDiv, rustRem, rustDivEuclid, hb, h]

/-- C33 for signed types: where it does not panic, `//` is floor division exactly in the cases
listed: without an output array if the signs agree or there is no remainder, with an output array if
the divisor is positive or there is no remainder.  `%` is right if the signs agree or there is no
remainder, on both paths.  The full property is the right-hand sides being always true. -/
theorem C33_divmod_signed_partial {w : Nat} (a b : BitVec w) (hb : b ≠ 0#w) (h : ¬ (a = BitVec.intMin w ∧ b = -1#w)) :
    ∃ q q' r, intBinary false true .floorDiv a b = .ok q ∧ intBinary true true .floorDiv a b = .ok q' ∧
      (∀ out, intBinary out true .mod a b = .ok r) ∧
      ((∃ m, IsFloorDiv a.toInt b.toInt q.toInt m) ↔ 0 ≤ a.toInt * b.toInt ∨ b.toInt ∣ a.toInt) ∧
      ((∃ m, IsFloorDiv a.toInt b.toInt q'.toInt m) ↔ 0 < b.toInt ∨ b.toInt ∣ a.toInt) ∧
      ((∃ k, IsFloorDiv a.toInt b.toInt k r.toInt) ↔ 0 ≤ a.toInt * b.toInt ∨ b.toInt ∣ a.toInt) ∧
      a.toInt = q.toInt * b.toInt + r.toInt := by
  have hb' : b.toInt ≠ 0 := fun h => hb (toInt_zero_iff.1 h)
  have hf := isFloorDiv_fdiv (a := a.toInt) hb'
  have hq := BitVec.toInt_sdiv_of_ne_or_ne a b (by rw [← not_and_or]; exact h)
  have hr := BitVec.toInt_srem a b
  have hid : a.toInt = (a.toInt.tdiv b.toInt) * b.toInt + a.toInt.tmod b.toInt := by
    rw [Int.mul_comm]; exact (Int.mul_tdiv_add_tmod _ _).symm
  refine ⟨a.sdiv b, BitVec.ofInt w (a.toInt / b.toInt), a.srem b, ?_, ?_, ?_, ?_, ?_, ?_, ?_⟩
  · simp [intBinary, intKernel, rustDiv, hb, h]
  · simp [intBinary, intTrait, rustDivEuclid, hb, h]
  · intro out; cases out <;> simp [intBinary, intKernel, intTrait, rustRem, hb, h]
  · rw [hq, ← tdiv_eq_fdiv_iff hb']
    exact ⟨fun ⟨m, hm⟩ => (isFloorDiv_unique hm hf).1, fun h => ⟨_, h ▸ hf⟩⟩
  · rw [toInt_ediv a b hb h, ← ediv_eq_fdiv_iff hb']
    exact ⟨fun ⟨m, hm⟩ => (isFloorDiv_unique hm hf).1, fun h => ⟨_, h ▸ hf⟩⟩
  · rw [hr, ← tdiv_eq_fdiv_iff hb']
    constructor
    · rintro ⟨k, hk⟩
      have hu := isFloorDiv_unique hk hf
      have h1 := hk.1
      rw [hu.1] at h1
      exact Int.eq_of_mul_eq_mul_right hb' (by omega)
    · intro he
      refine ⟨a.toInt.fdiv b.toInt, ?_⟩
      have h1 := hf.1
      have : a.toInt.tmod b.toInt = a.toInt.fmod b.toInt := by rw [he] at hid; omega
      rw [this]
      exact hf
  · rw [hq, hr]; exact hid

/-- `-7 // 2` is `-3` for small arrays and `-4` for large ones (where the quotient and remainder do
not fit together), `-7 % 2` is `-1`; the smallest number divided by `-1` panics. -/
theorem C33_counterexample :
    intBinary (passesOut 2 32767 true) true .floorDiv (BitVec.ofInt 8 (-7)) 2#8 = .ok (BitVec.ofInt 8 (-3)) ∧
      intBinary (passesOut 2 32768 true) true .floorDiv (BitVec.ofInt 8 (-7)) 2#8 = .ok (BitVec.ofInt 8 (-4)) ∧
      intBinary (passesOut 2 32768 true) true .mod (BitVec.ofInt 8 (-7)) 2#8 = .ok (BitVec.ofInt 8 (-1)) ∧
      intBinary (passesOut 2 32768 true) true .floorDiv 7#8 (BitVec.ofInt 8 (-2)) = .ok (BitVec.ofInt 8 (-3)) ∧
      (-7 : Int) ≠ (-4) * 2 + (-1) ∧ (∃ r, IsFloorDiv (-7) 2 (-4) r) ∧ (∃ r, IsFloorDiv 7 (-2) (-4) r) ∧
      intBinary false true .floorDiv (BitVec.ofInt 8 (-128)) (BitVec.ofInt 8 (-1)) = .panic := by
  refine ⟨by decide, by decide, by decide, by decide, by decide, ⟨1, ?_⟩, ⟨-1, ?_⟩, by decide⟩ <;>
    (unfold IsFloorDiv; decide)

/-- C33: the larger and the smaller of two numbers. -/
theorem C33_maxmin (out s : Bool) {w : Nat} (a b : BitVec w) :
    ∃ x y, intBinary out s .maximum a b = .ok x ∧ intBinary out s .minimum a b = .ok y ∧
      intValue s x = max (intValue s a) (intValue s b) ∧ intValue s y = min (intValue s a) (intValue s b) := by
  have key : ∀ a b : BitVec w, rustGt s a b = true ↔ intValue s b < intValue s a := by
    intro a b
    cases s
    · simp [rustGt, intValue, BitVec.ult]
    · simp [rustGt, intValue, BitVec.slt_iff_toInt_lt]
  refine ⟨if rustGt s a b then a else b, if rustGt s b a then a else b, by cases out <;> rfl, by cases out <;> rfl, ?_, ?_⟩
  · split
    · rename_i h; rw [key] at h; omega
    · rename_i h; rw [key] at h; omega
  · split
    · rename_i h; rw [key] at h; omega
    · rename_i h; rw [key] at h; omega

/-- C33, powers with an exponent from 0 to `2^32 - 1`: exact modulo `2^w`. -/
theorem C33_pow_partial (out s : Bool) {w : Nat} (a b : BitVec w) (h0 : 0 ≤ intValue s b) (h1 : intValue s b < 2 ^ 32) :
    ∃ x, intBinary out s .pow a b = .ok x ∧
      ((2 ^ w : Nat) : Int) ∣ intValue s x - intValue s a ^ (intValue s b).toNat := by
  have hn : ¬ (s = true ∧ b.toInt < 0) := by
    rintro ⟨rfl, h⟩
    simp only [intValue, if_true] at h0
    omega
  have he : (asU32 s b).toNat = (intValue s b).toNat := by
    unfold asU32
    cases s
    · simp only [intValue, Bool.false_eq_true, if_false] at *
      rw [BitVec.toNat_setWidth, Nat.mod_eq_of_lt (by omega)]
      omega
    · simp only [intValue, if_true] at *
      have hm : b.msb = false := by
        by_contra hm
        have := BitVec.toInt_neg_of_msb_true (by simpa using hm)
        omega
      have ht := BitVec.toInt_eq_toNat_of_msb hm
      rw [BitVec.toNat_signExtend, hm, BitVec.toNat_setWidth, Nat.mod_eq_of_lt (by omega)]
      simp only [Bool.false_eq_true, if_false]
      omega
  have hp : intTrait s .pow a b = .ok (BitVec.ofNat w (a.toNat ^ (intValue s b).toNat)) := by
    simp only [intTrait]
    rw [if_neg hn, he]
  refine ⟨_, ?_, dvd_pow' a (intValue s b).toNat⟩
  cases out
  · exact hp
  · exact hp

/-- `2 ** -1` is 0, and `2 ** 2^32` is 1 instead of 0. -/
theorem C33_pow_counterexample :
    intBinary false true .pow (2#64) (BitVec.ofInt 64 (-1)) = .ok 0#64 ∧
      intBinary false true .pow (2#64) (4294967296#64) = .ok 1#64 := by decide

/-- C33 for operands of two different integer dtypes: exact while the operands and the result are at
most `2^53` in size and the result fits. -/
theorem C33_mixed_partial {lo hi x y : Int} (hx : x.natAbs ≤ 2 ^ 53) (hy : y.natAbs ≤ 2 ^ 53) :
    ((x + y).natAbs ≤ 2 ^ 53 → lo ≤ x + y → x + y ≤ hi → intMixed .add lo hi x y = some (x + y)) ∧
      ((x - y).natAbs ≤ 2 ^ 53 → lo ≤ x - y → x - y ≤ hi → intMixed .sub lo hi x y = some (x - y)) ∧
      ((x * y).natAbs ≤ 2 ^ 53 → lo ≤ x * y → x * y ≤ hi → intMixed .mul lo hi x y = some (x * y)) := by
  unfold intMixed
  dsimp only
  rw [intToF64_exact hx, intToF64_exact hy]
  refine ⟨fun h h1 h2 => ?_, fun h h1 h2 => ?_, fun h h1 h2 => ?_⟩ <;>
  · rw [intToF64_exact h]
    unfold f64ToInt
    rw [Option.some.injEq]
    omega

/-- int64 and int32: `2^53 + 1 + 0` loses the one, and the largest number plus one saturates instead
of wrapping. -/
theorem C33_mixed_counterexample :
    intMixed .add (-2 ^ 63) (2 ^ 63 - 1) (2 ^ 53 + 1) 0 = some (2 ^ 53) ∧
      intMixed .add (-2 ^ 63) (2 ^ 63 - 1) (2 ^ 63 - 1) 1 = some (2 ^ 63 - 1) := by decide +kernel

/-- C34: `&`, `|`, `^` and `~` act on every bit. -/
theorem C34_bits (s : Bool) {w : Nat} (a b : BitVec w) (i : Nat) (hi : i < w) :
    (bitKernel s .and a b).getLsbD i = (a.getLsbD i && b.getLsbD i) ∧
      (bitKernel s .or a b).getLsbD i = (a.getLsbD i || b.getLsbD i) ∧
      (bitKernel s .xor a b).getLsbD i = (a.getLsbD i ^^ b.getLsbD i) ∧
      (bitNot a).getLsbD i = !a.getLsbD i := by
  simp [bitKernel, bitNot, hi]

example : bitKernel true .and 12#8 10#8 = 8#8 ∧ bitKernel true .xor 12#8 10#8 = 6#8 ∧ bitNot 12#8 = 243#8 := by decide

/-- C34, shifts by less than the width: multiplication by `2^k` modulo `2^w`, and the floor of the
quotient by `2^k` (also of negative numbers).  Missing: larger and negative amounts. -/
theorem C34_shift_partial (s : Bool) {w : Nat} (hw : w ∈ [8, 16, 32, 64]) (a b : BitVec w)
    (h0 : 0 ≤ intValue s b) (h1 : intValue s b < w) :
    ((2 ^ w : Nat) : Int) ∣ intValue s (bitKernel s .shl a b) - intValue s a * 2 ^ (intValue s b).toNat ∧
      intValue s (bitKernel s .shr a b) = intValue s a / 2 ^ (intValue s b).toNat := by
  have hbn : b.toNat = (intValue s b).toNat := by
    unfold intValue at *
    cases s
    · simp
    · simp only [if_true] at *
      have hm : b.msb = false := by
        by_contra hm
        have := BitVec.toInt_neg_of_msb_true (by simpa using hm)
        omega
      have ht := BitVec.toInt_eq_toNat_of_msb hm
      omega
  have hk : (asU32 s b).toNat % w = (intValue s b).toNat := by
    rw [asU32_mod s b hw, hbn, Nat.mod_eq_of_lt (by omega)]
  have hshl : bitKernel s .shl a b = a * BitVec.ofNat w (2 ^ (intValue s b).toNat) := by
    simp only [bitKernel]
    rw [hk]
    apply BitVec.eq_of_toNat_eq
    rw [BitVec.toNat_shiftLeft, BitVec.toNat_mul, BitVec.toNat_ofNat, Nat.shiftLeft_eq, Nat.mul_mod_mod]
  constructor
  · rw [hshl]
    have h2 := dvd_mul' (s := s) a (BitVec.ofNat w (2 ^ (intValue s b).toNat))
    have h3 := (dvd_intValue s (BitVec.ofNat w (2 ^ (intValue s b).toNat))).mul_left (intValue s a)
    rw [BitVec.toNat_ofNat, Nat.mod_eq_of_lt (Nat.pow_lt_pow_right (by omega) (by omega))] at h3
    have := Int.dvd_add h2 h3
    push_cast at this ⊢
    generalize intValue s (a * BitVec.ofNat w (2 ^ (intValue s b).toNat)) = p at *
    generalize intValue s (BitVec.ofNat w (2 ^ (intValue s b).toNat)) = p' at *
    have e : p - intValue s a * p' + intValue s a * (p' - 2 ^ (intValue s b).toNat) =
        p - intValue s a * 2 ^ (intValue s b).toNat := by ring
    rwa [e] at this
  · simp only [bitKernel]
    rw [hk]
    generalize (intValue s b).toNat = k
    cases s
    · simp only [Bool.false_eq_true, if_false, intValue, BitVec.toNat_ushiftRight, Nat.shiftRight_eq_div_pow]
      push_cast; rfl
    · simp only [if_true, intValue, BitVec.toInt_sshiftRight, Int.shiftRight_eq_div_pow]
      push_cast; rfl

example : bitKernel true .shr (BitVec.ofInt 8 (-5)) 1#8 = BitVec.ofInt 8 (-3) ∧ bitKernel true .shl 3#8 7#8 = 128#8 := by
  decide

/-- Shift amounts are taken modulo the width, whatever their sign. -/
theorem C34_shift_modulo (s : Bool) {w : Nat} (hw : w ∈ [8, 16, 32, 64]) (a b : BitVec w) :
    bitKernel s .shl a b = bitKernel s .shl a (BitVec.ofNat w (b.toNat % w)) ∧
      bitKernel s .shr a b = bitKernel s .shr a (BitVec.ofNat w (b.toNat % w)) := by
  have h : (asU32 s (BitVec.ofNat w (b.toNat % w))).toNat % w = (asU32 s b).toNat % w := by
    rw [asU32_mod s _ hw, asU32_mod s _ hw, BitVec.toNat_ofNat]
    have h0 : 0 < w := by
      simp only [List.mem_cons, List.not_mem_nil, or_false] at hw; omega
    rw [Nat.mod_eq_of_lt (b := 2 ^ w) (lt_trans (Nat.mod_lt _ h0) Nat.lt_two_pow_self), Nat.mod_mod]
  simp only [bitKernel]
  rw [h]
  exact ⟨rfl, rfl⟩

/-- So `1 << 8` in 8 bits is 1 instead of 0, and `-1 >> 9` is right by luck only. -/
theorem C34_shift_counterexample :
    bitKernel false .shl 1#8 8#8 = 1#8 ∧ bitKernel false .shr 128#8 8#8 = 128#8 ∧
      bitKernel true .shl 1#8 (BitVec.ofInt 8 (-1)) = 128#8 := by decide

/-- Different dtypes: the narrower operand is read with the width of the result, so it is right only
if the bytes behind the element are zero (for unsigned elements). -/
theorem C34_mixed_read_iff (mem : Int → BitVec 8) (addr : Int) (n k : Nat) :
    readLE mem addr (n + k) = readLE mem addr n ↔ ∀ i, n ≤ i → i < n + k → mem (addr + i) = 0#8 := by
  have hz : ∀ (k : Nat) (addr : Int), readLE mem addr k = 0 ↔ ∀ i : Nat, i < k → mem (addr + i) = 0#8 := by
    intro k
    induction k with
    | zero => intro addr; simp [readLE]
    | succ k ih =>
      intro addr
      rw [readLE, Nat.add_eq_zero_iff, Nat.mul_eq_zero, ih]
      constructor
      · rintro ⟨h1, h2⟩ i hi
        cases i with
        | zero => exact BitVec.eq_of_toNat_eq (by simpa using h1)
        | succ i =>
          have := (h2.resolve_left (by decide)) i (by omega)
          rwa [show addr + ((i + 1 : Nat) : Int) = addr + 1 + (i : Int) by omega]
      · intro h
        refine ⟨by have := h 0 (by omega); simp at this; simp [this], .inr fun i hi => ?_⟩
        have := h (i + 1) (by omega)
        rwa [show addr + ((i + 1 : Nat) : Int) = addr + 1 + (i : Int) by omega] at this
  have ha : ∀ (n : Nat) (addr : Int), readLE mem addr (n + k) = readLE mem addr n + 2 ^ (8 * n) * readLE mem (addr + n) k := by
    intro n
    induction n with
    | zero => intro addr; simp [readLE]
    | succ n ih =>
      intro addr
      rw [show n + 1 + k = (n + k) + 1 by omega, readLE, readLE, ih]
      rw [show addr + ((n + 1 : Nat) : Int) = addr + 1 + (n : Int) by omega, show 8 * (n + 1) = 8 + 8 * n by ring, pow_add]
      ring
  rw [ha]
  constructor
  · intro h i hi hi2
    have h0 : 2 ^ (8 * n) * readLE mem (addr + n) k = 0 := by omega
    have h1 := ((hz k (addr + n)).1 ((Nat.mul_eq_zero.1 h0).resolve_left (by positivity))) (i - n) (by omega)
    rwa [show addr + (n : Int) + ((i - n : Nat) : Int) = addr + (i : Int) by omega] at h1
  · intro h
    have h1 : readLE mem (addr + n) k = 0 := by
      rw [hz]
      intro i hi
      have := h (n + i) (by omega) (by omega)
      rwa [show addr + ((n + i : Nat) : Int) = addr + (n : Int) + (i : Int) by omega] at this
    rw [h1]; simp

/-- uint8 `[1, 2]` and uint16 `[65535, 65535]`: the first element of `a & b` is 513, not 1. -/
theorem C34_mixed_counterexample :
    bitMixed false .and 2 (fun i => if i = 0 then 1#8 else if i = 1 then 2#8 else 0#8) 0 (fun _ => 255#8) 0 = 513#16 := by
  decide

theorem readLE_eq (mem : Int → BitVec 8) : ∀ (n : Nat) (addr : Int) (X : Nat),
    (∀ i : Nat, i < n → (mem (addr + i)).toNat = X / 2 ^ (8 * i) % 2 ^ 8) → readLE mem addr n = X % 2 ^ (8 * n)
  | 0, addr, X, _ => by simp [readLE, Nat.mod_one]
  | n + 1, addr, X, h => by
    have h0 := h 0 (by omega)
    have ih := readLE_eq mem n (addr + 1) (X / 2 ^ 8) (fun i hi => by
      have := h (i + 1) (by omega)
      rw [Nat.div_div_eq_div_mul, ← pow_add, show 8 + 8 * i = 8 * (i + 1) by ring, ← this]
      congr 2
      push_cast; ring)
    rw [readLE, ih]
    simp only [Nat.mul_zero, pow_zero, Nat.div_one, Nat.cast_zero, add_zero] at h0
    rw [h0, show 8 * (n + 1) = 8 + 8 * n by ring, pow_add, Nat.mod_mul]

/-- The `n` bytes from `addr` on are the bytes of `x`, least significant first. -/
def BytesAt (mem : Int → BitVec 8) (addr : Int) (n : Nat) (x : BitVec (8 * n)) : Prop :=
  ∀ i : Nat, i < n → mem (addr + i) = x.extractLsb' (8 * i) 8

theorem readLE_bytes {mem : Int → BitVec 8} {addr : Int} {n : Nat} {x : BitVec (8 * n)} (h : BytesAt mem addr n x) :
    BitVec.ofNat (8 * n) (readLE mem addr n) = x := by
  rw [readLE_eq mem n addr x.toNat]
  · rw [Nat.mod_eq_of_lt x.isLt, BitVec.ofNat_toNat, BitVec.setWidth_eq]
  · intro i hi
    rw [h i hi, BitVec.extractLsb'_toNat, Nat.shiftRight_eq_div_pow]

/-- C34, proved part: when both operands are stored in the result dtype, an element of a bitwise operation is the
operation on the two stored integers.  Missing: operands of a smaller dtype (`C34_mixed_counterexample`). -/
theorem C34_stored_partial (signed : Bool) (op : BitOp) (n : Nat) (memA memB : Int → BitVec 8) (addrA addrB : Int)
    (x y : BitVec (8 * n)) (hx : BytesAt memA addrA n x) (hy : BytesAt memB addrB n y) :
    bitMixed signed op n memA addrA memB addrB = bitKernel signed op x y := by
  unfold bitMixed
  rw [readLE_bytes hx, readLE_bytes hy]

example : BytesAt (fun i => if i = 4 then 1#8 else if i = 5 then 2#8 else 0#8) 4 2 513#16 := by
  intro i hi
  match i, hi with
  | 0, _ => decide
  | 1, _ => decide
end Props
