import Verif.Model.Random
import Verif.Spec.Random
import Verif.Lemmas.Float
import Mathlib.Data.BitVec
import Mathlib.Algebra.Ring.GeomSum
import Mathlib.Algebra.BigOperators.Intervals
import Mathlib.Algebra.Ring.Parity
import Mathlib.Data.Nat.Factorization.Basic
import Mathlib.Tactic.Ring
import Mathlib.Tactic.LinearCombination
import Mathlib.SetTheory.Cardinal.Finite
import Mathlib.Data.Nat.ModEq
import Mathlib.Tactic.Linarith
/-!
# Lemmas: random numbers
-/

namespace Rumpy

/-! ### The period of the generator -/

/-- For `a` with remainder 1 modulo 4, the sum `1 + a + … + a^(n-1)` contains exactly the powers of two that
`n` contains. -/
theorem geom_two (a : Nat) (ha : a % 4 = 1) (k : Nat) :
    ∃ m, (∑ i ∈ Finset.range (2 ^ k), a ^ i) = 2 ^ k * m ∧ m % 2 = 1 := by
  induction k with
  | zero => exact ⟨1, by simp⟩
  | succ k ih =>
    obtain ⟨m, hm, hodd⟩ := ih
    have hp : a ^ 2 ^ k % 4 = 1 := by rw [Nat.pow_mod, ha]; simp
    refine ⟨m * ((1 + a ^ 2 ^ k) / 2), ?_, ?_⟩
    · rw [pow_succ, Nat.mul_two, Finset.sum_range_add]
      have : ∑ x ∈ Finset.range (2 ^ k), a ^ (2 ^ k + x) = a ^ 2 ^ k * ∑ x ∈ Finset.range (2 ^ k), a ^ x := by
        rw [Finset.mul_sum]; simp only [pow_add]
      rw [this, hm]
      have h2 : 1 + a ^ 2 ^ k = 2 * ((1 + a ^ 2 ^ k) / 2) := by omega
      generalize (1 + a ^ 2 ^ k) / 2 = h at *
      have : a ^ 2 ^ k = 2 * h - 1 := by omega
      have h3 : 2 ^ k * m + a ^ 2 ^ k * (2 ^ k * m) = (1 + a ^ 2 ^ k) * (2 ^ k * m) := by ring
      rw [h3, h2]; ring
    · rw [Nat.mul_mod, hodd]
      have : (1 + a ^ 2 ^ k) / 2 % 2 = 1 := by omega
      rw [this]

theorem sum_odd_mod (f : Nat → Nat) (hf : ∀ i, f i % 2 = 1) (n : Nat) : (∑ i ∈ Finset.range n, f i) % 2 = n % 2 := by
  induction n with
  | zero => simp
  | succ n ih => rw [Finset.sum_range_succ, Nat.add_mod, ih, hf]; omega

theorem geom_dvd (a : Nat) (ha : a % 4 = 1) (n k : Nat) :
    2 ^ k ∣ (∑ i ∈ Finset.range n, a ^ i) ↔ 2 ^ k ∣ n := by
  rcases Nat.eq_zero_or_pos n with rfl | hn
  · simp
  obtain ⟨e, m, hm, rfl⟩ := Nat.exists_eq_two_pow_mul_odd (n := n) (by omega)
  obtain ⟨s, hs, hsodd⟩ := geom_two a ha e
  have hm2 : m % 2 = 1 := Nat.odd_iff.1 hm
  have hsplit : (∑ i ∈ Finset.range (2 ^ e * m), a ^ i) =
      (∑ i ∈ Finset.range (2 ^ e), a ^ i) * ∑ j ∈ Finset.range m, (a ^ 2 ^ e) ^ j := by
    clear hm hm2 hn
    induction m with
    | zero => simp
    | succ m ih =>
      rw [Nat.mul_succ, Finset.sum_range_add, ih, Finset.sum_range_succ, Nat.mul_add, Finset.mul_sum]
      congr 1
      rw [Finset.sum_mul]
      apply Finset.sum_congr rfl
      intro i _
      rw [pow_add, ← pow_mul]; ring
  have hto : (∑ j ∈ Finset.range m, (a ^ 2 ^ e) ^ j) % 2 = 1 := by
    rw [sum_odd_mod, hm2]
    intro i
    have h1 : a % 2 = 1 := by omega
    rw [← pow_mul, Nat.pow_mod, h1]
    simp
  rw [hsplit, hs]
  generalize (∑ j ∈ Finset.range m, (a ^ 2 ^ e) ^ j) = t at *
  have hst : s * t % 2 = 1 := by rw [Nat.mul_mod, hsodd, hto]
  have hc : ∀ o, o % 2 = 1 → Nat.Coprime (2 ^ k) o := fun o ho => by
    apply Nat.Coprime.pow_left
    rw [Nat.coprime_comm]
    exact (Nat.coprime_two_right).2 (Nat.odd_iff.2 ho)
  rw [mul_assoc, Nat.Coprime.dvd_mul_right (hc _ hst), Nat.Coprime.dvd_mul_right (hc _ hm2)]

/-- State of the generator after `n` steps, as a number before reduction. -/
def lcgNat (a c : Nat) : Nat → Nat → Nat
  | 0, x => x
  | n + 1, x => a * lcgNat a c n x + c

theorem lcgNat_zero (a c x : Nat) : lcgNat a c 0 x = x := rfl

theorem lcgNat_succ (a c n x : Nat) : lcgNat a c (n + 1) x = a * lcgNat a c n x + c := rfl

theorem lcgNat_eq (a c n x : Nat) :
    lcgNat a c n x = a ^ n * x + c * ∑ i ∈ Finset.range n, a ^ i := by
  induction n with
  | zero => simp [lcgNat]
  | succ n ih =>
    rw [lcgNat, ih, Finset.sum_range_succ', pow_succ]
    have : ∑ k ∈ Finset.range n, a ^ (k + 1) = a * ∑ k ∈ Finset.range n, a ^ k := by
      rw [Finset.mul_sum]; apply Finset.sum_congr rfl; intro i _; rw [pow_succ]; ring
    rw [this]; ring

theorem lcgNat_sub (a c n x : Nat) :
    (lcgNat (a + 1) c n x : Int) - x = (∑ i ∈ Finset.range n, (a + 1) ^ i : Nat) * (a * x + c) := by
  have hg : (a : Int) * (∑ i ∈ Finset.range n, (a + 1) ^ i : Nat) = (a + 1) ^ n - 1 := by
    have := mul_geom_sum ((a : Int) + 1) n
    push_cast at this ⊢
    simpa using this
  rw [lcgNat_eq]
  push_cast at hg ⊢
  linear_combination (x : Int) * (-hg)

theorem ofNat_mul_add {w : Nat} (L : Nat) (m c : BitVec w) :
    BitVec.ofNat w (m.toNat * L + c.toNat) = BitVec.ofNat w L * m + c := by
  apply BitVec.eq_of_toNat_eq
  simp only [BitVec.toNat_add, BitVec.toNat_mul, BitVec.toNat_ofNat]
  rw [Nat.mul_comm]
  simp [Nat.add_mod, Nat.mul_mod]

theorem step_inc (h : Pcg) : h.step.inc = h.inc := by
  cases h
  unfold Pcg.step
  dsimp only

theorem step_state (h : Pcg) (m : BitVec 128) (hm : m = pcgMult) (c : BitVec 128) (hc : h.inc = c) (L : Nat)
    (hL : h.state = BitVec.ofNat 128 L) : h.step.state = BitVec.ofNat 128 (m.toNat * L + c.toNat) := by
  have hs : h.step.state = h.state * pcgMult + h.inc := rfl
  rw [hs, ← hm, hc, hL]
  exact (ofNat_mul_add L m c).symm

theorem step_iterate (g : Pcg) (n : Nat) (m : BitVec 128) (hm : m = pcgMult) : (Pcg.step^[n] g).inc = g.inc ∧
    (Pcg.step^[n] g).state = BitVec.ofNat 128 (lcgNat m.toNat g.inc.toNat n g.state.toNat) := by
  induction n with
  | zero =>
    rw [lcgNat_zero]
    exact ⟨rfl, (BitVec.ofNat_toNat 128 g.state).symm⟩
  | succ n ih =>
    rw [Function.iterate_succ_apply', lcgNat_succ]
    exact ⟨(step_inc _).trans ih.1, step_state _ m hm _ ih.1 _ ih.2⟩

theorem ofNat_eq_iff_dvd {w : Nat} (L : Nat) (x : BitVec w) :
    BitVec.ofNat w L = x ↔ ((2 ^ w : Nat) : Int) ∣ (L : Int) - x.toNat := by
  rw [← BitVec.toNat_inj, BitVec.toNat_ofNat]
  have hl := x.isLt
  generalize 2 ^ w = M at *
  constructor
  · intro e
    rw [← e, Int.natCast_emod]
    exact Int.dvd_self_sub_emod
  · intro hd
    have hmod : (L : Int) % (M : Int) = (x.toNat : Int) % (M : Int) :=
      Int.emod_eq_emod_iff_emod_sub_eq_zero.2 (Int.emod_eq_zero_of_dvd hd)
    have hmod' : L % M = x.toNat % M := by exact_mod_cast hmod
    rw [hmod', Nat.mod_eq_of_lt hl]

theorem Pcg.ext_iff' (g h : Pcg) : g = h ↔ g.state = h.state ∧ g.inc = h.inc := by
  cases g; cases h; simp

/-- One cycle, for any multiplier with remainder 1 modulo 4 and any odd increment. -/
theorem lcg_return (w a c n x : Nat) (ha : (a + 1) % 4 = 1) (hodd : c % 2 = 1) :
    ((2 ^ w : Nat) : Int) ∣ (lcgNat (a + 1) c n x : Int) - x ↔ 2 ^ w ∣ n := by
  rw [lcgNat_sub]
  rw [show ((a : Nat) : Int) * (x : Int) + (c : Int) = ((a * x + c : Nat) : Int) by push_cast; ring]
  rw [← Int.natCast_mul, Int.natCast_dvd_natCast]
  have hc : Nat.Coprime (2 ^ w) (a * x + c) := by
    apply Nat.Coprime.pow_left
    rw [Nat.coprime_comm]
    refine (Nat.coprime_two_right).2 (Nat.odd_iff.2 ?_)
    rw [Nat.add_mod, Nat.mul_mod, show a % 2 = 0 by omega]
    simpa using hodd
  rw [hc.dvd_mul_right]
  exact geom_dvd _ ha n w

theorem pcgMult_toNat : pcgMult.toNat = 0xda942042e4dd58b5 := rfl

theorem pcgMult_succ : ∃ a, pcgMult.toNat = a + 1 ∧ (a + 1) % 4 = 1 :=
  ⟨0xda942042e4dd58b4, by rw [pcgMult_toNat], by norm_num⟩

/-- Going round the cycle. -/
theorem step_return (g : Pcg) (hodd : g.inc.toNat % 2 = 1) (n : Nat) :
    Pcg.step^[n] g = g ↔ 2 ^ 128 ∣ n := by
  obtain ⟨m, e, a, hm, ha⟩ : ∃ m, m = pcgMult ∧ ∃ a, m.toNat = a + 1 ∧ (a + 1) % 4 = 1 := ⟨_, rfl, pcgMult_succ⟩
  have h := step_iterate g n m e
  rw [hm] at h
  rw [Pcg.ext_iff', h.2, ofNat_eq_iff_dvd, lcg_return 128 a _ n _ ha hodd]
  exact ⟨fun k => k.1, fun k => ⟨k, h.1⟩⟩

theorem mul_odd_injective {w : Nat} (c : BitVec w) (hc : c.toNat % 2 = 1) {x y : BitVec w}
    (h : x * c = y * c) : x = y := by
  apply BitVec.eq_of_toNat_eq
  have h' := congrArg BitVec.toNat h
  rw [BitVec.toNat_mul, BitVec.toNat_mul] at h'
  have hcop : Nat.gcd (2 ^ w) c.toNat = 1 := by
    apply Nat.Coprime.pow_left
    rw [Nat.coprime_comm]
    exact (Nat.coprime_two_right).2 (Nat.odd_iff.2 hc)
  have := Nat.ModEq.cancel_right_of_coprime hcop h'
  have hx := x.isLt
  have hy := y.isLt
  unfold Nat.ModEq at this
  rwa [Nat.mod_eq_of_lt hx, Nat.mod_eq_of_lt hy] at this

theorem step_injective (g h : Pcg) (e : g.step = h.step) : g = h := by
  unfold Pcg.step at e
  injection e with e1 e2
  rw [e2] at e1
  have e3 : g.state * pcgMult = h.state * pcgMult := by
    have := congrArg (· - h.inc) e1
    simpa using this
  have e4 := mul_odd_injective pcgMult (by rw [pcgMult_toNat]) e3
  cases g; cases h; simp_all

theorem xorshift_injective {w s : Nat} (hs : w ≤ 2 * s) {x y : BitVec w}
    (h : x ^^^ (x >>> s) = y ^^^ (y >>> s)) : x = y := by
  have hinv : ∀ z : BitVec w, (z ^^^ (z >>> s)) ^^^ ((z ^^^ (z >>> s)) >>> s) = z := by
    intro z
    ext i hi
    simp only [BitVec.getElem_xor, BitVec.getElem_ushiftRight, BitVec.getLsbD_xor, BitVec.getLsbD_ushiftRight]
    rw [BitVec.getLsbD_of_ge z (s + (s + i)) (by omega)]
    simp
  rw [← hinv x, h, hinv y]

/-- The output as a function of the upper half of the state, the lower half fixed. -/
theorem output_injective (s t : BitVec 128) (hlo : s.setWidth 64 = t.setWidth 64)
    (h : pcgOutput s = pcgOutput t) : s = t := by
  unfold pcgOutput at h
  dsimp only at h
  rw [hlo] at h
  have hodd : (t.setWidth 64 ||| 1#64).toNat % 2 = 1 := by
    rw [BitVec.toNat_or]
    have := Nat.or_mod_two_eq_one (a := (t.setWidth 64).toNat) (b := 1)
    simpa using this
  have h1 := xorshift_injective (by decide) (mul_odd_injective _ hodd h)
  have h2 := xorshift_injective (by decide) (mul_odd_injective _ (by decide) h1)
  apply BitVec.eq_of_toNat_eq
  have e1 := congrArg BitVec.toNat h2
  have e2 := congrArg BitVec.toNat hlo
  simp only [BitVec.toNat_setWidth, BitVec.toNat_ushiftRight, Nat.shiftRight_eq_div_pow] at e1 e2
  have hs := s.isLt
  have ht := t.isLt
  generalize s.toNat = p at *
  generalize t.toNat = q at *
  clear h h1 h2 hodd hlo
  have e3 : p / 2 ^ 64 = q / 2 ^ 64 := by
    rw [Nat.mod_eq_of_lt (by omega), Nat.mod_eq_of_lt (by omega)] at e1; exact e1
  rw [← Nat.div_add_mod p (2 ^ 64), ← Nat.div_add_mod q (2 ^ 64), e2, e3]

/-! ### Equidistribution -/

theorem finite_bitVec (w : Nat) : Finite (BitVec w) :=
  Finite.of_injective BitVec.toFin (fun _ _ h => BitVec.eq_of_toFin_eq h)

/-- `BitVec w` has as many elements as there are numbers below `2^w`. -/
def bitVecEquiv (w : Nat) : BitVec w ≃ Fin (2 ^ w) where
  toFun := BitVec.toFin
  invFun := BitVec.ofFin
  left_inv _ := rfl
  right_inv _ := rfl

theorem card_bitVec (w : Nat) : Nat.card (BitVec w) = 2 ^ w := by
  rw [Nat.card_congr (bitVecEquiv w), Nat.card_eq_fintype_card, Fintype.card_fin]

theorem iterate_injective (g : Pcg) (hodd : g.inc.toNat % 2 = 1) (m n : Nat) (hm : m < 2 ^ 128) (hn : n < 2 ^ 128)
    (h : Pcg.step^[m] g = Pcg.step^[n] g) : m = n := by
  have key : ∀ m n : Nat, m ≤ n → n < 2 ^ 128 → Pcg.step^[m] g = Pcg.step^[n] g → m = n := by
    intro m n hmn hn h
    obtain ⟨d, rfl⟩ := Nat.exists_eq_add_of_le hmn
    rw [Function.iterate_add_apply] at h
    have hinj : Function.Injective Pcg.step := fun a b => step_injective a b
    have h1 := (hinj.iterate m) h
    have h2 := (step_return g hodd d).1 h1.symm
    have h3 : d = 0 := Nat.eq_zero_of_dvd_of_lt h2 (by omega)
    omega
  rcases Nat.le_total m n with h' | h'
  · exact key m n h' hn h
  · exact (key n m h' hm h.symm).symm

/-- The states of one period. -/
def orbit (g : Pcg) (n : Fin (2 ^ 128)) : BitVec 128 := (Pcg.step^[n.val] g).state

theorem iterate_inc (g : Pcg) (n : Nat) : (Pcg.step^[n] g).inc = g.inc := (step_iterate g n pcgMult rfl).1

theorem orbit_bijective (g : Pcg) (hodd : g.inc.toNat % 2 = 1) : Function.Bijective (orbit g) := by
  have hinj : Function.Injective (orbit g) := by
    intro m n h
    apply Fin.ext
    apply iterate_injective g hodd _ _ m.isLt n.isLt
    exact (Pcg.ext_iff' _ _).2 ⟨h, by rw [iterate_inc, iterate_inc]⟩
  refine ⟨hinj, ?_⟩
  have := finite_bitVec 128
  exact ((Nat.bijective_iff_injective_and_card _).2
    ⟨hinj, by rw [card_bitVec, Nat.card_eq_fintype_card, Fintype.card_fin]⟩).2

/-- The two halves of a state. -/
theorem halves_lo (hi lo : BitVec 64) : (hi ++ lo : BitVec 128).setWidth 64 = lo := by
  ext i h
  rw [BitVec.getElem_setWidth]
  have := BitVec.getLsbD_append (x := hi) (y := lo) (i := i)
  rw [if_pos h] at this
  exact this.trans (BitVec.getLsbD_eq_getElem h)

theorem output_append (lo hi hi' : BitVec 64) (h : pcgOutput (hi ++ lo : BitVec 128) = pcgOutput (hi' ++ lo : BitVec 128)) :
    hi = hi' := by
  have h1 := output_injective _ _ (by rw [halves_lo, halves_lo]) h
  ext i hi64
  have h2 := congrArg (fun b : BitVec 128 => b.getLsbD (64 + i)) h1
  have a1 := BitVec.getLsbD_append (x := hi) (y := lo) (i := 64 + i)
  have a2 := BitVec.getLsbD_append (x := hi') (y := lo) (i := 64 + i)
  rw [if_neg (by omega), Nat.add_sub_cancel_left, BitVec.getLsbD_eq_getElem hi64] at a1 a2
  exact a1.symm.trans (h2.trans a2)

theorem output_surjective (lo u : BitVec 64) : ∃ hi : BitVec 64, pcgOutput (hi ++ lo : BitVec 128) = u := by
  have := finite_bitVec 64
  exact Finite.surjective_of_injective (f := fun hi : BitVec 64 => pcgOutput (hi ++ lo : BitVec 128))
    (fun a b h => output_append lo a b h) u

theorem card_output (g : Pcg) (hodd : g.inc.toNat % 2 = 1) (u : BitVec 64) :
    Nat.card {n : Fin (2 ^ 128) // pcgOutput (orbit g n) = u} = 2 ^ 64 := by
  rw [← card_bitVec 64]
  apply Nat.card_eq_of_bijective (fun n : {n : Fin (2 ^ 128) // pcgOutput (orbit g n) = u} =>
    (orbit g n.val).setWidth 64)
  constructor
  · intro a b h
    apply Subtype.ext
    apply (orbit_bijective g hodd).1
    exact output_injective _ _ h (a.2.trans b.2.symm)
  · intro lo
    obtain ⟨hi, hu⟩ := output_surjective lo u
    obtain ⟨n, hn⟩ := (orbit_bijective g hodd).2 (hi ++ lo : BitVec 128)
    refine ⟨⟨n, by rw [hn, hu]⟩, ?_⟩
    dsimp only
    rw [hn, halves_lo]

/-! ### Bounded numbers -/

/-- What `bounded_uint64` does with one number. -/
def lemirePick (range : Nat) (x : BitVec 64) : Option Nat :=
  if x.toNat * range % 2 ^ 64 < 2 ^ 64 % range then none else some (x.toNat * range / 2 ^ 64)

theorem threshold (r : Nat) (h : r < 2 ^ 64) (h0 : 0 < r) : (2 ^ 64 - r) % r = 2 ^ 64 % r := by
  rw [Nat.mod_eq_sub_mod (a := 2 ^ 64) (by omega)]

theorem lemireLoop_eq {σ : Type} (next : σ → BitVec 64 × σ) (r fuel : Nat) (x : BitVec 64) (g : σ) :
    (lemireLoop next r (2 ^ 64 % r) fuel (x.toNat * r) g).map (fun p => (p.1 / 2 ^ 64, p.2)) =
      match lemirePick r x with
      | some v => some (v, g)
      | none => Spec.firstAccepted (lemirePick r) next fuel g := by
  induction fuel generalizing x g with
  | zero =>
    unfold lemireLoop lemirePick
    split <;> simp [Spec.firstAccepted]
  | succ n ih =>
    unfold lemireLoop
    by_cases h : x.toNat * r % 2 ^ 64 < 2 ^ 64 % r
    · rw [if_pos h]
      dsimp only
      rw [ih]
      have : lemirePick r x = none := by unfold lemirePick; rw [if_pos h]
      rw [this]
      dsimp only
      rw [Spec.firstAccepted]
      cases lemirePick r (next g).1 <;> rfl
    · rw [if_neg h]
      have : lemirePick r x = some (x.toNat * r / 2 ^ 64) := by unfold lemirePick; rw [if_neg h]
      rw [this]
      rfl

theorem boundedUint64_eq {σ : Type} (next : σ → BitVec 64 × σ) (r fuel : Nat) (h0 : 0 < r) (h : r < 2 ^ 64) (g : σ) :
    boundedUint64 next fuel r g = Spec.firstAccepted (lemirePick r) next (fuel + 1) g := by
  unfold boundedUint64
  rw [if_neg (by omega)]
  dsimp only
  rw [threshold r h h0, lemireLoop_eq, Spec.firstAccepted]
  split
  · cases lemirePick r (next g).1 <;> rfl
  · next hc =>
    have hlt := Nat.mod_lt (2 ^ 64) h0
    have : lemirePick r (next g).1 = some ((next g).1.toNat * r / 2 ^ 64) := by
      unfold lemirePick; rw [if_neg (by omega)]
    rw [this]

theorem lemirePick_lt (r : Nat) (h0 : 0 < r) (x : BitVec 64) (v : Nat) (h : lemirePick r x = some v) : v < r := by
  unfold lemirePick at h
  split at h
  · cases h
  · injection h with h
    subst h
    have hx := x.isLt
    rw [Nat.div_lt_iff_lt_mul (by decide), Nat.mul_comm r]
    exact Nat.mul_lt_mul_of_pos_right hx h0

/-- The accepted numbers for one value are `N / r` consecutive ones. -/
theorem pick_interval (N r v x : Nat) (hr : 0 < r) (hN : 0 < N) :
    (¬ x * r % N < N % r ∧ x * r / N = v) ↔
      (v * N + N % r + r - 1) / r ≤ x ∧ x < (v * N + N % r + r - 1) / r + N / r := by
  have hd := Nat.div_add_mod N r
  have ht := Nat.mod_lt N hr
  have h1 : (¬ x * r % N < N % r ∧ x * r / N = v) ↔ v * N + N % r ≤ x * r ∧ x * r < v * N + N := by
    have hxd := Nat.div_add_mod (x * r) N
    have hxm := Nat.mod_lt (x * r) hN
    constructor
    · rintro ⟨ha, rfl⟩
      rw [Nat.mul_comm N] at hxd
      omega
    · rintro ⟨ha, hb⟩
      have hv : x * r / N = v := by
        rw [Nat.div_eq_iff hN]
        have : v * N + N - 1 = v * N + (N - 1) := by omega
        omega
      refine ⟨?_, hv⟩
      rw [hv, Nat.mul_comm N] at hxd
      omega
  rw [h1]
  generalize hc : (v * N + N % r + r - 1) / r = c
  have hlow : ∀ y, v * N + N % r ≤ y * r ↔ c ≤ y := by
    intro y
    rw [← hc, Nat.div_le_iff_le_mul_add_pred hr, Nat.mul_comm r]
    omega
  have hcr := (hlow c).2 (le_refl c)
  have hle : N / r ≤ c ∨ c < N / r := by omega
  rw [hlow]
  have : x * r < v * N + N ↔ x < c + N / r := by
    constructor
    · intro hx
      by_contra hge
      have h2 : (c + N / r) * r ≤ x * r := Nat.mul_le_mul_right r (by omega)
      rw [Nat.add_mul, Nat.mul_comm (N / r)] at h2
      omega
    · intro hx
      by_contra hge
      have h2 : N / r ≤ x := by
        by_contra hlt
        have : (x + 1) * r ≤ N / r * r := Nat.mul_le_mul_right r (by omega)
        have h3 := Nat.div_mul_le_self N r
        have h4 : 0 ≤ v * N := Nat.zero_le _
        rw [Nat.add_mul] at this
        omega
      have h3 : v * N + N % r ≤ (x - N / r) * r := by
        rw [Nat.sub_mul, Nat.mul_comm (N / r)]
        omega
      have := (hlow _).1 h3
      omega
  rw [this]

theorem lemirePick_card (r v : Nat) (h0 : 0 < r) (hv : v < r) :
    Nat.card {x : BitVec 64 // lemirePick r x = some v} = 2 ^ 64 / r := by
  have hiff : ∀ x : BitVec 64, lemirePick r x = some v ↔
      x.toNat ∈ Finset.Ico ((v * 2 ^ 64 + 2 ^ 64 % r + r - 1) / r)
        ((v * 2 ^ 64 + 2 ^ 64 % r + r - 1) / r + 2 ^ 64 / r) := by
    intro x
    rw [Finset.mem_Ico, ← pick_interval (2 ^ 64) r v x.toNat h0 (by decide)]
    unfold lemirePick
    by_cases h : x.toNat * r % 2 ^ 64 < 2 ^ 64 % r
    · rw [if_pos h]; exact ⟨fun k => (by cases k), fun k => absurd h k.1⟩
    · rw [if_neg h]; exact ⟨fun k => ⟨h, Option.some.inj k⟩, fun k => congrArg some k.2⟩
  have hlt : ∀ y, y ∈ Finset.Ico ((v * 2 ^ 64 + 2 ^ 64 % r + r - 1) / r)
        ((v * 2 ^ 64 + 2 ^ 64 % r + r - 1) / r + 2 ^ 64 / r) → y < 2 ^ 64 := by
    intro y hy
    rw [Finset.mem_Ico, ← pick_interval (2 ^ 64) r v y h0 (by decide)] at hy
    have h1 : y * r / 2 ^ 64 < r := by rw [hy.2]; exact hv
    rw [Nat.div_lt_iff_lt_mul (by decide), Nat.mul_comm r] at h1
    exact Nat.lt_of_mul_lt_mul_right h1
  generalize hc : (v * 2 ^ 64 + 2 ^ 64 % r + r - 1) / r = c at *
  generalize hq : 2 ^ 64 / r = q at *
  rw [show q = (Finset.Ico c (c + q)).card by simp]
  rw [← Fintype.card_coe, ← Nat.card_eq_fintype_card]
  apply Nat.card_eq_of_bijective (fun x : {x : BitVec 64 // lemirePick r x = some v} =>
    (⟨x.val.toNat, (hiff x.val).1 x.2⟩ : Finset.Ico c (c + q)))
  constructor
  · intro a b h
    apply Subtype.ext
    apply BitVec.eq_of_toNat_eq
    exact congrArg (fun z : Finset.Ico c (c + q) => z.val) h
  · rintro ⟨y, hy⟩
    have hn : (BitVec.ofNat 64 y).toNat = y := by
      rw [BitVec.toNat_ofNat]; exact Nat.mod_eq_of_lt (hlt y hy)
    refine ⟨⟨BitVec.ofNat 64 y, (hiff _).2 (by rw [hn]; exact hy)⟩, ?_⟩
    apply Subtype.ext
    exact hn

theorem firstAccepted_isSome {σ β : Type} (pick : BitVec 64 → Option β) (next : σ → BitVec 64 × σ) (n : Nat) (g : σ)
    (h : (pick (next ((fun g => (next g).2)^[n] g)).1).isSome) : (Spec.firstAccepted pick next (n + 1) g).isSome := by
  induction n generalizing g with
  | zero =>
    rw [Spec.firstAccepted]
    simp only [Function.iterate_zero, id] at h
    cases hp : pick (next g).1 with
    | none => rw [hp] at h; simp at h
    | some v => rfl
  | succ n ih =>
    rw [Spec.firstAccepted]
    cases hp : pick (next g).1 with
    | none => exact ih _ h
    | some v => rfl

theorem firstAccepted_some {σ β : Type} (pick : BitVec 64 → Option β) (next : σ → BitVec 64 × σ) (n : Nat) (g : σ)
    (r : β × σ) (h : Spec.firstAccepted pick next n g = some r) : ∃ x, pick x = some r.1 := by
  induction n generalizing g with
  | zero => cases h
  | succ n ih =>
    rw [Spec.firstAccepted] at h
    cases hp : pick (next g).1 with
    | none => rw [hp] at h; exact ih _ h
    | some v =>
      rw [hp] at h
      injection h with h
      subst h
      exact ⟨_, hp⟩

theorem bounded_lt {σ : Type} (next : σ → BitVec 64 × σ) (r fuel : Nat) (h0 : 0 < r) (h : r < 2 ^ 64) (g : σ)
    (p : Nat × σ) (hp : boundedUint64 next fuel r g = some p) : p.1 < r := by
  rw [boundedUint64_eq next r fuel h0 h] at hp
  obtain ⟨x, hx⟩ := firstAccepted_some _ _ _ _ _ hp
  exact lemirePick_lt r h0 x _ hx

end Rumpy
