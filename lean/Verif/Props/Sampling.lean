import Verif.Lemmas.Sampling
import Verif.Lemmas.FloatPower
import Verif.Props.Random
import Verif.Props.Arith
import Verif.Lemmas.Totals
import Mathlib.Data.List.Forall2

/-!
# C106: samples do not depend on how many are asked for at once

`rng.normal(size=(2, 3))` gives the six numbers that six calls `rng.normal()` give, and leaves the generator in the same
state; and so for the other distributions.  `permutation` of an array.
-/

namespace Props

open Spec Rumpy

variable {σ : Type}

/-- The samplers of the library give doubles. -/
def _root_.Rumpy.RandLib.Doubles (lib : RandLib σ) : Prop :=
  ∀ o params f g x g', lib.make o params = some f → f g = some (x, g') → IsFlt 53 (-1074) 971 x

/-- The parameters for which the scalar form is computed as the array form: a finite scale of `normal`, and a scale of
`exponential` that is what is left of it after two divisions. -/
def _root_.Rumpy.Dist.Plain : Dist → Prop
  | .normal _ scale => ∃ q, scale = .num q
  | .exponential scale => rateOk (recip scale) = true ∧ recip (recip scale) = scale
  | _ => True

/-- The constructor accepts the parameters. -/
def Accepted (lib : RandLib σ) : Dist → Prop
  | .other o params => ∃ f, lib.make o params = some f
  | _ => True

theorem drawList_one {α : Type} (f : σ → Option (α × σ)) (g : σ) :
    drawList f 1 g = (f g).map fun r => ([r.1], r.2) := by
  rw [drawList_succ]
  cases f g <;> rfl

theorem arrayCall_some (lib : RandLib σ) (fuel : Nat) (d : Dist) (s : List Nat) (g : σ) {f : σ → Option (Flt ℚ × σ)}
    (hf : sampler lib fuel d = some f) :
    arrayCall lib fuel d s g = (drawList f (Rumpy.sizeOf s) g).map fun r => (⟨s, r.1.map (writeF64 d.dtype)⟩, r.2) := by
  unfold arrayCall
  rw [hf]
  dsimp only
  cases drawList f (Rumpy.sizeOf s) g <;> rfl

theorem arrayCall_none (lib : RandLib σ) (fuel : Nat) (d : Dist) (s : List Nat) (g : σ) (hf : sampler lib fuel d = none) :
    arrayCall lib fuel d s g = none := by
  unfold arrayCall
  rw [hf]

/-- The scalar of an array of one element is the element. -/
theorem oneScalar_eq (d : Dist) (hd : d.dtype = .i64 ∨ d.dtype = .f64) (x : Flt ℚ) (hx : IsFlt 53 (-1074) 971 x) (s : List Nat) :
    oneScalar d ⟨s, [x].map (writeF64 d.dtype)⟩ = writeF64 d.dtype x := by
  rcases hd with h | h
  · unfold oneScalar firstF64
    rw [if_pos h, h]
    exact congrArg Elem.int (fltToInt_again hx)
  · unfold oneScalar firstF64
    rw [if_neg (by rw [h]; decide), h]
    rfl

theorem integersDraw_double (lib : RandLib σ) (fuel : Nat) (low high : Int) (g g' : σ) (x : Flt ℚ)
    (h : integersDraw lib fuel low high g = some (x, g')) : IsFlt 53 (-1074) 971 x := by
  unfold integersDraw at h
  cases hb : boundedUint64 lib.word fuel ((wrap64 (high - low)) % 2 ^ 64).toNat g with
  | none => rw [hb] at h; cases h
  | some r =>
    rw [hb] at h
    simp only [Option.map_some, Option.some.injEq, Prod.mk.injEq] at h
    rw [← h.1]
    have hbd : (wrap64 (low + r.1)).natAbs < 2 ^ 65 := by
      unfold wrap64
      have h1 := Int.le_bmod (x := low + r.1) (m := 2 ^ 64) (by norm_num)
      have h2 := Int.bmod_lt (x := low + r.1) (m := 2 ^ 64) (by norm_num)
      omega
    rw [← intToF64_round hbd]
    exact roundBin_isFlt (by norm_num) (by norm_num) _

/-- The call without a size draws once from the sampler of the arrays. -/
theorem scalarCall_eq (lib : RandLib σ) (fuel : Nat) (hl : lib.Doubles) (d : Dist) (hp : d.Plain) {f : σ → Option (Flt ℚ × σ)}
    (hf : sampler lib fuel d = some f) (g : σ) :
    scalarCall lib fuel d g = (f g).map fun r => (writeF64 d.dtype r.1, r.2) := by
  have one : ∀ d : Dist, (d.dtype = .i64 ∨ d.dtype = .f64) → sampler lib fuel d = some f →
      (∀ g x g', f g = some (x, g') → IsFlt 53 (-1074) 971 x) →
      ((arrayCall lib fuel d [1] g).map fun r => (oneScalar d r.1, r.2)) = (f g).map fun r => (writeF64 d.dtype r.1, r.2) := by
    intro d hd hf hx
    rw [arrayCall_some lib fuel d [1] g hf, show Rumpy.sizeOf [1] = 1 from rfl, drawList_one]
    cases hfg : f g with
    | none => rfl
    | some r =>
      simp only [Option.map_some]
      rw [oneScalar_eq d hd r.1 (hx g r.1 r.2 hfg)]
  cases d with
  | random => cases hf; rfl
  | integers low high =>
    refine one _ (Or.inl rfl) hf ?_
    cases hf
    exact fun g x g' h => integersDraw_double lib fuel low high g g' x h
  | uniform low high => cases hf; rfl
  | normal loc scale =>
    obtain ⟨q, rfl⟩ := hp
    cases hf
    rfl
  | standardNormal => cases hf; rfl
  | exponential scale =>
    obtain ⟨h1, h2⟩ := hp
    have h3 : sampler lib fuel (.exponential scale) = some (rateDraw lib scale) := by
      show (if rateOk (recip scale) then some (rateDraw lib (recip (recip scale))) else none) = _
      rw [if_pos h1, h2]
    rw [h3] at hf
    cases hf
    show ((expDraw lib scale g).map fun r => (Elem.flt r.1, r.2)) = (rateDraw lib scale g).map fun r => (Elem.flt r.1, r.2)
    unfold expDraw rateDraw
    cases lib.exp1 g with
    | none => rfl
    | some r =>
      simp only [Option.map_some]
      rw [fltMul_comm]
  | standardExponential => cases hf; rfl
  | other o params =>
    refine one _ ?_ hf ?_
    · show (if o.whole then DType.i64 else .f64) = _ ∨ (if o.whole then DType.i64 else .f64) = _
      cases o.whole
      · exact Or.inr rfl
      · exact Or.inl rfl
    · exact fun g x g' h => hl o params f g x g' hf h

theorem sampler_some (lib : RandLib σ) (fuel : Nat) (d : Dist) (hp : d.Plain) (ha : Accepted lib d) :
    ∃ f, sampler lib fuel d = some f := by
  cases d with
  | normal loc scale =>
    obtain ⟨q, rfl⟩ := hp
    exact ⟨_, rfl⟩
  | exponential scale => exact ⟨_, if_pos hp.1⟩
  | other o params => exact ha
  | _ => exact ⟨_, rfl⟩

/-- A call with a size gives an array of that shape whose elements, in row-major order, are what so many calls without a
size give, and leaves the generator in the same state; it fails exactly if one of these calls fails. -/
theorem C106_sizes_partial (lib : RandLib σ) (fuel : Nat) (hl : lib.Doubles) (d : Dist) (hp : d.Plain) (ha : Accepted lib d)
    (s : List Nat) (g : σ) (a : Arr Elem) (g' : σ) :
    arrayCall lib fuel d s g = some (a, g') ↔ a.shape = s ∧ InARow (scalarCall lib fuel d) (size s) g a.data g' := by
  obtain ⟨f, hf⟩ := sampler_some lib fuel d hp ha
  rw [arrayCall_some lib fuel d s g hf, ← drawList_iff,
    show scalarCall lib fuel d = fun g => (f g).map fun r => (writeF64 d.dtype r.1, r.2) from
      funext fun g => scalarCall_eq lib fuel hl d hp hf g, drawList_map, ← sizeOf_eq]
  cases drawList f (Rumpy.sizeOf s) g with
  | none => simp
  | some r =>
    obtain ⟨b, c⟩ := a
    simp only [Option.map_some, Option.some.injEq, Prod.mk.injEq, Arr.mk.injEq]
    tauto

/-- Asking for `m + n` numbers is asking for `m` and then for `n`: for every distribution and every parameters. -/
theorem C106_split (lib : RandLib σ) (fuel : Nat) (d : Dist) (m n : Nat) (g : σ) (a : Arr Elem) (g'' : σ) :
    arrayCall lib fuel d [m + n] g = some (a, g'') ↔
      ∃ b c g', arrayCall lib fuel d [m] g = some (b, g') ∧ arrayCall lib fuel d [n] g' = some (c, g'') ∧
        a.shape = [m + n] ∧ a.data = b.data ++ c.data := by
  cases hf : sampler lib fuel d with
  | none =>
    rw [arrayCall_none lib fuel d _ g hf]
    constructor
    · intro h; cases h
    · rintro ⟨b, c, g', h, -⟩
      rw [arrayCall_none lib fuel d _ g hf] at h
      cases h
  | some f =>
    have hs : ∀ k, Rumpy.sizeOf [k] = k := fun k => by simp [Rumpy.sizeOf]
    rw [arrayCall_some lib fuel d _ g hf, hs, drawList_append]
    have e1 : arrayCall lib fuel d [m] g = (drawList f m g).map fun r => (⟨[m], r.1.map (writeF64 d.dtype)⟩, r.2) := by
      rw [arrayCall_some lib fuel d _ g hf, hs]
    have e2 : ∀ g, arrayCall lib fuel d [n] g = (drawList f n g).map fun r => (⟨[n], r.1.map (writeF64 d.dtype)⟩, r.2) := by
      intro g
      rw [arrayCall_some lib fuel d _ g hf, hs]
    rw [e1]
    cases drawList f m g with
    | none => simp
    | some r =>
      obtain ⟨xs, g1⟩ := r
      simp only [Option.bind_some, Option.map_some, Option.some.injEq, Prod.mk.injEq]
      constructor
      · intro h
        cases h2 : drawList f n g1 with
        | none => rw [h2] at h; cases h
        | some q =>
          rw [h2] at h
          simp only [Option.map_some, Option.some.injEq, Prod.mk.injEq] at h
          refine ⟨_, ⟨[n], q.1.map (writeF64 d.dtype)⟩, g1, ⟨rfl, rfl⟩, ?_, ?_, ?_⟩
          · rw [e2, h2, ← h.2]; rfl
          · rw [← h.1]
          · rw [← h.1]; simp
      · rintro ⟨b, c, g', ⟨rfl, rfl⟩, h2, h3, h4⟩
        rw [e2] at h2
        cases h5 : drawList f n g1 with
        | none => rw [h5] at h2; cases h2
        | some q =>
          rw [h5] at h2
          simp only [Option.map_some, Option.some.injEq, Prod.mk.injEq] at h2
          obtain ⟨rfl, rfl⟩ := h2
          obtain ⟨sh, dat⟩ := a
          cases h3
          cases h4
          simp

/-- The shape only arranges the numbers: for every distribution and every parameters. -/
theorem C106_shape (lib : RandLib σ) (fuel : Nat) (d : Dist) (s : List Nat) (g : σ) (a : Arr Elem) (g' : σ) :
    arrayCall lib fuel d s g = some (a, g') ↔ a.shape = s ∧ arrayCall lib fuel d [size s] g = some (⟨[size s], a.data⟩, g') := by
  cases hf : sampler lib fuel d with
  | none => simp [arrayCall_none lib fuel d _ g hf]
  | some f =>
    have hs : Rumpy.sizeOf [size s] = Rumpy.sizeOf s := by
      rw [sizeOf_eq s]
      simp [Rumpy.sizeOf]
    rw [arrayCall_some lib fuel d _ g hf, arrayCall_some lib fuel d _ g hf, hs]
    cases drawList f (Rumpy.sizeOf s) g with
    | none => simp
    | some r =>
      obtain ⟨b, c⟩ := a
      simp only [Option.map_some, Option.some.injEq, Prod.mk.injEq, Arr.mk.injEq]
      tauto

theorem isFloat_power {k : Int} (h1 : -1074 ≤ k) (h2 : k ≤ 971) : IsFloat 53 (-1074) 971 ((2 : ℚ) ^ k) :=
  ⟨1, k, by norm_num, h1, h2, by simp⟩

theorem recip_power {k : Int} (h1 : -971 ≤ k) (h2 : k ≤ 971) : recip (.num ((2 : ℚ) ^ k)) = .num ((2 : ℚ) ^ (-k)) := by
  have h0 : (2 : ℚ) ^ k ≠ 0 := by positivity
  show (if (2 : ℚ) ^ k = 0 then _ else roundBin 53 (-1074) 971 (1 / (2 : ℚ) ^ k)) = _
  rw [if_neg h0, one_div, ← zpow_neg]
  exact roundBin_exact (isFloat_power (by omega) (by omega))

/-- Among the scales for which `C106_sizes_partial` speaks of `exponential` are the powers of two, and so the default. -/
theorem C106_exponential_scales (k : Int) (h1 : -971 ≤ k) (h2 : k ≤ 971) : (Dist.exponential (.num ((2 : ℚ) ^ k))).Plain := by
  have hr := recip_power h1 h2
  refine ⟨?_, ?_⟩
  · rw [hr]
    have : (0 : ℚ) < 2 ^ (-k) := by positivity
    show (decide ((0 : ℚ) < 2 ^ (-k)) || _) = true
    rw [decide_eq_true this, Bool.true_or]
  · rw [hr, recip_power (by omega) (by omega), neg_neg]

/-! ### Examples -/

/-- A generator that counts, with samplers that give the count. -/
def countLib : RandLib Nat where
  word g := (BitVec.ofNat 64 (g * 2 ^ 62), g + 1)
  normal g := some (.num g, g + 1)
  exp1 g := some (.num g, g + 1)
  make o params := if params = [] then none else some fun g => some (.num (g % 2 ^ 20 : Nat), g + 1)

theorem countLib_doubles : countLib.Doubles := by
  intro o params f g x g' h1 h2
  unfold countLib at h1
  dsimp only at h1
  split at h1
  · cases h1
  · cases h1
    simp only [Option.some.injEq, Prod.mk.injEq] at h2
    rw [← h2.1]
    have := isFloat_small (n := (g % 2 ^ 20 : Nat)) (by
      have := Nat.mod_lt g (show 0 < 2 ^ 20 by norm_num)
      omega)
    exact_mod_cast this

example : ∃ a g', arrayCall countLib 5 (.normal (.num 1) (.num 2)) [2, 2] 3 = some (a, g') ∧ a.shape = [2, 2] ∧
    InARow (scalarCall countLib 5 (.normal (.num 1) (.num 2))) 4 3 a.data g' :=
  ⟨⟨[2, 2], [.flt (.num 7), .flt (.num 9), .flt (.num 11), .flt (.num 13)]⟩, 7, by decide +kernel,
    (C106_sizes_partial countLib 5 countLib_doubles (.normal (.num 1) (.num 2)) ⟨2, rfl⟩ trivial [2, 2] 3 _ _).mp (by decide +kernel)⟩

example : arrayCall countLib 5 (.integers 10 14) [3] 1 =
    some (⟨[3], [.int 11, .int 12, .int 13]⟩, 4) := by decide +kernel

example : scalarCall countLib 5 (.integers 10 14) 1 = some (.int 11, 2) := by decide +kernel

example : scalarCall countLib 5 (.other .poisson [.num 3]) 8 = some (.int 8, 9) := by decide +kernel

example : arrayCall countLib 5 (.uniform (.num 2) (.num 6)) [2] 1 =
    some (⟨[2], [.flt (.num 3), .flt (.num 4)]⟩, 3) := by decide +kernel

/-! ### Where the two forms differ -/

/-- `exponential(49.0)`: as a scalar 49 times the draw, in an array 49.00000000000001 times the draw, because the array form
divides twice. -/
theorem C106_exponential_counterexample :
    scalarCall countLib 5 (.exponential (.num 49)) 1 = some (.flt (.num 49), 2) ∧
    arrayCall countLib 5 (.exponential (.num 49)) [1] 1 = some (⟨[1], [.flt (.num (49 + 1 / 2 ^ 47))]⟩, 2) := by
  constructor <;> decide +kernel

/-- With a negative scale the scalar form gives a negative number, the array form panics. -/
theorem C106_negative_counterexample :
    scalarCall countLib 5 (.exponential (.num (-1))) 1 = some (.flt (.num (-1)), 2) ∧
    arrayCall countLib 5 (.exponential (.num (-1))) [1] 1 = none := by
  constructor <;> decide +kernel

/-- With an infinite scale the scalar form of `normal` gives an infinity, the array form panics, even for no numbers at all. -/
theorem C106_infinite_counterexample :
    scalarCall countLib 5 (.normal (.num 0) .posInf) 1 = some (.flt .posInf, 2) ∧
    arrayCall countLib 5 (.normal (.num 0) .posInf) [0] 1 = none := by
  constructor <;> decide +kernel

/-! ### permutation of an array -/

/-- `permutation` of an array of a real dtype gives its elements, as doubles, in some order, in one dimension. -/
theorem C106_permutation_partial (lib : RandLib σ) (fuel : Nat) {d : DType} (hd : d.Real) (h : Held Elem) (hw : h.view.WF)
    (ht : Typed d h) (hs : size h.view.shape < 2 ^ 63) (g g' : σ) (a : Arr Elem) (hr : permutationArr lib fuel h g = some (a, g')) :
    a.shape = [size h.view.shape] ∧ ∃ l : List Elem, l.Perm a.data ∧
      List.Forall₂ (fun x y => ∃ u u', x.parts = some (u, .num 0) ∧ y = .flt u' ∧ IsDouble u u') h.nd.toList l := by
  unfold permutationArr at hr
  have hmap : (h.view.addrs.map fun p => (readF64 (h.mem p)).getD (.num 0)) =
      h.nd.toList.map fun x => (readF64 x).getD (.num 0) := by
    have := addrs_map hw h.mem
    rw [show h.nd.toList = h.view.addrs.map h.mem from this.symm, List.map_map]
    rfl
  rw [hmap] at hr
  have hlen : (h.nd.toList.map fun x => (readF64 x).getD (.num 0)).length = size h.view.shape := by
    rw [List.length_map, Rumpy.length_toList]
    rfl
  cases hsh : shuffleData lib.word fuel (h.nd.toList.map fun x => (readF64 x).getD (.num 0)) g with
  | none => rw [hsh] at hr; cases hr
  | some r =>
    obtain ⟨l', g1⟩ := r
    rw [hsh] at hr
    simp only [Option.map_some, Option.some.injEq, Prod.mk.injEq] at hr
    obtain ⟨rfl, rfl⟩ := hr
    have hp := (C38_shuffle lib.word fuel _ l' g g1 (by rw [hlen]; exact hs) hsh).1
    refine ⟨by rw [show l'.length = _ from hp.length_eq, hlen], _, (hp.map Elem.flt).symm, ?_⟩
    rw [List.map_map, List.forall₂_map_right_iff]
    refine List.forall₂_same.mpr fun x hx => ?_
    obtain ⟨i, hi, rfl⟩ := List.mem_map.mp hx
    obtain ⟨u, u', h1, h2, h3⟩ := readF64_double hd (ht i (mem_indices.mp hi))
    exact ⟨u, u', h1, by simp [h2], h3⟩

example : permutationArr countLib 5 (stored .i64 [3] [.int 5, .int 6, .int 7]) 1 =
    some (⟨[3], [.flt (.num 7), .flt (.num 6), .flt (.num 5)]⟩, 3) := by decide +kernel

/-- NumPy permutes the rows of a matrix and keeps the dtype; the code gives all elements mixed, in one dimension, as doubles. -/
theorem C106_permutation_counterexample :
    permutationArr countLib 5 (stored .i64 [1, 2] [.int (2 ^ 53 + 1), .int 1]) 1 =
      some (⟨[2], [.flt (.num 1), .flt (.num (2 ^ 53))]⟩, 2) := by decide +kernel

end Props
