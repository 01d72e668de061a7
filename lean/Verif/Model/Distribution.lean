import Verif.Model.Random
import Mathlib.Analysis.SpecialFunctions.Pow.Real
import Mathlib.Analysis.SpecialFunctions.Trigonometric.Inverse
/-!
# Model: distributions (src/random/generator.rs)

Numbers are those of an ordered field, or reals: rounding is not modelled. `none` stands for a value that is not finite, or for
a panic. The draws of `rand_distr` are parameters.
-/

namespace Rumpy

section field
variable {K : Type} [Field K] [LinearOrder K]

/-- One value of `uniform`, src/random/generator.rs:133-143; `u` is the value of `next_f64`. -/
def uniformOf (low high u : K) : K := low + u * (high - low)

/-- `f64::signum`: of zero it is one. -/
def signum (u : K) : K := if u < 0 then -1 else 1

/-- One value of `laplace`, src/random/generator.rs:308-315; `ln` gives no value where `f64::ln` is not finite. -/
def laplaceOf (ln : K → Option K) (loc scale u : K) : Option K :=
  let u := u - 1 / 2
  (ln (1 - 2 * (if u < 0 then -u else u))).map fun l => loc - scale * signum u * l

/-- One value of `logistic`, src/random/generator.rs:318-325. -/
def logisticOf (ln : K → Option K) (loc scale u : K) : Option K :=
  if 1 - u = 0 then none else (ln (u / (1 - u))).map fun l => loc + scale * l

/-- One value of `rayleigh`, src/random/generator.rs:328-334. -/
def rayleighOf (ln sqrt : K → Option K) (scale u : K) : Option K :=
  (ln (1 - u)).bind fun l => (sqrt (-2 * l)).map fun r => scale * r

/-! ### multinomial and dirichlet -/

/-- One row of `multinomial`, src/random/generator.rs:380-391; `binomial` is the draw of line 385. The subtraction of line 387
would panic for a draw above `remaining`. -/
def multinomialRow {M : Type → Type} [Monad M] (binomial : Nat → K → M Nat) : Nat → K → List K → M (List Nat)
  | _, _, [] => pure []
  | remaining, _, [_] => pure [remaining]
  | remaining, pRemaining, p :: q :: ps =>
    if 0 < pRemaining then do
      let c ← binomial remaining (p / pRemaining)
      let row ← multinomialRow binomial (remaining - c) (pRemaining - p) (q :: ps)
      pure (c :: row)
    else do
      let row ← multinomialRow binomial remaining pRemaining (q :: ps)
      pure (0 :: row)

/-- `Binomial::new(n, p).unwrap().sample(..)`: a panic unless `0 ≤ p ≤ 1`; `draw` is the sample. -/
def binomialDraw {σ : Type} (draw : Nat → K → σ → Nat × σ) (n : Nat) (p : K) : StateT σ Option Nat := fun g =>
  if 0 ≤ p ∧ p ≤ 1 then some (draw n p g) else none

/-- So many rows one after the other. -/
def rowsOf {σ β : Type} (row : StateT σ Option β) : Nat → StateT σ Option (List β)
  | 0 => pure []
  | k + 1 => do
    let r ← row
    let rs ← rowsOf row k
    pure (r :: rs)

/-- `multinomial`, src/random/generator.rs:375-394: shape and elements. Without categories, line 382 panics. -/
def multinomial {σ : Type} (draw : Nat → K → σ → Nat × σ) (n : Nat) (pvals : List K) (size : Nat) (g : σ) :
    Option ((List Nat × List Nat) × σ) :=
  let row : StateT σ Option (List Nat) :=
    if pvals.length = 0 then fun _ => none else multinomialRow (binomialDraw draw) n 1 pvals
  (rowsOf row size g).map fun r => (([size, pvals.length], r.1.flatten), r.2)

/-- One row of `dirichlet`, src/random/generator.rs:476-480, from the gamma samples; a sum of zero gives NaN. -/
def dirichletRow (gammas : List K) : Option (List K) :=
  let sum := gammas.sum
  if sum = 0 then none else some (gammas.map fun g => g / sum)

/-- `dirichlet`, src/random/generator.rs:470-483, from the gamma samples of each row. -/
def dirichlet (k : Nat) (samples : List (List K)) : Option (List Nat × List K) :=
  (samples.mapM dirichletRow).map fun rows => ([samples.length, k], rows.flatten)

/-! ### multivariate_normal -/

/-- One entry of the factor, src/random/generator.rs:268-274; `sqrt` gives no value for negative numbers, and a division by zero is
not finite. -/
def cholEntry (sqrt : K → Option K) (cov l : Nat → Nat → K) (i j : Nat) : Option K :=
  let sum := cov i j - ((List.range j).map fun k => l i k * l j k).sum
  if i = j then sqrt sum
  else if l j j = 0 then none
  else some (sum / l j j)

/-- `l[i][j] = x`. -/
def setEntry (l : Nat → Nat → K) (i j : Nat) (x : K) : Nat → Nat → K :=
  fun i' j' => if i' = i ∧ j' = j then x else l i' j'

/-- One row, src/random/generator.rs:267-275. -/
def cholRow (sqrt : K → Option K) (cov : Nat → Nat → K) (l : Nat → Nat → K) (i : Nat) : Option (Nat → Nat → K) :=
  (List.range (i + 1)).foldlM (fun l j => (cholEntry sqrt cov l i j).map fun x => setEntry l i j x) l

/-- The Cholesky factor, src/random/generator.rs:265-276. -/
def cholFactor (sqrt : K → Option K) (cov : Nat → Nat → K) (d : Nat) : Option (Nat → Nat → K) :=
  (List.range d).foldlM (cholRow sqrt cov) fun _ _ => 0

/-- One sample, src/random/generator.rs:285-291. -/
def mvnSample (mean : Nat → K) (l : Nat → Nat → K) (z : Nat → K) (d : Nat) : List K :=
  (List.range d).map fun i => (List.range (i + 1)).foldl (fun val j => val + l i j * z j) (mean i)

/-- `multivariate_normal`, src/random/generator.rs:256-295: shape and elements; `zs` are the standard normal vectors. -/
def multivariateNormal (sqrt : K → Option K) (mean : Nat → K) (cov : Nat → Nat → K) (d : Nat) (zs : List (Nat → K)) :
    Option (List Nat × List K) :=
  (cholFactor sqrt cov d).map fun l => ([zs.length, d], (zs.map fun z => mvnSample mean l z d).flatten)

end field

/-! ### Rejection sampling -/

/-- One round of `zipf`, src/random/generator.rs:404-410; `u` is one minus the first draw. -/
noncomputable def zipfRound (a u v : ℝ) : Option ℤ :=
  let am1 := a - 1
  let b := (2 : ℝ) ^ am1
  let x : ℤ := ⌊u ^ (-1 / am1)⌋
  let t := (1 + 1 / (x : ℝ)) ^ am1
  if v * x * (t - 1) / (b - 1) ≤ t / b then some x else none

/-- `zipf`, src/random/generator.rs:397-414: the first round that accepts, `draws` being the pairs of draws. -/
noncomputable def zipfLoop (a : ℝ) : List (ℝ × ℝ) → Option ℤ
  | [] => none
  | d :: draws =>
    match zipfRound a (1 - d.1) d.2 with
    | some x => some x
    | none => zipfLoop a draws

/-- The constant of `vonmises`, src/random/generator.rs:434-436. -/
noncomputable def vonmisesR (kappa : ℝ) : ℝ :=
  let tau := 1 + Real.sqrt (1 + 4 * kappa * kappa)
  let rho := (tau - Real.sqrt (2 * tau)) / (2 * kappa)
  (1 + rho * rho) / (2 * rho)

/-- `f64::acos`: no value outside of `[-1, 1]`. -/
noncomputable def acos? (w : ℝ) : Option ℝ := if -1 ≤ w ∧ w ≤ 1 then some (Real.arccos w) else none

/-- The cosine of the angle proposed in a round of `vonmises`, src/random/generator.rs:438-440; `u1` is the first draw. -/
noncomputable def vonmisesW (kappa u1 : ℝ) : Option ℝ :=
  let r := vonmisesR kappa
  let z := Real.cos (Real.pi * u1)
  if r + z = 0 then none else some ((1 + r * z) / (r + z))

/-- The test of a round of `vonmises`, src/random/generator.rs:441-443; `u2` is the second draw. -/
def vonmisesAccepts (kappa w u2 : ℝ) : Prop :=
  let c := kappa * (vonmisesR kappa - w)
  c * (2 - c) - u2 > 0 ∨ (0 < c ∧ Real.log c - c + 1 - u2 ≥ 0)

open Classical in
/-- A round of `vonmises`, src/random/generator.rs:438-446: no result when it is rejected, and otherwise the angle; `u3` is the
third draw, which is made only after the test. -/
noncomputable def vonmisesRound (mu kappa u1 u2 u3 : ℝ) : Option (Option ℝ) :=
  match vonmisesW kappa u1 with
  | none => none
  | some w =>
    if vonmisesAccepts kappa w u2 then
      let sign := if u3 > 1 / 2 then 1 else -1
      some ((acos? w).map fun x => mu + sign * x)
    else none

/-- The loop of `vonmises`, src/random/generator.rs:437-447: the first round that accepts. -/
noncomputable def vonmisesLoop (mu kappa : ℝ) : List (ℝ × ℝ × ℝ) → Option (Option ℝ)
  | [] => none
  | d :: draws =>
    match vonmisesRound mu kappa d.1 d.2.1 d.2.2 with
    | some x => some x
    | none => vonmisesLoop mu kappa draws

/-- One value of `vonmises`, src/random/generator.rs:430-448; `u` is the draw of the first case. -/
noncomputable def vonmises (mu kappa u : ℝ) (draws : List (ℝ × ℝ × ℝ)) : Option (Option ℝ) :=
  if kappa < 1 / 1000000 then some (some (Real.pi * (2 * u - 1))) else vonmisesLoop mu kappa draws

/-! ### choice -/

/-- `choice` with replacement, src/python/random.rs:912-916, on `values`; for an integer the values are `0 .. n-1`. An empty
population is an error (893-897). -/
def choiceReplace {σ α : Type} (next : σ → BitVec 64 × σ) (fuel : Nat) (values : List α) (total : Nat) (g : σ) :
    Option (List α × σ) :=
  if values.length = 0 then none
  else
    rowsOf (fun g => (boundedUint64 next fuel values.length g).bind fun r => values[r.1]?.map fun x => (x, r.2)) total g

end Rumpy
