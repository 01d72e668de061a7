import Verif.Model.Random
import Verif.Model.FloatOps
import Verif.Model.Arith
import Verif.Model.Rearrange

/-!
# Samples: one at a time or many at once

src/python/random.rs, src/random/generator.rs.  The samplers of the crate `rand_distr` enter by contract: a
constructor that may refuse its parameters, and a sampler that turns the state of the generator into a number
and a new state (`none`: it does not come back).  `Normal` and `Exp` are written out, because the code computes
their scalar form by itself.
-/

namespace Rumpy

open Spec

/-- The distributions whose scalar form is an array of one element, src/python/random.rs:291-820. -/
inductive OtherDist
  | beta | gamma | poisson | binomial | chisquare | lognormal | laplace | logistic | rayleigh | weibull | geometric
  | negativeBinomial | hypergeometric | zipf | triangular | vonmises | pareto | wald | standardT | standardCauchy
  | standardGamma
  deriving DecidableEq

/-- Whether the array has dtype int64, src/random/generator.rs:233-246, 347-372, 397-414. -/
def OtherDist.whole : OtherDist → Bool
  | .poisson | .binomial | .geometric | .negativeBinomial | .hypergeometric | .zipf => true
  | _ => false

/-- A distribution with its parameters. -/
inductive Dist
  | random
  | integers (low high : Int)
  | uniform (low high : Flt ℚ)
  | normal (loc scale : Flt ℚ)
  | standardNormal
  | exponential (scale : Flt ℚ)
  | standardExponential
  | other (o : OtherDist) (params : List (Flt ℚ))

/-- What the code takes from the generator and from `rand_distr`: the next word (`next_u64`), `StandardNormal`, `Exp1`,
and for the other distributions the constructor, whose `unwrap` panics if it refuses, and the sampler. -/
structure RandLib (σ : Type) where
  word : σ → BitVec 64 × σ
  normal : σ → Option (Flt ℚ × σ)
  exp1 : σ → Option (Flt ℚ × σ)
  make : OtherDist → List (Flt ℚ) → Option (σ → Option (Flt ℚ × σ))

/-- The dtype of the array. -/
def Dist.dtype : Dist → DType
  | .integers _ _ => .i64
  | .other o _ => if o.whole then .i64 else .f64
  | _ => .f64

section
variable {σ : Type} (lib : RandLib σ) (fuel : Nat)

/-- src/random/generator.rs:81-84 (`next_f64`). -/
def nextF64 (g : σ) : Option (Flt ℚ × σ) := some (.num ((uniformNum (lib.word g).1 : ℚ) / 2 ^ 53), (lib.word g).2)

/-- One round of the loop of `integers`, src/random/generator.rs:105-106, as the double that is pushed. -/
def integersDraw (low high : Int) (g : σ) : Option (Flt ℚ × σ) :=
  (boundedUint64 lib.word fuel ((wrap64 (high - low)) % 2 ^ 64).toNat g).map fun r => (.num (intToF64 (wrap64 (low + r.1))), r.2)

/-- `low + next_f64() * (high - low)`, src/random/generator.rs:136-139 and src/python/random.rs:121. -/
def uniformDraw (low high : Flt ℚ) (g : σ) : Option (Flt ℚ × σ) :=
  (nextF64 lib g).map fun r =>
    (fltAdd 53 (-1074) 971 low (fltMul 53 (-1074) 971 r.1 (fltSub 53 (-1074) 971 high low)), r.2)

/-- `loc + scale * z` with a standard normal `z`: src/python/random.rs:146-147, and `Normal::sample` of `rand_distr`. -/
def normalDraw (loc scale : Flt ℚ) (g : σ) : Option (Flt ℚ × σ) :=
  (lib.normal g).map fun r => (fltAdd 53 (-1074) 971 loc (fltMul 53 (-1074) 971 scale r.1), r.2)

/-- `scale * z` with a standard exponential `z`, src/python/random.rs:188-189. -/
def expDraw (scale : Flt ℚ) (g : σ) : Option (Flt ℚ × σ) :=
  (lib.exp1 g).map fun r => (fltMul 53 (-1074) 971 scale r.1, r.2)

/-- `Exp::sample` of `rand_distr`: `z * lambda_inverse`. -/
def rateDraw (inverse : Flt ℚ) (g : σ) : Option (Flt ℚ × σ) :=
  (lib.exp1 g).map fun r => (fltMul 53 (-1074) 971 r.1 inverse, r.2)

/-- `Normal::new` accepts a finite standard deviation. -/
def finite : Flt ℚ → Bool
  | .num _ => true
  | _ => false

/-- `1.0 / x` in doubles; the sign of a zero is not kept, a zero counts as positive. -/
def recip (x : Flt ℚ) : Flt ℚ := fltDiv 53 (-1074) 971 false (.num 1) x

/-- `Exp::new` accepts a rate that is zero or more. -/
def rateOk (x : Flt ℚ) : Bool := fltLt (.num 0) x || fltEq (.num 0) x

/-- The sampler that the array functions of src/random/generator.rs:87-507 set up; `none` is the panic of `unwrap`
(`Normal::new(loc, scale)` at 162, `Exp::new(1.0 / scale)` at 184, which keeps the rate and its inverse; the others likewise). -/
def sampler : Dist → Option (σ → Option (Flt ℚ × σ))
  | .random => some (nextF64 lib)
  | .integers low high => some (integersDraw lib fuel low high)
  | .uniform low high => some (uniformDraw lib low high)
  | .normal loc scale => if finite scale then some (normalDraw lib loc scale) else none
  | .standardNormal => some lib.normal
  | .exponential scale => if rateOk (recip scale) then some (rateDraw lib (recip (recip scale))) else none
  | .standardExponential => some lib.exp1
  | .other o params => lib.make o params

/-- `(0..size).map(|_| dist.sample(self)).collect()`. -/
def drawList {α : Type} (f : σ → Option (α × σ)) : Nat → σ → Option (List α × σ)
  | 0, g => some ([], g)
  | n + 1, g =>
    match f g with
    | none => none
    | some (x, g) =>
      match drawList f n g with
      | none => none
      | some (xs, g) => some (x :: xs, g)

/-- A call with a size: the functions of src/random/generator.rs:87-507, each ending in `from_vec_with_shape`, which
writes the doubles into an array of the dtype. -/
def arrayCall (d : Dist) (shape : List Nat) (g : σ) : Option (Arr Elem × σ) :=
  match sampler lib fuel d with
  | none => none
  | some f =>
    match drawList f (sizeOf shape) g with
    | none => none
    | some (xs, g) => some (⟨shape, xs.map (writeF64 d.dtype)⟩, g)

/-- The first element of an array of one element, read by `get_element` (as f64). -/
def firstF64 (a : Arr Elem) : Flt ℚ := ((a.data[0]?).bind readF64).getD (.num 0)

/-- The scalar of an array of one element, src/python/random.rs:95-97 (`as i64`), 302-304 and so on. -/
def oneScalar (d : Dist) (a : Arr Elem) : Elem :=
  if d.dtype = .i64 then .int (fltToInt (-2 ^ 63) (2 ^ 63 - 1) (firstF64 a)) else .flt (firstF64 a)

/-- A call without a size, src/python/random.rs:63-66 (`random`), 93-98 (`integers`), 119-123 (`uniform`), 144-148
(`normal`), 164-167, 187-190 (`exponential`), 206-209 and, for the others, 302-304 and so on: an array of shape `[1]`. -/
def scalarCall (d : Dist) (g : σ) : Option (Elem × σ) :=
  match d with
  | .random => (nextF64 lib g).map fun r => (.flt r.1, r.2)
  | .uniform low high => (uniformDraw lib low high g).map fun r => (.flt r.1, r.2)
  | .normal loc scale => (normalDraw lib loc scale g).map fun r => (.flt r.1, r.2)
  | .standardNormal => (lib.normal g).map fun r => (.flt r.1, r.2)
  | .exponential scale => (expDraw lib scale g).map fun r => (.flt r.1, r.2)
  | .standardExponential => (lib.exp1 g).map fun r => (.flt r.1, r.2)
  | d => (arrayCall lib fuel d [1] g).map fun r => (oneScalar d r.1, r.2)

/-- `permutation` of an array, src/python/random.rs:230-243: the elements in the order of iteration, read as f64, shuffled. -/
def permutationArr (h : Held Elem) (g : σ) : Option (Arr Elem × σ) :=
  (shuffleData lib.word fuel ((h.view.addrs).map fun p => (readF64 (h.mem p)).getD (.num 0)) g).map fun r =>
    (⟨[r.1.length], r.1.map .flt⟩, r.2)

end

end Rumpy
