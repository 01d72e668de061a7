import Mathlib.Data.Int.Notation
import Mathlib.Data.Nat.Notation

/-!
# What an `axis` argument means
-/

namespace Spec

/-- The integer `a` means the axis `k` of an array with `n` axes: counted from the front, or, if negative, from the end. -/
def MeansAxis (n : Nat) (a : Int) (k : Nat) : Prop := k < n ∧ ((k : Int) = a ∨ (k : Int) = a + n)

/-- The `axis` argument of a call. -/
inductive AxisArg where
  | omitted
  | none
  | int (a : Int)

/-- What a function does with it: work on the whole array, along one axis, or leave the array as it is. -/
inductive AxisUse where
  | all
  | along (k : Nat)
  | nothing
deriving DecidableEq, Repr

/-- The functions and methods.  `methodReduce`: sum, prod, max, min, mean, var, std, moment, skew, kurtosis, argmax, argmin, all and
any as methods; `methodCum`: cumsum and cumprod as methods; `percentile`: also quantile, nanpercentile and nanquantile. -/
inductive AxisFn where
  | nanargmin | nanargmax | average | cumsum | cumprod | nancumsum | nancumprod | methodReduce
  | flip | repeat | append | insert | delete | gradient
  | cumulativeSum | cumulativeProd | applyAlongAxis
  | unstack | unwrap | trapezoid
  | sort | argsort | partition | argpartition | methodSort | methodArgsort | diff
  | packbits | unpackbits | roll
  | percentile | compress | methodCum | methodPtp | methodRepeat
  | concatenate | split | arraySplit
deriving DecidableEq

/-- NumPy's defaults for `axis`: `some none` is None, `none` means that the argument is required. -/
def AxisFn.default : AxisFn → Option (Option Int)
  | .applyAlongAxis => none
  | .unstack | .concatenate | .split | .arraySplit => some (some 0)
  | .unwrap | .trapezoid | .sort | .argsort | .partition | .argpartition | .methodSort | .methodArgsort | .diff => some (some (-1))
  | _ => some none

end Spec
