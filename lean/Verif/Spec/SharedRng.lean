import Mathlib.Logic.Function.Basic
/-!
# Spec: one stream of random words, used by one call after another

A sampler says what a call does with the words it draws. `serial` is what a list of calls gives when each runs alone,
one after another, a failed call being no obstacle to the next.
-/

namespace Spec

/-- What a call does: return a value, fail, or draw a word and go on. -/
inductive Sampler (W β : Type) where
  | done (b : β)
  | fail
  | draw (k : W → Sampler W β)

/-- A call that runs alone: its value (`none` when it fails) and the state it leaves. -/
def Sampler.run (next : σ → W × σ) : Sampler W β → σ → Option β × σ
  | .done b, g => (some b, g)
  | .fail, g => (none, g)
  | .draw k, g => (k (next g).1).run next (next g).2

/-- Calls that run one after another: their values and the state they leave. -/
def serial (next : σ → W × σ) : List (Sampler W β) → σ → List (Option β) × σ
  | [], g => ([], g)
  | s :: ss, g => ((s.run next g).1 :: (serial next ss (s.run next g).2).1, (serial next ss (s.run next g).2).2)

/-- The call that draws `n` words and returns them. -/
def words : Nat → List W → Sampler W (List W)
  | 0, acc => .done acc.reverse
  | n + 1, acc => .draw fun w => words n (w :: acc)

/-- The first `n` words of the stream. -/
def streamFrom (next : σ → W × σ) : Nat → σ → List W
  | 0, _ => []
  | n + 1, g => (next g).1 :: streamFrom next n (next g).2

end Spec
