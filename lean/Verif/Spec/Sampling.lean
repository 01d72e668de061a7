/-!
# Asking a source of random numbers several times in a row
-/

namespace Spec

/-- `n` requests one after the other: each one starts from the state in which the one before it left the generator.
`none` is a request that gives no answer. -/
inductive InARow {σ α : Type} (ask : σ → Option (α × σ)) : Nat → σ → List α → σ → Prop
  | done (g : σ) : InARow ask 0 g [] g
  | next {n : Nat} {g g' g'' : σ} {x : α} {xs : List α} :
      ask g = some (x, g') → InARow ask n g' xs g'' → InARow ask (n + 1) g (x :: xs) g''

end Spec
