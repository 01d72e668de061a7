import Verif.Spec.SharedRng
import Verif.Model.Random
/-!
# Model: a generator shared by threads (src/python/random.rs)

Every method of `PyGenerator` is entered with Python's interpreter lock, takes the generator's own lock, turns its
`size` argument into a shape, draws, and lets go of both. Turning an argument into a number calls its `__index__`,
which is Python code, and the interpreter may hand its lock to another thread while that runs. A panic while the
generator's lock is held poisons it, and `lock().unwrap()` of a poisoned lock panics.

The words a call draws one by one are separate steps. Calls back into the generator from `__index__` are not modelled.
-/

namespace Rumpy
open Spec

/-- One call of a method. -/
structure Call (W β : Type) where
  /-- Whether an argument is turned into a number by Python code. -/
  yields : Bool
  /-- What the method does with the stream. -/
  body : Sampler W β

/-- Where a thread is. -/
inductive Phase (W β : Type) where
  /-- outside the generator -/
  | idle
  /-- in a method, at `self.inner.lock()` -/
  | entered (c : Call W β)
  /-- past it -/
  | locked (c : Call W β)
  /-- in `__index__`, without the interpreter lock -/
  | away (c : Call W β)
  /-- drawing; `d` is what is left to do -/
  | drawing (c : Call W β) (d : Sampler W β)

/-- The generator and `n` threads. `log` is the calls that have returned, oldest first. -/
structure Sys (n : Nat) (σ W β : Type) where
  phase : Fin n → Phase W β
  todo : Fin n → List (Call W β)
  gil : Option (Fin n)
  lock : Option (Fin n)
  poisoned : Bool
  gen : σ
  log : List (Fin n × Call W β × Option β)

/-- A new generator, `Generator::new`, src/python/random.rs:24-35, and threads that have calls to make. -/
def Sys.init (todo : Fin n → List (Call W β)) (g : σ) : Sys n σ W β := ⟨fun _ => .idle, todo, none, none, false, g, []⟩

variable {n : Nat} {σ W β : Type}

/-- One step of thread `t`. -/
inductive Step (next : σ → W × σ) (t : Fin n) : Sys n σ W β → Sys n σ W β → Prop
  /-- A method is called, src/python/random.rs:60 and the like. -/
  | enter (s : Sys n σ W β) (c cs) (hp : s.phase t = .idle) (ht : s.todo t = c :: cs) (hg : s.gil = none) :
    Step next t s { s with gil := some t, phase := Function.update s.phase t (.entered c), todo := Function.update s.todo t cs }
  /-- `self.inner.lock()` succeeds, src/python/random.rs:61 and the like. -/
  | lock (s : Sys n σ W β) (c) (hp : s.phase t = .entered c) (hl : s.lock = none) (hn : s.poisoned = false) :
    Step next t s { s with lock := some t, phase := Function.update s.phase t (.locked c) }
  /-- `self.inner.lock()` gives an error and `unwrap` panics, src/python/random.rs:61. -/
  | refused (s : Sys n σ W β) (c) (hp : s.phase t = .entered c) (hl : s.lock = none) (hn : s.poisoned = true) :
    Step next t s { s with gil := none, phase := Function.update s.phase t .idle, log := s.log ++ [(t, c, none)] }
  /-- The interpreter switches threads during `parse_shape`, src/python/random.rs:68, or `extract`, 224, 867. -/
  | leave (s : Sys n σ W β) (c) (hp : s.phase t = .locked c) (hy : c.yields = true) :
    Step next t s { s with gil := none, phase := Function.update s.phase t (.away c) }
  /-- The interpreter switches back. -/
  | back (s : Sys n σ W β) (c) (hp : s.phase t = .away c) (hg : s.gil = none) :
    Step next t s { s with gil := some t, phase := Function.update s.phase t (.drawing c c.body) }
  /-- The arguments are ready, src/python/random.rs:69. -/
  | start (s : Sys n σ W β) (c) (hp : s.phase t = .locked c) :
    Step next t s { s with phase := Function.update s.phase t (.drawing c c.body) }
  /-- One word, `raw_u64`, src/random/generator.rs:48-53. -/
  | draw (s : Sys n σ W β) (c k) (hp : s.phase t = .drawing c (.draw k)) :
    Step next t s { s with gen := (next s.gen).2, phase := Function.update s.phase t (.drawing c (k (next s.gen).1)) }
  /-- The method returns and its guard is dropped, src/python/random.rs:70-73. -/
  | finish (s : Sys n σ W β) (c b) (hp : s.phase t = .drawing c (.done b)) :
    Step next t s { s with lock := none, gil := none, phase := Function.update s.phase t .idle, log := s.log ++ [(t, c, some b)] }
  /-- The method panics with the guard alive, for instance in `unwrap` of refused parameters,
  src/random/generator.rs:184, 219, 235, 243. -/
  | panic (s : Sys n σ W β) (c) (hp : s.phase t = .drawing c .fail) :
    Step next t s { s with lock := none, gil := none, poisoned := true, phase := Function.update s.phase t .idle, log := s.log ++ [(t, c, none)] }

/-- The states that can come about under some schedule. -/
inductive Sys.Reach (next : σ → W × σ) (s0 : Sys n σ W β) : Sys n σ W β → Prop
  | refl : Sys.Reach next s0 s0
  | step (t : Fin n) {s s' : Sys n σ W β} : Sys.Reach next s0 s → Step next t s s' → Sys.Reach next s0 s'

/-- No thread has anything left to do. -/
def Sys.Done (s : Sys n σ W β) : Prop := ∀ t, s.phase t = .idle ∧ s.todo t = []

/-- `bounded_uint64` as a sampler, src/random/generator.rs:113-130: the loop. Running out of fuel is a failure. -/
def lemireSampler (range t : Nat) : Nat → Nat → Sampler (BitVec 64) Nat
  | fuel, m =>
    if m % 2 ^ 64 < t then
      match fuel with
      | 0 => .fail
      | fuel + 1 => .draw fun w => lemireSampler range t fuel (w.toNat * range)
    else .done (m / 2 ^ 64)

/-- `bounded_uint64` as a sampler, src/random/generator.rs:113-130. -/
def boundedSampler (fuel range : Nat) : Sampler (BitVec 64) Nat :=
  if range = 0 then .done 0
  else .draw fun x =>
    let m := x.toNat * range
    if m % 2 ^ 64 < range then lemireSampler range ((2 ^ 64 - range) % range) fuel m else .done (m / 2 ^ 64)

end Rumpy
