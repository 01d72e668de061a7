import Verif.Model.Moments
import Verif.Model.Matmul
import Verif.Spec.Covariance
/-!
# Model: cov, corrcoef and average (src/ops/statistics.rs)

Floats are elements of a field, and `none` among elements is NaN. `typed` says that binary operations use the typed kernels.
-/

namespace Rumpy
open Spec

section
variable {K : Type} [Field K]

/-- `cov` of a vector, src/ops/statistics.rs:321-332. -/
def covVector (ddof : Nat) (h : Held K) : Arr (Option K) :=
  let n := sizeOf h.view.shape
  if n ≤ ddof then oneOf none
  else oneOf ((meanAll h).map fun mean =>
    ((h.view.addrs.map h.mem).map fun v => (v - mean) * (v - mean)).sum / ((n - ddof : Nat) : K))

/-- `cov` of other arrays, src/ops/statistics.rs:335-355; `out` is the dtype of the centered data. `none` is a panic. -/
def covMatrix (typed : Bool) (out : DType) (ddof : Nat) (h : Held K) : Option (Arr (Option K)) :=
  if h.view.shape.length < 2 then none
  else
    let nvars := h.view.shape.getD 0 0
    let nobs := h.view.shape.getD 1 0
    if nobs ≤ ddof then some ⟨[nvars, nvars], List.replicate (nvars * nvars) none⟩
    else
      match meanStep typed h 1 with
      | none => none
      | some means =>
        match (means.view h.view.item).reshape [nvars, 1] with
        | none => none
        | some mv =>
          match binaryOp typed (· - ·) h.mem (means.mem h.view.item 0) h.view mv 0 with
          | none => none
          | some centered =>
            let c := Held.of centered (DType.itemsize out) 0
            match matmul out c ⟨c.mem, c.view.transpose⟩ with
            | none => none
            | some prod =>
              let d := Held.of (oneOf ((nobs - ddof : Nat) : K)) 8 0
              binaryOp typed (fun x y => some (x / y)) prod.mem d.mem prod.view d.view none

/-- `cov`, src/ops/statistics.rs:319-356. -/
def cov (typed : Bool) (out : DType) (ddof : Nat) (h : Held K) : Option (Arr (Option K)) :=
  if h.view.shape.length = 1 then some (covVector ddof h) else covMatrix typed out ddof h

/-- One entry of `corrcoef`, src/ops/statistics.rs:385-389; `sqrt` gives no value for a negative number. -/
def corrEntry [DecidableEq K] (sqrt : K → Option K) (diag : Nat → Option K) (covIJ : Option K) (i j : Nat) : Option K :=
  let stdI := (diag i).bind sqrt
  let stdJ := (diag j).bind sqrt
  if stdI = some 0 ∨ stdJ = some 0 then (if i = j then some 1 else none)
  else stdI.bind fun a => stdJ.bind fun b => covIJ.map fun c => c / (a * b)

/-- `corrcoef`, src/ops/statistics.rs:360-395. The stores of line 390 go to consecutive addresses. -/
def corrcoef [DecidableEq K] (typed : Bool) (out : DType) (sqrt : K → Option K) (h : Held K) : Option (Arr (Option K)) :=
  if h.view.shape.length = 1 then some ⟨[1, 1], [some 1]⟩
  else
    match cov typed out 1 h with
    | none => none
    | some m =>
      let nvars := m.shape.getD 0 0
      let c := Held.of m 8 none
      match c.view.diagonal with
      | none => none
      | some dv =>
        some ⟨[nvars, nvars], (List.range nvars).flatMap fun i => (List.range nvars).map fun j =>
          corrEntry sqrt (fun k => c.mem (dv.addr [k])) (c.mem (c.view.addr [i, j])) i j⟩

/-- `average`, src/ops/statistics.rs:492-507; the outer `none` is a panic, the inner one NaN. -/
def average [DecidableEq K] (typed : Bool) (h : Held K) (weights : Option (Held K)) : Option (Option K) :=
  match weights with
  | none => some (meanAll h)
  | some w =>
    match binaryOp typed (· * ·) h.mem w.mem h.view w.view 0 with
    | none => none
    | some product =>
      let p := Held.of product h.view.item 0
      let weightedSum := reduceAll (· + ·) 0 p.mem p.view
      let totalWeight := reduceAll (· + ·) 0 w.mem w.view
      some (if totalWeight = 0 then none else some (weightedSum / totalWeight))

/-- `x / y` for floats: no number for a divisor of zero. -/
def divOpt [DecidableEq K] (x y : K) : Option K := if y = 0 then none else some (x / y)

/-- `average_axis` with weights, src/ops/statistics.rs:513-519. -/
def averageAxis [DecidableEq K] (typed : Bool) (h w : Held K) (axis : Nat) : Option (Arr (Option K)) :=
  match binaryOp typed (· * ·) h.mem w.mem h.view w.view 0 with
  | none => none
  | some product =>
    match reduceStep (· + ·) 0 (Held.of product h.view.item 0) axis, reduceStep (· + ·) 0 w axis with
    | some weightedSum, some totalWeight =>
      let s := Held.of weightedSum h.view.item 0
      let t := Held.of totalWeight h.view.item 0
      binaryOp typed divOpt s.mem t.mem s.view t.view none
    | _, _ => none

end

end Rumpy
