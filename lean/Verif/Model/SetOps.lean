import Verif.Model.Sort
import Verif.Model.Cumulative
/-!
# Model: unique (src/ops/array_methods/sorting.rs) and set operations (src/ops/set_ops.rs)

Values are read as `f64` (`rd`); `φ` is the ordered type of the values read, without NaN, `0.0` and
`-0.0` being one value.  Sorting is stable sorting as in `Model/Sort`.
-/

namespace Rumpy
open Spec

/-- `to_vec` and `collect_values`, src/ops/array_methods/sorting.rs:9-31, src/ops/set_ops.rs:14-51;
`typed` says whether the dtype has a direct path for contiguous arrays. -/
def collectValues (rd : α → φ) (typed : Bool) (mem : Int → α) (v : View) : List φ :=
  if v.cFlag && typed then (List.range (sizeOf v.shape)).map fun (i : Nat) => rd (mem (v.offset + i * v.item))
  else v.addrs.map fun p => rd (mem p)

/-- `sort_by(|a, b| a.partial_cmp(b)...)` on values. -/
def sortValues [LinearOrder φ] (l : List φ) : List φ := l.insertionSort (· ≤ ·)

/-- The rest of `dedup_by(same)` after an element was kept: an element equal to the last kept one
is dropped. -/
def dedupRest (same : φ → φ → Bool) : φ → List φ → List φ
  | _, [] => []
  | prev, y :: ys => if same y prev then dedupRest same prev ys else y :: dedupRest same y ys

/-- `Vec::dedup_by(same)` of the standard library. -/
def dedupBy (same : φ → φ → Bool) : List φ → List φ
  | [] => []
  | x :: xs => x :: dedupRest same x xs

/-- `unique`, src/ops/array_methods/sorting.rs:34-39; `near a b` is `(a - b).abs() < f64::EPSILON`. -/
def unique [LinearOrder φ] (near : φ → φ → Bool) (l : List φ) : List φ := dedupBy near (sortValues l)

/-- The four results of `unique_all`. -/
structure UniqueAll (φ : Type u) where
  values : List φ
  first : List Nat
  inverse : List Nat
  counts : List Nat
deriving DecidableEq, Repr

/-- The loop of `unique_all`, src/ops/array_methods/sorting.rs:95-117, with the three pushes after it. -/
def uniqueLoop (near : φ → φ → Bool) : List (φ × Nat) → φ → Nat → Nat → Nat → List Nat → UniqueAll φ
  | [], prev, first, count, _, inverse => ⟨[prev], [first], inverse, [count]⟩
  | (val, orig) :: rest, prev, first, count, idx, inverse =>
    if near val prev then
      uniqueLoop near rest prev (if orig < first then orig else first) (count + 1) idx (inverse.set orig idx)
    else
      let r := uniqueLoop near rest val orig 1 (idx + 1) (inverse.set orig (idx + 1))
      ⟨prev :: r.values, first :: r.first, r.inverse, count :: r.counts⟩

/-- `unique_all` on the values in row-major order, src/ops/array_methods/sorting.rs:68-126 (without
the reshape of `inverse` to the shape of the input, which keeps its elements). -/
def uniqueAll [LinearOrder φ] (near : φ → φ → Bool) (l : List φ) : UniqueAll φ :=
  match sortPairs id l.zipIdx with
  | [] => ⟨[], [], [], []⟩
  | (v, i) :: rest => uniqueLoop near rest v i 1 0 ((List.replicate l.length 0).set i 0)

/-! ### Set operations

The index pair `(i, j)` of the loops is represented by the remaining parts of the two lists; each
loop stops by its own test, the fuel only bounds the recursion. -/

/-- `collect_sorted_unique`, src/ops/set_ops.rs:54-59. -/
def sortedUnique [LinearOrder φ] (l : List φ) : List φ := dedupBy (fun a b => a == b) (sortValues l)

/-- Loop of `intersect1d`, src/ops/set_ops.rs:102-123. -/
def intersectLoop [LinearOrder φ] : Nat → List φ → List φ → List φ
  | fuel + 1, x :: xs, y :: ys =>
    if x < y then intersectLoop fuel xs (y :: ys)
    else if y < x then intersectLoop fuel (x :: xs) ys
    else x :: intersectLoop fuel xs ys
  | _, _, _ => []

/-- Loop of `union1d` and the two extensions after it, src/ops/set_ops.rs:133-148. -/
def unionLoop [LinearOrder φ] : Nat → List φ → List φ → List φ
  | fuel + 1, x :: xs, y :: ys =>
    if x < y then x :: unionLoop fuel xs (y :: ys)
    else if y < x then y :: unionLoop fuel (x :: xs) ys
    else x :: unionLoop fuel xs ys
  | _, xs, ys => xs ++ ys

/-- Loop of `setdiff1d`, src/ops/set_ops.rs:156-177. -/
def diffLoop [LinearOrder φ] : Nat → List φ → List φ → List φ
  | fuel + 1, x :: xs, [] => x :: diffLoop fuel xs []
  | fuel + 1, x :: xs, y :: ys =>
    if x < y then x :: diffLoop fuel xs (y :: ys)
    else if y < x then diffLoop fuel (x :: xs) ys
    else diffLoop fuel xs ys
  | _, _, _ => []

/-- Loop of `setxor1d` and the two extensions after it, src/ops/set_ops.rs:187-202. -/
def xorLoop [LinearOrder φ] : Nat → List φ → List φ → List φ
  | fuel + 1, x :: xs, y :: ys =>
    if x < y then x :: xorLoop fuel xs (y :: ys)
    else if y < x then y :: xorLoop fuel (x :: xs) ys
    else xorLoop fuel xs ys
  | _, xs, ys => xs ++ ys

/-- `intersect1d`, src/ops/set_ops.rs:102-123, on the values read; the result is stored with the
promoted dtype by `from_vec` (`wr`). -/
def intersect1d [LinearOrder φ] (wr : φ → γ) (a b : List φ) : List γ :=
  let v1 := sortedUnique a
  let v2 := sortedUnique b
  (intersectLoop (v1.length + v2.length) v1 v2).map wr

/-- `union1d`, src/ops/set_ops.rs:127-152. -/
def union1d [LinearOrder φ] (wr : φ → γ) (a b : List φ) : List γ :=
  let v1 := sortedUnique a
  let v2 := sortedUnique b
  (unionLoop (v1.length + v2.length) v1 v2).map wr

/-- `setdiff1d`, src/ops/set_ops.rs:156-177. -/
def setdiff1d [LinearOrder φ] (wr : φ → γ) (a b : List φ) : List γ :=
  let v1 := sortedUnique a
  let v2 := sortedUnique b
  (diffLoop (v1.length + v2.length) v1 v2).map wr

/-- `setxor1d`, src/ops/set_ops.rs:181-206. -/
def setxor1d [LinearOrder φ] (wr : φ → γ) (a b : List φ) : List γ :=
  let v1 := sortedUnique a
  let v2 := sortedUnique b
  (xorLoop (v1.length + v2.length) v1 v2).map wr

/-- `isin`, src/ops/set_ops.rs:70-91: `bits` is `f64::to_bits`; the hash set is a list with a
membership test. -/
def isin (bits : φ → Nat) (rd : α → φ) (typed : Bool) (mem : Int → α) (v : View) (tests : List φ) (invert : Bool) :
    Arr Bool :=
  let testSet := tests.map bits
  let values := collectValues rd typed mem v
  if sizeOf v.shape = 0 then ⟨v.shape, []⟩
  else ⟨v.shape, writes (values.zipIdx.map fun xi => (xi.2, testSet.contains (bits xi.1) != invert))
    (List.replicate (sizeOf v.shape) false)⟩

/-- `in1d`, src/ops/set_ops.rs:95-98: flatten by `reshape`, or copy when that fails. -/
def in1d (bits : φ → Nat) (rd : α → φ) (typed eight : Bool) (mem : Int → α) (v : View) (tests : List φ)
    (invert : Bool) (zero : α) : Arr Bool :=
  match v.reshape [sizeOf v.shape] with
  | some w => isin bits rd typed mem w tests invert
  | none =>
    let c := copyArr eight mem v zero
    isin bits rd typed (c.mem v.item zero) (c.view v.item) tests invert

end Rumpy
