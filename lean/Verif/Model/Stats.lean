import Verif.Model.Sort
import Verif.Model.Search
import Mathlib.Data.Rat.Floor
/-!
# Model: counts, histograms, percentiles and medians

Values are exact rationals as read by `read_f64` (finite floats, no rounding of the arithmetic); where NaN matters
a value is an `Option`, with `none` for NaN.
-/

namespace Rumpy
open Spec

/-- The cast `x as usize` of a finite float: truncation, negative numbers give 0.  (Saturation at `2^64` is left out.) -/
def ratToUsize (x : Rat) : Nat := (⌊x⌋).toNat

/-- The cast `x as i64` of a finite float: truncation towards zero.  (Saturation is left out.) -/
def ratToI64 (x : Rat) : Int := if 0 ≤ x then ⌊x⌋ else ⌈x⌉

/-- First loop of `bincount`, src/array/manipulation.rs:205-216: the largest value, or `none` at a negative one. -/
def bincountMax : List Rat → Int → Option Int
  | [], m => some m
  | x :: xs, m => if ratToI64 x < 0 then none else bincountMax xs (if ratToI64 x > m then ratToI64 x else m)

/-- `bincount`, src/array/manipulation.rs:190-238.  The inner `Option` of the result is the panic of a count outside
the vector. -/
def bincount (mem : Int → Rat) (v : View) (minlength : Nat) : Option (Option (List Nat)) :=
  if v.shape.length ≠ 1 then none
  else if sizeOf v.shape = 0 then some (some (List.replicate minlength 0))
  else
    let vals := v.addrs.map mem
    match bincountMax vals 0 with
    | none => none
    | some m =>
      let outLen := max (m.toNat + 1) minlength
      some (vals.foldlM (fun counts x =>
        if ratToUsize x < counts.length then some (counts.modify (ratToUsize x) (· + 1)) else none)
        (List.replicate outLen 0))

/-- `fold(f64::INFINITY, f64::min)`; `none` is the infinity. -/
def foldMin (l : List Rat) : Option Rat := l.foldl (fun acc x => some (match acc with | none => x | some a => min a x)) none
/-- `fold(f64::NEG_INFINITY, f64::max)`; `none` is minus infinity. -/
def foldMax (l : List Rat) : Option Rat := l.foldl (fun acc x => some (match acc with | none => x | some a => max a x)) none

/-- The range of a histogram, src/ops/statistics.rs:18-26, 97-111. -/
def histRange (values : List Rat) (range : Option (Rat × Rat)) : Rat × Rat :=
  match range with
  | some r => r
  | none => if values.isEmpty then (0, 1) else ((foldMin values).getD 0, (foldMax values).getD 0)

/-- `histogram_bin_edges`, src/ops/statistics.rs:57-78, for at least one bin (for no bins the only edge is NaN). -/
def binEdges (values : List Rat) (bins : Nat) (range : Option (Rat × Rat)) : List Rat :=
  let (lo, hi) := histRange values range
  let width := (hi - lo) / bins
  (List.range (bins + 1)).map fun i : Nat => lo + i * width

/-- The bin of a value, src/ops/statistics.rs:39-43, 135-144, 279-282.  A quotient by width zero is `0/0`, NaN, which
casts to 0 (Lean's `x / 0 = 0` agrees); `bins - 1` underflows for no bins. -/
def binIndex (lo width : Rat) (bins : Nat) (val : Rat) : Option Nat :=
  let b := ratToUsize ((val - lo) / width)
  if b ≥ bins then (if bins = 0 then none else some (bins - 1)) else some b

/-- `histogram` of the values, src/ops/statistics.rs:18-53 (counts and edges).  For no bins: a value in the range panics; otherwise
the counts are empty and the single edge is NaN (here 0 times the width). -/
def histogramOf (values : List Rat) (bins : Nat) (range : Option (Rat × Rat)) : Outcome (List Nat × List Rat) :=
  let (lo, hi) := histRange values range
  let width := (hi - lo) / bins
  match values.foldlM (fun counts val =>
      if val ≥ lo ∧ val ≤ hi then (binIndex lo width bins val).map fun b => counts.modify b (· + 1)
      else some counts) (List.replicate bins 0) with
  | none => .panic
  | some counts => .ok (counts, binEdges values bins range)

/-- `histogram`, src/ops/statistics.rs:15-16: the values come from `to_vec`. -/
def histogram (mem : Int → Rat) (v : View) (bins : Nat) (range : Option (Rat × Rat)) : Outcome (List Nat × List Rat) :=
  histogramOf (v.addrs.map mem) bins range

/-- The normalisation for `density`, src/ops/statistics.rs:150-160, 297-307. -/
def densityOf (counts : List Rat) (volume : Rat) (density nonempty : Bool) : List Rat :=
  if density && nonempty && decide (counts.sum > 0) && decide (volume > 0) then
    counts.map (· / (counts.sum * volume))
  else counts

/-- `histogram2d` of the values, src/ops/statistics.rs:93-169: counts in row-major order and the edges. -/
def histogram2dOf (xs ys : List Rat) (bx py : Nat) (range : Option ((Rat × Rat) × (Rat × Rat))) (density : Bool) :
    Outcome (Arr Rat × List Rat × List Rat) :=
  if xs.length ≠ ys.length then .error
  else
    let (xlo, xhi) := histRange xs (range.map (·.1))
    let (ylo, yhi) := histRange ys (range.map (·.2))
    let xw := (xhi - xlo) / bx
    let yw := (yhi - ylo) / py
    match (xs.zip ys).foldlM (fun counts (p : Rat × Rat) =>
        if p.1 ≥ xlo ∧ p.1 ≤ xhi ∧ p.2 ≥ ylo ∧ p.2 ≤ yhi then do
          let i ← binIndex xlo xw bx p.1
          let j ← binIndex ylo yw py p.2
          return counts.modify (i * py + j) (· + 1)
        else some counts) (List.replicate (bx * py) (0 : Rat)) with
    | none => .panic
    | some counts => .ok (⟨[bx, py], densityOf counts (xw * yw) density (!xs.isEmpty)⟩,
        (List.range (bx + 1)).map (fun i : Nat => xlo + i * xw), (List.range (py + 1)).map (fun i : Nat => ylo + i * yw))

/-- `histogram2d`, src/ops/statistics.rs:82-91. -/
def histogram2d (mem mem' : Int → Rat) (x y : View) (bx py : Nat) (range : Option ((Rat × Rat) × (Rat × Rat)))
    (density : Bool) : Outcome (Arr Rat × List Rat × List Rat) :=
  histogram2dOf (x.addrs.map mem) (y.addrs.map mem') bx py range density

/-- Bins of one sample, src/ops/statistics.rs:270-284: `some none` when a coordinate is out of range.  NaN is not
out of range and casts to bin 0. -/
def sampleBins : List (Option Rat) → List (Rat × Rat) → List Nat → Option (Option (List Nat))
  | val :: vals, (lo, hi) :: ranges, b :: bins =>
    if (match val with | none => false | some x => decide (x < lo) || decide (x > hi)) then some none
    else do
      let i ← match val with
        | none => if 0 ≥ b then (if b = 0 then none else some (b - 1)) else some 0
        | some x => binIndex lo ((hi - lo) / b) b x
      match ← sampleBins vals ranges bins with
      | none => return none
      | some r => return some (i :: r)
  | _, _, _ => some (some [])

/-- `fold(INFINITY, f64::min)` and `fold(NEG_INFINITY, f64::max)` skip NaN. -/
def colRange (col : List (Option Rat)) : Rat × Rat :=
  ((foldMin (col.filterMap id)).getD 0, (foldMax (col.filterMap id)).getD 0)

/-- The ranges of the dimensions, src/ops/statistics.rs:237-248. -/
def ddRanges (samples : List (List (Option Rat))) (ndim : Nat) (range : Option (List (Rat × Rat))) : List (Rat × Rat) :=
  (List.range ndim).map fun d => match range with
    | some r => r.getD d (0, 0)
    | none => colRange (samples.map fun row => row.getD d none)

/-- The access `r[d]`, src/ops/statistics.rs:241, is out of bounds for a range list that is too short. -/
def ddShort (range : Option (List (Rat × Rat))) (ndim : Nat) : Bool :=
  match range with | some r => decide (r.length < ndim) | none => false

/-- `histogramdd` of the samples, at least one, src/ops/statistics.rs:209-314.  `samples` are
the rows, `ndim` their length.  A column of only NaN has the infinite range `(inf, -inf)` in the code; such columns
are left out. -/
def histogramddOf (samples : List (List (Option Rat))) (ndim : Nat) (binsPerDim : List Nat)
    (range : Option (List (Rat × Rat))) (density : Bool) : Outcome (Arr Rat × List (List Rat)) :=
  let bins := if binsPerDim.length = 1 then List.replicate ndim (binsPerDim.getD 0 0) else binsPerDim
  if bins.length ≠ ndim then .error
  else if ddShort range ndim then .panic
  else
    let ranges := ddRanges samples ndim range
    let widths := (List.range ndim).map fun d => ((ranges.getD d (0, 0)).2 - (ranges.getD d (0, 0)).1) / bins.getD d 0
    let edges := (List.range ndim).map fun d => (List.range (bins.getD d 0 + 1)).map fun i : Nat =>
      (ranges.getD d (0, 0)).1 + i * widths.getD d 0
    match samples.foldlM (fun counts row => do
        match ← sampleBins row ranges bins with
        | none => return counts
        | some idx => return counts.modify (linearIndex idx bins) (· + 1)) (List.replicate (sizeOf bins) (0 : Rat)) with
    | none => .panic
    | some counts => .ok (⟨bins, densityOf counts widths.prod density (!samples.isEmpty)⟩, edges)

/-- The rows of the sample array, src/ops/statistics.rs:210-235. -/
def sampleRows (mem : Int → α) (v : View) : List (List α) :=
  let ndim := if v.shape.length = 2 then v.shape.getD 1 0 else 1
  (List.range (v.shape.getD 0 0)).map fun i =>
    if ndim = 1 ∧ v.shape.length = 1 then [mem (v.addr [i])] else (List.range ndim).map fun d => mem (v.addr [i, d])

/-- `histogramdd`, src/ops/statistics.rs:174-314.  For an empty sample the default range of each dimension is
`(0, 1)` (182-207). -/
def histogramdd (mem : Int → Option Rat) (v : View) (binsPerDim : List Nat) (range : Option (List (Rat × Rat)))
    (density : Bool) : Outcome (Arr Rat × List (List Rat)) :=
  let ndim := if v.shape.length = 2 then v.shape.getD 1 0 else 1
  if v.shape.isEmpty then .panic
  else if v.shape.getD 0 0 = 0 then
    histogramddOf [] ndim binsPerDim (some (range.getD (List.replicate ndim (0, 1)))) density
  else histogramddOf (sampleRows mem v) ndim binsPerDim range density

/-! ### percentiles -/

/-- `sort_by(partial_cmp)` of values without NaN. -/
def sortVals (l : List Rat) : List Rat := l.insertionSort (· ≤ ·)

/-- `interpolate_percentile`, src/array/manipulation.rs:346-366; `none` is NaN. -/
def interpolate (sorted : List Rat) (pct : Rat) : Option Rat :=
  let n := sorted.length
  if n = 0 then none
  else if n = 1 then sorted[0]?
  else
    let idx := pct / 100 * (n - 1 : Nat)
    let lo := ratToUsize (⌊idx⌋ : Rat)
    let hi := ratToUsize (⌈idx⌉ : Rat)
    if lo = hi ∨ hi ≥ n then sorted[min lo (n - 1)]?
    else
      let frac := idx - lo
      some (sorted.getD lo 0 * (1 - frac) + sorted.getD hi 0 * frac)

/-- `percentile_flat`, src/array/manipulation.rs:251-280.  `none` entries are NaN. -/
def percentileFlat (mem : Int → Rat) (v : View) (q : List Rat) : Arr (Option Rat) :=
  if sizeOf v.shape = 0 then ⟨[q.length], List.replicate q.length (some 0)⟩
  else ⟨[q.length], writes (q.zipIdx.map fun pi => (pi.2, interpolate (sortVals (v.addrs.map mem)) pi.1))
    (List.replicate q.length (some 0))⟩

/-- `percentile_axis` and `nanpercentile_axis`, src/array/manipulation.rs:283-343, 412-477.  `f` turns the values of
a lane and a percentage into the stored value. -/
def percentileAxisWith (f : List α → Rat → Option Rat) (mem : Int → α) (v : View) (q : List Rat) (axis : Nat) :
    Option (Arr (Option Rat)) :=
  if axis ≥ v.shape.length then none
  else
    let axisLen := v.shape.getD axis 0
    let st := v.strides.getD axis 0
    let os := v.shape.eraseIdx axis
    let reduced := if os.isEmpty then [1] else os
    let out := if q.length = 1 then reduced else q.length :: reduced
    let rsize := sizeOf reduced
    let blank := List.replicate (sizeOf out) (some 0)
    if axisLen = 0 ∨ rsize = 0 then some ⟨out, blank⟩
    else some ⟨out, writes ((axisOffsetIter v.shape v.strides axis 0).toList.zipIdx.flatMap fun bi =>
      let vals := (List.range axisLen).map fun j : Nat => mem (v.offset + bi.1 + st * j)
      if q.length = 1 then [(bi.2, f vals (q.getD 0 0))]
      else q.zipIdx.map fun pq => (pq.2 * rsize + bi.2, f vals pq.1)) blank⟩

/-- `percentile`, src/array/manipulation.rs:243-248, with the check of the Python wrapper
(src/python/reductions.rs:741-746). -/
def percentile (mem : Int → Rat) (v : View) (q : List Rat) (axis : Option Nat) : Option (Arr (Option Rat)) :=
  if q.any fun p => decide (p < 0) || decide (p > 100) then none
  else match axis with
    | none => some (percentileFlat mem v q)
    | some ax => percentileAxisWith (fun vals p => interpolate (sortVals vals) p) mem v q ax

/-- `quantile`, src/python/reductions.rs:756-779. -/
def quantile (mem : Int → Rat) (v : View) (q : List Rat) (axis : Option Nat) : Option (Arr (Option Rat)) :=
  if q.any fun p => decide (p < 0) || decide (p > 1) then none
  else match axis with
    | none => some (percentileFlat mem v (q.map (· * 100)))
    | some ax => percentileAxisWith (fun vals p => interpolate (sortVals vals) p) mem v (q.map (· * 100)) ax

/-- `nanpercentile_flat`, src/array/manipulation.rs:382-409. -/
def nanpercentileFlat (mem : Int → Option Rat) (v : View) (q : List Rat) : Arr (Option Rat) :=
  let values := (v.addrs.map mem).filterMap id
  let shape := if q.length = 1 then [1] else [q.length]
  if values.isEmpty then ⟨shape, List.replicate (sizeOf shape) none⟩
  else ⟨shape, writes (q.zipIdx.map fun pi => (pi.2, interpolate (sortVals values) pi.1))
    (List.replicate (sizeOf shape) (some 0))⟩

/-- `nanpercentile`, src/array/manipulation.rs:374-379, with the check of the Python wrapper. -/
def nanpercentile (mem : Int → Option Rat) (v : View) (q : List Rat) (axis : Option Nat) : Option (Arr (Option Rat)) :=
  if q.any fun p => decide (p < 0) || decide (p > 100) then none
  else match axis with
    | none => some (nanpercentileFlat mem v q)
    | some ax => percentileAxisWith (fun vals p => let s := sortVals (vals.filterMap id)
        if s.isEmpty then none else interpolate s p) mem v q ax

/-! ### medians -/

/-- What `select_nth_unstable_by` promises: a permutation, partitioned around position `k`. -/
def SelectValues (select : Nat → List Rat → List Rat) : Prop :=
  ∀ k l, k < l.length → (select k l).Perm l ∧ PartitionedAt (select k l) k

/-- The selection in `median` and `nanmedian`, src/ops/statistics.rs:405-421, 529-550. -/
def medianOf (select : Nat → List Rat → List Rat) (values : List Rat) : Option Rat :=
  let n := values.length
  if n = 0 then none
  else
    let mid := n / 2
    let sel := select mid values
    if n % 2 = 0 then do
      let leftMax ← foldMax (sel.take mid)
      let m ← sel[mid]?
      return (leftMax + m) / 2
    else sel[mid]?

/-- `median`, src/ops/statistics.rs:404-422. -/
def median (select : Nat → List Rat → List Rat) (mem : Int → Rat) (v : View) : Option Rat :=
  medianOf select (v.addrs.map mem)

/-- `nanmedian`, src/ops/statistics.rs:528-551. -/
def nanmedian (select : Nat → List Rat → List Rat) (mem : Int → Option Rat) (v : View) : Option Rat :=
  medianOf select ((v.addrs.map mem).filterMap id)

/-- The median of a lane by sorting, src/ops/statistics.rs:461-467, 594-605. -/
def medianSorted (values : List Rat) : Option Rat :=
  let s := sortVals values
  let n := s.length
  if n = 0 then none
  else if n % 2 = 0 then some ((s.getD (n / 2 - 1) 0 + s.getD (n / 2) 0) / 2)
  else s[n / 2]?

/-- `median_axis`, src/ops/statistics.rs:425-473.  An axis out of range panics.  The index built for a vector has
one entry too many, which `get_element` ignores. -/
def medianAxis (mem : Int → Rat) (v : View) (axis : Nat) : Outcome (Arr (Option Rat)) :=
  if axis < v.shape.length then
    let axisLen := v.shape.getD axis 0
    let os := v.shape.eraseIdx axis
    let out := if os.isEmpty then [1] else os
    let blank := List.replicate (sizeOf out) (some 0)
    if sizeOf out = 0 ∨ axisLen = 0 then .ok ⟨out, blank⟩
    else .ok ⟨out, writes ((odometerAll out).zipIdx.map fun oi =>
      (oi.2, medianSorted ((List.range axisLen).map fun k => mem (v.addr (oi.1.take axis ++ [k] ++ oi.1.drop axis))))) blank⟩
  else .panic

/-- `nanmedian_axis`, src/ops/statistics.rs:554-610. -/
def nanmedianAxis (mem : Int → Option Rat) (v : View) (axis : Nat) : Outcome (Arr (Option Rat)) :=
  if axis < v.shape.length then
    let axisLen := v.shape.getD axis 0
    let st := v.strides.getD axis 0
    let os := v.shape.eraseIdx axis
    let out := if os.isEmpty then [1] else os
    let blank := List.replicate (sizeOf out) (some 0)
    if sizeOf out = 0 ∨ axisLen = 0 then .ok ⟨out, blank⟩
    else .ok ⟨out, writes ((axisOffsetIter v.shape v.strides axis 0).toList.zipIdx.map fun bi =>
      (bi.2, medianSorted (((List.range axisLen).map fun j : Nat => mem (v.offset + bi.1 + st * j)).filterMap id))) blank⟩
  else .panic

end Rumpy
