import Verif.Model.Stats
import Verif.Spec.HistArg
/-!
# Model: the arguments of `histogram2d` and `histogramdd` (src/python/reductions.rs)
-/

namespace Rumpy
open Spec

/-- `extract::<usize>()`. -/
def countOf (n : Int) : Option Nat := if 0 ≤ n ∧ n < 2 ^ 64 then some n.toNat else none

/-- The bins of `histogram2d`, src/python/reductions.rs:614-634. -/
def bins2d : BinsArg → Option (Nat × Nat)
  | .absent => some (10, 10)
  | .int n => (countOf n).map fun b => (b, b)
  | .list l => (l.mapM countOf).bind fun q => if q.length ≠ 2 then none else some (q.getD 0 0, q.getD 1 0)
  | .other => none

/-- The range of `histogram2d`, src/python/reductions.rs:637-644; `none` for the error. -/
def range2d : Option (List (List ℚ)) → Option (Option ((ℚ × ℚ) × (ℚ × ℚ)))
  | none => some none
  | some r =>
    if r.length ≠ 2 ∨ (r.getD 0 []).length ≠ 2 ∨ (r.getD 1 []).length ≠ 2 then none
    else some (some (((r.getD 0 []).getD 0 0, (r.getD 0 []).getD 1 0), ((r.getD 1 []).getD 0 0, (r.getD 1 []).getD 1 0)))

/-- `rumpy.histogram2d`, src/python/reductions.rs:606-652; `density` is false if left out. -/
def pyHistogram2d (mem mem' : Int → ℚ) (x y : View) (bins : BinsArg) (range : Option (List (List ℚ))) (density : Option Bool) :
    Outcome (Arr ℚ × List ℚ × List ℚ) :=
  match bins2d bins with
  | none => .error
  | some b => match range2d range with
    | none => .error
    | some r => histogram2d mem mem' x y b.1 b.2 r (density.getD false)

/-- The bins of `histogramdd`, src/python/reductions.rs:664-677. -/
def binsDd : BinsArg → Option (List Nat)
  | .absent => some [10]
  | .int n => (countOf n).map fun b => [b]
  | .list l => l.mapM countOf
  | .other => none

/-- The range of `histogramdd`, src/python/reductions.rs:680-692; `none` for the error. -/
def rangeDd : Option (List (List ℚ)) → Option (Option (List (ℚ × ℚ)))
  | none => some none
  | some r => (r.mapM fun v => if v.length ≠ 2 then none else some (v.getD 0 0, v.getD 1 0)).map some

/-- `rumpy.histogramdd`, src/python/reductions.rs:655-708. -/
def pyHistogramdd (mem : Int → Option ℚ) (v : View) (bins : BinsArg) (range : Option (List (List ℚ))) (density : Option Bool) :
    Outcome (Arr ℚ × List (List ℚ)) :=
  match binsDd bins with
  | none => .error
  | some b => match rangeDd range with
    | none => .error
    | some r => histogramdd mem v b r (density.getD false)

end Rumpy
